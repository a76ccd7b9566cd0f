import Verif.Props.EndToEnd

/-!
# Properties C85–C87: the music folder, its name, the paths and the sizes shown
-/

namespace PDJ

open Spec

variable {F : Type}

/-! ## C85 the paths shown to players are absolute paths made of components -/

theorem utf8_ne_nil {s : Str} (h : s ≠ []) : utf8 s ≠ [] := by
  intro e
  have := fromUtf8_utf8 s
  rw [e] at this
  exact h (Option.some.inj this).symm

theorem utf8_slash : utf8 ['/'] = [0x2f] := by decide

theorem utf8Char_ne_nil (c : Char) : utf8Char c ≠ [] := by
  have := utf8_ne_nil (s := [c]) (by simp)
  simpa [utf8] using this

theorem utf8Char_last (c : Char) : (utf8Char c).getLast? = some 0x2f ↔ c = '/' := by
  constructor
  · intro h
    unfold utf8Char at h
    have hr := char_range c
    have key : ∀ n : Nat, (0x80 + n % 0x40 : Nat) % 256 = 0x2f → False := by intro n; omega
    have conv : ∀ n : Nat, UInt8.ofNat n = 0x2f → n % 256 = 0x2f := by
      intro n e
      have := congrArg UInt8.toNat e
      simpa using this
    simp only at h
    split at h
    · rename_i hlt
      simp only [List.getLast?_singleton, Option.some.injEq] at h
      have := conv _ h
      have e : c.toNat = 0x2f := by omega
      rw [← Char.ofNat_toNat c, e]
    · split at h
      · simp only [List.getLast?_cons_cons, List.getLast?_singleton, Option.some.injEq] at h
        exact absurd (conv _ h) (fun x => key _ x)
      · split at h
        · simp only [List.getLast?_cons_cons, List.getLast?_singleton, Option.some.injEq] at h
          exact absurd (conv _ h) (fun x => key _ x)
        · simp only [List.getLast?_cons_cons, List.getLast?_singleton, Option.some.injEq] at h
          exact absurd (conv _ h) (fun x => key _ x)
  · rintro rfl
    decide

theorem utf8_last (s : Str) : (utf8 s).getLast? = some 0x2f ↔ s.getLast? = some '/' := by
  rcases List.eq_nil_or_concat s with rfl | ⟨s', c, rfl⟩
  · simp [utf8]
  · rw [List.concat_eq_append, utf8_append, List.getLast?_append_of_ne_nil]
    · have : utf8 [c] = utf8Char c := by simp [utf8]
      rw [this, utf8Char_last]
      simp
    · exact utf8_ne_nil (by simp)

theorem below_utf8 (p n : Str) (hp : p ≠ []) (hs : p.getLast? ≠ some '/') :
    below (utf8 p) (utf8 n) = utf8 (p ++ '/' :: n) := by
  unfold below
  have h1 : utf8 p ≠ [] := utf8_ne_nil hp
  have h2 : (utf8 p).getLast? ≠ some 0x2f := fun h => hs ((utf8_last p).1 h)
  rw [if_neg (by simp [h1, h2])]
  have e : p ++ '/' :: n = p ++ (['/'] ++ n) := rfl
  rw [e, utf8_append, utf8_append, utf8_slash]
  rfl

theorem below_utf8_slash (p n : Str) (hs : p.getLast? = some '/') :
    below (utf8 p) (utf8 n) = utf8 (p ++ n) := by
  unfold below
  rw [if_pos (Or.inr ((utf8_last p).2 hs)), utf8_append]

theorem pathOf_snoc (ps : List Str) (n : Str) : pathOf (ps ++ [n]) = pathOf ps ++ '/' :: n := by
  simp [pathOf]

theorem pathOf_ne_nil {ps : List Str} (h : ps ≠ []) : pathOf ps ≠ [] := by
  cases ps with
  | nil => exact absurd rfl h
  | cons a ps => simp [pathOf]

theorem pathOf_last {ps : List Str} (hc : ∀ p ∈ ps, p ≠ [] ∧ '/' ∉ p) :
    (pathOf ps).getLast? ≠ some '/' := by
  rcases List.eq_nil_or_concat ps with rfl | ⟨qs, q, rfl⟩
  · simp [pathOf]
  · rw [List.concat_eq_append] at hc ⊢
    rw [pathOf_snoc]
    obtain ⟨h1, h2⟩ := hc q (by simp)
    rw [List.getLast?_append_of_ne_nil _ (by simp)]
    cases q with
    | nil => exact absurd rfl h1
    | cons c q =>
      rw [List.getLast?_cons_cons]
      intro h
      exact h2 (List.mem_of_getLast? h)

theorem foldl_below (ps ns : List Str) (hps : ps ≠ []) (hp : ∀ p ∈ ps, p ≠ [] ∧ '/' ∉ p)
    (hn : ∀ n ∈ ns, n ≠ [] ∧ '/' ∉ n) :
    (ns.map utf8).foldl below (utf8 (pathOf ps)) = utf8 (pathOf (ps ++ ns)) := by
  induction ns generalizing ps with
  | nil => simp
  | cons n ns ih =>
    rw [List.map_cons, List.foldl_cons, below_utf8 _ _ (pathOf_ne_nil hps) (pathOf_last hp),
      ← pathOf_snoc, ih (ps ++ [n]) (by simp) ?_ (fun x hx => hn x (List.mem_cons_of_mem _ hx)),
      List.append_assoc]
    · rfl
    · intro x hx
      rw [List.mem_append, List.mem_singleton] at hx
      rcases hx with hx | rfl
      · exact hp x hx
      · exact hn x (by simp)

/-- C85: below a music folder given by an absolute path (with or without a slash at its end, the root
directory included) the path of a file is the absolute path made of the components of the folder and
the names below it, provided these names are UTF-8.  `root` is the name `walkdir` gives to the folder
itself. -/
theorem C85_shown_path (ps ns : List Str) (slash : Bool) (root : Bytes)
    (hps : ps ≠ [] ∨ slash = true) (hns : ns ≠ [])
    (hp : ∀ p ∈ ps, p ≠ [] ∧ '/' ∉ p) (hn : ∀ n ∈ ns, n ≠ [] ∧ '/' ∉ n) :
    fromUtf8 (pathBelow (utf8 (pathOf ps ++ if slash then ['/'] else [])) (root :: ns.map utf8)) =
      some (pathOf (ps ++ ns)) := by
  have key : pathBelow (utf8 (pathOf ps ++ if slash then ['/'] else [])) (root :: ns.map utf8) =
      utf8 (pathOf (ps ++ ns)) := by
    unfold pathBelow
    rw [List.drop_one, List.tail_cons]
    cases slash with
    | false =>
      simp only [Bool.false_eq_true, if_false, List.append_nil]
      exact foldl_below ps ns (by simpa using hps) hp hn
    | true =>
      cases ns with
      | nil => exact absurd rfl hns
      | cons n ns =>
        simp only [if_true, List.map_cons, List.foldl_cons]
        rw [below_utf8_slash _ _ (by simp), List.append_assoc]
        have e : pathOf ps ++ (['/'] ++ n) = pathOf (ps ++ [n]) := (pathOf_snoc ps n).symm
        rw [e, foldl_below (ps ++ [n]) ns (by simp) ?_ (fun x hx => hn x (List.mem_cons_of_mem _ hx)),
          List.append_assoc]
        · rfl
        · intro x hx
          rw [List.mem_append, List.mem_singleton] at hx
          rcases hx with hx | rfl
          · exact hp x hx
          · exact hn x (by simp)
  rw [key, fromUtf8_utf8]

/-- The folder `/m/` and the file `b/a.mp3` in it. -/
example := C85_shown_path [['m']] ["b".toList, "a.mp3".toList] true [0x6d] (Or.inl (by simp)) (by simp)
  (by decide) (by decide)

theorem head_foldl_below (root : Bytes) (h : root ≠ []) (ns : List Bytes) :
    (ns.foldl below root).head? = root.head? := by
  induction ns generalizing root with
  | nil => rfl
  | cons n ns ih =>
    rw [List.foldl_cons, ih]
    · unfold below
      split <;> (cases root with
        | nil => exact absurd rfl h
        | cons a r => rfl)
    · unfold below
      split <;> simp [h]

/-- C85: a music folder given by a relative path (one that does not start with a slash) is listed with
relative paths, which are not the path of any list of components: what a player looks up component by
component, starting at the root directory, is then not the path that was scanned. -/
theorem C85_relative_root (root : Bytes) (hr : root ≠ []) (hrel : root.head? ≠ some 0x2f)
    (names : List Bytes) (path : Str) (hp : fromUtf8 (pathBelow root names) = some path)
    (parts : List Str) (hne : parts ≠ []) : path ≠ pathOf parts := by
  rintro rfl
  have h := utf8_fromUtf8 hp
  have h2 := head_foldl_below root hr (names.drop 1)
  unfold pathBelow at h
  rw [← h] at h2
  cases parts with
  | nil => exact hne rfl
  | cons a parts =>
    have e : pathOf (a :: parts) = ['/'] ++ (a ++ pathOf parts) := by simp [pathOf]
    rw [e, utf8_append, utf8_slash] at h2
    exact hrel h2.symm

/-- The folder `m` and the file `a` in it: the path shown is `m/a`. -/
example := C85_relative_root [0x6d] (by simp) (by decide) [[0x6d], [0x61]] "m/a".toList (by decide +kernel)
  [['m'], ['a']] (by simp)

/-- C85, the whole way: the music folder is an absolute path.  Every visible mp3 file with a readable
tag below it, whose names are UTF-8 and whose path fits the wire format, has an id under which mount
info shows one line with the true size of the file; a player that looks up the components of the folder and the names
below it, in a fresh NFS session, and then reads as many bytes as shown, in blocks of any size up to
65404, gets exactly the contents of the file, provided the file is still on disk with the size it had
when it was scanned. -/
theorem C85_scanned_file_downloads (m : Mode) (ps ns : List Str) (slash : Bool)
    (hps : ps ≠ [] ∨ slash = true) (hns : ns ≠ []) (hcomp : ∀ p ∈ ps ++ ns, Component p) (name : Bytes)
    (t : Node) (scan : List MetaTrack)
    (hscan : scanFolder m (utf8 (pathOf ps ++ if slash then ['/'] else [])) t = .ok scan)
    (l : List (IterOrder × MetaTrack)) (hl : l.map (·.2) = scan) (hc : l.length ≤ capacity) {db : Db}
    (hb : Db.build m l = .ok db) (f : FileInfo) (hf : (name :: ns.map utf8, f) ∈ allFiles t)
    (hw : Wanted (name :: ns.map utf8)) (htag : tagTexts f ≠ none) (hs : Fits (pathOf (ps ++ ns)))
    (rs : List (LookupReq F)) (w : World F) (md : Meta) (g : F) (content : F → Bytes)
    (hrs : rs.map LookupReq.name = ps ++ ns) (hrw : ∀ x ∈ rs, x.world = w ∧ x.fh.length = 32)
    (hdisk : OnDisk w (ps ++ ns) md g) (hfull : FullReads w content)
    (hsize : f.size = some (UInt64.ofNat (content g).length)) (hlen : (content g).length < 4294967296)
    (os : SendOs) (hos : AcceptsFitting os) (h : Hdr) (peer : Addr) (md' : Meta)
    (hmd : w.fstat g = some md') (hd : Dated md') (k : Nat) (hk : 0 < k) (hk' : k ≤ 65404) :
    ∃ tid : UInt32, ∀ dmst, MenuShows m db 0x2102 [.u32 dmst, .u32 tid] fun ms =>
      ∃ size, lines 0x00 ms = [(size, 5, pathOf (ps ++ ns))] ∧ size.toNat = (content g).length ∧
        ∃ pieces : List Bytes, ((nfsRun .little .start (rs.map LookupReq.event ++
          ((List.range ((size.toNat + k - 1) / k)).map fun j =>
            ⟨w, os, .datagram (blockReq h md.ino size.toNat k j) peer⟩))).1.drop rs.length).map
          (fun x => (readData x.1, x.2)) = pieces.map (fun b => (some b, peer)) ∧
        pieces.flatten = content g := by
  have hp : ∀ p ∈ ps, p ≠ [] ∧ '/' ∉ p := fun p hp =>
    ⟨(hcomp p (List.mem_append_left _ hp)).1, (hcomp p (List.mem_append_left _ hp)).2.1⟩
  have hn : ∀ p ∈ ns, p ≠ [] ∧ '/' ∉ p := fun p hp =>
    ⟨(hcomp p (List.mem_append_right _ hp)).1, (hcomp p (List.mem_append_right _ hp)).2.1⟩
  have hpath := C85_shown_path ps ns slash name hps hns hp hn
  obtain ⟨r, hr⟩ : ∃ r, record (pathBelow (utf8 (pathOf ps ++ if slash then ['/'] else []))
      (name :: ns.map utf8)) f = some r := by
    cases htt : tagTexts f with
    | none => exact absurd htt htag
    | some x =>
      obtain ⟨a, b, c⟩ := x
      exact ⟨_, by simp only [record, htt, hsize]; rfl⟩
  obtain ⟨_, tid, _, _, _, h4⟩ := C66_file_reachable m _ t scan hscan l hl hc hb _ f hf hw r hr
  refine ⟨tid, fun dmst io io' ctx tx tx' more more' window hq => ?_⟩
  obtain ⟨reply, ctx', reply', msgs, e1, e2, e3, e4⟩ :=
    h4 dmst _ hpath hs io io' ctx tx tx' more more' window hq
  refine ⟨reply, ctx', reply', msgs, e1, e2, e3, r.size, e4, ?_⟩
  have hrne : rs ≠ [] := by
    rintro rfl
    simp only [List.map_nil] at hrs
    exact hns (List.append_eq_nil_iff.1 hrs.symm).2
  have hwalk : Walk [] rs md g := walk_of_onDisk w md g [] rs hrne
    (fun x hx => hcomp _ (hrs ▸ List.mem_map_of_mem hx))
    (fun x hx => (hrw x hx).1) (fun x hx => (hrw x hx).2) (by rw [hrs]; exact hdisk)
  have hsz : r.size.toNat = (content g).length := by
    unfold record at hr
    rw [hsize] at hr
    split at hr
    · rename_i n _ hn'
      obtain rfl := Option.some.inj hn'
      rw [← Option.some.inj hr]
      show (UInt32.ofNat (UInt64.ofNat (content g).length).toNat).toNat = _
      rw [UInt64.toNat_ofNat', UInt32.toNat_ofNat']
      omega
    · exact nomatch hr
  refine ⟨hsz, ?_⟩
  rw [hsz]
  exact C63_walk_and_download rs md g hwalk w os hos content hfull h peer md' hmd hd k hk hk' hlen

/-- A disk with the directory `/m` and the file `/m/a.mp3` of three bytes. -/
def musicDisk : World Nat where
  stat p :=
    if p = ['/', 'm'] then some (sampleMeta 2 false)
    else if p = "/m/a.mp3".toList then some (sampleMeta 3 true) else none
  openFile p := if p = ['/', 'm'] then some 2 else if p = "/m/a.mp3".toList then some 3 else none
  fstat f := some (sampleMeta (UInt64.ofNat f) true)
  pread f o n := some ((([1, 2, UInt8.ofNat f] : Bytes).drop o).take n)

/-- The same folder as the scan finds it. -/
def musicFolder : Node :=
  .dir [0x6d] [.file [0x61, 0x2e, 0x6d, 0x70, 0x33]
    ⟨some ⟨some ['A'], some ['x'], none, none⟩, none, some 3⟩]

/-- Its record in the library. -/
def musicRecord : MetaTrack :=
  ⟨['A'], ['x'], none, [], [0x2f, 0x6d, 0x2f, 0x61, 0x2e, 0x6d, 0x70, 0x33], 3⟩

theorem music_components : ∀ p ∈ [['m']] ++ ["a.mp3".toList], Component p := by
  intro p hp
  simp only [List.mem_append, List.mem_singleton] at hp
  rcases hp with rfl | rfl <;> exact ⟨by decide, by decide, by decide⟩

theorem music_wanted : Wanted ([0x6d] :: ["a.mp3".toList].map utf8) :=
  ⟨by
    intro n hn h
    have e : ([0x6d] :: ["a.mp3".toList].map utf8 : List Bytes) =
      [[0x6d], [0x61, 0x2e, 0x6d, 0x70, 0x33]] := by decide +kernel
    rw [e] at hn
    simp only [List.mem_cons, List.not_mem_nil, or_false] at hn
    rcases hn with rfl | rfl <;> exact (nomatch h.1),
   _, rfl, [0x61], by simp, by decide +kernel⟩

theorem music_onDisk : OnDisk musicDisk ([['m']] ++ ["a.mp3".toList]) (sampleMeta 3 true) 3 := by
  refine ⟨by decide, rfl, dated_sampleMeta _ _, by decide, ?_⟩
  intro dir rest h1 h2 h3
  cases dir with
  | nil => exact absurd rfl h1
  | cons a dir =>
    cases dir with
    | nil =>
      simp only [List.cons_append, List.nil_append, List.cons.injEq] at h3
      rw [← h3.1]
      exact ⟨sampleMeta 2 false, 2, by decide, rfl, dated_sampleMeta _ _, by decide⟩
    | cons b dir =>
      simp only [List.cons_append, List.cons.injEq, List.nil_append] at h3
      obtain ⟨_, _, h3⟩ := h3
      exact absurd (List.append_eq_nil_iff.1 h3.symm).2 h2

/-- The two lookups that lead to the file. -/
def musicLookups : List (LookupReq Nat) :=
  [⟨musicDisk, sampleHdr, ⟨1, 2⟩, List.replicate 32 0, ['m']⟩,
   ⟨musicDisk, sampleHdr, ⟨1, 2⟩, List.replicate 32 0, "a.mp3".toList⟩]

theorem musicLookups_world : ∀ x ∈ musicLookups, x.world = musicDisk ∧ x.fh.length = 32 := by
  intro x hx
  simp only [musicLookups, List.mem_cons, List.not_mem_nil, or_false] at hx
  rcases hx with rfl | rfl <;> exact ⟨rfl, by decide⟩

/-- Scan of `/m`, then download of `/m/a.mp3`, two bytes at a time. -/
example := C85_scanned_file_downloads .debug [['m']] ["a.mp3".toList] false (Or.inl (by simp))
  (by simp) music_components
  [0x6d] musicFolder [musicRecord] (by decide +kernel) [(.id, musicRecord)] rfl (by decide)
  (build_catalog .debug _ (by decide)) ⟨some ⟨some ['A'], some ['x'], none, none⟩, none, some 3⟩
  (by decide +kernel) music_wanted (by decide) (by unfold Fits; decide +kernel)
  musicLookups musicDisk (sampleMeta 3 true) 3 (fun f => [1, 2, UInt8.ofNat f]) rfl musicLookups_world
  music_onDisk (fun _ _ _ => rfl) rfl (by decide) (fun _ b _ => decide (b.length ≤ 65507))
  (fun _ _ h => decide_eq_true h) sampleHdr ⟨1, 2⟩ (sampleMeta 3 true) rfl (dated_sampleMeta _ _) 2
  (by decide) (by decide)

/-! ## C86 the size shown -/

/-- C86: the size in the record of a scanned file is the size of the file modulo 2^32, so it is the
size of the file exactly if that is below 4 GiB. -/
theorem C86_size_partial (m : Mode) (root : Bytes) (t : Node) (scan : List MetaTrack)
    (hscan : scanFolder m root t = .ok scan) (r : MetaTrack) (hr : r ∈ scan) :
    ∃ names f n, (names, f) ∈ allFiles t ∧ Wanted names ∧ r.path = pathBelow root names ∧
      f.size = some n ∧ r.size.toNat = n.toNat % 4294967296 ∧
      (r.size.toNat = n.toNat ↔ n.toNat < 4294967296) := by
  rw [scan_result m root t scan hscan, List.mem_filterMap] at hr
  obtain ⟨⟨path, f⟩, hp, hrec⟩ := hr
  obtain ⟨names, hf, hw, rfl⟩ := (C24_selected_iff root t path f).1 hp
  unfold record at hrec
  split at hrec
  · rename_i n _ hn
    have e := Option.some.inj hrec
    have e1 : r.path = pathBelow root names := by rw [← e]
    have e2 : r.size.toNat = n.toNat % 4294967296 := by
      rw [← e]
      exact UInt32.toNat_ofNat'
    refine ⟨names, f, n, hf, hw, e1, hn, e2, ?_⟩
    rw [e2]
    omega
  · exact nomatch hrec

/-- The file of the sample folder. -/
example := C86_size_partial .debug [0x2f, 0x6d] musicFolder [musicRecord] (by decide +kernel) _
  (List.mem_singleton_self _)

/-- C86 is false for large files: a file of 4 GiB and 4 bytes is listed with 4 bytes. -/
theorem C86_large_file_wrong : ∃ (t : Node) (r : MetaTrack), scanFolder .debug [0x2f, 0x6d] t = .ok [r] ∧
    r.size = 4 ∧ ∃ names f, allFiles t = [(names, f)] ∧ f.size = some 4294967300 := by
  refine ⟨.dir [0x6d] [.file [0x61, 0x2e, 0x6d, 0x70, 0x33] ⟨some ⟨none, none, none, none⟩, none,
    some 4294967300⟩], ⟨[], [], none, [], [0x2f, 0x6d, 0x2f, 0x61, 0x2e, 0x6d, 0x70, 0x33], 4⟩,
    by decide +kernel, rfl, _, _, rfl, rfl⟩

/-! ## C87 the name of the folder itself -/

/-- C87: a music folder whose own name starts with a dot (as `walkdir` reports it: the last component
of its path, or `.` itself for the current directory) gives an empty library. -/
theorem C87_hidden_root (m : Mode) (root : Bytes) (t : Node) (h : HiddenName t.name) :
    scanFolder m root t = .ok [] := by
  have hid : isHidden t.name = true := (isHidden_iff t.name).2 h
  have hwn : walkNode root t = [] := by
    cases t <;> simp_all [walkNode, Node.name]
  unfold scanFolder mp3Files
  rw [hwn]
  rfl

/-- C87: apart from that the name of the folder itself does not matter: two folders with the same
entries give the same library. -/
theorem C87_root_name_partial (m : Mode) (root name name' : Bytes) (entries : List Node)
    (h : ¬ HiddenName name) (h' : ¬ HiddenName name') :
    scanFolder m root (.dir name entries) = scanFolder m root (.dir name' entries) := by
  have hid : isHidden name = false := by
    cases e : isHidden name
    · rfl
    · exact absurd ((isHidden_iff name).1 e) h
  have hid' : isHidden name' = false := by
    cases e : isHidden name'
    · rfl
    · exact absurd ((isHidden_iff name').1 e) h'
  unfold scanFolder mp3Files
  simp [walkNode, hid, hid']

/-- The folder `.`; the folders `m` and `n`. -/
example := C87_hidden_root .debug [0x2e] (.dir [0x2e] []) ⟨rfl, _, rfl⟩
example := C87_root_name_partial .debug [0x2f, 0x6d] [0x6d] [0x6e] [] (fun h => nomatch h.1)
  (fun h => nomatch h.1)

/-- C87, the full claim (the name of the folder does not matter) is false: the same entries in a folder
called `m` and in a folder called `.m`. -/
theorem C87_root_name_matters : ∃ (entries : List Node) (r : MetaTrack),
    scanFolder .debug [0x2f, 0x6d] (.dir [0x6d] entries) = .ok [r] ∧
    scanFolder .debug [0x2f, 0x2e, 0x6d] (.dir [0x2e, 0x6d] entries) = .ok [] := by
  refine ⟨[.file [0x61, 0x2e, 0x6d, 0x70, 0x33] ⟨some ⟨none, none, none, none⟩, none, some 4⟩],
    ⟨[], [], none, [], [0x2f, 0x6d, 0x2f, 0x61, 0x2e, 0x6d, 0x70, 0x33], 4⟩, by decide +kernel,
    by decide +kernel⟩

end PDJ
