import Verif.Props.Folder

/-!
# Properties C85 and C87: the music folder as it is given
-/

namespace PDJ

open Spec

/-! ## A symbolic link -/

theorem walkList_visible (root name : Bytes) (entries : List Node) (h : ¬ HiddenName name) :
    mp3Files root (.dir name entries) =
      (walkList root entries).filter (fun e => e.file.isSome && hasMp3Extension e.name) := by
  have hid : isHidden name = false := by
    cases e : isHidden name
    · rfl
    · exact absurd ((isHidden_iff name).1 e) h
  simp [mp3Files, walkNode, hid]

theorem scanRoot_node (m : Mode) (root : Bytes) (t : Node) : scanRoot m root (.node t) = scanFolder m root t := rfl

/-- C87: a music folder given by a symbolic link to a folder is scanned like the folder under a name that is not
hidden, whatever the names of the link and of the folder are. -/
theorem C87_link_followed (m : Mode) (root link name name' : Bytes) (entries : List Node)
    (h' : ¬ HiddenName name') :
    scanRoot m root (.link link (.dir name entries)) = scanFolder m root (.dir name' entries) := by
  unfold scanRoot scanFolder
  rw [walkList_visible root name' entries h']
  congr 1
  simp only [walkRoot]
  split <;> simp

/-- C87: a link to anything but a folder, a music file included, gives an empty library. -/
theorem C87_link_to_no_folder (m : Mode) (root link : Bytes) (t : Node)
    (h : ∀ name entries, t ≠ .dir name entries) : scanRoot m root (.link link t) = .ok [] := by
  unfold scanRoot
  cases t with
  | dir name entries => exact absurd rfl (h name entries)
  | broken => rfl
  | file name info => simp only [walkRoot]; split <;> rfl
  | other name => simp only [walkRoot]; split <;> rfl

/-- C87: given directly the same file is the library. -/
example : scanRoot .debug [0x61, 0x2e, 0x6d, 0x70, 0x33]
    (.node (.file [0x61, 0x2e, 0x6d, 0x70, 0x33] ⟨some ⟨none, none, none, none⟩, none, some 4⟩)) =
      .ok [⟨[], [], none, [], [0x61, 0x2e, 0x6d, 0x70, 0x33], 4⟩] := by decide +kernel

/-! ## The name that belongs to a path -/

theorem utf8Char_slash (c : Char) (h : 0x2f ∈ utf8Char c) : c = '/' := by
  unfold utf8Char at h
  have hr := char_range c
  have conv : ∀ n : Nat, (0x2f : UInt8) = UInt8.ofNat n → n % 256 = 0x2f := by
    intro n e
    have := congrArg UInt8.toNat e
    simpa using this.symm
  simp only at h
  split at h
  · rename_i hlt
    have := conv _ (List.mem_singleton.1 h)
    have e : c.toNat = 0x2f := by omega
    rw [← Char.ofNat_toNat c, e]
  · split at h
    · simp only [List.mem_cons, List.not_mem_nil, or_false] at h
      rcases h with h | h <;> (have := conv _ h; omega)
    · split at h
      · simp only [List.mem_cons, List.not_mem_nil, or_false] at h
        rcases h with h | h | h <;> (have := conv _ h; omega)
      · simp only [List.mem_cons, List.not_mem_nil, or_false] at h
        rcases h with h | h | h | h <;> (have := conv _ h; omega)

theorem utf8_no_slash {s : Str} (h : '/' ∉ s) : 0x2f ∉ utf8 s := by
  intro hm
  simp only [utf8, List.mem_flatMap] at hm
  obtain ⟨c, hc, hb⟩ := hm
  exact h (utf8Char_slash c hb ▸ hc)

theorem splitSlash_cons (a b : Bytes) (h : 0x2f ∉ a) : splitSlash (a ++ 0x2f :: b) = a :: splitSlash b := by
  induction a with
  | nil => simp [splitSlash]
  | cons x a ih =>
    have hx : x ≠ 0x2f := fun e => h (by simp [e])
    rw [List.cons_append, splitSlash, if_neg hx, ih (fun hm => h (by simp [hm]))]

theorem splitSlash_last (a : Bytes) (h : 0x2f ∉ a) : splitSlash a = [a] := by
  induction a with
  | nil => rfl
  | cons x a ih =>
    have hx : x ≠ 0x2f := fun e => h (by simp [e])
    rw [splitSlash, if_neg hx, ih (fun hm => h (by simp [hm]))]

theorem utf8_cons_slash (s : Str) : utf8 ('/' :: s) = 0x2f :: utf8 s := by
  have : utf8 ('/' :: s) = utf8 ['/'] ++ utf8 s := by rw [← utf8_append]; rfl
  rw [this, utf8_slash]
  rfl

theorem splitSlash_pathOf (ps : List Str) (hp : ∀ p ∈ ps, '/' ∉ p) (a : Bytes) (ha : 0x2f ∉ a) :
    ∀ rest, (rest = [] ∨ rest = [0x2f]) → splitSlash (a ++ utf8 (pathOf ps) ++ rest) =
      a :: ps.map utf8 ++ (if rest = [] then [] else [[]]) := by
  induction ps generalizing a with
  | nil =>
    intro rest hr
    have e : utf8 (pathOf []) = [] := rfl
    rw [e, List.append_nil]
    rcases hr with rfl | rfl
    · simp [splitSlash_last a ha]
    · rw [splitSlash_cons a [] ha]
      simp [splitSlash]
  | cons p ps ih =>
    intro rest hr
    have e : utf8 (pathOf (p :: ps)) = 0x2f :: (utf8 p ++ utf8 (pathOf ps)) := by
      have : pathOf (p :: ps) = '/' :: (p ++ pathOf ps) := rfl
      rw [this, utf8_cons_slash, utf8_append]
    rw [e, List.append_assoc, List.cons_append, splitSlash_cons a _ ha,
      ih (fun q hq => hp q (by simp [hq])) (utf8 p) (utf8_no_slash (hp p (by simp))) rest hr]
    simp

theorem utf8_inj {a b : Str} (h : utf8 a = utf8 b) : a = b := by
  have := fromUtf8_utf8 a
  rw [h, fromUtf8_utf8] at this
  exact (Option.some.inj this).symm

theorem utf8_dot : utf8 ['.'] = [0x2e] := by decide

/-- The last component but for dots at the end. -/
theorem last_component (ps : List Str) (n : Str) (k : Nat) (slash : Bool) (hp : ∀ p ∈ ps, '/' ∉ p)
    (hn : n ≠ [] ∧ '/' ∉ n) (hdot : n ≠ ['.']) :
    ((splitSlash (utf8 (pathOf (ps ++ n :: List.replicate k ['.']) ++ if slash then ['/'] else []))).filter
      (fun c => decide (c ≠ [] ∧ c ≠ [0x2e]))).getLast? = some (utf8 n) := by
  have hs : splitSlash (utf8 (pathOf (ps ++ n :: List.replicate k ['.']) ++ if slash then ['/'] else [])) =
      [] :: (ps ++ n :: List.replicate k ['.']).map utf8 ++ (if slash then [[]] else []) := by
    have key := splitSlash_pathOf (ps ++ n :: List.replicate k ['.']) (by
      intro p h
      rcases List.mem_append.1 h with h | h
      · exact hp p h
      · rcases List.mem_cons.1 h with rfl | h
        · exact hn.2
        · rw [(List.mem_replicate.1 h).2]
          decide) [] (by simp) (if slash then [0x2f] else []) (by cases slash <;> simp)
    rw [utf8_append]
    cases slash with
    | true =>
      simp only [if_true, List.nil_append] at key ⊢
      rw [utf8_slash, key]
      simp
    | false =>
      simp only [Bool.false_eq_true, if_false, List.nil_append, if_true] at key ⊢
      exact key
  have h1 : utf8 n ≠ [] := utf8_ne_nil hn.1
  have h2 : utf8 n ≠ [0x2e] := fun e => hdot (utf8_inj (b := ['.']) (e.trans utf8_dot.symm))
  rw [hs]
  cases slash <;>
    simp [List.filter_append, h1, h2, utf8_dot]

/-- C87: the name of a folder given by an absolute path, with or without dots and a slash at its end, is the last
component of the path. -/
theorem C87_name_of_path (ps : List Str) (n : Str) (k : Nat) (slash : Bool) (hp : ∀ p ∈ ps, '/' ∉ p)
    (hn : n ≠ [] ∧ '/' ∉ n) (hdot : n ≠ ['.']) (hdots : n ≠ ['.', '.']) :
    rootName (utf8 (pathOf (ps ++ n :: List.replicate k ['.']) ++ if slash then ['/'] else [])) = utf8 n := by
  have h3 : utf8 n ≠ [0x2e, 0x2e] := fun e => hdots (utf8_inj (b := ['.', '.']) (e.trans (by decide)))
  unfold rootName
  rw [last_component ps n k slash hp hn hdot]
  simp [h3]

/-- C87: an absolute path that ends with two dots is a name of its own, which is not hidden. -/
theorem C87_parent_visible (m : Mode) (ps : List Str) (k : Nat) (slash : Bool) (hp : ∀ p ∈ ps, '/' ∉ p)
    (root : Bytes)
    (hroot : root = utf8 (pathOf (ps ++ ['.', '.'] :: List.replicate k ['.']) ++ if slash then ['/'] else []))
    (entries : List Node) :
    scanRoot m root (.node (.dir (rootName root) entries)) = scanFolder m root (.dir [0x6d] entries) := by
  have e : rootName root = root := by
    have h : ((splitSlash root).filter (fun c => decide (c ≠ [] ∧ c ≠ [0x2e]))).getLast? = some [0x2e, 0x2e] := by
      rw [hroot]
      exact last_component ps ['.', '.'] k slash hp (by decide) (by decide)
    unfold rootName
    rw [h]
    simp
  have hh : root.head? = some 0x2f := by
    rw [hroot]
    cases ps with
    | nil => exact congrArg List.head? (utf8_cons_slash _)
    | cons p ps => exact congrArg List.head? (utf8_cons_slash _)
  rw [e, scanRoot_node]
  exact C87_root_name_partial m root root [0x6d] entries (fun h => absurd (hh.symm.trans h.1) (by decide))
    (fun h => nomatch h.1)

/-- C87: so a folder given by an absolute path, and not by a link, gives an empty library if its last component
starts with a dot. -/
theorem C87_hidden_path (m : Mode) (ps : List Str) (n : Str) (k : Nat) (slash : Bool) (hp : ∀ p ∈ ps, '/' ∉ p)
    (hn : '/' ∉ '.' :: n) (hdot : n ≠ []) (hdots : n ≠ ['.']) (entries : List Node) (root : Bytes)
    (hroot : root = utf8 (pathOf (ps ++ ('.' :: n) :: List.replicate k ['.']) ++ if slash then ['/'] else [])) :
    scanRoot m root (.node (.dir (rootName root) entries)) = .ok [] := by
  have e := C87_name_of_path ps ('.' :: n) k slash hp ⟨by simp, hn⟩ (by simpa using hdot) (by simpa using hdots)
  rw [← hroot] at e
  have h : HiddenName (rootName root) := by
    rw [e]
    refine ⟨?_, _, fromUtf8_utf8 _⟩
    have : utf8 ('.' :: n) = utf8 ['.'] ++ utf8 n := by rw [← utf8_append]; rfl
    rw [this]
    rfl
  exact C87_hidden_root m root (.dir (rootName root) entries) h

theorem mem_splitSlash {root c : Bytes} (h : c ∈ splitSlash root) : ∀ b ∈ c, b ∈ root ∧ b ≠ 0x2f := by
  induction root generalizing c with
  | nil =>
    simp only [splitSlash, List.mem_singleton] at h
    subst h
    exact fun b hb => absurd hb List.not_mem_nil
  | cons x root ih =>
    rw [splitSlash] at h
    split at h
    · rcases List.mem_cons.1 h with rfl | h
      · exact fun b hb => absurd hb List.not_mem_nil
      · exact fun b hb => ⟨List.mem_cons_of_mem _ (ih h b hb).1, (ih h b hb).2⟩
    · rename_i hx
      split at h
      · simp only [List.mem_singleton] at h
        subst h
        intro b hb
        rw [List.mem_singleton] at hb
        subst hb
        exact ⟨by simp, hx⟩
      · rename_i p ps hp
        rw [hp] at ih
        rcases List.mem_cons.1 h with rfl | h
        · intro b hb
          rcases List.mem_cons.1 hb with rfl | hb
          · exact ⟨by simp, hx⟩
          · exact ⟨List.mem_cons_of_mem _ (ih (by simp) b hb).1, (ih (c := p) (by simp) b hb).2⟩
        · exact fun b hb => ⟨List.mem_cons_of_mem _ (ih (by simp [h]) b hb).1, (ih (c := c) (by simp [h]) b hb).2⟩

theorem dots_utf8 (l : Bytes) (h : ∀ b ∈ l, b = 0x2e ∨ b = 0x2f) : ∃ s, fromUtf8 l = some s := by
  have key : ∃ s, l = utf8 s := by
    induction l with
    | nil => exact ⟨[], rfl⟩
    | cons x l ih =>
      obtain ⟨s, hs⟩ := ih fun b hb => h b (by simp [hb])
      rcases h x (by simp) with rfl | rfl
      · refine ⟨'.' :: s, ?_⟩
        have : utf8 ('.' :: s) = utf8 ['.'] ++ utf8 s := by rw [← utf8_append]; rfl
        rw [this, hs]
        rfl
      · exact ⟨'/' :: s, by rw [utf8_cons_slash, hs]⟩
  obtain ⟨s, rfl⟩ := key
  exact ⟨s, fromUtf8_utf8 s⟩

/-- C87: the current folder and its parents, however written, are hidden: a path that starts with a dot and is made
of dots and slashes gives an empty library. -/
theorem C87_dots_hidden (m : Mode) (root : Bytes) (h0 : root.head? = some 0x2e)
    (hd : ∀ b ∈ root, b = 0x2e ∨ b = 0x2f) (entries : List Node) :
    scanRoot m root (.node (.dir (rootName root) entries)) = .ok [] := by
  have h : HiddenName (rootName root) := by
    unfold rootName
    split
    · rename_i n hn
      split
      · exact ⟨h0, dots_utf8 root hd⟩
      · have hm := List.mem_of_getLast? hn
        rw [List.mem_filter] at hm
        have hb := mem_splitSlash hm.1
        have h3 : n ≠ [] ∧ n ≠ [0x2e] := by simpa using hm.2
        refine ⟨?_, dots_utf8 n fun b hb' => hd b (hb b hb').1⟩
        cases n with
        | nil => exact absurd rfl h3.1
        | cons x n =>
          rcases hd x (hb x (by simp)).1 with rfl | e
          · rfl
          · exact absurd e (hb x (by simp)).2
    · exact ⟨h0, dots_utf8 root hd⟩
  exact C87_hidden_root m root (.dir (rootName root) entries) h

/-! ## The folder of the program -/

theorem mainFolder_path : pathOf mainFolder = "/home/jonas/Music/TermDJ".toList := by decide

/-- C87: the folder of the program has a name that is not hidden, so whatever is there, a folder or a link to one,
exactly the wanted files below it are scanned. -/
theorem C87_program_folder (m : Mode) (entries : List Node) (link name : Bytes) :
    rootName (utf8 (pathOf mainFolder)) = utf8 "TermDJ".toList ∧
    scanRoot m (utf8 (pathOf mainFolder)) (.node (.dir (rootName (utf8 (pathOf mainFolder))) entries)) =
      scanFolder m (utf8 (pathOf mainFolder)) (.dir [0x6d] entries) ∧
    scanRoot m (utf8 (pathOf mainFolder)) (.link link (.dir name entries)) =
      scanFolder m (utf8 (pathOf mainFolder)) (.dir [0x6d] entries) := by
  have h1 : rootName (utf8 (pathOf mainFolder)) = utf8 "TermDJ".toList := by decide +kernel
  refine ⟨h1, ?_, C87_link_followed m _ link name [0x6d] entries (fun h => nomatch h.1)⟩
  rw [h1, scanRoot_node]
  have h2 : ¬ HiddenName (utf8 "TermDJ".toList) := fun h => absurd h.1 (by decide +kernel)
  exact C87_root_name_partial m (utf8 (pathOf mainFolder)) (utf8 "TermDJ".toList) [0x6d] entries h2
    (fun h => nomatch h.1)

/-- C85: how long the names of a file below the folder of the program may be for its path to fit a menu line:
together, with a slash each, no more than 103 UTF-16 units. -/
theorem C85_program_fits (ns : List Str) :
    Fits (pathOf (mainFolder ++ ns)) ↔ (ns.map fun n => (utf16 n).length + 1).sum ≤ 103 := by
  have h : ∀ ns : List Str, (utf16 (pathOf ns)).length = (ns.map fun n => (utf16 n).length + 1).sum := by
    intro ns
    induction ns with
    | nil => rfl
    | cons n ns ih =>
      have e : pathOf (n :: ns) = '/' :: (n ++ pathOf ns) := rfl
      have e2 : (utf16Char '/').length = 1 := by decide
      rw [e, utf16_cons, utf16_append, List.length_append, List.length_append, ih, e2, List.map_cons, List.sum_cons]
      omega
  unfold Fits
  rw [h, List.map_append, List.sum_append]
  have e : (mainFolder.map fun n => (utf16 n).length + 1).sum = 24 := by decide +kernel
  rw [e]
  omega

/-! ## The theorems applied -/

example := C87_link_followed .debug [0x2f, 0x6d] [0x2e, 0x6d] [0x2e, 0x78] [0x6d]
  [.file [0x61, 0x2e, 0x6d, 0x70, 0x33] ⟨some ⟨none, none, none, none⟩, none, some 4⟩] (fun h => nomatch h.1)
example := C87_link_to_no_folder .debug [0x2f, 0x6d] [0x6d]
  (.file [0x61, 0x2e, 0x6d, 0x70, 0x33] ⟨some ⟨none, none, none, none⟩, none, some 4⟩) (fun _ _ h => nomatch h)
example := C87_name_of_path ["home".toList] "m".toList 1 true (by decide) (by decide) (by decide) (by decide)
example := C87_parent_visible .debug ["home".toList] 1 true (by decide) _ rfl []
example := C87_hidden_path .debug ["home".toList] "m".toList 1 true (by decide) (by decide) (by decide) (by decide)
  [] _ rfl
/-- The path `./..`. -/
example := C87_dots_hidden .debug [0x2e, 0x2f, 0x2e, 0x2e] rfl (by decide) []
example : Fits (pathOf (mainFolder ++ ["a".toList, "b.mp3".toList])) := (C85_program_fits _).2 (by decide +kernel)

end PDJ
