import Verif.Spec.EndToEnd
import Verif.Props.Library
import Verif.Props.Scan
import Verif.Props.Nfs

/-!
# Properties C66, C67: from the music folder to the player
-/

namespace PDJ

open Spec

/-- Every track listed for an artist id was scanned. -/
theorem titleByArtist_any (m : Mode) (l : List (IterOrder × MetaTrack))
    (hl : l.length ≤ capacity) {db : Db} (hb : Db.build m l = .ok db) (aid : UInt32)
    (io : IterOrder) (tr : Track) (h : tr ∈ db.titleByArtist io aid) :
    ∃ x ∈ l, x.2.title = tr.title := by
  have hb' := hb
  rw [build_catalog m l hl, Outcome.ok.injEq] at hb'
  subst hb'
  have := (titleByArtist_perm io _ _).mem_iff.1 h
  rw [List.mem_filter] at this
  obtain ⟨k, hk, hkt⟩ := List.getElem_of_mem this.1
  have hk' : k < l.length := by simpa [catalogTracks] using hk
  refine ⟨l[k], List.getElem_mem hk', ?_⟩
  rw [← hkt]; simp [catalogTracks]

/-- Every track listed for the id of an artist was scanned with that artist's name. -/
theorem titleByArtist_scanned (m : Mode) (l : List (IterOrder × MetaTrack))
    (hl : l.length ≤ capacity) {db : Db} (hb : Db.build m l = .ok db) {aid : UInt32} {n : Str}
    (ha : db.getArtist aid = some ⟨aid, n⟩)
    (io : IterOrder) (tr : Track) (h : tr ∈ db.titleByArtist io aid) :
    ∃ x ∈ l, x.2.artist = n ∧ x.2.title = tr.title := by
  have hb' := hb
  rw [build_catalog m l hl, Outcome.ok.injEq] at hb'
  have hlen : (l.map (·.2)).length ≤ capacity := by simpa using hl
  have har : (⟨aid, n⟩ : Artist) ∈ catalogArtists (l.map (·.2)) := by
    rw [← (allArtists_perm .id _).mem_iff, hb']
    unfold Db.allArtists
    rw [List.mem_map]
    unfold Db.getArtist at ha
    exact ⟨_, (IterOrder.id.perm _).mem_iff.2 (mapGet_mem ha), rfl⟩
  subst hb'
  have h1 := (titleByArtist_perm io _ _).mem_iff.1 h
  have h2 := catalog_titles hlen har
  have h3 : tr.title ∈ ((l.map (·.2)).filter (fun t => t.artist = n)).map (·.title) := by
    rw [← h2]
    exact List.mem_map.2 ⟨tr, h1, rfl⟩
  rw [List.mem_map] at h3
  obtain ⟨x, hx, hxt⟩ := h3
  rw [List.mem_filter, List.mem_map] at hx
  obtain ⟨⟨y, hy, rfl⟩, hn⟩ := hx
  exact ⟨y, hy, by simpa using hn, hxt⟩

/-- The ids a player meets for the `k`-th scanned track. -/
theorem scanned_track_reachable (m : Mode) (l : List (IterOrder × MetaTrack))
    (hl : l.length ≤ capacity) {db : Db} (hb : Db.build m l = .ok db)
    (k : Nat) (hk : k < l.length) : ∃ aid : UInt32,
    ((∀ t ∈ l, Fits t.2.artist) → ∀ dmst sort, MenuShows m db 0x1002 [.u32 dmst, .u32 sort] fun ms =>
      (0, aid, l[k].2.artist) ∈ lines 0x07 ms) ∧
    ((∀ t ∈ l, t.2.artist = l[k].2.artist → Fits t.2.title) → ∀ dmst sort album,
      MenuShows m db 0x1202 [.u32 dmst, .u32 sort, .u32 aid, .u32 album] fun ms =>
        (0, UInt32.ofNat (k + 2), l[k].2.title) ∈ lines 0x04 ms) ∧
    (Fits l[k].2.title → Fits l[k].2.artist → ∀ dmst, MenuShows m db 0x2002 [.u32 dmst, .u32 (UInt32.ofNat (k + 2))] fun ms =>
      (lines 0x04 ms).map (·.2.2) = [l[k].2.title] ∧
      (lines 0x07 ms).map (·.2.2) = [l[k].2.artist] ∧
      (lines 0x0d ms).map (·.2.1) = [l[k].2.bpm.getD 0]) ∧
    (∀ dmst path, fromUtf8 l[k].2.path = some path → Fits path →
      MenuShows m db 0x2102 [.u32 dmst, .u32 (UInt32.ofNat (k + 2))] fun ms =>
        lines 0x00 ms = [(l[k].2.size, 5, path)]) := by
  obtain ⟨tr, h1, h2, h3, h4, h5, h6, h7⟩ := (C20_tracks_retrievable m l hl hb).1 k hk
  have hb' := hb
  rw [build_catalog m l hl, Outcome.ok.injEq] at hb'
  refine ⟨tr.artistId, ?_, ?_, ?_, ?_⟩
  · intro hs dmst sort io io' ctx tx tx' more more' window hw
    have hq : Sendable ⟨tx, 0x1002, [.u32 dmst, .u32 sort]⟩ := by
      refine ⟨by simp, ?_⟩
      intro v hv
      simp only [List.mem_cons, List.not_mem_nil, or_false] at hv
      rcases hv with rfl | rfl <;> trivial
    obtain ⟨reply, ctx', reply', msgs, e1, e2, e3, _, e5⟩ :=
      artist_menu_lines m l hl hb hs io io' ctx tx tx' more more' _ window hq hw
    refine ⟨reply, ctx', reply', msgs, e1, e2, e3, ?_⟩
    show _ ∈ lines 0x07 msgs
    rw [e5, List.mem_map]
    refine ⟨⟨tr.artistId, l[k].2.artist⟩, ?_, rfl⟩
    unfold Db.allArtists
    rw [List.mem_map]
    unfold Db.getArtist mapGet at h7
    rw [Option.map_eq_some_iff] at h7
    obtain ⟨e, he, h7⟩ := h7
    exact ⟨e, (io'.perm _).mem_iff.2 (List.mem_of_find?_eq_some he), h7⟩
  · intro hs dmst sort album io io' ctx tx tx' more more' window hw
    have hq : Sendable ⟨tx, 0x1202, [.u32 dmst, .u32 sort, .u32 tr.artistId, .u32 album]⟩ := by
      refine ⟨by simp, ?_⟩
      intro v hv
      simp only [List.mem_cons, List.not_mem_nil, or_false] at hv
      rcases hv with rfl | rfl | rfl | rfl <;> trivial
    obtain ⟨reply, e1, _⟩ := menu_request m io db _ hq more ctx (menu := .tracks tr.artistId) rfl
      (by simp)
    have hi : menuItems io' db (.tracks tr.artistId) = some _ := rfl
    obtain ⟨reply', e2, e3⟩ := render_read (m := m) hi (by
      intro i hi
      rw [List.mem_map] at hi
      obtain ⟨t, htm, rfl⟩ := hi
      have hmem := titleByArtist_scanned m l hl hb h7 io' t htm
      obtain ⟨x, hx, hxa, hxt⟩ := hmem
      show Fits t.title
      rw [← hxt]
      exact hs x hx hxa) tx' window hw more'
    refine ⟨reply, _, reply', _, e1, e2, e3, ?_⟩
    show _ ∈ lines 0x04 _
    rw [lines_page]
    have e := itemLines_same 4 (fun t : Track => t.id) (fun t => t.title)
      (db.titleByArtist io' tr.artistId)
    rw [e, List.mem_map]
    refine ⟨tr, ?_, by rw [h2, h3]⟩
    unfold Db.titleByArtist
    rw [List.mem_filter, List.mem_map]
    unfold Db.getTrack mapGet at h1
    rw [Option.map_eq_some_iff] at h1
    obtain ⟨e, he, h1⟩ := h1
    exact ⟨⟨e, (io'.perm _).mem_iff.2 (List.mem_of_find?_eq_some he), h1⟩, by simp⟩
  · intro hs1 hs2 dmst io io' ctx tx tx' more more' window hw
    obtain ⟨reply, ctx', reply', msgs, e1, e2, e3, e4, e5, e6⟩ :=
      C17_metadata_of_track m l hl hb k hk ⟨hs1, hs2⟩ io io' ctx tx tx' dmst more more' window hw
    exact ⟨reply, ctx', reply', msgs, e1, e2, e3, e4, e5, e6⟩
  · intro dmst path hp hs io io' ctx tx tx' more more' window hw
    obtain ⟨reply, ctx', reply', msgs, e1, e2, e3, e4, _⟩ :=
      C17_mount_info_of_track m l hl hb k hk path hp hs io io' ctx tx tx' dmst more more' window hw
    exact ⟨reply, ctx', reply', msgs, e1, e2, e3, e4⟩

/-- What a finished scan contains, in either build. -/
theorem scan_result (m : Mode) (root : Bytes) (t : Node) (scan : List MetaTrack)
    (h : scanFolder m root t = .ok scan) :
    scan = (libraryFiles root t).filterMap (fun x => record x.1 x.2) := by
  cases m with
  | release =>
    rw [C24_scan_selects_wanted_files] at h
    exact (Outcome.ok.inj h).symm
  | debug =>
    rw [C24_scan_checked_build] at h
    split at h
    · exact nomatch h
    · exact (Outcome.ok.inj h).symm

/-- C66: every visible mp3 file with a readable tag can be reached from the artist menu: its artist is
listed under an id, the title menu of that id lists its title under another id, and metadata and
mount info of that second id show its title, artist, tempo, path and size.  Each step needs only the
texts on its own page to fit the wire format (at most 127 UTF-16 units). -/
theorem C66_file_reachable (m : Mode) (root : Bytes) (t : Node) (scan : List MetaTrack)
    (hscan : scanFolder m root t = .ok scan) (l : List (IterOrder × MetaTrack))
    (hl : l.map (·.2) = scan) (hc : l.length ≤ capacity) {db : Db} (hb : Db.build m l = .ok db)
    (names : List Bytes) (f : FileInfo) (hf : (names, f) ∈ allFiles t)
    (hw : Wanted names) (r : MetaTrack) (hr : record (pathBelow root names) f = some r) :
    ∃ aid tid : UInt32,
    ((∀ x ∈ scan, Fits x.artist) → ∀ dmst sort, MenuShows m db 0x1002 [.u32 dmst, .u32 sort] fun ms =>
      (0, aid, r.artist) ∈ lines 0x07 ms) ∧
    ((∀ x ∈ scan, x.artist = r.artist → Fits x.title) → ∀ dmst sort album,
      MenuShows m db 0x1202 [.u32 dmst, .u32 sort, .u32 aid, .u32 album] fun ms =>
        (0, tid, r.title) ∈ lines 0x04 ms) ∧
    (Fits r.title → Fits r.artist → ∀ dmst, MenuShows m db 0x2002 [.u32 dmst, .u32 tid] fun ms =>
      (lines 0x04 ms).map (·.2.2) = [r.title] ∧ (lines 0x07 ms).map (·.2.2) = [r.artist] ∧
      (lines 0x0d ms).map (·.2.1) = [r.bpm.getD 0]) ∧
    (∀ dmst path, fromUtf8 (pathBelow root names) = some path → Fits path →
      MenuShows m db 0x2102 [.u32 dmst, .u32 tid] fun ms => lines 0x00 ms = [(r.size, 5, path)]) := by
  have hmem : r ∈ scan := by
    rw [scan_result m root t scan hscan, List.mem_filterMap]
    exact ⟨(pathBelow root names, f), (C24_selected_iff root t _ f).2 ⟨names, hf, hw, rfl⟩, hr⟩
  rw [← hl] at hmem
  obtain ⟨k, hk, hkr⟩ := List.getElem_of_mem hmem
  have hk' : k < l.length := by simpa using hk
  have hlk : l[k].2 = r := by simpa using hkr
  obtain ⟨aid, h1, h2, h3, h4⟩ := scanned_track_reachable m l hc hb k hk'
  rw [hlk] at h1 h2 h3 h4
  have hpath : r.path = pathBelow root names := by
    unfold record at hr
    split at hr
    · exact Option.some.inj hr ▸ rfl
    · exact nomatch hr
  rw [hpath] at h4
  have hin : ∀ x ∈ l, x.2 ∈ scan := fun x hx => hl ▸ List.mem_map_of_mem (f := (·.2)) hx
  exact ⟨aid, _, fun hs => h1 (fun x hx => hs _ (hin x hx)),
    fun hs => h2 (fun x hx => hs _ (hin x hx)), h3, h4⟩

/-- C66: nothing else is listed: every title line a player sees belongs to a visible mp3 file below
the folder, and mount info of its id shows the path of that file. -/
theorem C66_only_files_listed (m : Mode) (root : Bytes) (t : Node) (scan : List MetaTrack)
    (hscan : scanFolder m root t = .ok scan) (l : List (IterOrder × MetaTrack))
    (hl : l.map (·.2) = scan) (hc : l.length ≤ capacity) {db : Db} (hb : Db.build m l = .ok db)
    (hs : ∀ x ∈ scan, Fits x.title) (aid : UInt32) :
    ∀ dmst sort album, MenuShows m db 0x1202 [.u32 dmst, .u32 sort, .u32 aid, .u32 album] fun ms =>
      ∀ x ∈ lines 0x04 ms, ∃ names f r, (names, f) ∈ allFiles t ∧ Wanted names ∧
        record (pathBelow root names) f = some r ∧ r.title = x.2.2 ∧
        ∀ dmst path, fromUtf8 (pathBelow root names) = some path → Fits path →
          MenuShows m db 0x2102 [.u32 dmst, .u32 x.2.1] fun ms =>
            lines 0x00 ms = [(r.size, 5, path)] := by
  intro dmst sort album io io' ctx tx tx' more more' window hw
  have hb' := hb
  rw [build_catalog m l hc, Outcome.ok.injEq] at hb'
  have hq : Sendable ⟨tx, 0x1202, [.u32 dmst, .u32 sort, .u32 aid, .u32 album]⟩ := by
    refine ⟨by simp, ?_⟩
    intro v hv
    simp only [List.mem_cons, List.not_mem_nil, or_false] at hv
    rcases hv with rfl | rfl | rfl | rfl <;> trivial
  obtain ⟨reply, e1, _⟩ := menu_request m io db _ hq more ctx (menu := .tracks aid) rfl (by simp)
  have hi : menuItems io' db (.tracks aid) = some _ := rfl
  obtain ⟨reply', e2, e3⟩ := render_read (m := m) hi (by
    intro i hi
    rw [List.mem_map] at hi
    obtain ⟨tr, htm, rfl⟩ := hi
    obtain ⟨x, hx, hxt⟩ := titleByArtist_any m l hc hb aid io' tr htm
    show Fits tr.title
    rw [← hxt]
    exact hs x.2 (hl ▸ List.mem_map_of_mem (f := (·.2)) hx)) tx' window hw more'
  refine ⟨reply, _, reply', _, e1, e2, e3, ?_⟩
  show ∀ x ∈ lines 0x04 _, _
  rw [lines_page]
  have e := itemLines_same 4 (fun t : Track => t.id) (fun t => t.title) (db.titleByArtist io' aid)
  rw [e]
  intro x hx
  rw [List.mem_map] at hx
  obtain ⟨tr, htr, rfl⟩ := hx
  -- the row is one of the scanned tracks
  unfold Db.titleByArtist at htr
  rw [List.mem_filter, List.mem_map] at htr
  obtain ⟨⟨row, hrow, hrt⟩, _⟩ := htr
  rw [(io'.perm _).mem_iff] at hrow
  have hcat : tr ∈ catalogTracks (l.map (·.2)) := by
    have : db.tracks.rows = keyed (·.id) (catalogTracks (l.map (·.2))) := by rw [← hb']; rfl
    rw [this] at hrow
    unfold keyed at hrow
    rw [List.mem_map] at hrow
    obtain ⟨y, hy, rfl⟩ := hrow
    exact hrt ▸ hy
  obtain ⟨k, hk, hkt⟩ := List.getElem_of_mem hcat
  have hk' : k < l.length := by simpa [catalogTracks] using hk
  have hid : tr.id = UInt32.ofNat (k + 2) := by rw [← hkt]; simp [catalogTracks]
  have htitle : tr.title = l[k].2.title := by rw [← hkt]; simp [catalogTracks]
  obtain ⟨_, _, _, _, h4⟩ := scanned_track_reachable m l hc hb k hk'
  have hmem : l[k].2 ∈ scan := by
    rw [← hl]
    exact List.mem_map_of_mem (f := (·.2)) (List.getElem_mem hk')
  rw [scan_result m root t scan hscan, List.mem_filterMap] at hmem
  obtain ⟨⟨path, f⟩, hp, hr⟩ := hmem
  obtain ⟨names, hf, hwt, rfl⟩ := (C24_selected_iff root t path f).1 hp
  refine ⟨names, f, l[k].2, hf, hwt, hr, htitle.symm, ?_⟩
  have hpath : l[k].2.path = pathBelow root names := by
    unfold record at hr
    split at hr
    · exact Option.some.inj hr ▸ rfl
    · exact nomatch hr
  rw [← hpath]
  show ∀ dmst path, _ → _ → MenuShows m db 0x2102 [.u32 dmst, .u32 tr.id] _
  rw [hid]
  exact h4

/-- A folder, its scan and a file that meet the hypotheses of `C66_file_reachable`. -/
example : ∃ (scan : List MetaTrack) (l : List (IterOrder × MetaTrack)) (db : Db) (names : List Bytes)
    (f : FileInfo) (r : MetaTrack), scanFolder .debug [0x2f, 0x6d] sampleTree = .ok scan ∧
    l.map (·.2) = scan ∧ l.length ≤ capacity ∧ Db.build .debug l = .ok db ∧
    (∀ x ∈ scan, Fits x.artist ∧ Fits x.title) ∧
    (names, f) ∈ allFiles sampleTree ∧ Wanted names ∧ record (pathBelow [0x2f, 0x6d] names) f = some r ∧
    fromUtf8 (pathBelow [0x2f, 0x6d] names) = some ("/m/a.mp3".toList) ∧
    Fits "/m/a.mp3".toList := by
  let r : MetaTrack := ⟨['A'], ['x'], some 12000, [], [0x2f, 0x6d, 0x2f, 0x61, 0x2e, 0x6d, 0x70, 0x33], 4⟩
  have hc : [((IterOrder.id, r) : IterOrder × MetaTrack)].length ≤ capacity := by decide
  refine ⟨[r], [(IterOrder.id, r)], _, [[0x6d], [0x61, 0x2e, 0x6d, 0x70, 0x33]],
    ⟨some ⟨some ['A'], some ['x'], none, some (.text ['1', '2', '0'])⟩, none, some 4294967300⟩, r,
    by decide +kernel, rfl, hc, build_catalog .debug _ hc, ?_, by simp [sampleTree, allFiles, allFilesIn],
    ?_, by decide +kernel, by decide +kernel, by unfold Fits; decide +kernel⟩
  · intro t ht
    simp only [List.mem_cons, List.not_mem_nil, or_false] at ht
    subst ht
    unfold Fits
    exact ⟨by decide, by decide⟩
  · refine ⟨?_, _, rfl, [0x61], by simp, rfl⟩
    intro n hn h
    simp only [List.mem_cons, List.not_mem_nil, or_false] at hn
    rcases hn with rfl | rfl <;> exact nomatch h.1

/-! ## C67: the path shown can be downloaded -/

variable {F : Type}

/-- Looking up the components of a path that is on disk is a walk to its file. -/
theorem walk_of_onDisk (w : World F) (md : Meta) (g : F) (done : List Str)
    (rs : List (LookupReq F)) (hne : rs ≠ []) (hc : ∀ r ∈ rs, Component r.name)
    (hw : ∀ r ∈ rs, r.world = w) (hh : ∀ r ∈ rs, r.fh.length = 32)
    (hd : OnDisk w (done ++ rs.map LookupReq.name) md g) : Walk (pathOf done) rs md g := by
  induction rs generalizing done with
  | nil => exact absurd rfl hne
  | cons r rs ih =>
    have hpath : ∀ n, pathOf done ++ '/' :: n = pathOf (done ++ [n]) := by
      intro n
      simp [pathOf]
    have e := hw r (by simp)
    cases rs with
    | nil =>
      obtain ⟨h1, h2, h3, h4, _⟩ := hd
      exact .last (hc r (by simp)) (hh r (by simp)) (by rw [hpath, e]; exact h1) h2 h3
        (by rw [hpath, e]; exact h4)
    | cons r' rs =>
      obtain ⟨dm, dg, g1, g2, g3, g4⟩ := hd.2.2.2.2 (done ++ [r.name])
        ((r' :: rs).map LookupReq.name) (by simp) (by simp) (by simp)
      refine .dir (hc r (by simp)) (hh r (by simp)) (by rw [hpath, e]; exact g1) g2 g3
        (by rw [hpath, e]; exact g4) ?_
      rw [hpath]
      refine ih (done ++ [r.name]) (by simp) (fun x hx => hc x (List.mem_cons_of_mem _ hx))
        (fun x hx => hw x (List.mem_cons_of_mem _ hx)) (fun x hx => hh x (List.mem_cons_of_mem _ hx)) ?_
      rw [List.append_assoc]
      exact hd

/-- C67: the mount info of a file shows a path and a size.  A player that splits this path into its
components, looks them up one by one in a fresh NFS session and then reads as many bytes as shown, in
blocks of any size up to 65404, gets exactly the contents of the file at that path, provided the
file is still on disk with the size it had when it was scanned. -/
theorem C67_shown_path_downloads (m : Mode) (root : Bytes) (t : Node) (scan : List MetaTrack)
    (hscan : scanFolder m root t = .ok scan) (l : List (IterOrder × MetaTrack))
    (hl : l.map (·.2) = scan) (hc : l.length ≤ capacity) {db : Db} (hb : Db.build m l = .ok db)
    (names : List Bytes) (f : FileInfo) (hf : (names, f) ∈ allFiles t)
    (hw : Wanted names) (r : MetaTrack) (hr : record (pathBelow root names) f = some r)
    (path : Str) (hp : fromUtf8 (pathBelow root names) = some path) (hs : Fits path) :
    ∃ tid : UInt32, ∀ dmst, MenuShows m db 0x2102 [.u32 dmst, .u32 tid] fun ms =>
      ∃ size shown, lines 0x00 ms = [(size, 5, shown)] ∧
        ∀ (rs : List (LookupReq F)) (w : World F) (md : Meta) (g : F) (content : F → Bytes),
          rs ≠ [] → (∀ x ∈ rs, Component x.name ∧ x.world = w ∧ x.fh.length = 32) →
          shown = pathOf (rs.map LookupReq.name) → OnDisk w (rs.map LookupReq.name) md g →
          FullReads w content → f.size = some (UInt64.ofNat (content g).length) →
          (content g).length < 4294967296 →
          ∀ (os : SendOs), AcceptsFitting os → ∀ (h : Hdr) (peer : Addr) (md' : Meta),
          w.fstat g = some md' → Dated md' → ∀ k, 0 < k → k ≤ 65404 →
          ∃ pieces : List Bytes,
            ((nfsRun .little .start (rs.map LookupReq.event ++
              ((List.range ((size.toNat + k - 1) / k)).map fun j =>
                ⟨w, os, .datagram (blockReq h md.ino size.toNat k j) peer⟩))).1.drop rs.length).map
              (fun x => (readData x.1, x.2)) = pieces.map (fun b => (some b, peer)) ∧
            pieces.flatten = content g := by
  obtain ⟨_, tid, _, _, _, h4⟩ := C66_file_reachable m root t scan hscan l hl hc hb names f hf hw
    r hr
  refine ⟨tid, fun dmst io io' ctx tx tx' more more' window hq => ?_⟩
  obtain ⟨reply, ctx', reply', msgs, e1, e2, e3, e4⟩ :=
    h4 dmst path hp hs io io' ctx tx tx' more more' window hq
  refine ⟨reply, ctx', reply', msgs, e1, e2, e3, r.size, path, e4, ?_⟩
  intro rs w md g content hne hrs _ hdisk hfull hsize hn os hos h peer md' hm hd k hk1 hk2
  have hwalk : Walk [] rs md g := walk_of_onDisk w md g [] rs hne (fun x hx => (hrs x hx).1)
    (fun x hx => (hrs x hx).2.1) (fun x hx => (hrs x hx).2.2) hdisk
  have hrs : r.size.toNat = (content g).length := by
    unfold record at hr
    split at hr
    · rename_i n _ hn'
      rw [hsize] at hn'
      obtain rfl := Option.some.inj hn'
      rw [← Option.some.inj hr]
      show (UInt32.ofNat (UInt64.ofNat (content g).length).toNat).toNat = _
      rw [UInt64.toNat_ofNat', UInt32.toNat_ofNat']
      omega
    · exact nomatch hr
  rw [hrs]
  exact C63_walk_and_download rs md g hwalk w os hos content hfull h peer md' hm hd k hk1 hk2 hn

/-- The sample file system has the file `/a/x`. -/
example : OnDisk sampleWorld [['a'], ['x']] (sampleMeta 3 true) 3 := by
  refine ⟨by decide, rfl, by simp [Dated, sampleMeta], by decide, ?_⟩
  intro dir rest h1 h2 h3
  cases dir with
  | nil => exact absurd rfl h1
  | cons a dir =>
    cases dir with
    | nil =>
      simp only [List.cons_append, List.nil_append, List.cons.injEq] at h3
      rw [← h3.1]
      exact ⟨sampleMeta 2 false, 2, by decide, rfl, by simp [Dated, sampleMeta], by decide⟩
    | cons b dir =>
      simp only [List.cons_append, List.cons.injEq] at h3
      obtain ⟨_, _, h3⟩ := h3
      exact absurd (List.append_eq_nil_iff.1 h3.symm).2 h2

end PDJ
