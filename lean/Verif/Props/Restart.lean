import Verif.Spec.Restart
import Verif.Spec.Stream
import Verif.Model.LibServer
import Verif.Props.EndToEnd

/-!
# Property C108: the numbers of the tracks across a restart
-/

namespace PDJ

open Spec

/-- The records of the files are what the scan returns. -/
theorem scan_music (m : Mode) (root : Bytes) (t : Node) (scan : List MetaTrack)
    (h : scanFolder m root t = .ok scan) : scan = musicOf root (allFiles t) := by
  classical
  rw [scan_result m root t scan h, libraryFiles, List.filterMap_map, List.filterMap_filter]
  unfold musicOf
  congr 1
  funext x
  by_cases hw : Wanted x.1 <;> simp [hw]

theorem musicOf_append (root : Bytes) (a b : List (List Bytes × FileInfo)) :
    musicOf root (a ++ b) = musicOf root a ++ musicOf root b := List.filterMap_append

theorem musicOf_cons (root : Bytes) (x : List Bytes × FileInfo) (b : List (List Bytes × FileInfo))
    (hw : Wanted x.1) {r : MetaTrack} (hr : record (pathBelow root x.1) x.2 = some r) :
    musicOf root (x :: b) = r :: musicOf root b := by
  unfold musicOf
  rw [List.filterMap_cons_some (by rw [if_pos hw]; exact hr)]

/-- A started library is the catalogue of the files. -/
theorem started_catalog {m : Mode} {root : Bytes} {t : Node} {db : Db} (h : StartedOn m root t db) :
    db = catalogDb (musicOf root (allFiles t)) ∧ (musicOf root (allFiles t)).length ≤ capacity := by
  obtain ⟨l, hs, hc, hb⟩ := h
  rw [build_catalog m l hc, Outcome.ok.injEq] at hb
  rw [← scan_music m root t _ hs]
  exact ⟨hb.symm, by simpa using hc⟩

/-- The library does not depend on the albums. -/
theorem catalogDb_exceptAlbum (ts : List MetaTrack) :
    catalogDb (ts.map exceptAlbum) = catalogDb ts := by
  have h1 : artistNames (ts.map exceptAlbum) = artistNames ts := by
    unfold artistNames
    rw [List.map_map]
    rfl
  have h2 : catalogArtists (ts.map exceptAlbum) = catalogArtists ts := by
    unfold catalogArtists
    rw [h1]
  have h3 : catalogTracks (ts.map exceptAlbum) = catalogTracks ts := by
    apply List.ext_getElem (by simp [catalogTracks])
    intro i _ _
    simp [catalogTracks, artistIdOf, h1, exceptAlbum]
  unfold catalogDb
  rw [h1, h2, h3, List.length_map]

/-- C108: if the music files, apart from their albums, are the same in the same order, every session
goes the same before and after a restart, whatever the hash orders while the library was built and
whatever other files there are.  The full claim (any folder) is false: see `C108_earlier_file` and
`C108_other_order`. -/
theorem C108_unchanged_folder_partial (m : Mode) (root : Bytes) (t t' : Node)
    (ht : (musicOf root (allFiles t')).map exceptAlbum = (musicOf root (allFiles t)).map exceptAlbum)
    {db db' : Db} (h : StartedOn m root t db) (h' : StartedOn m root t' db') (c : Conn)
    (xs : List (IterOrder × Bytes)) : connRun m db' c xs = connRun m db c xs := by
  rw [(started_catalog h).1, (started_catalog h').1, ← catalogDb_exceptAlbum, ht,
    catalogDb_exceptAlbum]

/-- A player that asks for a menu and renders it sees the same in two libraries, if every session
goes the same. -/
theorem same_menu (m : Mode) {db db' : Db} {q : Msg} (hq : Sendable q) {menu : Menu}
    (hm : menuOf q = some menu) (hn : menu ≠ .titles)
    (hall : ∀ xs, connRun m db' (.open none) xs = connRun m db (.open none) xs)
    {items' : List Item} (hi' : menuItems .id db' menu = some items')
    (hf' : ∀ i ∈ items', Fits i.text) : ∃ items, menuItems .id db menu = some items ∧
      ((∀ i ∈ items, Fits i.text) → ∀ kind, itemLines kind items = itemLines kind items') := by
  obtain ⟨r1, e1, _⟩ := menu_request m .id db q hq [] none hm hn
  obtain ⟨r2, e2, _⟩ := menu_request m .id db' q hq [] none hm hn
  have hw : Sendable ⟨0, 0x3000, []⟩ := ⟨by simp, by simp⟩
  obtain ⟨p', f1', f2'⟩ := render_read (m := m) hi' hf' 0 [] hw []
  have hr := render_read_iff m .id db 0 [] hw [] menu
  have hx := hall [(.id, writeMsg q ++ []), (.id, writeMsg ⟨0, 0x3000, []⟩ ++ [])]
  simp only [connRun, connStep, e1, e2, f1'] at hx
  cases hi : menuItems .id db menu with
  | none =>
    rw [hi] at hr
    simp only at hr
    simp only [hr, Prod.mk.injEq] at hx
    exact nomatch hx.2
  | some items =>
    rw [hi] at hr
    obtain ⟨p, f1, f2⟩ := hr
    simp only [f1, Prod.mk.injEq, List.cons.injEq, Option.some.injEq] at hx
    refine ⟨items, rfl, fun hf kind => ?_⟩
    have g := f2.2 hf
    rw [← hx.1.2.1, f2', Option.some.injEq] at g
    rw [← lines_page kind 0 (footerOf menu), ← lines_page kind 0 (footerOf menu), g]

/-- Every record of one library is at the same place in the other, if every session goes the same. -/
theorem same_record (m : Mode) {l l' : List MetaTrack} (hl : l.length ≤ capacity)
    (hl' : l'.length ≤ capacity) (hf : AllFit l) (hf' : AllFit l')
    (hall : ∀ xs, connRun m (catalogDb l') (.open none) xs =
      connRun m (catalogDb l) (.open none) xs) (k : Nat) (hk : k < l'.length) :
    ∃ hk' : k < l.length, shownOf l[k] = shownOf l'[k] := by
  have build : ∀ a : List MetaTrack, a.length ≤ capacity →
      Db.build m (a.map fun x => (IterOrder.id, x)) = .ok (catalogDb a) := by
    intro a ha
    rw [build_catalog m _ (by simpa using ha)]
    simp [Function.comp_def]
  obtain ⟨g1, g2⟩ := C20_tracks_retrievable m _ (by simpa using hl) (build l hl)
  obtain ⟨g1', -⟩ := C20_tracks_retrievable m _ (by simpa using hl') (build l' hl')
  have hs : ∀ (ty : UInt16) (id : UInt32), Sendable ⟨0, ty, [.u32 0, .u32 id]⟩ := by
    intro ty id
    refine ⟨by simp, ?_⟩
    intro v hv
    simp only [List.mem_cons, List.not_mem_nil, or_false] at hv
    rcases hv with rfl | rfl <;> trivial
  obtain ⟨tr', t1', _, t3', t4', t5', t6', t7'⟩ := g1' k (by simpa using hk)
  simp only [List.getElem_map] at t3' t4' t5' t6' t7'
  obtain ⟨fa', ft', path', fp', fq'⟩ := hf' _ (List.getElem_mem hk)
  have hm' : menuItems .id (catalogDb l') (.metadata (UInt32.ofNat (k + 2))) = menuItems .id
      (catalogDb l') (.metadata (UInt32.ofNat (k + 2))) := rfl
  conv_rhs at hm' => simp only [menuItems, t1', Option.bind_eq_bind, Option.bind_some, t7']
  have empty : Fits [] := by unfold Fits; decide
  obtain ⟨items, i1, i2⟩ := same_menu m (hs 0x2002 _) rfl (nomatch ·) hall hm' (by
    intro i hi
    simp only [List.mem_cons, List.not_mem_nil, or_false] at hi
    rcases hi with rfl | rfl | rfl | rfl | rfl | rfl | rfl | rfl | rfl | rfl <;>
      first | exact empty | (rw [t3']; exact ft') | exact fa')
  have hk' : k < l.length := by
    by_contra hno
    have := g2 (UInt32.ofNat (k + 2)) (by
      intro j hj he
      have he := congrArg UInt32.toNat he
      simp only [List.length_map] at hj
      simp only [capacity] at hl'
      rw [UInt32.toNat_ofNat', UInt32.toNat_ofNat', Nat.mod_eq_of_lt (by omega),
        Nat.mod_eq_of_lt (by omega)] at he
      omega)
    simp only [menuItems, this, Option.bind_eq_bind, Option.bind_none] at i1
    exact nomatch i1
  refine ⟨hk', ?_⟩
  obtain ⟨tr, t1, _, t3, t4, t5, t6, t7⟩ := g1 k (by simpa using hk')
  simp only [List.getElem_map] at t3 t4 t5 t6 t7
  obtain ⟨fa, ft, path, fp, fq⟩ := hf _ (List.getElem_mem hk')
  simp only [menuItems, t1, Option.bind_eq_bind, Option.bind_some, t7, Option.some.injEq] at i1
  subst i1
  have i2 := i2 (by
    intro i hi
    simp only [List.mem_cons, List.not_mem_nil, or_false] at hi
    rcases hi with rfl | rfl | rfl | rfl | rfl | rfl | rfl | rfl | rfl | rfl <;>
      first | exact empty | (rw [t3]; exact ft) | exact fa)
  have j4 := i2 4
  have j7 := i2 7
  have jd := i2 0x0d
  have hp' : menuItems .id (catalogDb l') (.mountInfo (UInt32.ofNat (k + 2))) = menuItems .id
      (catalogDb l') (.mountInfo (UInt32.ofNat (k + 2))) := rfl
  conv_rhs at hp' => simp only [menuItems, t1', Option.bind_eq_bind, Option.bind_some, t4', fp']
  have loop : Fits "Tracks by www.loopmasters.com".toList := by unfold Fits; decide +kernel
  obtain ⟨items, i1, i3⟩ := same_menu m (hs 0x2102 _) rfl (nomatch ·) hall hp' (by
    intro i hi
    simp only [List.mem_cons, List.not_mem_nil, or_false] at hi
    rcases hi with rfl | rfl | rfl | rfl | rfl | rfl <;>
      first | exact empty | exact loop | exact fq')
  simp only [menuItems, t1, Option.bind_eq_bind, Option.bind_some, t4, fp, Option.some.injEq] at i1
  subst i1
  have j0 := i3 (by
    intro i hi
    simp only [List.mem_cons, List.not_mem_nil, or_false] at hi
    rcases hi with rfl | rfl | rfl | rfl | rfl | rfl <;>
      first | exact empty | exact loop | exact fq) 0
  simp [itemLines] at j0 j4 j7 jd
  have pe : l[k].path = l'[k].path := by
    rw [← utf8_fromUtf8 fp, ← utf8_fromUtf8 fp', j0.2]
  unfold shownOf
  rw [pe, ← t3, ← t3', ← t5, ← t5', ← t6, ← t6']
  simp_all

/-- C108: and only then: if every session goes the same after the restart, the same music files are
there in the same order, as far as a player can see: artist, title, tempo, path and size. -/
theorem C108_only_unchanged (m : Mode) (root : Bytes) (t t' : Node) {db db' : Db}
    (h : StartedOn m root t db) (h' : StartedOn m root t' db')
    (hf : AllFit (musicOf root (allFiles t))) (hf' : AllFit (musicOf root (allFiles t')))
    (hall : ∀ xs, connRun m db' (.open none) xs = connRun m db (.open none) xs) :
    (musicOf root (allFiles t')).map shownOf = (musicOf root (allFiles t)).map shownOf := by
  obtain ⟨rfl, hl⟩ := started_catalog h
  obtain ⟨rfl, hl'⟩ := started_catalog h'
  generalize musicOf root (allFiles t) = l at *
  generalize musicOf root (allFiles t') = l' at *
  have f := same_record m hl hl' hf hf' hall
  have g := same_record m hl' hl hf' hf (fun xs => (hall xs).symm)
  apply List.ext_getElem
  · simp only [List.length_map]
    apply Nat.le_antisymm
    · by_contra hn
      obtain ⟨hk, _⟩ := f l.length (by omega)
      omega
    · by_contra hn
      obtain ⟨hk, _⟩ := g l'.length (by omega)
      omega
  · intro i h1 h2
    simp only [List.length_map] at h1 h2
    obtain ⟨_, e⟩ := f i h1
    simpa using e.symm

/-- C108: the number of a track is its place among the music files of the walk, counted from 2. -/
theorem C108_number_is_place (m : Mode) (root : Bytes) (t : Node) {db : Db}
    (h : StartedOn m root t db) (a b : List MetaTrack) (r : MetaTrack)
    (hm : musicOf root (allFiles t) = a ++ r :: b) (path : Str)
    (hp : fromUtf8 r.path = some path) (hf : Fits path) :
    LeadsTo m db (UInt32.ofNat (a.length + 2)) path r.size := by
  obtain ⟨l, hs, hc, hb⟩ := h
  have e := scan_music m root t _ hs
  rw [hm] at e
  have hlen : l.length = a.length + (b.length + 1) := by simpa using congrArg List.length e
  have hk : a.length < l.length := by omega
  have hr : l[a.length].2 = r := by
    have h1 : (l.map (·.2))[a.length]? = some r := by rw [e]; simp
    rw [List.getElem?_map, List.getElem?_eq_getElem hk] at h1
    exact Option.some.inj h1
  obtain ⟨_, _, _, _, h4⟩ := scanned_track_reachable m l hc hb a.length hk
  rw [hr] at h4
  intro dmst
  exact h4 dmst path hp hf

/-- Where a number leads in a catalogue: to the file at its place. -/
theorem leadsTo_iff (m : Mode) (l : List MetaTrack) (hl : l.length ≤ capacity) (hf : AllFit l)
    (id : UInt32) (p : Str) (size : UInt32) : LeadsTo m (catalogDb l) id p size ↔
      ∃ k, id = UInt32.ofNat (k + 2) ∧ ∃ hk : k < l.length,
        fromUtf8 l[k].path = some p ∧ l[k].size = size := by
  have hb : Db.build m (l.map fun x => (IterOrder.id, x)) = .ok (catalogDb l) := by
    rw [build_catalog m _ (by simpa using hl)]
    simp [Function.comp_def]
  have reach : ∀ (k : Nat) (hk : k < l.length), ∀ path, fromUtf8 l[k].path = some path →
      LeadsTo m (catalogDb l) (UInt32.ofNat (k + 2)) path l[k].size := by
    intro k hk path hp dmst
    obtain ⟨_, _, _, _, h4⟩ := scanned_track_reachable m _ (by simpa using hl) hb k (by simpa using hk)
    simp only [List.getElem_map] at h4
    obtain ⟨_, _, path', fp, fq⟩ := hf _ (List.getElem_mem hk)
    obtain rfl := Option.some.inj (hp.symm.trans fp)
    exact h4 dmst path hp fq
  constructor
  · intro h
    have hw : Sendable ⟨0, 0x3000, []⟩ := ⟨by simp, by simp⟩
    have hq : Sendable ⟨0, 0x2102, [.u32 0, .u32 id]⟩ := by
      refine ⟨by simp, ?_⟩
      intro v hv
      simp only [List.mem_cons, List.not_mem_nil, or_false] at hv
      rcases hv with rfl | rfl <;> trivial
    obtain ⟨reply, ctx', reply', msgs, e1, e2, e3, e4⟩ := h 0 .id .id none 0 0 [] [] [] hw
    by_cases hk : ∃ k < l.length, id = UInt32.ofNat (k + 2)
    · obtain ⟨k, hk, rfl⟩ := hk
      obtain ⟨_, _, path, fp, fq⟩ := hf _ (List.getElem_mem hk)
      obtain ⟨_, _, _, _, f1, f2, f3, f4⟩ := reach k hk path fp 0 .id .id none 0 0 [] [] [] hw
      rw [e1, Outcome.ok.injEq, Prod.mk.injEq] at f1
      obtain ⟨rfl, rfl⟩ := f1
      rw [e2, Outcome.ok.injEq, Prod.mk.injEq] at f2
      obtain ⟨rfl, -⟩ := f2
      obtain rfl := Option.some.inj (e3.symm.trans f3)
      rw [e4] at f4
      simp only [List.cons.injEq, Prod.mk.injEq, and_true, true_and] at f4
      exact ⟨k, rfl, hk, by rw [fp, f4.2], f4.1.symm⟩
    · exfalso
      have hn := (C20_tracks_retrievable m _ (by simpa using hl) hb).2 id (by
        intro k hk' he
        exact hk ⟨k, by simpa using hk', he⟩)
      obtain ⟨r1, g1, _⟩ := menu_request m .id (catalogDb l) _ hq [] none (menu := .mountInfo id) rfl
        (nomatch ·)
      rw [g1, Outcome.ok.injEq, Prod.mk.injEq] at e1
      obtain ⟨-, rfl⟩ := e1
      have hr := render_read_iff m .id (catalogDb l) 0 [] hw [] (.mountInfo id)
      have hi : menuItems .id (catalogDb l) (.mountInfo id) = none := by
        simp only [menuItems, hn, Option.bind_eq_bind, Option.bind_none]
      rw [hi] at hr
      exact absurd (e2.symm.trans hr) (nomatch ·)
  · rintro ⟨k, rfl, hk, hp, rfl⟩
    exact reach k hk p hp

/-- C108, exactly: every number keeps leading to its file if and only if the music files there were
are the first ones met by the new walk, in the same order and with the same sizes. -/
theorem C108_numbers_kept_iff (m : Mode) (root : Bytes) (t t' : Node) {db db' : Db}
    (h : StartedOn m root t db) (h' : StartedOn m root t' db')
    (hf : AllFit (musicOf root (allFiles t))) (hf' : AllFit (musicOf root (allFiles t'))) :
    (∀ id p size, LeadsTo m db id p size → LeadsTo m db' id p size) ↔
      (musicOf root (allFiles t)).map (fun r => (r.path, r.size)) <+:
        (musicOf root (allFiles t')).map (fun r => (r.path, r.size)) := by
  obtain ⟨rfl, hl⟩ := started_catalog h
  obtain ⟨rfl, hl'⟩ := started_catalog h'
  generalize musicOf root (allFiles t) = l at *
  generalize musicOf root (allFiles t') = l' at *
  constructor
  · intro hall
    have each : ∀ (k : Nat) (hk : k < l.length), ∃ hk' : k < l'.length,
        l'[k].path = l[k].path ∧ l'[k].size = l[k].size := by
      intro k hk
      obtain ⟨_, _, path, fp, fq⟩ := hf _ (List.getElem_mem hk)
      have := hall _ _ _ ((leadsTo_iff m l hl hf _ _ _).2 ⟨k, rfl, hk, fp, rfl⟩)
      obtain ⟨j, hj, hj', fp', hs⟩ := (leadsTo_iff m l' hl' hf' _ _ _).1 this
      have he := congrArg UInt32.toNat hj
      simp only [capacity] at hl hl'
      rw [UInt32.toNat_ofNat', UInt32.toNat_ofNat', Nat.mod_eq_of_lt (by omega),
        Nat.mod_eq_of_lt (by omega)] at he
      obtain rfl : k = j := by omega
      exact ⟨hj', by rw [← utf8_fromUtf8 fp, ← utf8_fromUtf8 fp'], hs⟩
    rw [List.prefix_iff_getElem?]
    intro i hi
    simp only [List.length_map] at hi
    obtain ⟨hk', e1, e2⟩ := each i hi
    rw [List.getElem?_map, List.getElem?_eq_getElem hk']
    simp [e1, e2]
  · intro hp id p size hid
    obtain ⟨k, rfl, hk, fp, rfl⟩ := (leadsTo_iff m l hl hf _ _ _).1 hid
    have hlen := hp.length_le
    simp only [List.length_map] at hlen
    have e := List.prefix_iff_getElem?.1 hp k (by simpa using hk)
    rw [List.getElem?_map, List.getElem?_eq_getElem (by omega)] at e
    simp only [List.getElem_map, Option.map_some, Option.some.injEq, Prod.mk.injEq] at e
    exact (leadsTo_iff m l' hl' hf' _ _ _).2 ⟨k, rfl, by omega, by rw [e.1, fp], e.2⟩

/-- The menus about one track are the same in two libraries that have the same track and artist. -/
theorem track_menus_shown (m : Mode) {db db' : Db} {type : UInt16} {id : UInt32}
    (ht : type = 0x2002 ∨ type = 0x2102) {tr : Track} (h : db.getTrack id = some tr)
    (h' : db'.getTrack id = some tr) (ha : db'.getArtist tr.artistId = db.getArtist tr.artistId)
    (dmst : UInt32) (P : List Msg → Prop) (hs : MenuShows m db type [.u32 dmst, .u32 id] P) :
    MenuShows m db' type [.u32 dmst, .u32 id] P := by
  intro io io' ctx tx tx' more more' window hw
  obtain ⟨reply, ctx', reply', msgs, e1, e2, e3, e4⟩ := hs io io' ctx tx tx' more more' window hw
  have hq : Sendable ⟨tx, type, [.u32 dmst, .u32 id]⟩ := by
    refine ⟨by simp, ?_⟩
    intro v hv
    simp only [List.mem_cons, List.not_mem_nil, or_false] at hv
    rcases hv with rfl | rfl <;> trivial
  obtain ⟨menu, hmenu, hne, hitems⟩ : ∃ menu, menuOf ⟨tx, type, [.u32 dmst, .u32 id]⟩ = some menu ∧
      menu ≠ .titles ∧ menuItems io' db' menu = menuItems io' db menu := by
    rcases ht with rfl | rfl
    · exact ⟨.metadata id, rfl, (nomatch ·), by
        simp only [menuItems, h, h', Option.bind_eq_bind, Option.bind_some, ha]⟩
    · exact ⟨.mountInfo id, rfl, (nomatch ·), by simp only [menuItems, h, h']⟩
  obtain ⟨r1, f1, _⟩ := menu_request m io db _ hq more ctx hmenu hne
  obtain ⟨r2, f2, _⟩ := menu_request m io db' _ hq more ctx hmenu hne
  rw [f1, Outcome.ok.injEq, Prod.mk.injEq] at e1
  obtain ⟨rfl, rfl⟩ := e1
  refine ⟨r2, _, reply', msgs, f2, ?_, e3, e4⟩
  rw [← e2, process_writeMsg m io' db' _ hw, process_writeMsg m io' db _ hw]
  have e : ReqType.new 0x3000 = .render := rfl
  simp only [e, getController, handleSequence, respond, renderMessages_eq, hitems]

/-- C108: files that come later in the walk than everything there was change nothing about a track:
each old number shows what it showed, in the metadata and in the mount info. -/
theorem C108_later_files (m : Mode) (root : Bytes) (t t' : Node)
    (more : List (List Bytes × FileInfo)) (ht : allFiles t' = allFiles t ++ more) {db db' : Db}
    (h : StartedOn m root t db) (h' : StartedOn m root t' db') (id : UInt32)
    (hid : ∃ tr, db.getTrack id = some tr) (type : UInt16) (hty : type = 0x2002 ∨ type = 0x2102)
    (dmst : UInt32) (P : List Msg → Prop) (hs : MenuShows m db type [.u32 dmst, .u32 id] P) :
    MenuShows m db' type [.u32 dmst, .u32 id] P := by
  obtain ⟨tr, htr⟩ := hid
  obtain ⟨e, he⟩ := started_catalog h
  obtain ⟨e', he'⟩ := started_catalog h'
  rw [ht, musicOf_append] at e' he'
  generalize musicOf root (allFiles t) = a at *
  generalize musicOf root more = b at *
  have hb : Db.build m (a.map fun x => (IterOrder.id, x)) = .ok db := by
    rw [build_catalog m _ (by simpa using he), e]
    simp [Function.comp_def]
  have hb' : Db.build m ((a.map fun x => (IterOrder.id, x)) ++ b.map fun x => (IterOrder.id, x)) =
      .ok db' := by
    rw [build_catalog m _ (by simpa using he'), e']
    simp [Function.comp_def]
  obtain ⟨_, _, k1, k2⟩ := C22_ids_dense_and_stable m _ _ (by simpa using he') hb hb'
  have hart : ∃ art, db.getArtist tr.artistId = some art := by
    obtain ⟨g1, g2⟩ := C20_tracks_retrievable m _ (by simpa using he) hb
    rcases Classical.em (∃ k < (a.map fun x => (IterOrder.id, x)).length, id = UInt32.ofNat (k + 2))
      with ⟨k, hk, rfl⟩ | hno
    · obtain ⟨tr', j1, _, _, _, _, _, j2⟩ := g1 k hk
      obtain rfl := Option.some.inj (htr.symm.trans j1)
      exact ⟨_, j2⟩
    · have := g2 id (fun k hk he => hno ⟨k, hk, he⟩)
      rw [htr] at this
      exact nomatch this
  obtain ⟨art, hart⟩ := hart
  exact track_menus_shown m hty htr (k1 id tr htr) (by rw [hart, k2 _ _ hart]) dmst P hs

/-- C108, against the full claim: one music file that comes earlier in the walk moves the number of
every file behind it.  The number that led to the `k`-th of them leads to the file before it. -/
theorem C108_earlier_file (m : Mode) (root : Bytes) (t t' : Node)
    (A B : List (List Bytes × FileInfo)) (x : List Bytes × FileInfo)
    (ht : allFiles t = A ++ B) (ht' : allFiles t' = A ++ x :: B) (hx : Wanted x.1) (r : MetaTrack)
    (hr : record (pathBelow root x.1) x.2 = some r) {db db' : Db}
    (h : StartedOn m root t db) (h' : StartedOn m root t' db')
    (hd : ((musicOf root (allFiles t')).map (·.path)).Nodup)
    (k : Nat) (new old : MetaTrack) (hold : (musicOf root B)[k]? = some old)
    (hnew : (r :: musicOf root B)[k]? = some new) (p p' : Str)
    (hp : fromUtf8 old.path = some p) (hf : Fits p)
    (hp' : fromUtf8 new.path = some p') (hf' : Fits p') :
    ∃ id, LeadsTo m db id p old.size ∧ LeadsTo m db' id p' new.size ∧ p ≠ p' := by
  have e : musicOf root (allFiles t) = musicOf root A ++ musicOf root B := by
    rw [ht, musicOf_append]
  have e' : musicOf root (allFiles t') = musicOf root A ++ r :: musicOf root B := by
    rw [ht', musicOf_append, musicOf_cons root x B hx hr]
  generalize musicOf root A = a at *
  generalize musicOf root B = b at *
  have cut : ∀ (l : List MetaTrack) (y : MetaTrack), l[k]? = some y →
      l = l.take k ++ y :: l.drop (k + 1) ∧ (l.take k).length = k := by
    intro l y hy
    obtain ⟨hk, rfl⟩ := List.getElem?_eq_some_iff.1 hy
    refine ⟨?_, by simp; omega⟩
    rw [← List.drop_eq_getElem_cons hk, List.take_append_drop]
  obtain ⟨c1, l1⟩ := cut _ _ hold
  obtain ⟨c2, l2⟩ := cut _ _ hnew
  refine ⟨UInt32.ofNat (a.length + k + 2), ?_, ?_, ?_⟩
  · have := C108_number_is_place m root t h (a ++ b.take k) (b.drop (k + 1)) old
      (by rw [e, List.append_assoc, ← c1]) p hp hf
    rwa [List.length_append, l1] at this
  · have := C108_number_is_place m root t' h' (a ++ (r :: b).take k) ((r :: b).drop (k + 1)) new
      (by rw [e', List.append_assoc, ← c2]) p' hp' hf'
    rwa [List.length_append, l2] at this
  · rintro rfl
    have hpe : old.path = new.path := (utf8_fromUtf8 hp).symm.trans (utf8_fromUtf8 hp')
    rw [e', List.map_append, List.nodup_append] at hd
    have hn := hd.2.1
    have h1 : ((r :: b).map (·.path))[k]? = some new.path := by rw [List.getElem?_map, hnew]; rfl
    have h2 : ((r :: b).map (·.path))[k + 1]? = some new.path := by
      rw [List.getElem?_map, List.getElem?_cons_succ, hold, ← hpe]; rfl
    obtain ⟨i1, j1⟩ := List.getElem?_eq_some_iff.1 h1
    obtain ⟨i2, j2⟩ := List.getElem?_eq_some_iff.1 h2
    have := (List.getElem_inj hn).1 (j1.trans j2.symm)
    omega

/-- C108, against the full claim: nothing about the files changed except the order in which the
file system lists two of them, and each has the number of the other. -/
theorem C108_other_order (m : Mode) (root : Bytes) (t t' : Node)
    (A B : List (List Bytes × FileInfo)) (x y : List Bytes × FileInfo)
    (ht : allFiles t = A ++ x :: y :: B) (ht' : allFiles t' = A ++ y :: x :: B)
    (hx : Wanted x.1) (hy : Wanted y.1) (r s : MetaTrack)
    (hr : record (pathBelow root x.1) x.2 = some r) (hs : record (pathBelow root y.1) y.2 = some s)
    {db db' : Db} (h : StartedOn m root t db) (h' : StartedOn m root t' db') (p q : Str)
    (hp : fromUtf8 r.path = some p) (hf : Fits p) (hq : fromUtf8 s.path = some q) (hg : Fits q) :
    ∃ i j, LeadsTo m db i p r.size ∧ LeadsTo m db j q s.size ∧
      LeadsTo m db' i q s.size ∧ LeadsTo m db' j p r.size := by
  have e : musicOf root (allFiles t) = musicOf root A ++ r :: s :: musicOf root B := by
    rw [ht, musicOf_append, musicOf_cons root x _ hx hr, musicOf_cons root y _ hy hs]
  have e' : musicOf root (allFiles t') = musicOf root A ++ s :: r :: musicOf root B := by
    rw [ht', musicOf_append, musicOf_cons root y _ hy hs, musicOf_cons root x _ hx hr]
  have g1 := C108_number_is_place m root t h _ _ r e p hp hf
  have g2 := C108_number_is_place m root t' h' _ _ s e' q hq hg
  have g3 := C108_number_is_place m root t h (musicOf root A ++ [r]) (musicOf root B) s
    (by rw [e]; simp) q hq hg
  have g4 := C108_number_is_place m root t' h' (musicOf root A ++ [s]) (musicOf root B) r
    (by rw [e']; simp) p hp hf
  have hl : (musicOf root A ++ [r]).length = (musicOf root A ++ [s]).length := by simp
  rw [hl] at g3
  exact ⟨_, _, g1, g3, g2, g4⟩

/-! ## The situations occur -/

/-- A tagged file with the name `c.mp3`. -/
def songFile (c : UInt8) : Node :=
  .file [c, 0x2e, 0x6d, 0x70, 0x33] ⟨some ⟨some ['A'], some ['x'], none, none⟩, none, some 7⟩

/-- Its record below `/m`. -/
def songRecord (c : UInt8) : MetaTrack :=
  ⟨['A'], ['x'], none, [], [0x2f, 0x6d, 0x2f, c, 0x2e, 0x6d, 0x70, 0x33], 7⟩

/-- The folder `/m` with such files. -/
def songFolder (cs : List UInt8) : Node := .dir [0x6d] (cs.map songFile)

/-- The files of the folder. -/
def songPlace (c : UInt8) : List Bytes × FileInfo :=
  ([[0x6d], [c, 0x2e, 0x6d, 0x70, 0x33]], ⟨some ⟨some ['A'], some ['x'], none, none⟩, none, some 7⟩)

theorem songFolder_files (cs : List UInt8) : allFiles (songFolder cs) = cs.map songPlace := by
  unfold songFolder
  rw [allFiles]
  induction cs with
  | nil => rfl
  | cons c cs ih =>
    rw [List.map_cons, allFilesIn, List.map_append, ih]
    rfl

theorem songPlace_wanted (c : UInt8) (hc : c ≠ 0x2e) : Wanted (songPlace c).1 := by
  refine ⟨?_, _, rfl, [c], (nomatch ·), rfl⟩
  intro n hn
  simp only [songPlace, List.mem_cons, List.not_mem_nil, or_false] at hn
  rcases hn with rfl | rfl
  · rintro ⟨h, _⟩; exact absurd h (by decide)
  · rintro ⟨h, _⟩
    exact hc (Option.some.inj h)

theorem songFolder_started (cs : List UInt8) (hl : cs.length ≤ capacity) :
    ∃ db, StartedOn .release [0x2f, 0x6d] (songFolder cs) db := by
  classical
  have hs := C24_scan_selects_wanted_files [0x2f, 0x6d] (songFolder cs)
  have hm := scan_music _ _ _ _ hs
  generalize (libraryFiles [0x2f, 0x6d] (songFolder cs)).filterMap _ = scan at hs hm
  have hlen : scan.length ≤ capacity := by
    rw [hm, songFolder_files]
    refine Nat.le_trans (List.length_filterMap_le _ _) (by simpa using hl)
  refine ⟨_, scan.map fun x => (IterOrder.id, x), ?_, by simpa using hlen,
    build_catalog .release _ (by simpa using hlen)⟩
  rw [hs]
  simp [Function.comp_def]

/-- A file `a.mp3` appears before `b.mp3`: the number of `b.mp3` now leads to `a.mp3`. -/
example : ∃ db db' id, StartedOn .release [0x2f, 0x6d] (songFolder [0x62]) db ∧
    StartedOn .release [0x2f, 0x6d] (songFolder [0x61, 0x62]) db' ∧
    LeadsTo .release db id "/m/b.mp3".toList 7 ∧ LeadsTo .release db' id "/m/a.mp3".toList 7 := by
  obtain ⟨db, h⟩ := songFolder_started [0x62] (by decide)
  obtain ⟨db', h'⟩ := songFolder_started [0x61, 0x62] (by decide)
  have hb : musicOf [0x2f, 0x6d] [songPlace 0x62] = [songRecord 0x62] :=
    musicOf_cons _ _ _ (songPlace_wanted _ (by decide)) rfl
  have hab : musicOf [0x2f, 0x6d] [songPlace 0x61, songPlace 0x62] =
      [songRecord 0x61, songRecord 0x62] := by
    rw [musicOf_cons _ _ _ (songPlace_wanted _ (by decide)) (r := songRecord 0x61) rfl, hb]
  obtain ⟨id, g1, g2, _⟩ := C108_earlier_file .release [0x2f, 0x6d] (songFolder [0x62])
    (songFolder [0x61, 0x62]) [] [songPlace 0x62] (songPlace 0x61) (songFolder_files _)
    (songFolder_files _) (songPlace_wanted _ (by decide)) (songRecord 0x61) rfl h h'
    (by rw [songFolder_files]; show (List.map _ (musicOf _ [songPlace 0x61, songPlace 0x62])).Nodup
        rw [hab]; decide)
    0 (songRecord 0x61) (songRecord 0x62) (by rw [hb]; rfl) rfl "/m/b.mp3".toList
    "/m/a.mp3".toList (by decide +kernel) (by unfold Fits; decide +kernel)
    (by decide +kernel) (by unfold Fits; decide +kernel)
  exact ⟨db, db', id, h, h', g1, g2⟩

/-- The same two files, listed in the other order. -/
example : ∃ db db' i j, StartedOn .release [0x2f, 0x6d] (songFolder [0x62, 0x61]) db ∧
    StartedOn .release [0x2f, 0x6d] (songFolder [0x61, 0x62]) db' ∧
    LeadsTo .release db i "/m/b.mp3".toList 7 ∧ LeadsTo .release db j "/m/a.mp3".toList 7 ∧
    LeadsTo .release db' i "/m/a.mp3".toList 7 ∧ LeadsTo .release db' j "/m/b.mp3".toList 7 := by
  obtain ⟨db, h⟩ := songFolder_started [0x62, 0x61] (by decide)
  obtain ⟨db', h'⟩ := songFolder_started [0x61, 0x62] (by decide)
  obtain ⟨i, j, g⟩ := C108_other_order .release [0x2f, 0x6d] (songFolder [0x62, 0x61])
    (songFolder [0x61, 0x62]) [] [] (songPlace 0x62) (songPlace 0x61) (songFolder_files _)
    (songFolder_files _) (songPlace_wanted _ (by decide)) (songPlace_wanted _ (by decide))
    (songRecord 0x62) (songRecord 0x61) rfl rfl h h' "/m/b.mp3".toList
    "/m/a.mp3".toList (by decide +kernel) (by unfold Fits; decide +kernel)
    (by decide +kernel) (by unfold Fits; decide +kernel)
  exact ⟨db, db', i, j, h, h', g⟩

/-- A file that comes after the others leaves their numbers alone. -/
example : ∃ db db', StartedOn .release [0x2f, 0x6d] (songFolder [0x61]) db ∧
    StartedOn .release [0x2f, 0x6d] (songFolder [0x61, 0x62]) db' ∧
    LeadsTo .release db 2 "/m/a.mp3".toList 7 ∧ LeadsTo .release db' 2 "/m/a.mp3".toList 7 := by
  obtain ⟨db, h⟩ := songFolder_started [0x61] (by decide)
  obtain ⟨db', h'⟩ := songFolder_started [0x61, 0x62] (by decide)
  have ha : musicOf [0x2f, 0x6d] (allFiles (songFolder [0x61])) = [songRecord 0x61] := by
    rw [songFolder_files]
    exact musicOf_cons _ _ _ (songPlace_wanted _ (by decide)) rfl
  have g := C108_number_is_place .release _ _ h [] [] (songRecord 0x61) ha "/m/a.mp3".toList
    (by decide +kernel) (by unfold Fits; decide +kernel)
  refine ⟨db, db', h, h', g, fun dmst => ?_⟩
  refine C108_later_files .release [0x2f, 0x6d] (songFolder [0x61]) (songFolder [0x61, 0x62])
    [songPlace 0x62] (by simp [songFolder_files]) h h' 2 ?_ 0x2102 (.inr rfl) dmst _ (g dmst)
  rw [(started_catalog h).1, ha]
  exact ⟨⟨2, 2, ['x'], (songRecord 0x61).path, 7, none⟩, by decide +kernel⟩

theorem songFolder_music (cs : List UInt8) (hc : ∀ c ∈ cs, c ≠ 0x2e) :
    musicOf [0x2f, 0x6d] (allFiles (songFolder cs)) = cs.map songRecord := by
  rw [songFolder_files]
  induction cs with
  | nil => rfl
  | cons c cs ih =>
    rw [List.map_cons, musicOf_cons _ _ _ (songPlace_wanted _ (hc c List.mem_cons_self))
      (r := songRecord c) rfl, ih fun c h => hc c (List.mem_cons_of_mem _ h)]
    rfl

/-- Two starts on one folder, before the second of which a hidden file was put there. -/
example (c : Conn) (xs : List (IterOrder × Bytes)) : ∃ db db',
    StartedOn .release [0x2f, 0x6d] (songFolder [0x62, 0x61]) db ∧
    StartedOn .release [0x2f, 0x6d] (songFolder [0x2e, 0x62, 0x61]) db' ∧
    connRun .release db' c xs = connRun .release db c xs := by
  obtain ⟨db, h⟩ := songFolder_started [0x62, 0x61] (by decide)
  obtain ⟨db', h'⟩ := songFolder_started [0x2e, 0x62, 0x61] (by decide)
  refine ⟨db, db', h, h', C108_unchanged_folder_partial .release _ _ _ ?_ h h' c xs⟩
  have e : ¬ Wanted (songPlace 0x2e).1 := by
    rintro ⟨h, -⟩
    exact h _ (List.mem_cons_of_mem _ List.mem_cons_self) ⟨rfl, "..mp3".toList, by decide +kernel⟩
  rw [songFolder_files, songFolder_files, List.map_cons, musicOf,
    List.filterMap_cons_none (by rw [if_neg e])]
  rfl

theorem songFolder_fits (cs : List UInt8) (hc : ∀ c ∈ cs, c = 0x61 ∨ c = 0x62) :
    AllFit (musicOf [0x2f, 0x6d] (allFiles (songFolder cs))) := by
  rw [songFolder_music cs (by rintro c h rfl; exact absurd (hc _ h) (by decide))]
  intro x hx
  obtain ⟨c, h, rfl⟩ := List.mem_map.1 hx
  rcases hc c h with rfl | rfl
  · exact ⟨by unfold Fits; decide +kernel, by unfold Fits; decide +kernel, "/m/a.mp3".toList,
      by decide +kernel, by unfold Fits; decide +kernel⟩
  · exact ⟨by unfold Fits; decide +kernel, by unfold Fits; decide +kernel, "/m/b.mp3".toList,
      by decide +kernel, by unfold Fits; decide +kernel⟩

/-- The numbers are kept if `b.mp3` comes behind `a.mp3`, and not if it comes before it. -/
example : ∃ db db' db'', StartedOn .release [0x2f, 0x6d] (songFolder [0x61]) db ∧
    StartedOn .release [0x2f, 0x6d] (songFolder [0x61, 0x62]) db' ∧
    StartedOn .release [0x2f, 0x6d] (songFolder [0x62, 0x61]) db'' ∧
    (∀ id p size, LeadsTo .release db id p size → LeadsTo .release db' id p size) ∧
    ¬ ∀ id p size, LeadsTo .release db id p size → LeadsTo .release db'' id p size := by
  obtain ⟨db, h⟩ := songFolder_started [0x61] (by decide)
  obtain ⟨db', h'⟩ := songFolder_started [0x61, 0x62] (by decide)
  obtain ⟨db'', h''⟩ := songFolder_started [0x62, 0x61] (by decide)
  refine ⟨db, db', db'', h, h', h'', ?_, ?_⟩
  · rw [C108_numbers_kept_iff .release _ _ _ h h' (songFolder_fits _ (by decide))
      (songFolder_fits _ (by decide)), songFolder_music _ (by decide), songFolder_music _ (by decide)]
    decide
  · rw [C108_numbers_kept_iff .release _ _ _ h h'' (songFolder_fits _ (by decide))
      (songFolder_fits _ (by decide)), songFolder_music _ (by decide), songFolder_music _ (by decide)]
    decide

/-- A file was renamed: some session notices. -/
example : ∃ db db', StartedOn .release [0x2f, 0x6d] (songFolder [0x62]) db ∧
    StartedOn .release [0x2f, 0x6d] (songFolder [0x61]) db' ∧
    ∃ xs, connRun .release db' (.open none) xs ≠ connRun .release db (.open none) xs := by
  obtain ⟨db, h⟩ := songFolder_started [0x62] (by decide)
  obtain ⟨db', h'⟩ := songFolder_started [0x61] (by decide)
  refine ⟨db, db', h, h', ?_⟩
  by_contra hno
  simp only [ne_eq, not_exists, not_not] at hno
  have := C108_only_unchanged .release _ _ _ h h' (songFolder_fits _ (by decide))
    (songFolder_fits _ (by decide)) hno
  rw [songFolder_music _ (by decide), songFolder_music _ (by decide)] at this
  exact absurd this (by decide)

end PDJ
