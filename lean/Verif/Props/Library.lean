import Verif.Lemmas.Browse
import Verif.Props.Database
import Verif.Props.Session

/-!
# Properties C17, C18: browsing finds the scanned music

From the list of scanned tracks through the database and the session to what a player reads.
-/

namespace PDJ

open Spec

/-! ## C17 metadata and mount info -/

/-- C17: for every scan and every track of it, a metadata request for its id and a render request
deliver its title, its artist's name and its tempo (0 if it has none). -/
theorem C17_metadata_of_track (m : Mode) (l : List (IterOrder × MetaTrack))
    (hl : l.length ≤ capacity) {db : Db} (hb : Db.build m l = .ok db)
    (k : Nat) (hk : k < l.length) (hs : Fits l[k].2.title ∧ Fits l[k].2.artist)
    (io io' : IterOrder) (ctx : Ctx) (tx tx' dmst : UInt32) (more more' : Bytes)
    (args : List Val) (hq : Sendable ⟨tx', 0x3000, args⟩) :
    ∃ reply ctx' reply' msgs,
      process m io db
        (writeMsg ⟨tx, 0x2002, [.u32 dmst, .u32 (UInt32.ofNat (k + 2))]⟩ ++ more) ctx =
          .ok (reply, ctx') ∧
      process m io' db (writeMsg ⟨tx', 0x3000, args⟩ ++ more') ctx' = .ok (reply', ctx') ∧
      readReply reply' = some msgs ∧
      (lines 0x04 msgs).map (·.2.2) = [l[k].2.title] ∧
      (lines 0x07 msgs).map (·.2.2) = [l[k].2.artist] ∧
      (lines 0x0d msgs).map (·.2.1) = [l[k].2.bpm.getD 0] := by
  obtain ⟨tr, h1, _, h3, h4, h5, h6, h7⟩ := (C20_tracks_retrievable m l hl hb).1 k hk
  have hq1 : Sendable ⟨tx, 0x2002, [.u32 dmst, .u32 (UInt32.ofNat (k + 2))]⟩ := by
    refine ⟨by simp, ?_⟩
    intro v hv
    simp only [List.mem_cons, List.not_mem_nil, or_false] at hv
    rcases hv with rfl | rfl <;> trivial
  have hm : menuOf ⟨tx, 0x2002, [.u32 dmst, .u32 (UInt32.ofNat (k + 2))]⟩ =
      some (.metadata (UInt32.ofNat (k + 2))) := rfl
  obtain ⟨reply, e1, _⟩ := menu_request m io db _ hq1 more ctx hm (by simp)
  obtain ⟨items, hi⟩ : ∃ items, menuItems io' db (.metadata (UInt32.ofNat (k + 2))) = some items := by
    simp only [menuItems, h1, h7, Option.bind_eq_bind, Option.bind_some]
    exact ⟨_, rfl⟩
  have hit := hi
  simp only [menuItems, h1, h7, Option.bind_eq_bind, Option.bind_some, Option.some.injEq] at hit
  subst hit
  obtain ⟨reply', e2, e3⟩ := render_read (m := m) hi (by
    have h0 : Fits [] := by unfold Fits; decide
    have ht := hs.1
    rw [← h3] at ht
    have ha := hs.2
    simp only [List.mem_cons, List.not_mem_nil, or_false]
    rintro i (rfl | rfl | rfl | rfl | rfl | rfl | rfl | rfl | rfl | rfl) <;> assumption) tx' args hq
    more'
  refine ⟨reply, _, reply', _, e1, e2, e3, ?_, ?_, ?_⟩ <;> rw [lines_page]
  · rw [h3]; rfl
  · rfl
  · rw [h6]; rfl

/-- C17: a mount-info request for a track whose path is UTF-8 and a render request deliver the path,
the size and the tempo. -/
theorem C17_mount_info_of_track (m : Mode) (l : List (IterOrder × MetaTrack))
    (hl : l.length ≤ capacity) {db : Db} (hb : Db.build m l = .ok db)
    (k : Nat) (hk : k < l.length)
    (path : Str) (hp : fromUtf8 l[k].2.path = some path) (hs : Fits path)
    (io io' : IterOrder) (ctx : Ctx) (tx tx' dmst : UInt32) (more more' : Bytes)
    (args : List Val) (hq : Sendable ⟨tx', 0x3000, args⟩) :
    ∃ reply ctx' reply' msgs,
      process m io db
        (writeMsg ⟨tx, 0x2102, [.u32 dmst, .u32 (UInt32.ofNat (k + 2))]⟩ ++ more) ctx =
          .ok (reply, ctx') ∧
      process m io' db (writeMsg ⟨tx', 0x3000, args⟩ ++ more') ctx' = .ok (reply', ctx') ∧
      readReply reply' = some msgs ∧
      lines 0x00 msgs = [(l[k].2.size, 5, path)] ∧
      (lines 0x0d msgs).map (·.2.1) = [l[k].2.bpm.getD 0] := by
  obtain ⟨tr, h1, _, h3, h4, h5, h6, h7⟩ := (C20_tracks_retrievable m l hl hb).1 k hk
  have hq1 : Sendable ⟨tx, 0x2102, [.u32 dmst, .u32 (UInt32.ofNat (k + 2))]⟩ := by
    refine ⟨by simp, ?_⟩
    intro v hv
    simp only [List.mem_cons, List.not_mem_nil, or_false] at hv
    rcases hv with rfl | rfl <;> trivial
  have hm : menuOf ⟨tx, 0x2102, [.u32 dmst, .u32 (UInt32.ofNat (k + 2))]⟩ =
      some (.mountInfo (UInt32.ofNat (k + 2))) := rfl
  obtain ⟨reply, e1, _⟩ := menu_request m io db _ hq1 more ctx hm (by simp)
  rw [← h4] at hp
  obtain ⟨items, hi⟩ : ∃ items, menuItems io' db (.mountInfo (UInt32.ofNat (k + 2))) = some items := by
    simp only [menuItems, h1, hp, Option.bind_eq_bind, Option.bind_some]
    exact ⟨_, rfl⟩
  have hit := hi
  simp only [menuItems, h1, hp, Option.bind_eq_bind, Option.bind_some, Option.some.injEq] at hit
  subst hit
  obtain ⟨reply', e2, e3⟩ := render_read (m := m) hi (by
    have h0 : Fits [] := by unfold Fits; decide
    have hc : Fits "Tracks by www.loopmasters.com".toList := by unfold Fits; decide +kernel
    simp only [List.mem_cons, List.not_mem_nil, or_false]
    rintro i (rfl | rfl | rfl | rfl | rfl | rfl) <;> assumption) tx' args hq more'
  refine ⟨reply, _, reply', _, e1, e2, e3, ?_, ?_⟩ <;> rw [lines_page]
  · rw [h5]; rfl
  · rw [h6]; rfl

/-- C17: after a metadata request the render request crashes the connection exactly for the ids
that are not ids of scanned tracks. -/
theorem C17_metadata_crashes_iff (m : Mode) (l : List (IterOrder × MetaTrack))
    (hl : l.length ≤ capacity) {db : Db} (hb : Db.build m l = .ok db)
    (io io' : IterOrder) (ctx ctx' : Ctx) (tx tx' dmst id : UInt32) (more more' reply : Bytes)
    (args : List Val) (hq : Sendable ⟨tx', 0x3000, args⟩)
    (h : process m io db (writeMsg ⟨tx, 0x2002, [.u32 dmst, .u32 id]⟩ ++ more) ctx =
      .ok (reply, ctx')) :
    process m io' db (writeMsg ⟨tx', 0x3000, args⟩ ++ more') ctx' = .panic ↔
      ∀ k < l.length, id ≠ UInt32.ofNat (k + 2) := by
  have hq1 : Sendable ⟨tx, 0x2002, [.u32 dmst, .u32 id]⟩ := by
    refine ⟨by simp, ?_⟩
    intro v hv
    simp only [List.mem_cons, List.not_mem_nil, or_false] at hv
    rcases hv with rfl | rfl <;> trivial
  obtain ⟨reply2, e1, _⟩ := menu_request m io db _ hq1 more ctx
    (menu := .metadata id) rfl (by simp)
  rw [e1, Outcome.ok.injEq, Prod.mk.injEq] at h
  obtain ⟨_, rfl⟩ := h
  rw [process_writeMsg m io' db _ hq more']
  have e : ReqType.new 0x3000 = .render := rfl
  simp only [e, getController, handleSequence, respond, renderMessages_eq]
  have h20 := C20_tracks_retrievable m l hl hb
  constructor
  · intro hp k hk hid
    obtain ⟨tr, h1, _, _, _, _, _, h7⟩ := h20.1 k hk
    rw [← hid] at h1
    simp only [menuItems, h1, h7, Option.bind_eq_bind, Option.bind_some] at hp
    simp [bind, Outcome.bind] at hp
  · intro hid
    have h1 := h20.2 id hid
    simp only [menuItems, h1]
    rfl

/-- C17: after a mount-info request the render request crashes the connection exactly for unknown
ids and for tracks whose path is not UTF-8. -/
theorem C17_mount_info_crashes_iff (m : Mode) (l : List (IterOrder × MetaTrack))
    (hl : l.length ≤ capacity) {db : Db} (hb : Db.build m l = .ok db)
    (io io' : IterOrder) (ctx ctx' : Ctx) (tx tx' dmst id : UInt32) (more more' reply : Bytes)
    (args : List Val) (hq : Sendable ⟨tx', 0x3000, args⟩)
    (h : process m io db (writeMsg ⟨tx, 0x2102, [.u32 dmst, .u32 id]⟩ ++ more) ctx =
      .ok (reply, ctx')) :
    process m io' db (writeMsg ⟨tx', 0x3000, args⟩ ++ more') ctx' = .panic ↔
      ∀ (k : Nat) (hk : k < l.length), id = UInt32.ofNat (k + 2) →
        fromUtf8 l[k].2.path = none := by
  have hq1 : Sendable ⟨tx, 0x2102, [.u32 dmst, .u32 id]⟩ := by
    refine ⟨by simp, ?_⟩
    intro v hv
    simp only [List.mem_cons, List.not_mem_nil, or_false] at hv
    rcases hv with rfl | rfl <;> trivial
  obtain ⟨reply2, e1, _⟩ := menu_request m io db _ hq1 more ctx
    (menu := .mountInfo id) rfl (by simp)
  rw [e1, Outcome.ok.injEq, Prod.mk.injEq] at h
  obtain ⟨_, rfl⟩ := h
  rw [process_writeMsg m io' db _ hq more']
  have e : ReqType.new 0x3000 = .render := rfl
  simp only [e, getController, handleSequence, respond, renderMessages_eq]
  have h20 := C20_tracks_retrievable m l hl hb
  constructor
  · intro hp k hk hid
    obtain ⟨tr, h1, _, _, h4, _, _, _⟩ := h20.1 k hk
    rw [← hid] at h1
    cases hpath : fromUtf8 l[k].2.path with
    | none => rfl
    | some p =>
      rw [← h4] at hpath
      simp only [menuItems, h1, hpath, Option.bind_eq_bind, Option.bind_some] at hp
      simp [bind, Outcome.bind] at hp
  · intro hid
    by_cases hex : ∃ (k : Nat) (_ : k < l.length), id = UInt32.ofNat (k + 2)
    · obtain ⟨k, hk, hidk⟩ := hex
      obtain ⟨tr, h1, _, _, h4, _, _, _⟩ := h20.1 k hk
      rw [← hidk] at h1
      have hnone := hid k hk hidk
      rw [← h4] at hnone
      simp only [menuItems, h1, hnone, Option.bind_eq_bind, Option.bind_some]
      rfl
    · have h1 := h20.2 id (fun k hk he => hex ⟨k, hk, he⟩)
      simp only [menuItems, h1]
      rfl

/-- The texts of the sample scan fit. -/
example : (∀ t ∈ sampleScan, Fits t.2.artist ∧ Fits t.2.title) ∧ Fits ['/', 'x'] := by
  unfold Fits
  exact ⟨by decide, by decide⟩

example : fromUtf8 sampleScan[0].2.path = some ['/', 'x'] := by decide +kernel

/-! ## C18 browsing -/

theorem itemLines_same {α : Type} (kind : UInt32) (f : α → UInt32) (g : α → Str) (l : List α) :
    itemLines kind (l.map (fun a => { text := g a, kind := kind, id2 := f a })) =
      l.map (fun a => (0, f a, g a)) := by
  induction l with
  | nil => rfl
  | cons a l ih =>
    simp only [itemLines] at ih
    simp [itemLines, ih]

/-- What a player reads after an artist request and a render request. -/
theorem artist_menu_lines (m : Mode) (l : List (IterOrder × MetaTrack))
    (hl : l.length ≤ capacity) {db : Db} (hb : Db.build m l = .ok db)
    (hs : ∀ t ∈ l, Fits t.2.artist) (io io' : IterOrder) (ctx : Ctx) (tx tx' : UInt32)
    (more more' : Bytes) (args args' : List Val) (hq : Sendable ⟨tx, 0x1002, args⟩)
    (hq' : Sendable ⟨tx', 0x3000, args'⟩) :
    ∃ reply ctx' reply' msgs,
      process m io db (writeMsg ⟨tx, 0x1002, args⟩ ++ more) ctx = .ok (reply, ctx') ∧
      process m io' db (writeMsg ⟨tx', 0x3000, args'⟩ ++ more') ctx' = .ok (reply', ctx') ∧
      readReply reply' = some msgs ∧
      msgs = pageMsgs tx' [] ((db.allArtists io').map
        (fun a => { text := a.name, kind := 7, id2 := a.id })) ∧
      lines 0x07 msgs = (db.allArtists io').map (fun a => (0, a.id, a.name)) := by
  obtain ⟨reply, e1, _⟩ := menu_request m io db _ hq more ctx (menu := .artists) rfl (by simp)
  have hi : menuItems io' db .artists = some _ := rfl
  obtain ⟨reply', e2, e3⟩ := render_read (m := m) hi (by
    intro i hi
    rw [List.mem_map] at hi
    obtain ⟨a, ha, rfl⟩ := hi
    obtain ⟨t, ht, hn⟩ := ((C19_artists_deduplicated m l hl hb io' io').2.2.1 a.name).1
      (List.mem_map.2 ⟨a, ha, rfl⟩)
    show Fits a.name
    rw [← hn]
    exact hs t ht) tx' args' hq' more'
  refine ⟨reply, _, reply', _, e1, e2, e3, rfl, ?_⟩
  rw [lines_page]
  exact itemLines_same 7 (fun a : Artist => a.id) (fun a => a.name) _

/-- C18: for every scan, the artist menu (request and render) lists each distinct scanned artist name
exactly once, under pairwise different ids, and has no other lines. -/
theorem C18_artist_menu (m : Mode) (l : List (IterOrder × MetaTrack))
    (hl : l.length ≤ capacity) {db : Db} (hb : Db.build m l = .ok db)
    (hs : ∀ t ∈ l, Fits t.2.artist) (io io' : IterOrder) (ctx : Ctx) (tx tx' : UInt32)
    (more more' : Bytes) (args args' : List Val) (hq : Sendable ⟨tx, 0x1002, args⟩)
    (hq' : Sendable ⟨tx', 0x3000, args'⟩) :
    ∃ reply ctx' reply' msgs,
      process m io db (writeMsg ⟨tx, 0x1002, args⟩ ++ more) ctx = .ok (reply, ctx') ∧
      process m io' db (writeMsg ⟨tx', 0x3000, args'⟩ ++ more') ctx' = .ok (reply', ctx') ∧
      readReply reply' = some msgs ∧
      ((lines 0x07 msgs).map (·.2.2)).Nodup ∧
      ((lines 0x07 msgs).map (·.2.1)).Nodup ∧
      (∀ n, n ∈ (lines 0x07 msgs).map (·.2.2) ↔ ∃ t ∈ l, t.2.artist = n) ∧
      itemCount msgs = (lines 0x07 msgs).length := by
  obtain ⟨reply, ctx', reply', msgs, e1, e2, e3, e4, e5⟩ :=
    artist_menu_lines m l hl hb hs io io' ctx tx tx' more more' args args' hq hq'
  have h19 := C19_artists_deduplicated m l hl hb io' io'
  refine ⟨reply, ctx', reply', msgs, e1, e2, e3, ?_, ?_, ?_, ?_⟩
  · rw [e5, List.map_map]
    exact h19.1
  · rw [e5, List.map_map]
    exact h19.2.1
  · rw [e5, List.map_map]
    exact h19.2.2.1
  · rw [e5, e4, itemCount_page]
    simp

/-- C18: picking a line of the artist menu and asking for its titles lists exactly the titles of the
tracks scanned with that artist name, as often as they were scanned. -/
theorem C18_titles_of_listed_artist (m : Mode) (l : List (IterOrder × MetaTrack))
    (hl : l.length ≤ capacity) {db : Db} (hb : Db.build m l = .ok db)
    (hs : ∀ t ∈ l, Fits t.2.artist)
    -- the artist menu, in any session state
    (io io' : IterOrder) (ctx ctx1 : Ctx) (tx tx' : UInt32)
    (more more' reply reply' : Bytes) (args args' : List Val) (hq : Sendable ⟨tx, 0x1002, args⟩)
    (hq' : Sendable ⟨tx', 0x3000, args'⟩) (msgs : List Msg)
    (h1 : process m io db (writeMsg ⟨tx, 0x1002, args⟩ ++ more) ctx = .ok (reply, ctx1))
    (h2 : process m io' db (writeMsg ⟨tx', 0x3000, args'⟩ ++ more') ctx1 = .ok (reply', ctx1))
    (h3 : readReply reply' = some msgs)
    -- a line of it
    (a id : UInt32) (n : Str) (hline : (a, id, n) ∈ lines 0x07 msgs)
    (ht : ∀ t ∈ l, t.2.artist = n → Fits t.2.title)
    -- the titles of that line, in any later session state
    (jo jo' : IterOrder) (ctx2 : Ctx) (ux ux' dmst sort : UInt32) (rest : List Val)
    (args'' : List Val) (more2 more3 : Bytes)
    (hr : Sendable ⟨ux, 0x1202, .u32 dmst :: .u32 sort :: .u32 id :: rest⟩)
    (hr' : Sendable ⟨ux', 0x3000, args''⟩) :
    ∃ reply2 ctx3 reply3 msgs2,
      process m jo db
        (writeMsg ⟨ux, 0x1202, .u32 dmst :: .u32 sort :: .u32 id :: rest⟩ ++ more2) ctx2 =
          .ok (reply2, ctx3) ∧
      process m jo' db (writeMsg ⟨ux', 0x3000, args''⟩ ++ more3) ctx3 = .ok (reply3, ctx3) ∧
      readReply reply3 = some msgs2 ∧
      ((lines 0x04 msgs2).map (·.2.2)).Perm
        (((l.map (·.2)).filter (fun t => t.artist = n)).map (·.title)) ∧
      itemCount msgs2 = (lines 0x04 msgs2).length := by
  obtain ⟨r1, c1, r1', ms1, f1, f2, f3, f4, f5⟩ :=
    artist_menu_lines m l hl hb hs io io' ctx tx tx' more more' args args' hq hq'
  rw [f1, Outcome.ok.injEq, Prod.mk.injEq] at h1
  obtain ⟨rfl, rfl⟩ := h1
  rw [f2, Outcome.ok.injEq, Prod.mk.injEq] at h2
  obtain ⟨rfl, _⟩ := h2
  rw [f3, Option.some.injEq] at h3
  subst h3
  rw [f5, List.mem_map] at hline
  obtain ⟨ar, har, heq⟩ := hline
  simp only [Prod.mk.injEq] at heq
  obtain ⟨_, rfl, rfl⟩ := heq
  have hb' := hb
  rw [build_catalog m l hl, Outcome.ok.injEq] at hb'
  have htitles : ((db.titleByArtist jo' ar.id).map (fun t => t.title)).Perm
      (((l.map (·.2)).filter (fun t => t.artist = ar.name)).map (·.title)) := by
    subst hb'
    refine ((titleByArtist_perm jo' _ _).map _).trans (List.Perm.of_eq ?_)
    have hlen : (l.map (·.2)).length ≤ capacity := by simpa using hl
    rw [(allArtists_perm io' _).mem_iff] at har
    exact catalog_titles hlen har
  obtain ⟨reply2, e1, _⟩ := menu_request m jo db _ hr more2 ctx2 (menu := .tracks ar.id) rfl
    (by simp)
  have hi : menuItems jo' db (.tracks ar.id) = some _ := rfl
  obtain ⟨reply3, e2, e3⟩ := render_read (m := m) hi (by
    intro i hi
    rw [List.mem_map] at hi
    obtain ⟨t, htm, rfl⟩ := hi
    have := htitles.mem_iff.1 (List.mem_map.2 ⟨t, htm, rfl⟩)
    rw [List.mem_map] at this
    obtain ⟨x, hx, hxt⟩ := this
    rw [List.mem_filter, List.mem_map] at hx
    obtain ⟨⟨y, hy, rfl⟩, hn⟩ := hx
    show Fits t.title
    rw [← hxt]
    exact ht y hy (by simpa using hn)) ux' args'' hr' more3
  refine ⟨reply2, _, reply3, _, e1, e2, e3, ?_, ?_⟩
  · rw [lines_page]
    have e := itemLines_same 4 (fun t : Track => t.id) (fun t => t.title)
      (db.titleByArtist jo' ar.id)
    rw [e, List.map_map]
    exact htitles
  · rw [lines_page, itemCount_page]
    have e := itemLines_same 4 (fun t : Track => t.id) (fun t => t.title)
      (db.titleByArtist jo' ar.id)
    rw [e]
    simp

/-- The hypotheses of the C18 theorems are met by the sample scan. -/
example (m : Mode) : ∃ db, Db.build m sampleScan = .ok db ∧
    ((db.allArtists .id).map (·.name)) = [['A'], ['B']] :=
  ⟨_, build_catalog m sampleScan sampleScan_fits, by decide⟩

example : Sendable ⟨1, 0x1202, [.u32 0, .u32 0, .u32 2, .u32 0xffffffff]⟩ := by
  refine ⟨by decide, ?_⟩
  intro v hv
  simp only [List.mem_cons, List.not_mem_nil, or_false] at hv
  rcases hv with rfl | rfl | rfl | rfl <;> trivial

/-! ## Instances for the sample scan -/

example := C17_metadata_of_track .debug sampleScan sampleScan_fits (sampleScan_build _) 1 (by decide)
  (by unfold Fits; exact ⟨by decide, by decide⟩) .id .id none 1 2 0 [] [] [] (sendable_nil 2 _)

example := C17_mount_info_of_track .debug sampleScan sampleScan_fits (sampleScan_build _) 0 (by decide)
  ['/', 'x'] (by decide +kernel) (by unfold Fits; decide) .id .id none 1 2 0 [] [] [] (sendable_nil 2 _)

/-- The id 1 belongs to no track. -/
example : ∃ reply ctx', process .debug .id (catalogDb (sampleScan.map (·.2)))
    (writeMsg ⟨1, 0x2002, [.u32 0, .u32 1]⟩ ++ []) none = .ok (reply, ctx') ∧
    process .debug .id (catalogDb (sampleScan.map (·.2))) (writeMsg ⟨2, 0x3000, []⟩ ++ []) ctx' =
      .panic := by
  have h : ∃ reply ctx', process .debug .id (catalogDb (sampleScan.map (·.2)))
      (writeMsg ⟨1, 0x2002, [.u32 0, .u32 1]⟩ ++ []) none = .ok (reply, ctx') := by
    rw [process_writeMsg .debug .id _ _ (sendable_u32 1 _ 0 1)]
    exact ⟨_, _, rfl⟩
  obtain ⟨reply, ctx', h⟩ := h
  exact ⟨reply, ctx', h, (C17_metadata_crashes_iff .debug sampleScan sampleScan_fits
    (sampleScan_build _) .id .id none ctx' 1 2 0 1 [] [] reply [] (sendable_nil 2 _) h).2 (by decide)⟩

example := C18_artist_menu .debug sampleScan sampleScan_fits (sampleScan_build _)
  (by unfold Fits; decide) .id .id none 1 2 [] [] [] [] (sendable_nil 1 _) (sendable_nil 2 _)

end PDJ
