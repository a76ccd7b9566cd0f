import Verif.Lemmas.DbPanic
import Verif.Lemmas.Session
import Verif.Lemmas.DbCut
import Verif.Lemmas.ChunkAsks

/-!
# Properties C07-C12, C14-C16: one browsing session

`writeMsg q` is a request as a player writes it (`Spec/DbWrite.lean`), `readReply` the player's
reading of a reply (`Spec/DbWire.lean`).
-/

namespace PDJ

open Spec

/-! ## C07 greeting -/

/-- C07: every five-byte chunk is echoed and changes nothing. -/
theorem C07_greeting_echoed (m : Mode) (io : IterOrder) (db : Db) (chunk : Bytes) (ctx : Ctx)
    (h : chunk.length = 5) : process m io db chunk ctx = .ok (chunk, ctx) := by
  unfold process
  rw [if_pos h]

example : ([0x11, 0, 0, 0, 1] : Bytes).length = 5 := rfl

/-! ## C08 transaction ids -/

/-- C08: for every session state and library, a message that is answered at all gets a sequence of
messages, each of which starts with the magic and the message's own transaction id, which is sent
back byte for byte if it is numeric.  (The title request is answered by the bare start of a
message.) -/
theorem C08_transaction_id_echoed (m : Mode) (io : IterOrder) (db : Db) (ctx ctx' : Ctx)
    (chunk reply : Bytes) (k : UInt8) (tx : Bytes) (ty1 ty2 : UInt8) (tags : List UInt8)
    (body : Bytes) (hm : IsMessage m chunk k tx ty1 ty2 tags body)
    (h : process m io db chunk ctx = .ok (reply, ctx')) :
    (∃ bodies : List Bytes,
      reply = bodies.flatMap (fun b => [0x11, 0x87, 0x23, 0x49, 0xae] ++ echoOf k tx ++ b) ∧
      ((ty1 = 0x10 ∧ ty2 = 0x04 ∧ bodies = [[]]) ∨ ∀ b ∈ bodies, IsBody b)) ∧
    (k = 0x0f ∨ k = 0x10 ∨ k = 0x11 → echoOf k tx = k :: tx) := by
  obtain ⟨d, hp, hu⟩ := parse_message hm
  have hl := message_length hm
  obtain ⟨bodies, h1, h2⟩ := process_bodies (by omega) hp h
  rw [echo_eq hm hu] at h1
  refine ⟨⟨bodies, h1, ?_⟩, by rintro (rfl | rfl | rfl) <;> rfl⟩
  rcases h2 with ⟨h2, h3⟩ | h2
  · rw [hu.2.2.1, (new_cases _).2.2.1] at h2
    obtain ⟨e1, e2⟩ := (code_eq ty1 ty2 0x10 0x04).1 h2
    exact .inl ⟨e1, e2, h3⟩
  · exact .inr h2

example : Sendable ⟨7, 0x2002, [.u32 1, .u32 2]⟩ := by
  refine ⟨by decide, ?_⟩
  intro v hv
  simp only [List.mem_cons, List.not_mem_nil, or_false] at hv
  rcases hv with rfl | rfl <;> trivial

/-! ## C09 announced and rendered item counts -/

/-- How many menu items a player reads in a reply. -/
def itemCount (ms : List Msg) : Nat := (ms.filter (fun x => x.type = 0x4101)).length

theorem itemCount_page (tx : UInt32) (footer : List Val) (items : List Item) :
    itemCount (pageMsgs tx footer items) = items.length := by
  have h : (items.map (Item.msg tx)).filter (fun x => x.type = 0x4101) =
      items.map (Item.msg tx) := by
    rw [List.filter_eq_self]
    intro x hx
    rw [List.mem_map] at hx
    obtain ⟨i, _, rfl⟩ := hx
    rfl
  unfold itemCount pageMsgs
  rw [List.filter_append, List.filter_cons_of_neg (by simp), List.length_append, h]
  simp

/-- The menus whose announcement is right. -/
def CountsRight : Menu → Prop
  | .artists | .tracks _ | .metadata _ | .mountInfo _ => True
  | _ => False

/-- C09 (full claim: all menus).  For the artist list, the titles of an artist, the track metadata
and the mount info: after any such request the server announces `n` items, and the render request
that follows is answered with exactly `n` menu items, for every library with fewer than 2^32 rows
and lines of at most 127 UTF-16 units (a longer one makes any reply unreadable, C04), whatever the hash iteration orders of the two requests.  Missing: root, title and album menus, for
which the claim is false (next theorems). -/
theorem C09_announced_count_rendered_partial (m : Mode) (io io' : IterOrder) (db : Db)
    (hA : db.artists.rows.length < 4294967296)
    (hT : db.tracks.rows.length < 4294967296)
    (q : Msg) (hq : Sendable q) (r r' : Bytes) (ctx : Ctx) {menu : Menu} (h : menuOf q = some menu)
    (hc : CountsRight menu) {items : List Item} (hi : menuItems io' db menu = some items)
    (hs : ∀ i ∈ items, Fits i.text)
    (tx : UInt32) (args : List Val) (hq' : Sendable ⟨tx, 0x3000, args⟩) :
    ∃ reply1 reply2 ctx' n msgs,
      process m io db (writeMsg q ++ r) ctx = .ok (reply1, ctx') ∧
      readReply reply1 = some [⟨q.tx, 0x4000, [.u32 q.type.toUInt32, .u32 n]⟩] ∧
      process m io' db (writeMsg ⟨tx, 0x3000, args⟩ ++ r') ctx' = .ok (reply2, ctx') ∧
      readReply reply2 = some msgs ∧ itemCount msgs = n.toNat := by
  have ht : menu ≠ .titles := by rintro rfl; exact hc
  obtain ⟨reply1, e1, e2⟩ := menu_request m io db q hq r ctx h ht
  obtain ⟨reply2, e3, e4⟩ := render_read (m := m) hi hs tx args hq' r'
  rw [← (menuOf_eq_some h).1] at e2
  refine ⟨reply1, reply2, _, _, _, e1, e2, e3, e4, ?_⟩
  rw [itemCount_page]
  cases menu with
  | root => exact False.elim hc
  | titles => exact False.elim hc
  | albums a => exact False.elim hc
  | artists =>
    simp only [menuItems, Option.some.injEq] at hi
    subst hi
    simp only [announcedCount, List.length_map, Db.allArtists, (io.perm _).length_eq,
      (io'.perm _).length_eq, UInt32.toNat_ofNat']
    omega
  | tracks a =>
    simp only [menuItems, Option.some.injEq] at hi
    subst hi
    have h1 : ∀ io : IterOrder, (db.titleByArtist io a).length =
        ((db.tracks.rows.map (·.2)).filter (fun t => t.artistId = a)).length := by
      intro io
      exact (((io.perm db.tracks.rows).map (·.2)).filter _).length_eq
    have h2 := List.length_filter_le (fun t : Track => decide (t.artistId = a))
      (db.tracks.rows.map (·.2))
    simp only [List.length_map] at h2
    simp only [announcedCount, List.length_map, h1, UInt32.toNat_ofNat']
    omega
  | metadata t =>
    simp only [menuItems, Option.bind_eq_bind, Option.bind_eq_some_iff] at hi
    obtain ⟨_, _, _, _, hi⟩ := hi
    rw [Option.some.injEq] at hi
    subst hi
    rfl
  | mountInfo t =>
    simp only [menuItems, Option.bind_eq_bind, Option.bind_eq_some_iff] at hi
    obtain ⟨_, _, _, _, hi⟩ := hi
    rw [Option.some.injEq] at hi
    subst hi
    rfl

/-- A library with one artist and two tracks. -/
def pairDb : Db :=
  ⟨⟨[(2, ⟨2, ['A']⟩)], 2⟩, ⟨[(2, ⟨2, 2, ['x'], [], 1, none⟩), (3, ⟨3, 2, ['y'], [], 1, none⟩)], 3⟩⟩

example : menuOf ⟨3, 0x1202, [.u32 0, .u32 0, .u32 2]⟩ = some (.tracks 2) ∧
    CountsRight (.tracks 2) ∧ ∃ items, menuItems .id pairDb (.tracks 2) = some items ∧
      items.length = 2 ∧ ∀ i ∈ items, Fits i.text := by
  refine ⟨by decide, trivial, _, rfl, rfl, ?_⟩
  have : ∀ i ∈ (pairDb.titleByArtist .id 2).map
      (fun t => ({ text := t.title, kind := 4, id2 := t.id } : Item)), (utf16 i.text).length ≤ 127 := by
    decide
  exact this

/-- C09, the failing part: the root menu announces eight items and delivers seven. -/
theorem C09_root_menu_count_wrong (m : Mode) (io io' : IterOrder) (db : Db)
    (q : Msg) (hq : Sendable q) (hty : q.type = 0x1000) (r r' : Bytes) (ctx : Ctx)
    (tx : UInt32) (args : List Val) (hq' : Sendable ⟨tx, 0x3000, args⟩) :
    ∃ reply1 reply2 ctx' msgs,
      process m io db (writeMsg q ++ r) ctx = .ok (reply1, ctx') ∧
      readReply reply1 = some [⟨q.tx, 0x4000, [.u32 0x1000, .u32 8]⟩] ∧
      process m io' db (writeMsg ⟨tx, 0x3000, args⟩ ++ r') ctx' = .ok (reply2, ctx') ∧
      readReply reply2 = some msgs ∧ itemCount msgs = 7 := by
  have h : menuOf q = some .root := by simp [menuOf, hty]
  obtain ⟨reply1, e1, e2⟩ := menu_request m io db q hq r ctx h (by simp)
  have hi : menuItems io' db .root = some _ := rfl
  obtain ⟨reply2, e3, e4⟩ := render_read (m := m) hi (menuItems_fixed (.inl rfl) hi) tx args hq' r'
  exact ⟨reply1, reply2, _, _, e1, e2, e3, e4, by rw [itemCount_page]; rfl⟩

/-- C09, the failing part: the albums of an artist are announced as many as the artist has tracks,
but always one item is delivered. -/
theorem C09_album_menu_count_wrong (m : Mode) (io io' : IterOrder) (db : Db)
    (q : Msg) (hq : Sendable q) (a : UInt32) (h : menuOf q = some (.albums a)) (r r' : Bytes)
    (ctx : Ctx) (tx : UInt32) (args : List Val) (hq' : Sendable ⟨tx, 0x3000, args⟩) :
    ∃ reply1 reply2 ctx' msgs,
      process m io db (writeMsg q ++ r) ctx = .ok (reply1, ctx') ∧
      readReply reply1 = some [⟨q.tx, 0x4000,
        [.u32 0x1102, .u32 (UInt32.ofNat (db.titleByArtist io a).length)]⟩] ∧
      process m io' db (writeMsg ⟨tx, 0x3000, args⟩ ++ r') ctx' = .ok (reply2, ctx') ∧
      readReply reply2 = some msgs ∧ itemCount msgs = 1 := by
  obtain ⟨reply1, e1, e2⟩ := menu_request m io db q hq r ctx h (by simp)
  have hi : menuItems io' db (.albums a) = some _ := rfl
  obtain ⟨reply2, e3, e4⟩ := render_read (m := m) hi
    (menuItems_fixed (.inr (.inr ⟨a, rfl⟩)) hi) tx args hq' r'
  exact ⟨reply1, reply2, _, _, e1, e2, e3, e4, by rw [itemCount_page]; rfl⟩

/-- C09, the failing part: the reply to the title menu request is cut off after the transaction id,
so no count is announced and a player cannot read it. -/
theorem C09_title_menu_unreadable (m : Mode) (io : IterOrder) (db : Db) (q : Msg)
    (hq : Sendable q) (hty : q.type = 0x1004) (r : Bytes) (ctx : Ctx) :
    ∃ reply ctx', process m io db (writeMsg q ++ r) ctx = .ok (reply, ctx') ∧
      reply = 0x11 :: 0x87 :: 0x23 :: 0x49 :: 0xae :: 0x11 :: be32 q.tx ∧
      readReply reply = none := by
  rw [process_writeMsg m io db q hq r, hty]
  refine ⟨_, _, rfl, rfl, ?_⟩
  have h1 : ∀ r : Bytes, readU32 (0x11 :: 0x87 :: 0x23 :: 0x49 :: 0xae :: r) =
      some (0x872349ae, r) := by
    intro r
    unfold readU32
    rw [readField_11]
    rfl
  have h2 : readU32 ((DBField.ofU32 q.tx).asBytes) = some (q.tx, []) := by
    have := readField_u32 q.tx []
    simp only [fieldOf, List.append_nil] at this
    simp only [readU32, this]
  have h3 : readMsg (0x11 :: 0x87 :: 0x23 :: 0x49 :: 0xae :: (DBField.ofU32 q.tx).asBytes) =
      none := by
    unfold readMsg
    simp only [h1, h2, Option.bind_eq_bind, Option.bind_some, guard, if_true, pure]
    rfl
  show readMany 10 (0x11 :: 0x87 :: 0x23 :: 0x49 :: 0xae :: (DBField.ofU32 q.tx).asBytes) = none
  unfold readMany
  rw [h3]

/-- C09, exactly: the announced count is what the next render request delivers if and only if the menu is the
artist list, the titles of an artist, the metadata or the mount info, or it is the albums of an artist that has
exactly one track. -/
theorem C09_right_iff (m : Mode) (io io' : IterOrder) (db : Db)
    (hA : db.artists.rows.length < 4294967296)
    (hT : db.tracks.rows.length < 4294967296)
    (q : Msg) (hq : Sendable q) (r r' : Bytes) (ctx : Ctx) {menu : Menu} (h : menuOf q = some menu)
    {items : List Item} (hi : menuItems io' db menu = some items)
    (hs : ∀ i ∈ items, Fits i.text)
    (tx : UInt32) (args : List Val) (hq' : Sendable ⟨tx, 0x3000, args⟩) :
    (∃ reply1 reply2 ctx' n msgs,
      process m io db (writeMsg q ++ r) ctx = .ok (reply1, ctx') ∧
      readReply reply1 = some [⟨q.tx, 0x4000, [.u32 q.type.toUInt32, .u32 n]⟩] ∧
      process m io' db (writeMsg ⟨tx, 0x3000, args⟩ ++ r') ctx' = .ok (reply2, ctx') ∧
      readReply reply2 = some msgs ∧ itemCount msgs = n.toNat) ↔
    CountsRight menu ∨ ∃ a, menu = .albums a ∧
      ((db.tracks.rows.map (·.2)).filter fun t => t.artistId = a).length = 1 := by
  constructor
  · rintro ⟨reply1, reply2, ctx', n, msgs, e1, e2, e3, e4, e5⟩
    cases menu with
    | artists => exact .inl trivial
    | tracks a => exact .inl trivial
    | metadata t => exact .inl trivial
    | mountInfo t => exact .inl trivial
    | root =>
      have hty : q.type = 0x1000 := (menuOf_eq_some h).1
      obtain ⟨_, _, _, _, f1, f2, f3, f4, f5⟩ := C09_root_menu_count_wrong m io io' db q hq hty r r' ctx tx args hq'
      rw [e1] at f1
      cases f1
      rw [e2] at f2
      rw [e3] at f3
      cases f3
      rw [e4] at f4
      cases f4
      simp only [Option.some.injEq, List.cons.injEq, Msg.mk.injEq, Val.u32.injEq, and_true, true_and] at f2
      rw [f2.2, f5] at e5
      exact absurd e5 (by decide)
    | titles =>
      have hty : q.type = 0x1004 := (menuOf_eq_some h).1
      obtain ⟨_, _, f1, _, f2⟩ := C09_title_menu_unreadable m io db q hq hty r ctx
      rw [e1] at f1
      cases f1
      rw [e2] at f2
      exact nomatch f2
    | albums a =>
      obtain ⟨_, _, _, _, f1, f2, f3, f4, f5⟩ := C09_album_menu_count_wrong m io io' db q hq a h r r' ctx tx args hq'
      rw [e1] at f1
      cases f1
      rw [e2] at f2
      rw [e3] at f3
      cases f3
      rw [e4] at f4
      cases f4
      simp only [Option.some.injEq, List.cons.injEq, Msg.mk.injEq, Val.u32.injEq, and_true, true_and] at f2
      rw [f2.2, f5] at e5
      refine .inr ⟨a, rfl, ?_⟩
      have h1 : (db.titleByArtist io a).length =
          ((db.tracks.rows.map (·.2)).filter (fun t => t.artistId = a)).length := by
        exact (((io.perm db.tracks.rows).map (·.2)).filter _).length_eq
      have h2 := List.length_filter_le (fun t : Track => decide (t.artistId = a)) (db.tracks.rows.map (·.2))
      simp only [List.length_map] at h2
      rw [h1, UInt32.toNat_ofNat'] at e5
      omega
  · rintro (hc | ⟨a, rfl, hn⟩)
    · exact C09_announced_count_rendered_partial m io io' db hA hT q hq r r' ctx h hc hi hs tx args hq'
    · obtain ⟨reply1, reply2, ctx', msgs, f1, f2, f3, f4, f5⟩ :=
        C09_album_menu_count_wrong m io io' db q hq a h r r' ctx tx args hq'
      have hty : q.type = 0x1102 := (menuOf_eq_some h).1
      refine ⟨reply1, reply2, ctx', _, msgs, f1, by rw [hty]; exact f2, f3, f4, ?_⟩
      have h1 : (db.titleByArtist io a).length =
          ((db.tracks.rows.map (·.2)).filter (fun t => t.artistId = a)).length := by
        exact (((io.perm db.tracks.rows).map (·.2)).filter _).length_eq
      rw [f5, h1, hn]
      rfl

/-- The albums of an artist with two tracks: announced as two, one is delivered. -/
example := C09_right_iff .debug .id .id pairDb (by decide) (by decide) ⟨3, 0x1102, [.u32 0, .u32 0, .u32 2]⟩
  ⟨by decide, by intro v hv; simp at hv; rcases hv with rfl | rfl <;> trivial⟩ [] [] none
  (menu := .albums 2) (by decide) rfl (menuItems_fixed (io := .id) (db := pairDb) (.inr (.inr ⟨2, rfl⟩)) rfl) 4 []
  ⟨by decide, by intro v hv; exact nomatch hv⟩

/-! ## C10 framing -/

/-- The body of a message of the type with the two code bytes. -/
def BodyOf (c1 c2 : UInt8) (b : Bytes) : Prop :=
  ∃ n rest, b = 0x10 :: c1 :: c2 :: 0x0f :: n :: 0x14 :: 0 :: 0 :: 0 :: 0x0c :: rest

/-- The bodies of a rendered page: header, items, footer. -/
def pageBodies (footer : List Val) (items : List Item) : List Bytes :=
  (0x10 :: 0x40 :: 0x01 :: argsEncode [.ofU32 1, .ofU32 0]) ::
    items.map (fun i => 0x10 :: 0x41 :: 0x01 :: argsEncode (itemArgs i).toArgs) ++
    [0x10 :: 0x42 :: 0x01 :: argsEncode (footer.map fieldOf)]

theorem page_bodies (t : DBField) (footer : List Val) (items : List Item) :
    DBMessage.encodeMany (msgHeader t :: items.map (fun i => msgItem t (itemArgs i)) ++
        [⟨t, .menuFooter, footer.map fieldOf⟩]) =
      (pageBodies footer items).flatMap
        (fun b => [0x11] ++ DBMessage.magicBytes ++ t.asBytes ++ b) := by
  rw [encodeMany_bodies t]
  · congr 1
    simp only [pageBodies, List.map_append, List.map_cons, List.map_map, List.map_nil]
    rfl
  · intro x hx
    simp only [List.cons_append, List.mem_cons, List.mem_append, List.mem_map,
      List.not_mem_nil, or_false] at hx
    rcases hx with rfl | ⟨i, _, rfl⟩ | rfl <;> rfl

/-- The reply to a render request. -/
theorem process_render {m : Mode} (io : IterOrder) (db : Db) (ctx : Ctx)
    {chunk r : Bytes} {d : DBMessage} (h5 : chunk.length ≠ 5)
    (hp : DBMessage.parse m chunk = .ok r d) (hr : d.rtype = .render) :
    process m io db chunk ctx =
      (renderMessages io db d.txid ctx).bind (fun ms => .ok (DBMessage.encodeMany ms, ctx)) := by
  unfold process
  rw [if_neg h5, hp]
  simp only [hr, getController, handleSequence, respond]
  rfl

/-- A render message as the model parses it. -/
theorem render_message {m : Mode} {chunk : Bytes} {k : UInt8} {tx : Bytes} {tags : List UInt8}
    {body : Bytes} (hm : IsMessage m chunk k tx 0x30 0x00 tags body) :
    ∃ d, DBMessage.parse m chunk = .ok [] d ∧ d.rtype = .render ∧
      d.txid.asBytes = echoOf k tx := by
  obtain ⟨d, hp, hu⟩ := parse_message hm
  exact ⟨d, hp, hu.2.2.1, echo_eq hm hu⟩

/-- C10: a render request in any session state is answered by nothing at all, or by one menu header,
then only menu items, then one menu footer (no bound on texts, any transaction-id tag). -/
theorem C10_render_reply_framed (m : Mode) (io : IterOrder) (db : Db) (ctx ctx' : Ctx)
    (chunk reply : Bytes) (k : UInt8) (tx : Bytes) (tags : List UInt8) (body : Bytes)
    (hm : IsMessage m chunk k tx 0x30 0x00 tags body)
    (h : process m io db chunk ctx = .ok (reply, ctx')) :
    reply = [] ∨ ∃ (header footer : Bytes) (items : List Bytes),
      reply = (header :: items ++ [footer]).flatMap
        (fun b => [0x11, 0x87, 0x23, 0x49, 0xae] ++ echoOf k tx ++ b) ∧
      BodyOf 0x40 0x01 header ∧ (∀ b ∈ items, BodyOf 0x41 0x01 b) ∧ BodyOf 0x42 0x01 footer := by
  obtain ⟨d, hp, hr, he⟩ := render_message hm
  rw [process_render io db ctx (by have := message_length hm; omega) hp hr] at h
  rw [← he]
  cases ctx with
  | none =>
    left
    simp only [renderMessages, Outcome.bind, Outcome.ok.injEq, Prod.mk.injEq] at h
    exact h.1.symm
  | some st =>
    right
    obtain ⟨menu, rfl⟩ := remember_surj st
    rw [renderMessages_eq] at h
    cases hi : menuItems io db menu with
    | none => rw [hi] at h; simp [Outcome.bind] at h
    | some items =>
      rw [hi] at h
      simp only [Outcome.bind, Outcome.ok.injEq, Prod.mk.injEq, page_bodies] at h
      refine ⟨_, _, _, h.1.symm, ⟨_, _, rfl⟩, ?_, ⟨_, _, rfl⟩⟩
      intro b hb
      rw [List.mem_map] at hb
      obtain ⟨i, _, rfl⟩ := hb
      exact ⟨_, _, rfl⟩

/-- A render request with a text as transaction id and a 16-bit argument. -/
example (m : Mode) : IsMessage m ([0x00, 0x87, 0x23, 0x49, 0xae, 0x26, 0x00, 0x41, 0x00, 0x42, 0x99,
    0x30, 0x00, 0x0f, 0x01, 0, 0, 0, 0, 0, 0x05, 0, 0, 0, 0, 0, 0, 0, 0, 0, 0, 0, 0x10, 0x01, 0x02])
    0x26 [0x00, 0x41, 0x00, 0x42] 0x30 0x00 [0x05] [0x10, 0x01, 0x02] :=
  ⟨0x00, 0x99, 0x0f, 0x01, [0, 0, 0, 0, 0], [0x05, 0, 0, 0, 0, 0, 0, 0, 0, 0, 0, 0], rfl, rfl, rfl,
    rfl, by decide, by decide, rfl, 3, rfl, trivial⟩

/-! ## C11 a render shows the latest menu request -/

/-- The latest menu request in a history of chunks. -/
def latestMenu (m : Mode) (h : List (IterOrder × Bytes)) : Option Menu :=
  (h.filterMap (fun x => chunkMenu m x.2)).getLast?

theorem connRun_ctx (m : Mode) (db : Db) (h : List (IterOrder × Bytes)) (c : Ctx) (c' : Ctx)
    (outs : List (Option Bytes)) (hr : connRun m db (.open c) h = (outs, .open c')) :
    c' = match latestMenu m h with
      | some menu => some (remember menu)
      | none => c := by
  induction h generalizing c outs with
  | nil =>
    simp only [connRun, Prod.mk.injEq, Conn.open.injEq] at hr
    exact hr.2.symm
  | cons x h ih =>
    simp only [connRun, connStep] at hr
    cases hp : process m x.1 db x.2 c with
    | panic =>
      rw [hp] at hr
      exfalso
      have dead : ∀ h : List (IterOrder × Bytes), (connRun m db .dead h).2 = .dead := by
        intro h
        induction h with
        | nil => rfl
        | cons y h ih => exact ih
      have := congrArg Prod.snd hr
      simp only [dead] at this
      simp at this
    | ok v =>
      obtain ⟨reply, c1⟩ := v
      rw [hp] at hr
      simp only at hr
      have hc1 := process_ctx hp
      have e : connRun m db (.open c1) h = ((connRun m db (.open c1) h).1, .open c') := by
        have := congrArg Prod.snd hr
        simp only at this
        rw [← this]
      have hc := ih c1 _ e
      rw [hc]
      unfold latestMenu
      rw [List.filterMap_cons]
      cases hm : chunkMenu m x.2 with
      | none =>
        rw [hm] at hc1
        simp only at hc1 ⊢
        rw [hc1]
      | some menu =>
        rw [hm] at hc1
        simp only at hc1 ⊢
        subst hc1
        cases hl : List.filterMap (fun x => chunkMenu m x.2) h with
        | nil => rfl
        | cons a l =>
          rw [List.getLast?_cons_cons]
          rw [List.getLast?_eq_some_getLast (by simp)]

theorem latestMenu_none (m : Mode) (h : List (IterOrder × Bytes)) :
    latestMenu m h = none ↔ NothingAskedFor m (h.map (·.2)) := by
  simp only [latestMenu, List.getLast?_eq_none_iff, List.filterMap_eq_nil_iff, chunkMenu_none,
    NothingAskedFor, List.mem_map]
  exact ⟨fun h c ⟨x, hx, hc⟩ => hc ▸ h x hx, fun h x hx => h x.2 ⟨x, hx, rfl⟩⟩

theorem latestMenu_some (m : Mode) (h : List (IterOrder × Bytes)) (menu : Menu) :
    latestMenu m h = some menu ↔ LastAskedFor m (h.map (·.2)) menu := by
  have step : ∀ (before after : List (IterOrder × Bytes)) (x : IterOrder × Bytes),
      chunkMenu m x.2 = some menu → latestMenu m after = none →
      latestMenu m (before ++ x :: after) = some menu := by
    intro before after x hx ha
    unfold latestMenu at ha ⊢
    rw [List.getLast?_eq_none_iff] at ha
    rw [List.filterMap_append, List.filterMap_cons, hx, ha]
    simp
  constructor
  · induction h with
    | nil => intro h; exact nomatch h
    | cons x h ih =>
      intro hl
      cases hh : latestMenu m h with
      | some menu' =>
        have : latestMenu m (x :: h) = some menu' := by
          unfold latestMenu at hh ⊢
          rw [List.filterMap_cons]
          cases chunkMenu m x.2 with
          | none => exact hh
          | some y =>
            simp only
            cases hf : h.filterMap (fun x => chunkMenu m x.2) with
            | nil => rw [hf] at hh; exact nomatch hh
            | cons a l => rw [hf] at hh; rw [List.getLast?_cons_cons]; exact hh
        rw [this] at hl
        obtain ⟨before, c, after, e, h1, h2⟩ := ih (hh.trans hl)
        exact ⟨x.2 :: before, c, after, by rw [List.map_cons, e]; rfl, h1, h2⟩
      | none =>
        have hn := (latestMenu_none m h).1 hh
        refine ⟨[], x.2, _, rfl, ?_, hn⟩
        rw [← chunkMenu_iff]
        unfold latestMenu at hh hl
        rw [List.getLast?_eq_none_iff] at hh
        rw [List.filterMap_cons, hh] at hl
        cases hc : chunkMenu m x.2 with
        | none => rw [hc] at hl; exact nomatch hl
        | some y => rw [hc] at hl; exact hl
  · rintro ⟨before, c, after, e, h1, h2⟩
    rw [List.map_eq_append_iff] at e
    obtain ⟨b, r, rfl, rfl, e⟩ := e
    rw [List.map_eq_cons_iff] at e
    obtain ⟨x, a, rfl, rfl, rfl⟩ := e
    exact step b a x ((chunkMenu_iff m x.2 menu).2 h1) ((latestMenu_none m a).2 h2)

/-- C11: for every history of chunks after which the connection is still alive, a render request is
answered from the latest menu request of that history (with that request's own id argument),
whatever else was received before, in between and after; with no menu request the reply is empty.
If that menu cannot be shown (unknown track, path not UTF-8) the connection dies; the player can
read the page exactly if every line of it has at most 127 UTF-16 units. -/
theorem C11_render_shows_latest_menu (m : Mode) (db : Db)
    (h : List (IterOrder × Bytes)) (outs : List (Option Bytes)) (ctx : Ctx)
    (hr : connRun m db (.open none) h = (outs, .open ctx))
    (io : IterOrder) (tx : UInt32) (args : List Val) (hq : Sendable ⟨tx, 0x3000, args⟩)
    (r : Bytes) :
    (NothingAskedFor m (h.map (·.2)) →
      process m io db (writeMsg ⟨tx, 0x3000, args⟩ ++ r) ctx = .ok ([], ctx)) ∧
    ∀ menu, LastAskedFor m (h.map (·.2)) menu →
      match menuItems io db menu with
      | some items => ∃ reply, process m io db (writeMsg ⟨tx, 0x3000, args⟩ ++ r) ctx =
            .ok (reply, ctx) ∧
            (readReply reply = some (pageMsgs tx (footerOf menu) items) ↔ ∀ i ∈ items, Fits i.text)
      | none => process m io db (writeMsg ⟨tx, 0x3000, args⟩ ++ r) ctx = .panic := by
  have hc := connRun_ctx m db h none ctx outs hr
  constructor
  · intro hn
    rw [(latestMenu_none m h).2 hn] at hc
    simp only at hc ⊢
    subst hc
    rw [process_writeMsg m io db _ hq r]
    rfl
  · intro menu hl
    rw [(latestMenu_some m h menu).2 hl] at hc
    simp only at hc ⊢
    subst hc
    exact render_read_iff m io db tx args hq r menu

/-- C09 (full claim: all menus), with anything in between: the announced count is still what the
render request delivers after any number of further chunks that are not menu requests (greetings,
setup, waveform, load-track, unknown, malformed and render requests), as long as the connection
survives them.  Missing: root, title and album menus, for which the claim is false. -/
theorem C09_announced_count_after_other_requests_partial (m : Mode) (io io' : IterOrder) (db : Db)
    (hA : db.artists.rows.length < 4294967296)
    (hT : db.tracks.rows.length < 4294967296)
    (q : Msg) (hq : Sendable q) (r r' : Bytes) (ctx : Ctx) {menu : Menu} (h : menuOf q = some menu)
    (hc : CountsRight menu) {items : List Item} (hi : menuItems io' db menu = some items)
    (hs : ∀ i ∈ items, Fits i.text)
    (between : List (IterOrder × Bytes)) (hb : NothingAskedFor m (between.map (·.2)))
    (tx : UInt32) (args : List Val) (hq' : Sendable ⟨tx, 0x3000, args⟩) :
    ∃ reply1 ctx' n,
      process m io db (writeMsg q ++ r) ctx = .ok (reply1, ctx') ∧
      readReply reply1 = some [⟨q.tx, 0x4000, [.u32 q.type.toUInt32, .u32 n]⟩] ∧
      ∀ outs ctx'', connRun m db (.open ctx') between = (outs, .open ctx'') →
        ∃ reply2 msgs, process m io' db (writeMsg ⟨tx, 0x3000, args⟩ ++ r') ctx'' =
            .ok (reply2, ctx'') ∧
          readReply reply2 = some msgs ∧ itemCount msgs = n.toNat := by
  obtain ⟨reply1, reply2, ctx', n, msgs, e1, e2, e3, e4, e5⟩ :=
    C09_announced_count_rendered_partial m io io' db hA hT q hq r r' ctx h hc hi hs tx args hq'
  refine ⟨reply1, ctx', n, e1, e2, ?_⟩
  intro outs ctx'' hr
  have hn : latestMenu m between = none := (latestMenu_none m between).2 hb
  have he := connRun_ctx m db between ctx' ctx'' outs hr
  rw [hn] at he
  subst he
  exact ⟨reply2, msgs, e3, e4, e5⟩

example : NothingAskedFor .release [[0x11, 0, 0, 0, 1], [1, 2, 3]] := by
  intro c hc
  rw [← chunkMenu_none]
  simp only [List.mem_cons, List.not_mem_nil, or_false] at hc
  rcases hc with rfl | rfl <;> rfl

/-- C11: what a request of a player asks for is what is understood, whatever follows it in the same
chunk. -/
theorem C11_request_recognised (m : Mode) (q : Msg) (h : Sendable q) (trailing : Bytes)
    (menu : Menu) : AsksFor m (writeMsg q ++ trailing) menu ↔ menuOf q = some menu := by
  rw [← chunkMenu_iff, chunkMenu_writeMsg m q h trailing]

/-- C11: in every history there is at most one menu last asked for, and there is one unless nothing
was asked for. -/
theorem C11_last_menu_unique (m : Mode) (chunks : List Bytes) :
    (NothingAskedFor m chunks ∧ ∀ menu, ¬ LastAskedFor m chunks menu) ∨
    (¬ NothingAskedFor m chunks ∧ ∃ menu, LastAskedFor m chunks menu ∧
      ∀ other, LastAskedFor m chunks other → other = menu) := by
  have e : chunks = (chunks.map (fun c => (IterOrder.id, c))).map (·.2) := by
    rw [List.map_map]; exact (List.map_id _).symm
  rw [e]
  generalize chunks.map (fun c => (IterOrder.id, c)) = h
  simp only [← latestMenu_none, ← latestMenu_some]
  cases latestMenu m h with
  | none => exact .inl ⟨rfl, fun _ h => (nomatch h)⟩
  | some menu =>
    exact .inr ⟨(nomatch ·), menu, rfl, fun _ h => (Option.some.inj h).symm⟩

example (m : Mode) : ∃ outs ctx, connRun m Db.empty (.open none)
    [(.id, [1, 2, 3, 4, 5]), (.id, writeMsg ⟨1, 0x1002, []⟩ ++ []), (.id, [1, 2, 3, 4, 5])] =
      (outs, .open ctx) ∧
    LastAskedFor m [[1, 2, 3, 4, 5], writeMsg ⟨1, 0x1002, []⟩ ++ [], [1, 2, 3, 4, 5]] .artists := by
  have hq : Sendable ⟨1, 0x1002, []⟩ := ⟨by decide, by simp⟩
  have h1 : ∀ c, process m .id Db.empty [1, 2, 3, 4, 5] c = .ok ([1, 2, 3, 4, 5], c) := fun _ => rfl
  have h2 := process_writeMsg m .id Db.empty ⟨1, 0x1002, []⟩ hq [] none
  have h3 : chunkMenu m [1, 2, 3, 4, 5] = none := rfl
  have h5 : ∃ reply c, process m .id Db.empty (writeMsg ⟨1, 0x1002, []⟩ ++ []) none =
      .ok (reply, c) := by
    rw [h2]
    exact ⟨_, _, rfl⟩
  obtain ⟨reply, c, h5⟩ := h5
  refine ⟨[some [1, 2, 3, 4, 5], some reply, some [1, 2, 3, 4, 5]], c, ?_, [[1, 2, 3, 4, 5]], _,
    [[1, 2, 3, 4, 5]], rfl, (C11_request_recognised m _ hq [] _).2 rfl, ?_⟩
  · simp only [connRun, connStep, h1, h5]
  · intro x hx
    rw [List.mem_singleton] at hx
    subst hx
    exact (chunkMenu_none m _).1 h3

/-! ## C12 rendering is repeatable -/

theorem menuItems_perm (io io' : IterOrder) (db : Db) (menu : Menu) :
    match menuItems io db menu, menuItems io' db menu with
    | some a, some b => a.Perm b
    | none, none => True
    | _, _ => False := by
  cases menu with
  | root => exact List.Perm.refl _
  | titles => exact List.Perm.refl _
  | albums a => exact List.Perm.refl _
  | artists =>
    simp only [menuItems]
    exact (((io.perm _).trans (io'.perm _).symm).map _).map _
  | tracks a =>
    simp only [menuItems]
    exact ((((io.perm _).trans (io'.perm _).symm).map _).filter _).map _
  | metadata t =>
    have e : menuItems io db (.metadata t) = menuItems io' db (.metadata t) := rfl
    rw [e]
    cases menuItems io' db (.metadata t) with
    | none => trivial
    | some l => exact List.Perm.refl _
  | mountInfo t =>
    have e : menuItems io db (.mountInfo t) = menuItems io' db (.mountInfo t) := rfl
    rw [e]
    cases menuItems io' db (.mountInfo t) with
    | none => trivial
    | some l => exact List.Perm.refl _

/-- C12: a render request leaves the session as it is, and any further render request is answered
with the same messages under its own transaction id: the same header and footer, and the same items
up to the hash iteration order - in the very same order if the iteration order is the same. -/
theorem C12_render_repeatable (m : Mode) (io io' : IterOrder) (db : Db) (ctx ctx' : Ctx)
    (chunk chunk' reply : Bytes) (k k' : UInt8) (tx tx' : Bytes) (tags tags' : List UInt8)
    (body body' : Bytes) (hm : IsMessage m chunk k tx 0x30 0x00 tags body)
    (hm' : IsMessage m chunk' k' tx' 0x30 0x00 tags' body')
    (h : process m io db chunk ctx = .ok (reply, ctx')) :
    ctx' = ctx ∧ ∃ (reply' : Bytes) (bodies bodies' : List Bytes),
      process m io' db chunk' ctx = .ok (reply', ctx) ∧
      reply = bodies.flatMap (fun b => [0x11, 0x87, 0x23, 0x49, 0xae] ++ echoOf k tx ++ b) ∧
      reply' = bodies'.flatMap (fun b => [0x11, 0x87, 0x23, 0x49, 0xae] ++ echoOf k' tx' ++ b) ∧
      (∀ b ∈ bodies, IsBody b) ∧
      bodies.head? = bodies'.head? ∧ bodies.getLast? = bodies'.getLast? ∧
      bodies.Perm bodies' ∧ (io = io' → bodies = bodies') := by
  obtain ⟨d, hp, hr, he⟩ := render_message hm
  obtain ⟨d', hp', hr', he'⟩ := render_message hm'
  rw [process_render io db ctx (by have := message_length hm; omega) hp hr] at h
  rw [process_render io' db ctx (by have := message_length hm'; omega) hp' hr', ← he, ← he']
  cases ctx with
  | none =>
    simp only [renderMessages, Outcome.bind, Outcome.ok.injEq, Prod.mk.injEq] at h ⊢
    refine ⟨h.2.symm, _, [], [], ⟨rfl, trivial⟩, h.1.symm, rfl, by simp, rfl, rfl, List.Perm.refl _,
      fun _ => rfl⟩
  | some st =>
    obtain ⟨menu, rfl⟩ := remember_surj st
    rw [renderMessages_eq] at h
    rw [renderMessages_eq]
    have hperm := menuItems_perm io io' db menu
    cases hi : menuItems io db menu with
    | none => rw [hi] at h; simp [Outcome.bind] at h
    | some items =>
      cases hi' : menuItems io' db menu with
      | none => rw [hi, hi'] at hperm; exact False.elim hperm
      | some items' =>
        rw [hi, hi'] at hperm
        rw [hi] at h
        simp only [Outcome.bind, Outcome.ok.injEq, Prod.mk.injEq, page_bodies] at h hperm ⊢
        refine ⟨h.2.symm, _, _, _, ⟨rfl, trivial⟩, h.1.symm, rfl, ?_, rfl, ?_, ?_, ?_⟩
        · intro b hb
          simp only [pageBodies, List.cons_append, List.mem_cons, List.mem_append, List.mem_map,
            List.not_mem_nil, or_false] at hb
          rcases hb with rfl | ⟨i, _, rfl⟩ | rfl
          · exact ⟨_, _, _, _, rfl⟩
          · exact ⟨_, _, _, _, rfl⟩
          · exact ⟨_, _, _, _, rfl⟩
        · simp only [pageBodies, List.getLast?_append, List.getLast?_singleton, Option.some_or]
        · exact ((hperm.map _).cons _).append_right _
        · rintro rfl
          rw [hi] at hi'
          simp only [Option.some.injEq] at hi'
          rw [hi']

/-! ## C14 unsupported requests -/

/-- C14: a request with a code the server has no handler for is answered with one empty success
message under its transaction id and changes nothing. -/
theorem C14_unsupported_request_acknowledged (m : Mode) (io : IterOrder) (db : Db) (ctx : Ctx)
    (q : Msg) (hq : Sendable q) (hc : q.type ∉ handledCodes) (r : Bytes) :
    ∃ reply, process m io db (writeMsg q ++ r) ctx = .ok (reply, ctx) ∧
      readReply reply = some [⟨q.tx, 0x4000, []⟩] := by
  have hn : getController (ReqType.new q.type) = none := by
    by_cases hk : q.type ∈ knownCodes
    · simp only [knownCodes, List.mem_cons, List.not_mem_nil, or_false] at hk
      rcases hk with e | e | e | e | e | e | e | e | e | e | e | e | e | e | e | e | e | e | e |
        e | e <;> rw [e] at hc ⊢ <;> first
          | rfl
          | exact absurd (by decide) hc
    · rw [(new_eq_unknown _).2 hk]
      rfl
  rw [process_writeMsg m io db q hq r, hn]
  exact ⟨_, rfl, readReply_single q.tx .success [] (by simp) (by simp [Readable])⟩

example : (0x1003 : UInt16) ∉ handledCodes ∧ (0x1300 : UInt16) ∉ handledCodes := by decide

/-- C14 for every message, whatever its transaction-id tag and arguments. -/
theorem C14_unsupported_chunk_acknowledged (m : Mode) (io : IterOrder) (db : Db) (ctx : Ctx)
    (chunk : Bytes) (k : UInt8) (tx : Bytes) (ty1 ty2 : UInt8) (tags : List UInt8) (body : Bytes)
    (hm : IsMessage m chunk k tx ty1 ty2 tags body)
    (hc : ofBe16 ty1 ty2 ∉ handledCodes) :
    process m io db chunk ctx = .ok
      ([0x11, 0x87, 0x23, 0x49, 0xae] ++ echoOf k tx ++
        [0x10, 0x40, 0x00, 0x0f, 0x00, 0x14, 0, 0, 0, 0x0c, 0, 0, 0, 0, 0, 0, 0, 0, 0, 0, 0, 0],
        ctx) := by
  obtain ⟨d, hp, hu⟩ := parse_message hm
  have hl := message_length hm
  have hc : ∀ c ∈ handledCodes, d.rtype ≠ ReqType.new c := by
    intro c hcm heq
    rw [hu.2.2.1] at heq
    generalize ofBe16 ty1 ty2 = v at *
    by_cases hv : v ∈ knownCodes
    · simp only [knownCodes, List.mem_cons, List.not_mem_nil, or_false] at hv
      simp only [handledCodes, List.mem_cons, List.not_mem_nil, or_false] at hcm
      rcases hv with rfl | rfl | rfl | rfl | rfl | rfl | rfl | rfl | rfl | rfl | rfl | rfl | rfl |
        rfl | rfl | rfl | rfl | rfl | rfl | rfl | rfl <;>
        first
          | exact hc (by decide)
          | (rcases hcm with rfl | rfl | rfl | rfl | rfl | rfl | rfl | rfl | rfl | rfl | rfl <;>
              exact absurd heq (by decide))
    · rw [(new_eq_unknown v).2 hv] at heq
      simp only [handledCodes, List.mem_cons, List.not_mem_nil, or_false] at hcm
      rcases hcm with rfl | rfl | rfl | rfl | rfl | rfl | rfl | rfl | rfl | rfl | rfl <;>
        exact absurd heq (by simp [ReqType.new])
  unfold process
  rw [if_neg (by omega), hp, ← echo_eq hm hu]
  have hn : getController d.rtype = none := by
    cases hd : d.rtype <;> first
      | rfl
      | exact absurd hd (hc 0x0000 (by decide))
      | exact absurd hd (hc 0x1000 (by decide))
      | exact absurd hd (hc 0x1002 (by decide))
      | exact absurd hd (hc 0x1004 (by decide))
      | exact absurd hd (hc 0x1102 (by decide))
      | exact absurd hd (hc 0x1202 (by decide))
      | exact absurd hd (hc 0x2002 (by decide))
      | exact absurd hd (hc 0x2004 (by decide))
      | exact absurd hd (hc 0x2102 (by decide))
      | exact absurd hd (hc 0x2b04 (by decide))
      | exact absurd hd (hc 0x3000 (by decide))
  simp only [hn]
  simp [DBMessage.encode, DBMessage.toResponse, DBMessage.magicBytes, ReqType.value, argsEncode]

/-! ## C15 undecodable chunks -/

theorem rejected_answer (m : Mode) (io : IterOrder) (db : Db) (ctx : Ctx) (chunk : Bytes)
    (h5 : chunk.length ≠ 5) (hp : DBMessage.parse m chunk = .err ∨ DBMessage.parse m chunk = .fail) :
    process m io db chunk ctx = .ok ([0x70, 0x61, 0x6e, 0x69, 0x63], ctx) := by
  unfold process
  rw [if_neg h5]
  rcases hp with hp | hp <;> rw [hp] <;> rfl

/-- C15: a chunk that is neither a greeting nor a message nor one of those that end the connection
is answered with the five bytes `panic` and changes nothing. -/
theorem C15_undecodable_chunk (m : Mode) (io : IterOrder) (db : Db) (ctx : Ctx) (chunk : Bytes)
    (h5 : chunk.length ≠ 5) (hc : ¬ ChunkCrashes m chunk)
    (hm : ¬ ∃ k tx ty1 ty2 tags body, IsMessage m chunk k tx ty1 ty2 tags body) :
    process m io db chunk ctx = .ok ([0x70, 0x61, 0x6e, 0x69, 0x63], ctx) :=
  rejected_answer m io db ctx chunk h5 (parse_err hc hm)

example (m : Mode) : ([0x11, 0x87] : Bytes).length ≠ 5 ∧ ¬ ChunkCrashes m [0x11, 0x87] ∧
    ¬ ∃ k tx ty1 ty2 tags body, IsMessage m [0x11, 0x87] k tx ty1 ty2 tags body := by
  refine ⟨by decide, ?_, ?_⟩
  · rintro ⟨t0, k, tx, rest, -, h, -⟩
    simp at h
  · rintro ⟨k, tx, ty1, ty2, tags, body, h⟩
    exact absurd (message_length h) (by simp)

/-- C15: in particular every chunk that does not carry the protocol magic is rejected. -/
theorem C15_wrong_magic_rejected (m : Mode) (io : IterOrder) (db : Db) (ctx : Ctx) (chunk : Bytes)
    (h5 : chunk.length ≠ 5) (hm : (chunk.drop 1).take 4 ≠ [0x87, 0x23, 0x49, 0xae]) :
    process m io db chunk ctx = .ok ([0x70, 0x61, 0x6e, 0x69, 0x63], ctx) := by
  apply rejected_answer m io db ctx chunk h5
  left
  cases hmag : DBMessage.magic chunk with
  | err => simp only [DBMessage.parse, bind_def, hmag]; rfl
  | fail =>
    exfalso
    cases chunk with
    | nil => simp [DBMessage.magic, bind_def] at hmag
    | cons a l =>
      simp only [DBMessage.magic, bind_def, P.take_succ_cons, P.take_zero, PRes.andThen_ok] at hmag
      exact P.tag_ne_fail _ _ hmag
  | panic =>
    exfalso
    cases chunk with
    | nil => simp [DBMessage.magic, bind_def] at hmag
    | cons a l =>
      simp only [DBMessage.magic, bind_def, P.take_succ_cons, P.take_zero, PRes.andThen_ok] at hmag
      exact P.tag_ne_panic _ _ hmag
  | ok r v =>
    exfalso
    obtain ⟨t0, rfl⟩ := magic_eq_ok hmag
    exact hm (by simp [DBMessage.magicBytes])

/-! ## C16 TCP segmentation -/

/-- What a player receives for a sequence of chunks: the concatenated replies. -/
def received (m : Mode) (db : Db) (io : IterOrder) (chunks : List Bytes) : Bytes :=
  ((connRun m db (.open none) (chunks.map (io, ·))).1.filterMap id).flatten

/-- C16 is false: the same five bytes in one or in two segments give different replies. -/
theorem C16_segmentation_matters (m : Mode) (db : Db) (io : IterOrder) :
    ∃ c1 c2 : List Bytes, c1.flatten = c2.flatten ∧ (∀ c ∈ c1 ++ c2, c ≠ []) ∧
      received m db io c1 ≠ received m db io c2 := by
  refine ⟨[[0x11, 0, 0, 0, 1]], [[0x11, 0], [0, 0, 1]], rfl, by decide, ?_⟩
  have h1 : process m io db [0x11, 0, 0, 0, 1] none = .ok ([0x11, 0, 0, 0, 1], none) := rfl
  have h2 : process m io db [0x11, 0] none = .ok (panicText, none) :=
    C15_wrong_magic_rejected m io db none _ (by decide) (by decide)
  have h3 : process m io db [0, 0, 1] none = .ok (panicText, none) :=
    C15_wrong_magic_rejected m io db none _ (by decide) (by decide)
  have e1 : received m db io [[0x11, 0, 0, 0, 1]] = [0x11, 0, 0, 0, 1] := by
    simp [received, connRun, connStep, h1]
  have e2 : received m db io [[0x11, 0], [0, 0, 1]] = panicText ++ panicText := by
    simp [received, connRun, connStep, h2, h3]
  rw [e1, e2]
  decide

/-- C16 (full claim: independence of segmentation).  Missing: that claim is false; what holds is
that a chunk is handled as exactly one request, everything after its first message being dropped. -/
theorem C16_merged_requests_dropped_partial (m : Mode) (io : IterOrder) (db : Db) (ctx : Ctx)
    (q : Msg) (hq : Sendable q) (more : Bytes) :
    process m io db (writeMsg q ++ more) ctx = process m io db (writeMsg q) ctx := by
  have h := process_writeMsg m io db q hq [] ctx
  rw [List.append_nil] at h
  rw [process_writeMsg m io db q hq more ctx, h]

/-- C16, the negation for every request and every place of a cut: what arrives of a request before the cut
is echoed if it is five bytes, answered with `panic` if it is less than the 32 bytes of the header, and
ends the connection otherwise. -/
theorem C16_cut_request (m : Mode) (io : IterOrder) (db : Db) (ctx : Ctx) (q : Msg) (hq : Sendable q)
    (k : Nat) (hk : k < (writeMsg q).length) :
    process m io db ((writeMsg q).take k) ctx =
      if k = 5 then .ok ((writeMsg q).take 5, ctx)
      else if k < 32 then .ok ([0x70, 0x61, 0x6e, 0x69, 0x63], ctx)
      else .panic := by
  unfold process
  rw [List.length_take, Nat.min_eq_left (by omega), parse_cut m q hq k hk]
  by_cases h5 : k = 5
  · rw [if_pos h5, if_pos h5, h5]
  · rw [if_neg h5, if_neg h5]
    by_cases h : k < 32
    · rw [if_pos h, if_pos h]
      rfl
    · rw [if_neg h, if_neg h]

/-- C16: so a request that is cut among its arguments is never answered, nor is anything after it. -/
theorem C16_cut_request_unanswered (m : Mode) (db : Db) (ctx : Ctx) (q : Msg) (hq : Sendable q)
    (k : Nat) (h32 : 32 ≤ k) (hk : k < (writeMsg q).length) (io : IterOrder)
    (later : List (IterOrder × Bytes)) :
    connRun m db (.open ctx) ((io, (writeMsg q).take k) :: later) =
      (List.replicate (later.length + 1) none, .dead) := by
  have h := C16_cut_request m io db ctx q hq k hk
  rw [if_neg (by omega), if_neg (by omega)] at h
  have hd : ∀ l : List (IterOrder × Bytes), connRun m db .dead l = (List.replicate l.length none, .dead) := by
    intro l
    induction l with
    | nil => rfl
    | cons x l ih => simp only [connRun, connStep, ih, List.length_cons, List.replicate_succ]
  simp only [connRun, connStep, h, hd, List.replicate_succ]

/-- C16: when TCP merges whole requests, a connection goes as if the first of each segment had been sent and nothing
else: the requests behind it are neither answered nor remembered. -/
theorem C16_merged_segments (m : Mode) (db : Db) (gs : List (IterOrder × Msg × List Msg))
    (hg : ∀ g ∈ gs, Sendable g.2.1) (c : Conn) :
    connRun m db c (gs.map fun g => (g.1, ((g.2.1 :: g.2.2).map writeMsg).flatten)) =
      connRun m db c (gs.map fun g => (g.1, writeMsg g.2.1)) := by
  induction gs generalizing c with
  | nil => rfl
  | cons g gs ih =>
    have hs : connStep m db g.1 ((g.2.1 :: g.2.2).map writeMsg).flatten c = connStep m db g.1 (writeMsg g.2.1) c := by
      cases c with
      | dead => rfl
      | «open» ctx =>
        rw [List.map_cons, List.flatten_cons]
        simp only [connStep]
        rw [C16_merged_requests_dropped_partial m g.1 db ctx g.2.1 (hg g (by simp)) _]
    simp only [List.map_cons, connRun]
    have hi := ih (fun g' h => hg g' (by simp [h]))
    simp only [List.map_cons] at hs hi
    rw [hs, hi]

/-! ## Instances -/

theorem sendable_nil (tx : UInt32) (c : UInt16) : Sendable ⟨tx, c, []⟩ := ⟨by simp, by simp⟩

theorem sendable_u32 (tx : UInt32) (c : UInt16) (a b : UInt32) : Sendable ⟨tx, c, [.u32 a, .u32 b]⟩ := by
  refine ⟨by simp, ?_⟩
  intro v hv
  simp only [List.mem_cons, List.not_mem_nil, or_false] at hv
  rcases hv with rfl | rfl <;> trivial

theorem sendable_u32s (tx : UInt32) (c : UInt16) (a b x : UInt32) :
    Sendable ⟨tx, c, [.u32 a, .u32 b, .u32 x]⟩ := by
  refine ⟨by simp, ?_⟩
  intro v hv
  simp only [List.mem_cons, List.not_mem_nil, or_false] at hv
  rcases hv with rfl | rfl | rfl <;> trivial

example := C09_root_menu_count_wrong .debug .id .id pairDb ⟨1, 0x1000, []⟩ (sendable_nil 1 _) rfl [] []
  none 2 [.u32 0, .u32 0] (sendable_u32 2 _ 0 0)

/-- The artist of the pair of tracks: two announced, one delivered. -/
example := C09_album_menu_count_wrong .debug .id .id pairDb ⟨1, 0x1102, [.u32 0, .u32 0, .u32 2]⟩
  (sendable_u32s 1 _ 0 0 2) 2 (by decide) [] [] none 2 [] (sendable_nil 2 _)

example := C09_title_menu_unreadable .debug .id pairDb ⟨1, 0x1004, []⟩ (sendable_nil 1 _) rfl [] none

/-- The session of a greeting and a request for the artists. -/
example := by
  have h1 : process .debug .id pairDb [1, 2, 3, 4, 5] none = .ok ([1, 2, 3, 4, 5], none) := rfl
  have hr : connRun .debug pairDb (.open none) [(.id, [1, 2, 3, 4, 5])] =
      ([some [1, 2, 3, 4, 5]], .open none) := by simp only [connRun, connStep, h1]
  exact C11_render_shows_latest_menu .debug pairDb _ _ _ hr .id 2 [] (sendable_nil 2 _) []

example := C11_request_recognised .debug ⟨1, 0x1002, []⟩ (sendable_nil 1 _) [1, 2, 3]

/-- Two renders of the artists with different transaction ids. -/
example : ∃ reply ctx', process .debug .id pairDb (writeMsg ⟨9, 0x3000, []⟩ ++ [])
    (some (remember .artists)) = .ok (reply, ctx') ∧ ctx' = some (remember .artists) := by
  have h : ∃ reply ctx', process .debug .id pairDb (writeMsg ⟨9, 0x3000, []⟩ ++ [])
      (some (remember .artists)) = .ok (reply, ctx') := by
    rw [process_writeMsg .debug .id pairDb _ (sendable_nil 9 _)]
    exact ⟨_, _, rfl⟩
  obtain ⟨reply, ctx', h⟩ := h
  have msg : ∀ tx : UInt32, ∃ tags body, IsMessage .debug (writeMsg ⟨tx, 0x3000, []⟩ ++ []) 0x11
      (be32 tx) 0x30 0x00 tags body := by
    intro tx
    obtain ⟨_, _, tags, body, e, hm⟩ := message_writeMsg .debug ⟨tx, 0x3000, []⟩ (sendable_nil tx _) []
    have e' := (show ([0x30, 0x00] : Bytes) = be16 0x3000 by decide).trans e
    cases e'
    exact ⟨tags, body, hm⟩
  obtain ⟨_, _, hm⟩ := msg 9
  obtain ⟨_, _, hm'⟩ := msg 10
  exact ⟨reply, ctx', h,
    (C12_render_repeatable .debug .id .id pairDb _ _ _ _ _ _ _ _ _ _ _ _ _ hm hm' h).1⟩

/-- A request for all albums. -/
example : ∃ reply, process .debug .id pairDb (writeMsg ⟨9, 0x1003, []⟩ ++ []) none = .ok (reply, none) := by
  obtain ⟨ty1, ty2, tags, body, e, hm⟩ :=
    message_writeMsg .debug ⟨9, 0x1003, []⟩ (sendable_nil 9 _) []
  cases e
  exact ⟨_, C14_unsupported_chunk_acknowledged .debug .id pairDb none _ _ _ _ _ _ _ hm (by decide)⟩

example := C15_wrong_magic_rejected .debug .id pairDb none [0x11, 0x87, 0x23, 0x49, 0xaf, 1] (by decide)
  (by decide)

/-- A metadata request cut before its last byte. -/
example := C16_cut_request .debug .id pairDb none ⟨1, 0x2002, [.u32 0, .u32 3]⟩ (sendable_u32 1 _ 0 3) 41
  (by decide)
example := C16_cut_request_unanswered .debug pairDb none ⟨1, 0x2002, [.u32 0, .u32 3]⟩ (sendable_u32 1 _ 0 3)
  41 (by decide) (by decide) .id []

/-- A request for the artists with a render in the same chunk. -/
example := C16_merged_requests_dropped_partial .debug .id pairDb none ⟨1, 0x1002, []⟩ (sendable_nil 1 _)
  (writeMsg ⟨2, 0x3000, []⟩)

/-- C16, non-vacuity: two requests in one segment, a third in another. -/
example (m : Mode) (db : Db) (io : IterOrder) (c : Conn) (a b x : UInt16) :=
  C16_merged_segments m db [(io, ⟨1, a, []⟩, [⟨2, b, []⟩]), (io, ⟨3, x, []⟩, [])]
    (by simp [sendable_nil]) c

end PDJ
