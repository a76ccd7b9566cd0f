import Verif.Lemmas.ChunkAnswer
import Verif.Props.Replies

/-!
# Property C102: what any chunk of bytes at a library connection does

Nothing is assumed of the chunk: it need not come from a well-behaved player.  The kinds of chunks
are those of `Spec/ChunkAsks.lean` and `Spec/DbPanic.lean`, on the raw bytes.
-/

namespace PDJ

open Spec

/-- C102: a chunk is read in at most one way. -/
theorem C102_read_in_one_way (m : Mode) (chunk : Bytes) :
    (∀ k tx ty1 ty2 tags body, IsMessage m chunk k tx ty1 ty2 tags body →
      chunk.length ≠ 5 ∧ ¬ ChunkCrashes m chunk ∧
      ∀ k' tx' ty1' ty2' tags' body', IsMessage m chunk k' tx' ty1' ty2' tags' body' →
        k = k' ∧ tx = tx' ∧ ty1 = ty1' ∧ ty2 = ty2' ∧ tags = tags' ∧ body = body') ∧
    (ChunkCrashes m chunk → chunk.length ≠ 5) := by
  refine ⟨fun k tx ty1 ty2 tags body h => ⟨?_, message_not_crash h, ?_⟩, ?_⟩
  · have := message_length h; omega
  · intro k' tx' ty1' ty2' tags' body' h'
    exact message_unique h h'
  · rintro ⟨t0, k, tx, rest, htx, rfl, -⟩
    simp only [List.length_cons, List.length_append, htx]
    omega

theorem lacksId_iff {m : Mode} {chunk : Bytes} {k : UInt8} {tx : Bytes} {ty1 ty2 : UInt8}
    {tags : List UInt8} {body : Bytes} (h : IsMessage m chunk k tx ty1 ty2 tags body) :
    LacksId m chunk ↔ ty2 = 0x02 ∧
      (((ty1 = 0x11 ∨ ty1 = 0x12) ∧ argNumAt m 2 tags body = none) ∨
       ((ty1 = 0x20 ∨ ty1 = 0x21) ∧ argNumAt m 1 tags body = none)) := by
  constructor
  · rintro ⟨k', tx', ty1', ty2', tags', body', h', hl⟩
    obtain ⟨rfl, rfl, rfl, rfl, rfl, rfl⟩ := message_unique h h'
    exact hl
  · intro hl
    exact ⟨k, tx, ty1, ty2, tags, body, h, hl⟩

theorem asksToRender_iff {m : Mode} {chunk : Bytes} {k : UInt8} {tx : Bytes} {ty1 ty2 : UInt8}
    {tags : List UInt8} {body : Bytes} (h : IsMessage m chunk k tx ty1 ty2 tags body) :
    AsksToRender m chunk ↔ ty1 = 0x30 ∧ ty2 = 0x00 := by
  constructor
  · rintro ⟨k', tx', tags', body', h'⟩
    obtain ⟨rfl, rfl, rfl, rfl, rfl, rfl⟩ := message_unique h h'
    exact ⟨rfl, rfl⟩
  · rintro ⟨rfl, rfl⟩
    exact ⟨k, tx, tags, body, h⟩

theorem answerTo_panic (io : IterOrder) (db : Db) (rt : ReqType) (n1 n2 : Option UInt32) (ctx : Ctx) :
    answerTo io db rt n1 n2 ctx = .panic ↔
      ((rt = .albumByArtist ∨ rt = .titleByArtistAlbum) ∧ n2 = none) ∨
      ((rt = .metadata ∨ rt = .mountInfo) ∧ n1 = none) ∨
      (rt = .render ∧ ∃ menu, ctx = some (remember menu) ∧ menuItems io db menu = none) := by
  cases rt <;> cases n1 <;> cases n2 <;> simp only [answerTo] <;> try simp; done
  all_goals
    cases ctx with
    | none => simp
    | some s =>
      obtain ⟨menu, rfl⟩ := remember_surj s
      have inj : ∀ menu', remember menu = remember menu' ↔ menu = menu' := by
        intro menu'
        cases menu <;> cases menu' <;> simp [remember]
      rw [renderMessages_eq]
      cases menuItems_eq : menuItems io db menu <;> simp [Outcome.bind, inj, menuItems_eq]

/-- A chunk ends its connection exactly if the parser crashes on it, it lacks the id it needs, or
it asks to render a menu that cannot be shown. -/
theorem chunk_panics_iff (m : Mode) (io : IterOrder) (db : Db) (chunk : Bytes) (ctx : Ctx) :
    process m io db chunk ctx = .panic ↔
      ChunkCrashes m chunk ∨ LacksId m chunk ∨
      (AsksToRender m chunk ∧ ∃ menu, ctx = some (remember menu) ∧ menuItems io db menu = none) := by
  by_cases hm : ∃ k tx ty1 ty2 tags body, IsMessage m chunk k tx ty1 ty2 tags body
  · obtain ⟨k, tx, ty1, ty2, tags, body, hm⟩ := hm
    obtain ⟨d, hp, hu⟩ := parse_message hm
    have hl := message_length hm
    rw [process_answer (by omega) hp, lacksId_iff hm, asksToRender_iff hm]
    have hnum : ∀ j, argNumber d j = none ↔ argNumAt m j tags body = none := by
      intro j
      rw [← hu.2.2.2 j]
      simp
    have hb : ∀ o : Outcome (List Bytes × Ctx), (o.bind fun p => Outcome.ok (p.1.flatMap
        (fun b => [0x11] ++ DBMessage.magicBytes ++ d.txid.asBytes ++ b), p.2)) = .panic ↔
        o = .panic := by
      intro o
      cases o <;> simp [Outcome.bind]
    rw [hb, answerTo_panic, hu.2.2.1, hnum, hnum]
    obtain ⟨-, -, -, c4, c5, c6, c7, c8⟩ := new_cases (ofBe16 ty1 ty2)
    have e4 := code_eq ty1 ty2 0x11 0x02
    have e5 := code_eq ty1 ty2 0x12 0x02
    have e6 := code_eq ty1 ty2 0x20 0x02
    have e7 := code_eq ty1 ty2 0x21 0x02
    have e8 := code_eq ty1 ty2 0x30 0x00
    have nc := message_not_crash hm
    rw [c4, c5, c6, c7, c8]
    rw [show (0x1102 : UInt16) = ofBe16 0x11 0x02 by decide, show (0x1202 : UInt16) = ofBe16 0x12 0x02 by
      decide, show (0x2002 : UInt16) = ofBe16 0x20 0x02 by decide, show (0x2102 : UInt16) =
      ofBe16 0x21 0x02 by decide, show (0x3000 : UInt16) = ofBe16 0x30 0x00 by decide, e4, e5, e6, e7, e8]
    constructor
    · rintro (⟨h | h, h'⟩ | ⟨h | h, h'⟩ | ⟨h, h'⟩)
      · exact .inr (.inl ⟨h.2, .inl ⟨.inl h.1, h'⟩⟩)
      · exact .inr (.inl ⟨h.2, .inl ⟨.inr h.1, h'⟩⟩)
      · exact .inr (.inl ⟨h.2, .inr ⟨.inl h.1, h'⟩⟩)
      · exact .inr (.inl ⟨h.2, .inr ⟨.inr h.1, h'⟩⟩)
      · exact .inr (.inr ⟨h, h'⟩)
    · rintro (h | ⟨h, ⟨h' | h', h''⟩ | ⟨h' | h', h''⟩⟩ | h)
      · exact absurd h nc
      · exact .inl ⟨.inl ⟨h', h⟩, h''⟩
      · exact .inl ⟨.inr ⟨h', h⟩, h''⟩
      · exact .inr (.inl ⟨.inl ⟨h', h⟩, h''⟩)
      · exact .inr (.inl ⟨.inr ⟨h', h⟩, h''⟩)
      · exact .inr (.inr h)
  · have n1 : ¬ LacksId m chunk := by
      rintro ⟨k, tx, ty1, ty2, tags, body, h, -⟩
      exact hm ⟨k, tx, ty1, ty2, tags, body, h⟩
    have n2 : ¬ AsksToRender m chunk := by
      rintro ⟨k, tx, tags, body, h⟩
      exact hm ⟨k, tx, _, _, tags, body, h⟩
    simp only [n1, n2, false_and, or_false]
    by_cases h5 : chunk.length = 5
    · rw [C07_greeting_echoed m io db chunk ctx h5]
      refine ⟨fun h => (nomatch h), fun h => ?_⟩
      exact absurd h5 ((C102_read_in_one_way m chunk).2 h)
    · by_cases hc : ChunkCrashes m chunk
      · simp only [hc, iff_true]
        unfold process
        rw [if_neg h5, (parse_panic_iff m chunk).2 hc]
      · rw [C15_undecodable_chunk m io db ctx chunk h5 hc hm]
        simp [hc]

/-- C102: after any history a connection has survived, any further chunk whatever ends it exactly if
it is one of those that crash the parser, or asks for a menu without the id needed, or asks to be
shown the menu last asked for and that menu cannot be shown. -/
theorem C102_chunk_ends_connection_iff (m : Mode) (db : Db) (h : List (IterOrder × Bytes))
    (outs : List (Option Bytes)) (ctx : Ctx) (hr : connRun m db (.open none) h = (outs, .open ctx))
    (io : IterOrder) (chunk : Bytes) :
    (connRun m db (.open none) (h ++ [(io, chunk)])).2 = .dead ↔
      ChunkCrashes m chunk ∨ LacksId m chunk ∨
      (AsksToRender m chunk ∧ ∃ menu, LastAskedFor m (h.map (·.2)) menu ∧
        menuItems io db menu = none) := by
  simp only [← latestMenu_some]
  have app : ∀ (h : List (IterOrder × Bytes)) (c : Conn) x,
      (connRun m db c (h ++ [x])).2 = (connStep m db x.1 x.2 (connRun m db c h).2).2 := by
    intro h
    induction h with
    | nil => intro c x; rfl
    | cons y h ih => intro c x; exact ih _ x
  rw [app, hr]
  have hc := connRun_ctx m db h none ctx outs hr
  have e : (connStep m db io chunk (.open ctx)).2 = .dead ↔ process m io db chunk ctx = .panic := by
    simp only [connStep]
    cases process m io db chunk ctx <;> simp
  rw [e, chunk_panics_iff, hc]
  have inj : ∀ menu menu', remember menu = remember menu' ↔ menu = menu' := by
    intro menu menu'
    cases menu <;> cases menu' <;> simp [remember]
  cases latestMenu m h with
  | none => simp
  | some menu => simp [inj]

/-- C102: the answer to a message is determined by the session and the message's request code and
its numbers at positions 1 and 2 (and by the transaction id, which is put into every part of the
answer).  Hence any message at all is answered as the request of a well-behaved player that has the
same code and numbers. -/
theorem C102_answer_depends_on_code_and_ids (m : Mode) (io : IterOrder) (db : Db) (ctx : Ctx)
    (chunk chunk' : Bytes) (k k' : UInt8) (tx tx' : Bytes) (ty1 ty2 : UInt8)
    (tags tags' : List UInt8) (body body' : Bytes)
    (h : IsMessage m chunk k tx ty1 ty2 tags body)
    (h' : IsMessage m chunk' k' tx' ty1 ty2 tags' body')
    (h1 : argNumAt m 1 tags body = argNumAt m 1 tags' body')
    (h2 : argNumAt m 2 tags body = argNumAt m 2 tags' body') :
    (process m io db chunk ctx = .panic ∧ process m io db chunk' ctx = .panic) ∨
    ∃ (bodies : List Bytes) (ctx' : Ctx),
      process m io db chunk ctx = .ok (bodies.flatMap
        (fun b => [0x11, 0x87, 0x23, 0x49, 0xae] ++ echoOf k tx ++ b), ctx') ∧
      process m io db chunk' ctx = .ok (bodies.flatMap
        (fun b => [0x11, 0x87, 0x23, 0x49, 0xae] ++ echoOf k' tx' ++ b), ctx') := by
  obtain ⟨d, hp, hu⟩ := parse_message h
  obtain ⟨d', hp', hu'⟩ := parse_message h'
  have hl := message_length h
  have hl' := message_length h'
  have num : ∀ {o o' : Option UInt32}, o.map UInt32.toNat = o'.map UInt32.toNat → o = o' := by
    intro o o' e
    cases o <;> cases o' <;> simp_all [UInt32.toNat_inj]
  have e1 : argNumber d' 1 = argNumber d 1 := num (by rw [hu.2.2.2, hu'.2.2.2, h1])
  have e2 : argNumber d' 2 = argNumber d 2 := num (by rw [hu.2.2.2, hu'.2.2.2, h2])
  rw [process_answer (by omega) hp, process_answer (by omega) hp', echo_eq h hu, echo_eq h' hu',
    hu'.2.2.1, ← hu.2.2.1, e1, e2]
  cases answerTo io db d.rtype (argNumber d 1) (argNumber d 2) ctx with
  | panic => exact .inl ⟨rfl, rfl⟩
  | ok p => exact .inr ⟨p.1, p.2, rfl, rfl⟩

/-- C102: the request of a well-behaved player is such a message, with its transaction id, its code
and its numbers. -/
theorem C102_requests_are_messages (m : Mode) (q : Msg) (hq : Sendable q) (more : Bytes) :
    ∃ ty1 ty2 tags body, ofBe16 ty1 ty2 = q.type ∧
      IsMessage m (writeMsg q ++ more) 0x11 (be32 q.tx) ty1 ty2 tags body ∧
      ∀ i, argNumAt m i tags body = (numAt i q.args).map UInt32.toNat := by
  obtain ⟨ty1, ty2, tags, body, e, hm⟩ := message_writeMsg m q hq more
  refine ⟨ty1, ty2, tags, body, ?_, hm, ?_⟩
  · have := ofBe16_be16 q.type
    unfold be16 at e
    simp only [List.cons.injEq, and_true] at e
    rw [← e.1, ← e.2]
    exact this
  · intro i
    obtain ⟨d, hp, hu⟩ := parse_message hm
    have hp' := parse_writeMsg m q hq more
    rw [hp] at hp'
    simp only [PRes.ok.injEq, true_and] at hp'
    rw [← hu.2.2.2 i, hp', argNumber_fieldOf]

/-- A metadata request as no player writes it: a 16-bit transaction id tag, filling that is not
zero, a text before the id and bytes after it. -/
def oddRequest : Bytes :=
  [0xff, 0x87, 0x23, 0x49, 0xae, 0x10, 1, 2, 3, 4, 0x77, 0x20, 0x02, 0x66, 0x02, 9, 9, 9, 9, 9,
    0x02, 0x06, 7, 7, 7, 7, 7, 7, 7, 7, 7, 7,
    0x55, 0, 0, 0, 2, 0x00, 0x41, 0, 0,
    0x44, 0, 0, 0, 5, 1, 2, 3]

theorem oddRequest_message (m : Mode) : IsMessage m oddRequest 0x10 [1, 2, 3, 4] 0x20 0x02
    [0x02, 0x06] [0x55, 0, 0, 0, 2, 0x00, 0x41, 0, 0, 0x44, 0, 0, 0, 5, 1, 2, 3] := by
  refine ⟨0xff, 0x77, 0x66, 0x02, [9, 9, 9, 9, 9], [0x02, 0x06, 7, 7, 7, 7, 7, 7, 7, 7, 7, 7], rfl, rfl,
    rfl, rfl, by decide, by decide, rfl, ?_⟩
  cases m <;> exact ⟨9, by decide, 5, by decide, trivial⟩

example (m : Mode) : AsksFor m oddRequest (.metadata 5) :=
  ⟨_, _, _, _, _, _, oddRequest_message m, rfl, rfl, by cases m <;> decide⟩

/-- It ends the connection only if it comes without its id. -/
example (m : Mode) : ¬ LacksId m oddRequest := by
  rw [lacksId_iff (oddRequest_message m)]
  cases m <;> decide

/-- The connection goes on after it, and ends when the menu it asked for is to be shown, because the
library is empty. -/
example (m : Mode) : ∃ outs ctx, connRun m Db.empty (.open none) [(.id, oddRequest)] =
    (outs, .open ctx) ∧ (connRun m Db.empty (.open none)
      ([(.id, oddRequest)] ++ [(.id, writeMsg ⟨1, 0x3000, []⟩ ++ [])])).2 = .dead := by
  have ha : AsksFor m oddRequest (.metadata 5) :=
    ⟨_, _, _, _, _, _, oddRequest_message m, rfl, rfl, by cases m <;> decide⟩
  have h0 : ¬ (connRun m Db.empty (.open none) ([] ++ [(.id, oddRequest)])).2 = .dead := by
    rw [C102_chunk_ends_connection_iff m Db.empty [] [] none rfl .id oddRequest,
      lacksId_iff (oddRequest_message m), asksToRender_iff (oddRequest_message m)]
    rintro (h | h | h)
    · exact message_not_crash (oddRequest_message m) h
    · revert h; cases m <;> decide
    · exact absurd h.1.1 (by decide)
  cases hr : connRun m Db.empty (.open none) [(.id, oddRequest)] with
  | mk outs c =>
    cases c with
    | dead => exact absurd (congrArg Prod.snd hr) h0
    | «open» ctx =>
      refine ⟨outs, ctx, rfl, ?_⟩
      rw [C102_chunk_ends_connection_iff m Db.empty _ outs ctx hr]
      obtain ⟨_, _, tags, body, e, hm⟩ :=
        message_writeMsg m ⟨1, 0x3000, []⟩ (sendable_nil 1 _) []
      have e' := (show ([0x30, 0x00] : Bytes) = be16 0x3000 by decide).trans e
      cases e'
      refine .inr (.inr ⟨⟨_, _, _, _, hm⟩, .metadata 5, ⟨[], oddRequest, [], rfl, ha, ?_⟩, rfl⟩)
      intro c hc
      exact nomatch hc

/-- It is answered like the request a player would write. -/
example (m : Mode) (ctx : Ctx) : ∃ (bodies : List Bytes) (ctx' : Ctx),
    process m .id Db.empty oddRequest ctx = .ok (bodies.flatMap
      (fun b => [0x11, 0x87, 0x23, 0x49, 0xae] ++ [0x10, 1, 2, 3, 4] ++ b), ctx') ∧
    process m .id Db.empty (writeMsg ⟨1, 0x2002, [.u32 0, .u32 5]⟩ ++ []) ctx = .ok (bodies.flatMap
      (fun b => [0x11, 0x87, 0x23, 0x49, 0xae] ++ [0x11, 0, 0, 0, 1] ++ b), ctx') := by
  obtain ⟨ty1, ty2, tags, body, e, hm, hn⟩ := C102_requests_are_messages m
    ⟨1, 0x2002, [.u32 0, .u32 5]⟩ (sendable_u32 1 _ 0 5) []
  have e' : ty1 = 0x20 ∧ ty2 = 0x02 :=
    (code_eq ty1 ty2 0x20 0x02).1 (e.trans (by decide))
  obtain ⟨rfl, rfl⟩ := e'
  rcases C102_answer_depends_on_code_and_ids m .id Db.empty ctx _ _ _ _ _ _ _ _ _ _ _ _
    (oddRequest_message m) hm (by rw [hn]; cases m <;> decide) (by rw [hn]; cases m <;> decide) with
    h | h
  · exfalso
    have := (chunk_panics_iff m .id Db.empty oddRequest ctx).1 h.1
    rw [lacksId_iff (oddRequest_message m), asksToRender_iff (oddRequest_message m)] at this
    rcases this with h | h | h
    · exact message_not_crash (oddRequest_message m) h
    · revert h; cases m <;> decide
    · exact absurd h.1.1 (by decide)
  · exact h

/-- The same bytes with only one argument announced: no id. -/
example (m : Mode) : LacksId m
    ([0xff, 0x87, 0x23, 0x49, 0xae, 0x10, 1, 2, 3, 4, 0x77, 0x20, 0x02, 0x66, 0x01, 9, 9, 9, 9, 9,
      0x06, 0x06, 7, 7, 7, 7, 7, 7, 7, 7, 7, 7, 0x44, 0, 0, 0, 5]) :=
  ⟨0x10, [1, 2, 3, 4], 0x20, 0x02, [0x06], [0x44, 0, 0, 0, 5],
    ⟨0xff, 0x77, 0x66, 0x01, [9, 9, 9, 9, 9], [0x06, 0x06, 7, 7, 7, 7, 7, 7, 7, 7, 7, 7], rfl, rfl, rfl,
      rfl, by decide, by decide, rfl, 5, by cases m <;> decide, trivial⟩, rfl,
    .inr ⟨.inl rfl, by cases m <;> decide⟩⟩

end PDJ
