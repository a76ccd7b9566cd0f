import Verif.Lemmas.ChunkAsks

/-!
# Helper lemmas: the answer to any message
-/

namespace PDJ

open Spec

/-- One message without magic and transaction id. -/
def answerBody (rt : ReqType) (a : Args) : Bytes := [0x10] ++ rt.value ++ argsEncode a

/-- The answer to a message in terms of its request code and its numbers at positions 1 and 2. -/
def answerTo (io : IterOrder) (db : Db) (rt : ReqType) (n1 n2 : Option UInt32) (ctx : Ctx) :
    Outcome (List Bytes × Ctx) :=
  match rt with
  | .setup => .ok ([answerBody .success [.ofArr4 0 0 0 0, .ofArr4 0 0 0 0x11]], ctx)
  | .rootMenu => .ok ([answerBody .success [.ofArr4 0 0 0x10 0, .ofArr4 0 0 0 8]], some .rootMenu)
  | .albumByArtist =>
    match n2 with
    | some a => .ok ([answerBody .success [typeField rt, .ofU32 (numberOfTracksByArtist io db a)]],
        some (.albumByArtist a))
    | none => .panic
  | .artist => .ok ([answerBody .success [typeField rt, .ofU32 (numberOfArtists io db)]], some .artist)
  | .previewWaveform =>
    .ok ([(DBField.ofArr2 0x44 0x02).asBytes ++ argsEncode [.ofArr4 0 0 0x20 0x04, .ofU32 0,
      .ofArr4 0 0 0x03 0x88, ⟨.binary, previewWaveform⟩]], ctx)
  | .title => .ok ([[]], some .title)
  | .mountInfo =>
    match n1 with
    | some t => .ok ([answerBody .success [typeField rt, .ofU32 6]], some (.mountInfo t))
    | none => .panic
  | .titleByArtistAlbum =>
    match n2 with
    | some a => .ok ([answerBody .success [typeField rt, .ofU32 (numberOfTracksByArtist io db a)]],
        some (.titleByArtistAlbum a))
    | none => .panic
  | .metadata =>
    match n1 with
    | some t => .ok ([answerBody .success [typeField rt, .ofU32 10]], some (.metadata t))
    | none => .panic
  | .loadTrack =>
    .ok ([answerBody .loadTrackSuccess [typeField rt, .ofU32 1, .ofU32 0, ⟨.binary, []⟩, .ofU32 0]], ctx)
  | .render =>
    match ctx with
    | none => .ok ([], ctx)
    | some _ =>
      (renderMessages io db (.ofU32 0) ctx).bind fun ms =>
        .ok (ms.map fun x => answerBody x.rtype x.args, ctx)
  | _ => .ok ([answerBody .success []], ctx)

/-- The bodies of a page do not depend on the transaction id. -/
theorem renderMessages_bodies (io : IterOrder) (db : Db) (t t' : DBField) (ctx : Ctx) :
    (renderMessages io db t ctx).bind (fun ms => .ok (ms.map fun x => answerBody x.rtype x.args)) =
      (renderMessages io db t' ctx).bind (fun ms => .ok (ms.map fun x => answerBody x.rtype x.args)) := by
  cases ctx with
  | none => rfl
  | some s =>
    obtain ⟨menu, rfl⟩ := remember_surj s
    rw [renderMessages_eq, renderMessages_eq]
    cases menuItems io db menu with
    | none => rfl
    | some items =>
      simp only [Outcome.bind, List.map_append, List.map_cons, List.map_map, List.map_nil]
      rfl

/-- What `process` does with a chunk that is a message. -/
theorem process_answer {m : Mode} {chunk : Bytes} {r : Bytes} {d : DBMessage}
    (h5 : chunk.length ≠ 5) (hp : DBMessage.parse m chunk = .ok r d) (io : IterOrder) (db : Db)
    (ctx : Ctx) :
    process m io db chunk ctx =
      (answerTo io db d.rtype (argNumber d 1) (argNumber d 2) ctx).bind fun p =>
        .ok (p.1.flatMap (fun b => [0x11] ++ DBMessage.magicBytes ++ d.txid.asBytes ++ b), p.2) := by
  unfold process
  rw [if_neg h5, hp]
  have single : ∀ (rt' : ReqType) (a : Args), (⟨d.txid, rt', a⟩ : DBMessage).encode =
      [answerBody rt' a].flatMap
        (fun b => [0x11] ++ DBMessage.magicBytes ++ d.txid.asBytes ++ b) := by
    intro rt' a
    simp [DBMessage.encode, DBMessage.toResponse, answerBody]
  have ok : ∀ (a : Args), d.toResponse ++ okRequest ++ argsEncode a =
      [answerBody .success a].flatMap
        (fun b => [0x11] ++ DBMessage.magicBytes ++ d.txid.asBytes ++ b) := by
    intro a
    rw [← single]
    simp [DBMessage.encode, DBMessage.toResponse, okRequest, DBField.asBytes, FieldKind.value,
      ReqType.value]
  have hn := fun i f => bind_argNumber (α := Bytes × Ctx) d i f
  clear hp
  obtain ⟨t, rt, args⟩ := d
  cases rt <;> simp only [getController, handleSequence, respond, answerTo]
  all_goals try simp only [ok, single]
  all_goals first
    | rfl
    | (refine (hn 1 _).trans ?_
       cases argNumber _ 1 <;> rfl)
    | (refine (hn 2 _).trans ?_
       cases argNumber _ 2 <;> rfl)
    | (simp [DBMessage.toResponse, Outcome.bind]; done)
    | skip
  · cases ctx with
    | none => rfl
    | some s =>
      have hb := renderMessages_bodies io db (.ofU32 0) t (some s)
      show (renderMessages io db t (some s)).bind _ = _
      cases h1 : renderMessages io db (.ofU32 0) (some s) with
      | panic =>
        cases h2 : renderMessages io db t (some s) with
        | panic => rfl
        | ok ms => rw [h1, h2] at hb; exact nomatch hb
      | ok ms' =>
        cases h2 : renderMessages io db t (some s) with
        | panic => rw [h1, h2] at hb; exact nomatch hb
        | ok ms =>
          rw [h1, h2] at hb
          simp only [Outcome.bind, Outcome.ok.injEq] at hb ⊢
          rw [encodeMany_bodies t ms (renderMessages_txid h2), hb]
          rfl

end PDJ
