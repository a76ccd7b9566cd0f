import Verif.Model.Codec
import Verif.Spec.DbWrite
import Verif.Spec.DbValues

/-!
# Specification: a stream of messages
-/

namespace PDJ.Spec

/-- The frame says what the message says: a four-byte transaction id, the type and the values. -/
def Says (f : DbFrame) (q : Msg) : Prop :=
  ∃ rt : ReqType, rt = .new q.type ∧ f = .message ⟨.ofU32 q.tx, rt, q.args.map fieldOf⟩

/-- Frames that say what the messages say, one by one. -/
inductive SayAll : List DbFrame → List Msg → Prop
  | nil : SayAll [] []
  | cons {f q fs qs} (h : Says f q) (hs : SayAll fs qs) : SayAll (f :: fs) (q :: qs)

end PDJ.Spec
