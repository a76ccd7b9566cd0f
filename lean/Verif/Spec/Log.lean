import Verif.Model.Log
import Verif.Spec.App
import Verif.Spec.Packets
import Verif.Spec.Calls
import Verif.Spec.ChunkAsks

/-!
# Specification: a log that is written, and what a lost line does
-/

namespace PDJ.Spec

variable {F : Type}

/-- The same with a log that takes every line. -/
def working (o : LogOs) : LogOs := ⟨fun _ => true, o.accepted⟩

/-- Every line of the history is written. -/
def AllWritten (h : List (SysAction F × LogOs)) : Prop := ∀ x ∈ h, ∀ k, x.2.written k = true

/-- All lines of a step are written. -/
def Whole {α σ : Type} (o : LogOs) (f : List α × List LogLine × σ) : Prop :=
  ∀ k, k < f.2.1.length → o.written k = true

/-- A step `r` is the step `f` up to the first line that cannot be written: the lines before it are in the log, and
of what is sent it has a first part. -/
def CutAt {α σ : Type} (o : LogOs) (r f : List α × List LogLine × σ) : Prop :=
  ∃ k, k < f.2.1.length ∧ (∀ j, j < k → o.written j = true) ∧ o.written k = false ∧
    r.2.1 = f.2.1.take k ∧ r.1 <+: f.1

/-- The handler at a port has ended, and nothing else has changed. -/
def HandlerEnds (p : UInt16) (before after : List (UInt16 × RpcTask F)) : Prop :=
  ∃ pre t t' post, before = pre ++ (p, t) :: post ∧ after = pre ++ (p, t') :: post ∧ t.live = true ∧
    t'.live = false

/-- What the process is like after a step in which a line was lost: the thread or task that wants to write it has
ended, and nothing else has changed.  The broadcaster has the lock of the shared state, which is poisoned with it; the
library accepts no connections any more when the portmapper has ended; a connection to the library's port leaves the
listener it was about to tell of; and the process has ended if the line is one of the main thread. -/
def AfterLoss (s : System F) (x : SysAction F) (s' : System F) : Prop :=
  match x with
  | .app (.receive _ _) => s' = { s with app := { s.app with receiver := false } }
  | .app (.broadcast _) => s' = { s with app := { s.app with broadcaster := false, poisoned := true } }
  | .app _ => ∃ a, a.running = false ∧ s' = { s with app := a }
  | .portmap _ _ _ => s' = { s with services := ⟨{ s.services.rpc with portmap := false }, false⟩ }
  | .port p _ => ∃ tasks, HandlerEnds p s.services.rpc.tasks tasks ∧
      s' = { s with services := ⟨{ s.services.rpc with tasks := tasks },
        s.services.accepting && s.services.rpc.portmap⟩ }
  | .main c bound => ∃ p, bound = some p ∧ s' = { s with
      lib := ⟨c :: s.lib.deadMains, s.lib.handlers ++ [⟨p, .listening⟩]⟩ }
  | .handler h _ => ∃ hd, s.lib.handlers[h]? = some hd ∧
      s' = { s with lib := { s.lib with handlers := s.lib.handlers.set h ⟨hd.port, .finished⟩ } }
  | .status _ => s' = { s with status := false }
  | _ => False

/-- No line of the history is written. -/
def NoneWritten (h : List (SysAction F × LogOs)) : Prop := ∀ x ∈ h, ∀ k, x.2.written k = false

/-- A datagram that is neither empty nor an RPC message. -/
def Garbled (d : Bytes) : Prop := d ≠ [] ∧ ¬ IsReply d ∧ ∀ xid p, ¬ IsCall d xid p

/-- What the status server writes about what it receives, if the OS accepts a reply or not. -/
inductive StatusSays (accepted : Bool) : StatusRecv → List LogLine → Prop
  | unreadable : StatusSays accepted .ioError [.statusUnreadable]
  | kind (d : Bytes) (sender : Ip4) (h : Stops d) : StatusSays accepted (.datagram d sender) [.statusKind]
  | garbled (d : Bytes) (sender : Ip4) (h : ¬ Stops d) (hn : ∀ p n, ¬ StatusPacketAt (d.take 1024) p n) :
      StatusSays accepted (.datagram d sender) [.badStatus (d.take 1024)]
  | player (d : Bytes) (sender : Ip4) (p : StatusPacket) (n : Nat) (h : StatusPacketAt (d.take 1024) p n)
      (hk : p.kind = .cdj) : StatusSays accepted (.datagram d sender) []
  | answered (d : Bytes) (sender : Ip4) (p : StatusPacket) (n : Nat) (h : StatusPacketAt (d.take 1024) p n)
      (hk : p.kind = .rekordboxHello ∨ p.kind = .linkQuery) :
      StatusSays accepted (.datagram d sender) (if accepted then [] else [.statusRefused])
  | other (d : Bytes) (sender : Ip4) (p : StatusPacket) (n : Nat) (h : StatusPacketAt (d.take 1024) p n)
      (hk : p.kind = .djm ∨ p.kind = .linkReply) : StatusSays accepted (.datagram d sender) [.otherStatus p]

/-- What a library connection writes about a chunk. -/
inductive LibrarySays (m : Mode) (chunk : Bytes) : List LogLine → Prop
  | greeting (h : chunk.length = 5) : LibrarySays m chunk []
  | crash (h : ChunkCrashes m chunk) : LibrarySays m chunk []
  | handled (k tx ty1 ty2 tags body) (h : IsMessage m chunk k tx ty1 ty2 tags body)
      (hc : ofBe16 ty1 ty2 ∈ handledCodes) : LibrarySays m chunk []
  | unhandled (k tx ty1 ty2 tags body) (h : IsMessage m chunk k tx ty1 ty2 tags body)
      (hc : ofBe16 ty1 ty2 ∉ handledCodes) :
      LibrarySays m chunk [.noController (ReqType.new (ofBe16 ty1 ty2)) chunk]
  | garbled (l : LogLine) (h5 : chunk.length ≠ 5) (hc : ¬ ChunkCrashes m chunk)
      (hn : ∀ k tx ty1 ty2 tags body, ¬ IsMessage m chunk k tx ty1 ty2 tags body)
      (hl : l = .queryError ∨ l = .queryNotCovered chunk) : LibrarySays m chunk [l]

/-- The lines about the broadcasts that the OS refuses, of the first `n`. -/
def refusals (o : LogOs) (n : Nat) : List LogLine :=
  ((List.range n).filter (fun k => !o.accepted k)).map (fun _ => .broadcastRefused)

end PDJ.Spec
