import Verif.Spec.Nfs
import Verif.Model.RpcServer

/-!
# Specification: portmapper, mount program, supervision

Only the event and state types are taken from the model.
-/

namespace PDJ.Spec

variable {F : Type}

/-- The handler that listens on a port, if any. -/
def listener (port : UInt16) : List (UInt16 × RpcTask F) → Option (RpcTask F)
  | [] => none
  | t :: ts => if t.1 = port ∧ t.2.live = true then some t.2 else listener port ts

/-- What a port number looks like as the result of GETPORT. -/
def portWord (port : UInt16) : Bytes := [0, 0] ++ be16 port

/-- Read a decimal number. -/
def readDecimal (s : Str) : Nat := s.foldl (fun n c => 10 * n + (c.toNat - 48)) 0

/-- The usual way to write a number below 256: digits only, no leading zero. -/
def Decimal (s : Str) (n : Nat) : Prop :=
  (∀ c ∈ s, '0' ≤ c ∧ c ≤ '9') ∧ s ≠ [] ∧ (s.head? = some '0' → s = ['0']) ∧ readDecimal s = n

/-- A dotted address text. -/
def Dotted (s : Str) (ip : UInt32) : Prop :=
  ∃ (t0 t1 t2 t3 : Str) (a b c d : UInt8), be32 ip = [a, b, c, d] ∧
    Decimal t0 a.toNat ∧ Decimal t1 b.toNat ∧ Decimal t2 c.toNat ∧ Decimal t3 d.toNat ∧
    s = t0 ++ '.' :: t1 ++ '.' :: t2 ++ '.' :: t3

/-- The events at a port in a history. -/
def eventsAt (port : UInt16) : List (RpcEvent F) → List (NfsEvent F)
  | [] => []
  | .portmap _ _ _ :: es => eventsAt port es
  | .port p _ ev :: es => if p = port then ev :: eventsAt port es else eventsAt port es

/-- What arrives at a port, each with the network known then. -/
def portArrivals (port : UInt16) : List (RpcEvent F) → List (Option PioneerNetwork × NfsEvent F)
  | [] => []
  | .portmap _ _ _ :: es => portArrivals port es
  | .port p net ev :: es => if p = port then (net, ev) :: portArrivals port es else portArrivals port es

/-- A mount handler over what arrives at its port. -/
def mountRun : Bool → List (Option PioneerNetwork × NfsEvent F) → List (Bytes × Addr) × Bool
  | b, [] => ([], b)
  | b, x :: xs =>
    let r := progStep x.1 (x.2.os false) x.2.recv b
    let rs := mountRun r.2 xs
    (r.1 ++ rs.1, rs.2)

/-- The datagrams sent from a port. -/
def sentFrom (port : UInt16) (out : List (Option UInt16 × Bytes × Addr)) : List (Bytes × Addr) :=
  (out.filter fun x => x.1 = some port).map (·.2)

/-- The OS does not bind this port again during the history. -/
def NotRebound (port : UInt16) (es : List (RpcEvent F)) : Prop :=
  ∀ os bound r, RpcEvent.portmap os bound r ∈ es → bound ≠ some port

/-- Nothing in this event can end the portmapper: no RPC reply is received, binding works and the
OS accepts the answer. -/
def Harmless : RpcEvent F → Prop
  | .portmap os bound r => (∀ d peer, r = .datagram d peer → ¬ IsReply d) ∧ bound ≠ none ∧
      ∀ b to, os b to = true
  | .port .. => True

end PDJ.Spec
