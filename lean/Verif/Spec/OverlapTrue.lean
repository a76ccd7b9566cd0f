import Verif.Spec.App

/-!
# Specification: what is said of a network
-/

namespace PDJ.Spec

/-- A datagram that is the application's presence or part of a negotiation in a network: with its addresses, and to all
in it. -/
def Names (n : PioneerNetwork) (b : Bytes × UInt32 × UInt16) : Prop :=
  ∃ d ∈ statusDatagram n.network.addr n.mac 1 :: negotiation n, b = toAll n d

end PDJ.Spec
