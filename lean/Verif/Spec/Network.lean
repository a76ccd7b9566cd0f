import Verif.Model.Network

/-!
# Specification: networks

Only the data types are taken from the model.
-/

namespace PDJ.Spec

/-- The address lies in the network: the leading `prefixLen` bits agree. -/
def InNet (n : Ipv4Network) (ip : UInt32) : Prop :=
  ip.toNat / 2 ^ (32 - n.prefixLen.val) = n.addr.toNat / 2 ^ (32 - n.prefixLen.val)

/-- All IPv4 networks of the machine in order, with the MAC address of their interface. -/
def candidates (ifaces : List Interface) : List (Ipv4Network × Option Mac) :=
  ifaces.flatMap fun i => i.ips.filterMap fun
    | .v4 n => some (n, i.mac)
    | .v6 => none

/-- A candidate that can be passed over: it has a MAC address and does not contain the address. -/
def Passed (ip : UInt32) (c : Ipv4Network × Option Mac) : Prop := c.2 ≠ none ∧ ¬ InNet c.1 ip

/-- Every interface with an IPv4 address has a MAC address. -/
def AllHaveMacs (ifaces : List Interface) : Prop := ∀ c ∈ candidates ifaces, c.2 ≠ none

end PDJ.Spec
