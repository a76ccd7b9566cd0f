import Verif.Base.Bytes
import Verif.Base.Unicode
import Verif.Base.Outcome

/-!
# Local networks

`/repo/src/utils/network.rs` with the parts of the crates `ipnetwork` and `pnet_datalink` it uses.
An `Ipv4Addr` is the number `u32::from(addr)`, whose big-endian bytes are the octets.
-/

namespace PDJ

/-- `std::net::Ipv4Addr` as `u32` (used in utils/network.rs 7). -/
abbrev Ip4 := UInt32

/-- `pnet_datalink::MacAddr` (used in utils/network.rs 12). -/
structure Mac where
  b0 : UInt8
  b1 : UInt8
  b2 : UInt8
  b3 : UInt8
  b4 : UInt8
  b5 : UInt8
deriving DecidableEq, Repr

/-- `MacAddr::octets` (crate code, used in keepalive.rs 352, 441, 581). -/
def Mac.octets (m : Mac) : Bytes := [m.b0, m.b1, m.b2, m.b3, m.b4, m.b5]

/-- `ipnetwork::Ipv4Network`; the constructor of the crate rejects prefixes above 32 (crate type,
used in utils/network.rs 11). -/
structure Ipv4Network where
  addr : Ip4
  prefixLen : Fin 33
deriving DecidableEq, Repr

/-- `Ipv4Network::mask`: `!(0xffff_ffff_u64 >> prefix) as u32` (crate code from memory, used in
utils/network.rs 29). -/
def Ipv4Network.mask (n : Ipv4Network) : Ip4 :=
  ~~~ UInt32.ofNat (4294967295 >>> n.prefixLen.val)

/-- `Ipv4Network::contains` (crate code from memory, used in utils/network.rs 21). -/
def Ipv4Network.contains (n : Ipv4Network) (ip : Ip4) : Bool :=
  (ip &&& n.mask) == (n.addr &&& n.mask)

/-- `Ipv4Network::broadcast` (crate code from memory, used in utils/network.rs 37). -/
def Ipv4Network.broadcast (n : Ipv4Network) : Ip4 := n.addr ||| ~~~ n.mask

/-- `PioneerNetwork` (network.rs 9-13). -/
structure PioneerNetwork where
  network : Ipv4Network
  mac : Mac
deriving DecidableEq, Repr

/-- `PioneerNetwork::contains` (network.rs 20-22). -/
def PioneerNetwork.contains (n : PioneerNetwork) (ip : Ip4) : Bool := n.network.contains ip

/-- `PioneerNetwork::ip` (network.rs 24-26). -/
def PioneerNetwork.ip (n : PioneerNetwork) : Ip4 := n.network.addr

/-- `PioneerNetwork::mask` (network.rs 28-30). -/
def PioneerNetwork.mask (n : PioneerNetwork) : Ip4 := n.network.mask

/-- `PioneerNetwork::broadcast` (network.rs 36-38). -/
def PioneerNetwork.broadcast (n : PioneerNetwork) : Ip4 := n.network.broadcast

/-- `ipnetwork::IpNetwork`; nothing of an IPv6 network is used (crate type, used in utils/network.rs
49-52). -/
inductive IpNetwork
  | v4 (n : Ipv4Network)
  | v6
deriving DecidableEq, Repr

/-- The parts of `pnet_datalink::NetworkInterface` the code uses (used in utils/network.rs 45-55).
-/
structure Interface where
  mac : Option Mac
  ips : List IpNetwork
deriving DecidableEq, Repr

/-- The search over the addresses of one interface (network.rs 49-54): `none` means that none of
them matched.  The MAC address is unwrapped for every IPv4 address tried. -/
def findInIps (mac : Option Mac) (ip : Ip4) : List IpNetwork → Outcome (Option PioneerNetwork)
  | [] => .ok none
  | .v6 :: r => findInIps mac ip r
  | .v4 n :: r =>
    (Outcome.unwrap mac).bind fun m =>
      if (PioneerNetwork.mk n m).contains ip then .ok (some ⟨n, m⟩) else findInIps mac ip r

/-- `match_interface` (network.rs 45-55): `flat_map` and `find` are lazy, so interfaces after the
first match are not looked at. -/
def matchInterface (ip : Ip4) : List Interface → Outcome (Option PioneerNetwork)
  | [] => .ok none
  | i :: r =>
    (findInIps i.mac ip i.ips).bind fun x =>
      match x with
      | some n => .ok (some n)
      | none => matchInterface ip r

/-- `Display for Ipv4Addr`: the octets in decimal, separated by dots (used in rekordbox/rpc.rs 42).
-/
def ipText (ip : Ip4) : Str :=
  match be32 ip with
  | [a, b, c, d] =>
    Nat.toDigits 10 a.toNat ++ '.' :: Nat.toDigits 10 b.toNat ++ '.' :: Nat.toDigits 10 c.toNat ++
      '.' :: Nat.toDigits 10 d.toNat
  | _ => []

end PDJ
