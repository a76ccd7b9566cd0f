import Verif.Model.App
import Verif.Spec.Keepalive
import Verif.Spec.Network

/-!
# Specification: players, network and link negotiation

Only data types and the transition function are taken from the model.
-/

namespace PDJ.Spec

/-- The name under which the application announces itself. -/
def appName : Str := ['r', 'e', 'k', 'o', 'r', 'd', 'b', 'o', 'x']

/-- A datagram that announces a player: a status packet that does not carry the name of the
application. -/
def Accepted (d : Bytes) (a : Announcement) : Prop := IsAnnouncement d a ∧ a.model ≠ appName

/-- The announcements in a schedule, in order, each with the interface table at that moment. -/
inductive Heard : List AppAction → List (List Interface × Announcement) → Prop
  | nil : Heard [] []
  | accepted {ifaces d a xs h} (hd : Accepted d a) (hx : Heard xs h) :
      Heard (.receive ifaces d :: xs) ((ifaces, a) :: h)
  | ignored {ifaces d xs h} (hd : ∀ a, ¬ Accepted d a) (hx : Heard xs h) :
      Heard (.receive ifaces d :: xs) h
  | broadcast {ok xs h} (hx : Heard xs h) : Heard (.broadcast ok :: xs) h
  | appRecv {xs h} (hx : Heard xs h) : Heard (.appRecv :: xs) h
  | appLink {oks xs h} (hx : Heard xs h) : Heard (.appLink oks :: xs) h

/-- The process runs, the receiver runs, and the lock is usable. -/
structure Healthy (s : AppSystem) : Prop where
  running : s.running = true
  receiver : s.receiver = true
  lock : s.poisoned = false

/-- The first local network that contains the address. -/
def FirstMatch (ifaces : List Interface) (ip : UInt32) (n : PioneerNetwork) : Prop :=
  ∃ pre post, candidates ifaces = pre ++ (n.network, some n.mac) :: post ∧
    (∀ c ∈ pre, Passed ip c) ∧ InNet n.network ip

/-- No local network contains the address. -/
def NoMatch (ifaces : List Interface) (ip : UInt32) : Prop := ∀ c ∈ candidates ifaces, Passed ip c

/-- The lookup meets an interface without MAC address. -/
def MacMissing (ifaces : List Interface) (ip : UInt32) : Prop :=
  ∃ pre n post, candidates ifaces = pre ++ (n, none) :: post ∧ ∀ c ∈ pre, Passed ip c

/-- The event the application takes off the channel with an action. -/
def takenNow (s : AppSystem) : AppAction → List AppEvent
  | .appRecv => if s.running && !s.pending then s.queue.take 1 else []
  | _ => []

/-- The events the application takes off the channel during a schedule. -/
def taken : AppSystem → List AppAction → List AppEvent
  | _, [] => []
  | s, x :: xs => takenNow s x ++ taken (appStep s x).2 xs

/-- The datagrams of a negotiation. -/
def negotiation (n : PioneerNetwork) : List Bytes :=
  let ip := n.network.addr
  [macDatagram 1 n.mac, macDatagram 2 n.mac, macDatagram 3 n.mac] ++
  ([1, 2, 3, 4, 5, 6].flatMap fun sequence =>
    [0x11, 0x12, 0x29, 0x2a, 0x2b, 0x2c].map fun code => ipDatagram sequence code ip n.mac) ++
  [statusDatagram ip n.mac 4]

/-- A datagram together with its destination: port 50000 of the broadcast address. -/
def toAll (n : PioneerNetwork) (d : Bytes) : Bytes × UInt32 × UInt16 := (d, n.broadcast, 50000)

/-- The operating system never refuses a socket in this schedule. -/
def SocketsWork (xs : List AppAction) : Prop :=
  (∀ ok, .broadcast ok ∈ xs → ok = true) ∧ ∀ oks, .appLink oks ∈ xs → ∀ b ∈ oks, b = true

end PDJ.Spec
