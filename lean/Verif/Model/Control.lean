import Verif.Model.App

/-!
# Control of the server state from outside

The setters and getters of `ServerState` (`/repo/src/rekordbox/server.rs` 289-311).  Nothing in the
application calls the setters; they are part of its interface and work on the state behind the mutex.
A caller that finds the mutex poisoned has no access.
-/

namespace PDJ

/-- The setters of `ServerState` (server.rs 289-295, 305-307). -/
inductive Control
  | setLinking (value : Bool)
  | setDiscovery (value : Bool)
  | setAddress (address : PioneerNetwork)
deriving DecidableEq, Repr

/-- `set_linking` (server.rs 289-291), `set_discovery` (293-295) and `set_address` (305-307). -/
def ServerState.control (s : ServerState) : Control → ServerState
  | .setLinking v => { s with linking := v }
  | .setDiscovery v => { s with discovery := v }
  | .setAddress a => { s with address := some a }

/-- `ServerState::is_linking` (server.rs 301-303). -/
def ServerState.isLinking (s : ServerState) : Bool := s.linking

/-- `ServerState::is_discovery` (server.rs 297-299). -/
def ServerState.isDiscovery (s : ServerState) : Bool := s.discovery

/-- A call from outside or an action of a thread (server.rs 172-207, 289-307). -/
inductive Act
  | control (c : Control)
  | thread (x : AppAction)

/-- One call or action (server.rs 289-307, and `appStep`). -/
def ctlStep (s : AppSystem) : Act → List (Bytes × Ip4 × UInt16) × AppSystem
  | .control c =>
    ([], if s.running && !s.poisoned then { s with state := s.state.control c } else s)
  | .thread x => appStep s x

/-- A history of calls and actions (server.rs 172-207, 289-307). -/
def ctlRun : AppSystem → List Act → List (Bytes × Ip4 × UInt16) × AppSystem
  | s, [] => ([], s)
  | s, x :: xs =>
    let r := ctlStep s x
    let rs := ctlRun r.2 xs
    (r.1 ++ rs.1, rs.2)

end PDJ
