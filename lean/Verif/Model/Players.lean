import Verif.Model.App

/-!
# The interface of the player registry

`/repo/src/rekordbox/player.rs`; the part used by the server (`add_or_update`, `len`) is in
`Verif.Model.App`.  `PlayerCollection` is its vector of players.
-/

namespace PDJ

/-- `Player::set_linking` (player.rs 25-27). -/
def Player.setLinking (p : Player) (v : Bool) : Player := { p with linking := v }

/-- `PlayerCollection::push` (player.rs 56-58). -/
def pushPlayer (p : Player) (ps : List Player) : List Player := ps ++ [p]

/-- `PlayerCollection::get_mut` (player.rs 60-62): what it points at. -/
def getPlayer (a : Ip4) (ps : List Player) : Option Player := ps.find? fun p => p.address = a

/-- `PlayerCollection::get_mut` (player.rs 60-62): the registry after the caller changed what it
points at with `f`; unchanged if there is no such player. -/
def modifyPlayer (a : Ip4) (f : Player → Player) : List Player → List Player
  | [] => []
  | p :: ps => if p.address = a then f p :: ps else p :: modifyPlayer a f ps

/-- `PlayerIter::next` (player.rs 90-92, `Vec::pop`): the item and the remaining iterator.  The
iterator is a copy of the players (player.rs 46-50), so the registry does not change. -/
def iterNext (ps : List Player) : Option Player × List Player := (ps.getLast?, ps.dropLast)

/-- The results of `n` calls of `PlayerIter::next`, and the remaining iterator; the number of players
left in it is what `PlayerIter::len` returns (player.rs 95-99). -/
def iterCalls : Nat → List Player → List (Option Player) × List Player
  | 0, ps => ([], ps)
  | n + 1, ps => ((iterNext ps).1 :: (iterCalls n (iterNext ps).2).1, (iterCalls n (iterNext ps).2).2)

/-- `Index::index` (player.rs 101-107): panics out of bounds. -/
def indexPlayer (ps : List Player) (i : Nat) : Outcome Player := Outcome.unwrap ps[i]?

/-- What a user of the registry does to it: `add_or_update`, or `get_mut` followed by `set_linking`
(player.rs 25-27, 60-79; nothing calls `get_mut` and `set_linking` together). -/
inductive RegistryOp
  | add (p : Player)
  | setLinking (a : Ip4) (v : Bool)
deriving DecidableEq, Repr

/-- One such operation (player.rs 25-27, 60-79). -/
def registryStep (ps : List Player) : RegistryOp → List Player
  | .add p => addOrUpdate p ps
  | .setLinking a v => modifyPlayer a (·.setLinking v) ps

/-- `PlayerCollection::new` (player.rs 42-44) followed by operations. -/
def registryRun (ops : List RegistryOp) : List Player := ops.foldl registryStep []

end PDJ
