import Verif.Model.Players

/-!
# Specification: one player's entry in the registry

The entry of an address as a function of the operations, without any list of players.
-/

namespace PDJ.Spec

/-- What the registry knows about an address: model, number, linking flag. -/
structure Entry where
  model : Str
  number : UInt8
  linking : Bool
deriving DecidableEq, Repr

/-- How an operation changes the entry of address `a`: the first announcement creates it, later ones
update the number and can only raise the flag; setting the flag of an unknown player does nothing. -/
def entryStep (a : UInt32) (e : Option Entry) : RegistryOp → Option Entry
  | .add p =>
    if p.address = a then
      match e with
      | none => some ⟨p.model, p.number, p.linking⟩
      | some e => some ⟨e.model, p.number, e.linking || p.linking⟩
    else e
  | .setLinking b v =>
    if b = a then e.map fun e => { e with linking := v } else e

/-- The entry of an address after operations. -/
def entryOf (a : UInt32) (ops : List RegistryOp) : Option Entry := ops.foldl (entryStep a) none

/-- The addresses announced by the operations, in order, with repetitions. -/
def announced : List RegistryOp → List UInt32
  | [] => []
  | .add p :: ops => p.address :: announced ops
  | .setLinking _ _ :: ops => announced ops

/-- The entry of a player. -/
def Entry.of (p : Player) : Entry := ⟨p.model, p.number, p.linking⟩

end PDJ.Spec
