import Verif.Spec.Session

/-!
# Specification: what a player picks out of a rendered menu

A menu line is identified by its kind (seventh argument); its first two arguments are numbers and
its fourth is its text.
-/

namespace PDJ.Spec

/-- The kind, the two numbers and the text of a menu line message. -/
def lineOf (x : Msg) : Option (UInt32 × UInt32 × UInt32 × Str) :=
  if x.type = 0x4101 then
    match x.args with
    | [.u32 a, .u32 b, _, .text s, _, _, .u32 k, _, _, _, _, _] => some (k, a, b, s)
    | _ => none
  else none

/-- The lines of a kind in a reply: first number, second number, text. -/
def lines (kind : UInt32) (ms : List Msg) : List (UInt32 × UInt32 × Str) :=
  ms.filterMap fun x =>
    match lineOf x with
    | some (k, a, b, s) => if k = kind then some (a, b, s) else none
    | none => none

end PDJ.Spec
