import Verif.Spec.DbPanic
import Verif.Spec.Session

/-!
# Specification: what a chunk of bytes asks for

Stated on the raw bytes of a chunk, without reference to the parser and for any chunk at all (not
only for what a well-behaved player sends).
-/

namespace PDJ.Spec

/-- The chunk is a message: any byte and the protocol magic, a transaction id `tx` under a known
field tag `k`, any byte and the two bytes of a request code, the number of arguments, five bytes of
filling, twelve argument tags of which the first ones count, and a body in which these arguments can
be read. -/
def IsMessage (m : Mode) (chunk : Bytes) (k : UInt8) (tx : Bytes) (ty1 ty2 : UInt8)
    (tags : List UInt8) (body : Bytes) : Prop :=
  ∃ (t0 t1 n0 n : UInt8) (fill twelve : Bytes),
    tx.length = 4 ∧ fill.length = 5 ∧ twelve.length = 12 ∧
    chunk = t0 :: 0x87 :: 0x23 :: 0x49 :: 0xae :: k ::
      (tx ++ t1 :: ty1 :: ty2 :: n0 :: n :: (fill ++ (twelve ++ body))) ∧
    k ∈ [0x0f, 0x10, 0x11, 0x14, 0x26] ∧ n.toNat ≤ 12 ∧ tags = twelve.take n.toNat ∧
    ArgsReadable m tags body

/-- The transaction id as it is sent back: a numeric one byte for byte, a binary one with its length,
a text one with its length in characters (and one more) and a final zero character. -/
def echoOf (k : UInt8) (tx : Bytes) : Bytes :=
  if k = 0x14 then [0x14, 0x00, 0x00, 0x00, 0x04] ++ tx
  else if k = 0x26 then [0x26, 0x00, 0x00, 0x00, 0x03] ++ tx ++ [0x00, 0x00]
  else k :: tx

/-- The number given as argument `i` (counting from 0): the arguments before it are skipped, it is
tagged as a 32-bit number, and its value stands after one further byte. -/
def argNumAt (m : Mode) : Nat → List UInt8 → Bytes → Option Nat
  | _, [], _ => none
  | 0, t :: _, body => if t = 0x06 then some (word (body.drop 1)) else none
  | i + 1, t :: ts, body =>
    match argSpan m t body with
    | some n => argNumAt m i ts (body.drop n)
    | none => none

/-- The chunk asks for a menu. -/
def AsksFor (m : Mode) (chunk : Bytes) (menu : Menu) : Prop :=
  ∃ k tx ty1 ty2 tags body, IsMessage m chunk k tx ty1 ty2 tags body ∧
    match menu with
    | .root => ty1 = 0x10 ∧ ty2 = 0x00
    | .artists => ty1 = 0x10 ∧ ty2 = 0x02
    | .titles => ty1 = 0x10 ∧ ty2 = 0x04
    | .albums a => ty1 = 0x11 ∧ ty2 = 0x02 ∧ argNumAt m 2 tags body = some a.toNat
    | .tracks a => ty1 = 0x12 ∧ ty2 = 0x02 ∧ argNumAt m 2 tags body = some a.toNat
    | .metadata t => ty1 = 0x20 ∧ ty2 = 0x02 ∧ argNumAt m 1 tags body = some t.toNat
    | .mountInfo t => ty1 = 0x21 ∧ ty2 = 0x02 ∧ argNumAt m 1 tags body = some t.toNat

/-- The chunk asks for a menu that needs an id, and the id is not there. -/
def LacksId (m : Mode) (chunk : Bytes) : Prop :=
  ∃ k tx ty1 ty2 tags body, IsMessage m chunk k tx ty1 ty2 tags body ∧ ty2 = 0x02 ∧
    (((ty1 = 0x11 ∨ ty1 = 0x12) ∧ argNumAt m 2 tags body = none) ∨
     ((ty1 = 0x20 ∨ ty1 = 0x21) ∧ argNumAt m 1 tags body = none))

/-- The chunk asks to be shown the menu. -/
def AsksToRender (m : Mode) (chunk : Bytes) : Prop :=
  ∃ k tx tags body, IsMessage m chunk k tx 0x30 0x00 tags body

/-- The last of these chunks that asks for a menu at all asks for this one. -/
def LastAskedFor (m : Mode) (chunks : List Bytes) (menu : Menu) : Prop :=
  ∃ before chunk after, chunks = before ++ chunk :: after ∧ AsksFor m chunk menu ∧
    ∀ c ∈ after, ∀ other, ¬ AsksFor m c other

/-- None of these chunks asks for a menu. -/
def NothingAskedFor (m : Mode) (chunks : List Bytes) : Prop :=
  ∀ c ∈ chunks, ∀ menu, ¬ AsksFor m c menu

end PDJ.Spec
