import Verif.Base.Bytes

/-!
# Specification: which chunks crash the remote-DB parser

Stated on the raw bytes of a chunk, without reference to the parser.
-/

namespace PDJ.Spec

/-- The big-endian 32-bit number at the head of a byte string. -/
def word : Bytes → Nat
  | a :: b :: c :: d :: _ => (ofBe32 a b c d).toNat
  | _ => 0

/-- How many bytes an argument with the given header tag occupies at the head of `body`, or `none`
if it cannot be read.  With overflow checks a text length of 0, or of more than 2^31, cannot be
read; without them the byte length wraps modulo 2^32. -/
def argSpan (m : Mode) (tag : UInt8) (body : Bytes) : Option Nat :=
  if tag = 0x04 then (if 2 ≤ body.length then some 2 else none)
  else if tag = 0x05 then (if 3 ≤ body.length then some 3 else none)
  else if tag = 0x06 then (if 5 ≤ body.length then some 5 else none)
  else if tag = 0x02 then
    if 5 ≤ body.length then
      let v := word (body.drop 1)
      match m with
      | .debug =>
        if 1 ≤ v ∧ (v - 1) * 2 < 4294967296 ∧ 7 + (v - 1) * 2 ≤ body.length then
          some (7 + (v - 1) * 2)
        else none
      | .release =>
        if 7 + (v + 4294967295) * 2 % 4294967296 ≤ body.length then
          some (7 + (v + 4294967295) * 2 % 4294967296)
        else none
    else none
  else if tag = 0x03 then
    if body.length < 4 then some 0
    else if 4 + word body ≤ body.length then some (4 + word body) else none
  else none

/-- The arguments with these header tags can all be read, one after the other. -/
def ArgsReadable (m : Mode) : List UInt8 → Bytes → Prop
  | [], _ => True
  | t :: ts, body => ∃ n, argSpan m t body = some n ∧ ArgsReadable m ts (body.drop n)

/-- The chunk starts with any byte and the protocol magic, then a transaction-id field, and either
the tag of that field is not one of the five known field tags, or the fixed part of the message is
complete and announces more than twelve arguments or arguments that cannot be read. -/
def ChunkCrashes (m : Mode) (i : Bytes) : Prop :=
  ∃ (t0 k : UInt8) (tx rest : Bytes),
    tx.length = 4 ∧
    i = t0 :: 0x87 :: 0x23 :: 0x49 :: 0xae :: k :: (tx ++ rest) ∧
    (k ∉ [0x0f, 0x10, 0x11, 0x14, 0x26] ∨
      ∃ (t1 ty1 ty2 n0 n : UInt8) (fill tags body : Bytes),
        fill.length = 5 ∧ tags.length = 12 ∧
        rest = t1 :: ty1 :: ty2 :: n0 :: n :: (fill ++ (tags ++ body)) ∧
        (12 < n.toNat ∨ ¬ ArgsReadable m (tags.take n.toNat) body))

end PDJ.Spec
