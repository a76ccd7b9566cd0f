import Verif.Base.Unicode

/-!
# Specification: numbers and characters on the wire

Positional notation to base 256, and the Unicode definition of UTF-16.
-/

namespace PDJ.Spec

/-- The number written by digits to base 256, most significant first. -/
def digits (b : List UInt8) : Nat := b.foldl (fun n d => 256 * n + d.toNat) 0

/-- The UTF-16 form of a scalar value: itself, or a high and a low surrogate carrying ten bits each
of the value minus `0x10000`. -/
def IsUtf16 (v : Nat) (us : List UInt16) : Prop :=
  (v < 0x10000 ∧ ∃ u, us = [u] ∧ u.toNat = v) ∨
  (0x10000 ≤ v ∧ ∃ h l hi lo : _, us = [h, l] ∧ h.toNat = 0xD800 + hi ∧ l.toNat = 0xDC00 + lo ∧
    hi < 1024 ∧ lo < 1024 ∧ v = 0x10000 + 1024 * hi + lo)

end PDJ.Spec
