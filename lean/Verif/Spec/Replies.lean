import Verif.Spec.Session

/-!
# Specification: which requests a well-behaved player sends
-/

namespace PDJ.Spec

/-- The request needs a number (artist or track id) and does not carry it in its place. -/
def Incomplete (q : Msg) : Prop :=
  ((q.type = 0x1102 ∨ q.type = 0x1202) ∧ numAt 2 q.args = none) ∨
  ((q.type = 0x2002 ∨ q.type = 0x2102) ∧ numAt 1 q.args = none)

/-- A request about tracks asks for one of the first `n` tracks. -/
def AsksForTrackBelow (n : Nat) (q : Msg) : Prop :=
  ∀ t, menuOf q = some (.metadata t) ∨ menuOf q = some (.mountInfo t) → 2 ≤ t.toNat ∧ t.toNat < n + 2

/-- What a well-behaved player sends in one piece: the greeting, or a complete request about a track
it was shown. -/
inductive Polite (n : Nat) : Bytes → Prop
  | greeting (b : Bytes) (h : b.length = 5) : Polite n b
  | request (q : Msg) (more : Bytes) (hq : Sendable q) (hi : ¬ Incomplete q)
      (ht : AsksForTrackBelow n q) : Polite n (writeMsg q ++ more)

/-- A preview waveform as players draw it: 400 columns of a height (0 to 31) and a whiteness (0 to 7),
then 100 columns of a coarse overview, each a height (0 to 15), then 4 bytes that are not drawn. -/
def PreviewWaveform (blob : Bytes) : Prop :=
  blob.length = 904 ∧
  (∀ i < 400, ∃ height whiteness, blob[2 * i]? = some height ∧ blob[2 * i + 1]? = some whiteness ∧
    height.toNat < 32 ∧ whiteness.toNat < 8) ∧
  ∀ i < 100, ∃ height, blob[800 + i]? = some height ∧ height.toNat < 16

end PDJ.Spec
