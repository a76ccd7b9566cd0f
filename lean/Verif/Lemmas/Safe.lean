import Verif.Base.Nom

/-!
# Parsers that never panic
-/

namespace PDJ

/-- A parser that never panics. -/
def Safe {α : Type} (p : Parser α) : Prop := ∀ i, p i ≠ PRes.panic

theorem Safe.bind {α β : Type} {p : Parser α} {f : α → Parser β} (hp : Safe p)
    (hf : ∀ a, Safe (f a)) : Safe (p >>= f) := by
  intro i h
  rw [bind_def, PRes.andThen_eq_panic] at h
  rcases h with h | ⟨r, a, _, h⟩
  · exact hp i h
  · exact hf a r h

theorem Safe.map {α β : Type} {p : Parser α} (f : α → β) (hp : Safe p) : Safe (f <$> p) := by
  intro i h
  rw [map_def, PRes.andThen_eq_panic] at h
  rcases h with h | ⟨r, a, _, h⟩
  · exact hp i h
  · exact nomatch h

theorem Safe.pure {α : Type} (v : α) : Safe (Pure.pure v : Parser α) := fun i h =>
  nomatch (show PRes.ok i v = PRes.panic from h)

theorem Safe.err {α : Type} : Safe (P.err : Parser α) := fun _ h => nomatch h

theorem Safe.fail {α : Type} : Safe (P.fail : Parser α) := fun _ h => nomatch h

theorem Safe.ite {α : Type} {c : Prop} [Decidable c] {p q : Parser α} (hp : Safe p) (hq : Safe q) :
    Safe (if c then p else q) := by
  split <;> assumption

theorem Safe.beU8 : Safe P.beU8 := by
  intro i h
  rcases P.beU8_cases i with ⟨r, x, e⟩ | ⟨e, _⟩ <;> rw [e] at h <;> exact nomatch h

theorem Safe.beU16 : Safe P.beU16 := by
  intro i h
  rcases P.beU16_cases i with ⟨r, x, e⟩ | ⟨e, _⟩ <;> rw [e] at h <;> exact nomatch h

theorem Safe.leU16 : Safe P.leU16 := by
  intro i h
  match i with
  | [] => exact nomatch h
  | [_] => exact nomatch h
  | _ :: _ :: _ => exact nomatch h

theorem Safe.beU32 : Safe P.beU32 := by
  intro i h
  rcases P.beU32_cases i with ⟨r, x, e⟩ | ⟨e, _⟩ <;> rw [e] at h <;> exact nomatch h

theorem Safe.beU64 : Safe P.beU64 := by
  intro i h
  rcases P.beU64_cases i with ⟨r, x, e⟩ | ⟨e, _⟩ <;> rw [e] at h <;> exact nomatch h

theorem Safe.take (n : Nat) : Safe (P.take n) := fun i => P.take_ne_panic i n

theorem Safe.tag (t : Bytes) : Safe (P.tag t) := fun i => P.tag_ne_panic t i

theorem Safe.count {α : Type} {p : Parser α} (hp : Safe p) (n : Nat) : Safe (P.count p n) := by
  induction n with
  | zero => exact Safe.pure _
  | succ n ih => exact hp.bind fun _ => ih.bind fun _ => Safe.pure _

end PDJ
