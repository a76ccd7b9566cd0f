import Verif.Base.Bytes

/-!
# nom 6 (`complete` flavour) parsers

`IResult<&[u8], T>` together with the possibility of a panic inside the parser.
-/

namespace PDJ

/-- Result of a parser: success, `Err::Error`, `Err::Failure`, or a Rust panic.
`Err::Incomplete` cannot be produced by the `complete` combinators used in the code. -/
inductive PRes (α : Type) where
  | ok (rest : Bytes) (val : α)
  | err
  | fail
  | panic
deriving DecidableEq, Repr

namespace PRes

/-- Sequencing: `let (input, x) = p(input)?; ...`. -/
def andThen {α β : Type} (r : PRes α) (f : Bytes → α → PRes β) : PRes β :=
  match r with
  | ok rest v => f rest v
  | err => err
  | fail => fail
  | panic => panic

@[simp] theorem andThen_ok {α β} (r : Bytes) (v : α) (f : Bytes → α → PRes β) :
    (ok r v).andThen f = f r v := rfl
@[simp] theorem andThen_err {α β} (f : Bytes → α → PRes β) : (err : PRes α).andThen f = err := rfl
@[simp] theorem andThen_fail {α β} (f : Bytes → α → PRes β) : (fail : PRes α).andThen f = fail := rfl
@[simp] theorem andThen_panic {α β} (f : Bytes → α → PRes β) :
    (panic : PRes α).andThen f = panic := rfl

theorem andThen_eq_ok {α β} {r : PRes α} {f : Bytes → α → PRes β} {rest : Bytes} {b : β} :
    r.andThen f = ok rest b ↔ ∃ rest' a, r = ok rest' a ∧ f rest' a = ok rest b := by
  cases r <;> simp [and_assoc]

theorem andThen_eq_panic {α β} {r : PRes α} {f : Bytes → α → PRes β} :
    r.andThen f = panic ↔ r = panic ∨ ∃ rest' a, r = ok rest' a ∧ f rest' a = panic := by
  cases r <;> simp [and_assoc]

end PRes

/-- A parser over the remaining input. -/
def Parser (α : Type) : Type := Bytes → PRes α

instance : Monad Parser where
  pure v := fun i => PRes.ok i v
  bind p f := fun i => (p i).andThen (fun rest v => f v rest)

theorem pure_def {α : Type} (v : α) (i : Bytes) : (pure v : Parser α) i = PRes.ok i v := rfl

theorem bind_def {α β : Type} (p : Parser α) (f : α → Parser β) (i : Bytes) :
    (p >>= f) i = (p i).andThen (fun rest v => f v rest) := rfl

theorem bind_apply_ok {α β : Type} {p : Parser α} {i r : Bytes} {v : α} (f : α → Parser β)
    (h : p i = PRes.ok r v) : (p >>= f) i = f v r := by
  rw [bind_def, h]; rfl

theorem map_def {α β : Type} (g : α → β) (p : Parser α) (i : Bytes) :
    (g <$> p) i = (p i).andThen (fun rest v => PRes.ok rest (g v)) := rfl

namespace P

/-- `nom::bytes::complete::take(n)`. -/
def take (n : Nat) : Parser Bytes := fun i =>
  if i.length < n then PRes.err else PRes.ok (i.drop n) (i.take n)

/-- `nom::bytes::complete::tag(t)`. -/
def tag (t : Bytes) : Parser Bytes := fun i =>
  if t.isPrefixOf i then PRes.ok (i.drop t.length) t else PRes.err

/-- `nom::number::complete::be_u8`. -/
def beU8 : Parser UInt8 := fun i =>
  match i with
  | a :: r => PRes.ok r a
  | _ => PRes.err

/-- `nom::number::complete::be_u16`. -/
def beU16 : Parser UInt16 := fun i =>
  match i with
  | a :: b :: r => PRes.ok r (ofBe16 a b)
  | _ => PRes.err

/-- `nom::number::complete::le_u16`. -/
def leU16 : Parser UInt16 := fun i =>
  match i with
  | a :: b :: r => PRes.ok r (ofBe16 b a)
  | _ => PRes.err

/-- `nom::number::complete::be_u32`. -/
def beU32 : Parser UInt32 := fun i =>
  match i with
  | a :: b :: c :: d :: r => PRes.ok r (ofBe32 a b c d)
  | _ => PRes.err

/-- `nom::number::complete::be_u64`. -/
def beU64 : Parser UInt64 := fun i =>
  match i with
  | a :: b :: c :: d :: e :: f :: g :: h :: r => PRes.ok r (ofBe64 a b c d e f g h)
  | _ => PRes.err

/-- `Err(nom::Err::Error(..))`, e.g. `parse_error` of `src/utils/mod.rs` 3-6. -/
def err {α : Type} : Parser α := fun _ => PRes.err

/-- `Err(nom::Err::Failure(..))`. -/
def fail {α : Type} : Parser α := fun _ => PRes.fail

/-- A Rust panic (`unwrap`, `unimplemented!`, index out of bounds, overflow check). -/
def panic {α : Type} : Parser α := fun _ => PRes.panic

/-- `nom::multi::count(p, n)`. -/
def count {α : Type} (p : Parser α) : Nat → Parser (List α)
  | 0 => pure []
  | n + 1 => do
    let x ← p
    let xs ← count p n
    pure (x :: xs)

/-! ### Evaluation lemmas -/

theorem take_append {a b : Bytes} {n : Nat} (h : a.length = n) :
    take n (a ++ b) = PRes.ok b a := by
  subst h
  simp [take]

@[simp] theorem take_zero (i : Bytes) : take 0 i = PRes.ok i [] := by simp [take]

@[simp] theorem take_succ_cons (n : Nat) (a : UInt8) (r : Bytes) :
    take (n + 1) (a :: r) = (take n r).andThen (fun rest v => PRes.ok rest (a :: v)) := by
  simp only [take, List.length_cons, Nat.add_lt_add_iff_right]
  split <;> simp

@[simp] theorem take_succ_nil (n : Nat) : take (n + 1) [] = PRes.err := by simp [take]

theorem take_short {i : Bytes} {n : Nat} (h : i.length < n) : take n i = PRes.err := by
  simp [take, h]

theorem take_long {i : Bytes} {n : Nat} (h : n ≤ i.length) :
    take n i = PRes.ok (i.drop n) (i.take n) := by
  simp [take, Nat.not_lt.2 h]

theorem take_ne_panic (i : Bytes) (n : Nat) : take n i ≠ PRes.panic := by
  unfold take; split <;> simp

theorem take_eq_ok {i r a : Bytes} {n : Nat} :
    take n i = PRes.ok r a ↔ a.length = n ∧ i = a ++ r := by
  constructor
  · intro h
    unfold take at h
    split at h
    · simp at h
    · rename_i hn
      simp only [PRes.ok.injEq] at h
      obtain ⟨rfl, rfl⟩ := h
      simp; omega
  · rintro ⟨rfl, rfl⟩
    exact take_append rfl

theorem tag_append (t r : Bytes) : tag t (t ++ r) = PRes.ok r t := by
  have h : t.isPrefixOf (t ++ r) = true := by
    rw [List.isPrefixOf_iff_prefix]; exact List.prefix_append t r
  simp [tag, h]

theorem tag_eq_ok {t i r v : Bytes} : tag t i = PRes.ok r v ↔ v = t ∧ i = t ++ r := by
  constructor
  · intro h
    unfold tag at h
    split at h
    · rename_i hp
      rw [List.isPrefixOf_iff_prefix] at hp
      obtain ⟨s, rfl⟩ := hp
      simp only [PRes.ok.injEq, List.drop_left] at h
      obtain ⟨rfl, rfl⟩ := h
      exact ⟨rfl, rfl⟩
    · simp at h
  · rintro ⟨rfl, rfl⟩
    exact tag_append _ _

theorem tag_ne_panic (t i : Bytes) : tag t i ≠ PRes.panic := by
  unfold tag; split <;> simp

theorem tag_ne_fail (t i : Bytes) : tag t i ≠ PRes.fail := by
  unfold tag; split <;> simp

@[simp] theorem beU8_cons (a : UInt8) (r : Bytes) : beU8 (a :: r) = PRes.ok r a := rfl

@[simp] theorem beU16_cons (a b : UInt8) (r : Bytes) :
    beU16 (a :: b :: r) = PRes.ok r (ofBe16 a b) := rfl

@[simp] theorem beU32_cons (a b c d : UInt8) (r : Bytes) :
    beU32 (a :: b :: c :: d :: r) = PRes.ok r (ofBe32 a b c d) := rfl

theorem beU16_be16 (x : UInt16) (r : Bytes) : beU16 (be16 x ++ r) = PRes.ok r x := by
  exact congrArg (PRes.ok r) (ofBe16_be16 x)

theorem leU16_le16 (x : UInt16) (r : Bytes) : leU16 (le16 x ++ r) = PRes.ok r x := by
  exact congrArg (PRes.ok r) (ofBe16_be16 x)

theorem beU32_be32 (x : UInt32) (r : Bytes) : beU32 (be32 x ++ r) = PRes.ok r x := by
  exact congrArg (PRes.ok r) (ofBe32_be32 x)

theorem beU64_be64 (x : UInt64) (r : Bytes) : beU64 (be64 x ++ r) = PRes.ok r x := by
  exact congrArg (PRes.ok r) (ofBe64_be64 x)

theorem beU8_eq_ok {i r : Bytes} {x : UInt8} : beU8 i = PRes.ok r x ↔ i = x :: r := by
  match i with
  | [] => simp [beU8]
  | a :: s => simp [beU8, and_comm]

theorem beU16_eq_ok {i r : Bytes} {x : UInt16} : beU16 i = PRes.ok r x ↔ i = be16 x ++ r := by
  constructor
  · intro h
    match i, h with
    | a :: b :: s, h =>
      simp only [beU16, PRes.ok.injEq] at h
      obtain ⟨rfl, rfl⟩ := h
      simp [be16_ofBe16]
  · rintro rfl; exact beU16_be16 _ _

theorem beU32_eq_ok {i r : Bytes} {x : UInt32} : beU32 i = PRes.ok r x ↔ i = be32 x ++ r := by
  constructor
  · intro h
    match i, h with
    | a :: b :: c :: d :: s, h =>
      simp only [beU32, PRes.ok.injEq] at h
      obtain ⟨rfl, rfl⟩ := h
      simp [be32_ofBe32]
  · rintro rfl; exact beU32_be32 _ _

theorem beU64_eq_ok {i r : Bytes} {x : UInt64} : beU64 i = PRes.ok r x ↔ i = be64 x ++ r := by
  constructor
  · intro h
    match i, h with
    | a :: b :: c :: d :: e :: f :: g :: k :: s, h =>
      simp only [beU64, PRes.ok.injEq] at h
      obtain ⟨rfl, rfl⟩ := h
      simp [be64_ofBe64]
  · rintro rfl; exact beU64_be64 _ _

theorem beU8_cases (i : Bytes) :
    (∃ r x, beU8 i = PRes.ok r x) ∨ (beU8 i = PRes.err ∧ i.length < 1) := by
  match i with
  | [] => right; simp [beU8]
  | a :: r => left; exact ⟨r, a, rfl⟩

theorem beU16_cases (i : Bytes) :
    (∃ r x, beU16 i = PRes.ok r x) ∨ (beU16 i = PRes.err ∧ i.length < 2) := by
  match i with
  | [] => right; simp [beU16]
  | [_] => right; simp [beU16]
  | a :: b :: r => left; exact ⟨r, _, rfl⟩

theorem beU32_cases (i : Bytes) :
    (∃ r x, beU32 i = PRes.ok r x) ∨ (beU32 i = PRes.err ∧ i.length < 4) := by
  match i with
  | [] => right; simp [beU32]
  | [_] => right; simp [beU32]
  | [_, _] => right; simp [beU32]
  | [_, _, _] => right; simp [beU32]
  | a :: b :: c :: d :: r => left; exact ⟨r, _, rfl⟩

theorem beU64_cases (i : Bytes) :
    (∃ r x, beU64 i = PRes.ok r x) ∨ (beU64 i = PRes.err ∧ i.length < 8) := by
  match i with
  | [] => right; simp [beU64]
  | [_] => right; simp [beU64]
  | [_, _] => right; simp [beU64]
  | [_, _, _] => right; simp [beU64]
  | [_, _, _, _] => right; simp [beU64]
  | [_, _, _, _, _] => right; simp [beU64]
  | [_, _, _, _, _, _] => right; simp [beU64]
  | [_, _, _, _, _, _, _] => right; simp [beU64]
  | a :: b :: c :: d :: e :: f :: g :: h :: r => left; exact ⟨r, _, rfl⟩

end P

end PDJ
