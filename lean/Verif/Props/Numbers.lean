import Verif.Spec.Numbers

/-!
# Property C74: numbers on the wire are big-endian, characters are in standard encodings
-/

namespace PDJ

open Spec

/-- C74: 16-bit numbers. -/
theorem C74_u16 (x : UInt16) (b : Bytes) :
    (b = be16 x ↔ b.length = 2 ∧ digits b = x.toNat) ∧
    ∀ p q, digits [p, q] = (ofBe16 p q).toNat := by
  have val : ∀ p q, digits [p, q] = (ofBe16 p q).toNat := by
    intro p q
    have := p.toNat_lt
    have := q.toNat_lt
    simp only [digits, ofBe16, List.foldl_cons, List.foldl_nil, UInt16.toNat_ofNat']
    omega
  refine ⟨⟨?_, ?_⟩, val⟩
  · rintro rfl
    refine ⟨rfl, ?_⟩
    unfold be16
    rw [val, ofBe16_be16]
  · rintro ⟨hl, hd⟩
    match b, hl with
    | [p, q], _ =>
      rw [val] at hd
      rw [← UInt16.toNat.inj hd, be16_ofBe16]

/-- C74: 32-bit numbers. -/
theorem C74_u32 (x : UInt32) (b : Bytes) :
    (b = be32 x ↔ b.length = 4 ∧ digits b = x.toNat) ∧
    ∀ p q r s, digits [p, q, r, s] = (ofBe32 p q r s).toNat := by
  have val : ∀ p q r s, digits [p, q, r, s] = (ofBe32 p q r s).toNat := by
    intro p q r s
    have := p.toNat_lt
    have := q.toNat_lt
    have := r.toNat_lt
    have := s.toNat_lt
    simp only [digits, ofBe32, List.foldl_cons, List.foldl_nil, UInt32.toNat_ofNat']
    omega
  refine ⟨⟨?_, ?_⟩, val⟩
  · rintro rfl
    refine ⟨rfl, ?_⟩
    unfold be32
    rw [val, ofBe32_be32]
  · rintro ⟨hl, hd⟩
    match b, hl with
    | [p, q, r, s], _ =>
      rw [val] at hd
      rw [← UInt32.toNat.inj hd, be32_ofBe32]

/-- C74: 64-bit numbers, also in the little-endian form used in file handles. -/
theorem C74_u64 (x : UInt64) (b : Bytes) :
    (b = be64 x ↔ b.length = 8 ∧ digits b = x.toNat) ∧
    (b = le64 x ↔ b.length = 8 ∧ digits b.reverse = x.toNat) := by
  have val : ∀ a b c d e f g h, digits [a, b, c, d, e, f, g, h] = (ofBe64 a b c d e f g h).toNat := by
    intro a b c d e f g h
    have := a.toNat_lt
    have := b.toNat_lt
    have := c.toNat_lt
    have := d.toNat_lt
    have := e.toNat_lt
    have := f.toNat_lt
    have := g.toNat_lt
    have := h.toNat_lt
    simp only [digits, ofBe64, List.foldl_cons, List.foldl_nil, UInt64.toNat_ofNat']
    omega
  have big : ∀ b : Bytes, b = be64 x ↔ b.length = 8 ∧ digits b = x.toNat := by
    intro b
    constructor
    · rintro rfl
      refine ⟨rfl, ?_⟩
      unfold be64
      rw [val, ofBe64_be64]
    · rintro ⟨hl, hd⟩
      match b, hl with
      | [a, b, c, d, e, f, g, h], _ =>
        rw [val] at hd
        rw [← UInt64.toNat.inj hd, be64_ofBe64]
  refine ⟨big b, ?_⟩
  rw [← List.length_reverse (as := b), ← big b.reverse]
  unfold le64
  exact List.reverse_eq_iff.symm

theorem char_lt (c : Char) : c.val.toNat < 0x110000 := by
  have := c.valid
  simp only [UInt32.isValidChar, Nat.isValidChar] at this
  omega

theorem ofNat_congr {a b : Nat} (h : a = b) : UInt8.ofNat a = UInt8.ofNat b := by rw [h]

theorem utf8Char_eq (c : Char) : utf8Char c = String.utf8EncodeChar c := by
  have hlt := char_lt c
  unfold utf8Char String.utf8EncodeChar Char.toNat
  generalize c.val.toNat = v at hlt
  dsimp only
  by_cases h1 : v < 0x80
  · rw [if_pos h1, if_pos (show v ≤ 0x7f by omega)]
  · rw [if_neg h1, if_neg (show ¬ v ≤ 0x7f by omega)]
    by_cases h2 : v < 0x800
    · rw [if_pos h2, if_pos (show v ≤ 0x7ff by omega)]
      congr 1
      · apply ofNat_congr; omega
      · congr 1; apply ofNat_congr; omega
    · rw [if_neg h2, if_neg (show ¬ v ≤ 0x7ff by omega)]
      by_cases h3 : v < 0x10000
      · rw [if_pos h3, if_pos (show v ≤ 0xffff by omega)]
        congr 1
        · apply ofNat_congr; omega
        · congr 1
          · apply ofNat_congr; omega
          · congr 1; apply ofNat_congr; omega
      · rw [if_neg h3, if_neg (show ¬ v ≤ 0xffff by omega)]
        congr 1
        · apply ofNat_congr; omega
        · congr 1
          · apply ofNat_congr; omega
          · congr 1
            · apply ofNat_congr; omega
            · congr 1; apply ofNat_congr; omega

/-- C74: UTF-8 is that of the Lean standard library. -/
theorem C74_utf8 (s : Str) : utf8 s = s.flatMap String.utf8EncodeChar := by
  unfold utf8
  congr 1
  funext c
  exact utf8Char_eq c

theorem utf16Char_spec (c : Char) : IsUtf16 c.toNat (utf16Char c) := by
  have hlt : c.toNat < 0x110000 := char_lt c
  unfold utf16Char IsUtf16
  by_cases h : c.toNat < 0x10000
  · rw [if_pos h]
    refine .inl ⟨h, _, rfl, ?_⟩
    simp only [UInt16.toNat_ofNat']
    omega
  · rw [if_neg h]
    refine .inr ⟨by omega, _, _, (c.toNat - 0x10000) / 0x400, (c.toNat - 0x10000) % 0x400, rfl, ?_, ?_,
      ?_, ?_, ?_⟩ <;> try simp only [UInt16.toNat_ofNat']
    all_goals omega

/-- C74: UTF-16 is that of the Unicode standard, character by character. -/
theorem C74_utf16 (s : Str) : ∃ parts : List (List UInt16), utf16 s = parts.flatten ∧
    parts.length = s.length ∧ ∀ k (h : k < s.length) (h' : k < parts.length),
      IsUtf16 s[k].toNat parts[k] := by
  refine ⟨s.map utf16Char, ?_, List.length_map .., ?_⟩
  · rw [utf16, List.flatMap_def]
  · intro k h h'
    rw [List.getElem_map]
    exact utf16Char_spec _

/-- 50000 on the wire, 0x8d4 written in four bytes, and a surrogate pair. -/
example : be16 50000 = [195, 80] := by decide
example : digits [0, 0, 8, 212] = 0x8d4 := by decide
example : IsUtf16 0x10437 [0xd801, 0xdc37] :=
  .inr ⟨by decide, _, _, 1, 0x37, rfl, by decide, by decide, by decide, by decide, by decide⟩

end PDJ
