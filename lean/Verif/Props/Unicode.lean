import Verif.Base.Unicode

/-!
# Property C62: text codecs

`Str` is a list of Unicode scalar values, as a Rust `String` is.
-/

namespace PDJ

/-- C62: UTF-16 encoding then decoding returns the text. -/
theorem C62_utf16_round_trip (s : Str) : fromUtf16 (utf16 s) = some s := fromUtf16_utf16 s

/-- C62: the UTF-16 decoder accepts exactly the encodings of texts, and nothing is lost or repaired. -/
theorem C62_utf16_accepts_exactly (us : List UInt16) (s : Str) :
    fromUtf16 us = some s ↔ utf16 s = us :=
  ⟨utf16_fromUtf16, fun h => h ▸ fromUtf16_utf16 s⟩

theorem fromUtf16_append (s : Str) (us : List UInt16) :
    fromUtf16 (utf16 s ++ us) = (fromUtf16 us).map (s ++ ·) := by
  induction s with
  | nil => simp [utf16]
  | cons c s ih =>
    rw [utf16_cons, List.append_assoc, fromUtf16_char, ih]
    cases fromUtf16 us <;> rfl

/-- C62: a high surrogate not followed by a low surrogate is rejected, wherever it stands. -/
theorem C62_lone_high_surrogate_rejected (s : Str) (u : UInt16) (rest : List UInt16)
    (h1 : 0xD800 ≤ u.toNat) (h2 : u.toNat < 0xDC00)
    (hr : ∀ v ∈ rest.head?, v.toNat < 0xDC00 ∨ 0xE000 ≤ v.toNat) :
    fromUtf16 (utf16 s ++ u :: rest) = none := by
  rw [fromUtf16_append]
  have : fromUtf16 (u :: rest) = none := by
    rw [fromUtf16.eq_def]
    simp only
    rw [if_neg (by omega), if_pos h2]
    cases rest with
    | nil => rfl
    | cons v rest =>
      have := hr v (by simp)
      simp only
      rw [if_neg (by omega)]
  rw [this]
  rfl

/-- C62: a low surrogate not preceded by a high surrogate is rejected, wherever it stands. -/
theorem C62_lone_low_surrogate_rejected (s : Str) (u : UInt16) (rest : List UInt16)
    (h1 : 0xDC00 ≤ u.toNat) (h2 : u.toNat < 0xE000) :
    fromUtf16 (utf16 s ++ u :: rest) = none := by
  rw [fromUtf16_append]
  have : fromUtf16 (u :: rest) = none := by
    rw [fromUtf16.eq_def]
    simp only
    rw [if_neg (by omega), if_neg (by omega)]
  rw [this]
  rfl

/-- C62: UTF-8 encoding then decoding returns the text. -/
theorem C62_utf8_round_trip (s : Str) : fromUtf8 (utf8 s) = some s := fromUtf8_utf8 s

/-- C62: the UTF-8 decoder accepts exactly the encodings of texts. -/
theorem C62_utf8_accepts_exactly (bs : Bytes) (s : Str) : fromUtf8 bs = some s ↔ utf8 s = bs :=
  ⟨utf8_fromUtf8, fun h => h ▸ fromUtf8_utf8 s⟩

/-- The codecs on concrete texts: one, two, three and four byte forms and a surrogate pair. -/
example : utf8 [Char.ofNat 0x24, Char.ofNat 0xa2, Char.ofNat 0x20ac, Char.ofNat 0x10348] =
    [0x24, 0xc2, 0xa2, 0xe2, 0x82, 0xac, 0xf0, 0x90, 0x8d, 0x88] := by decide
example : utf16 [Char.ofNat 0x10437] = [0xd801, 0xdc37] := by decide

/-- C62, non-vacuity: lone surrogates after a text. -/
example := C62_lone_high_surrogate_rejected ['a'] 0xd801 [0x0041] (by decide) (by decide) (by decide)
example := C62_lone_low_surrogate_rejected ['a'] 0xdc37 [0x0041] (by decide) (by decide)

end PDJ
