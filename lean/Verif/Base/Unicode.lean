import Verif.Base.Bytes

/-!
# Rust strings and their UTF-8 / UTF-16 encodings

A Rust `String`/`&str` is a list of Unicode scalar values (`Char`).  The codecs below model
`str::as_bytes`, `str::from_utf8`, `str::encode_utf16` and `String::from_utf16` of the Rust
standard library.
-/

namespace PDJ

/-- `String` / `&str`. -/
abbrev Str := List Char

/-! ## UTF-16 -/

/-- UTF-16 code units of one scalar value. -/
def utf16Char (c : Char) : List UInt16 :=
  if c.toNat < 0x10000 then [UInt16.ofNat c.toNat]
  else [UInt16.ofNat (0xD800 + (c.toNat - 0x10000) / 0x400),
        UInt16.ofNat (0xDC00 + (c.toNat - 0x10000) % 0x400)]

/-- `str::encode_utf16`. -/
def utf16 (s : Str) : List UInt16 := s.flatMap utf16Char

/-- `String::from_utf16`; `none` is `Err(FromUtf16Error)`. -/
def fromUtf16 : List UInt16 → Option Str
  | [] => some []
  | u :: rest =>
    if u.toNat < 0xD800 ∨ 0xE000 ≤ u.toNat then
      (fromUtf16 rest).map (Char.ofNat u.toNat :: ·)
    else if u.toNat < 0xDC00 then
      match rest with
      | v :: rest' =>
        if 0xDC00 ≤ v.toNat ∧ v.toNat < 0xE000 then
          (fromUtf16 rest').map
            (Char.ofNat (0x10000 + (u.toNat - 0xD800) * 0x400 + (v.toNat - 0xDC00)) :: ·)
        else none
      | [] => none
    else none

/-- `s.encode_utf16().flat_map(|u| u.to_be_bytes())`. -/
def utf16be (s : Str) : Bytes := (utf16 s).flatMap be16

/-- `s.encode_utf16().flat_map(|u| u.to_le_bytes())`. -/
def utf16le (s : Str) : Bytes := (utf16 s).flatMap le16

/-! ## UTF-8 -/

/-- UTF-8 bytes of one scalar value. -/
def utf8Char (c : Char) : Bytes :=
  let v := c.toNat
  if v < 0x80 then [UInt8.ofNat v]
  else if v < 0x800 then [UInt8.ofNat (0xC0 + v / 0x40), UInt8.ofNat (0x80 + v % 0x40)]
  else if v < 0x10000 then
    [UInt8.ofNat (0xE0 + v / 0x1000), UInt8.ofNat (0x80 + v / 0x40 % 0x40),
     UInt8.ofNat (0x80 + v % 0x40)]
  else
    [UInt8.ofNat (0xF0 + v / 0x40000), UInt8.ofNat (0x80 + v / 0x1000 % 0x40),
     UInt8.ofNat (0x80 + v / 0x40 % 0x40), UInt8.ofNat (0x80 + v % 0x40)]

/-- `str::as_bytes`. -/
def utf8 (s : Str) : Bytes := s.flatMap utf8Char

/-- Continuation byte `10xxxxxx`. -/
def isCont (b : UInt8) : Bool := 0x80 ≤ b.toNat && b.toNat < 0xC0

/-- `str::from_utf8` / `String::from_utf8`; `none` is `Err(Utf8Error)`.
Overlong forms, surrogates and values above `0x10FFFF` are rejected. -/
def fromUtf8 : Bytes → Option Str
  | [] => some []
  | b0 :: r0 =>
    if b0.toNat < 0x80 then (fromUtf8 r0).map (Char.ofNat b0.toNat :: ·)
    else if b0.toNat < 0xC0 then none
    else
      match r0 with
      | [] => none
      | b1 :: r1 =>
        if ¬ isCont b1 then none
        else if b0.toNat < 0xE0 then
          let v := (b0.toNat - 0xC0) * 0x40 + (b1.toNat - 0x80)
          if 0x80 ≤ v then (fromUtf8 r1).map (Char.ofNat v :: ·) else none
        else
          match r1 with
          | [] => none
          | b2 :: r2 =>
            if ¬ isCont b2 then none
            else if b0.toNat < 0xF0 then
              let v := (b0.toNat - 0xE0) * 0x1000 + (b1.toNat - 0x80) * 0x40 + (b2.toNat - 0x80)
              if 0x800 ≤ v ∧ (v < 0xD800 ∨ 0xE000 ≤ v) then
                (fromUtf8 r2).map (Char.ofNat v :: ·)
              else none
            else
              match r2 with
              | [] => none
              | b3 :: r3 =>
                if ¬ isCont b3 then none
                else
                  let v := (b0.toNat - 0xF0) * 0x40000 + (b1.toNat - 0x80) * 0x1000 +
                    (b2.toNat - 0x80) * 0x40 + (b3.toNat - 0x80)
                  if 0x10000 ≤ v ∧ v < 0x110000 then (fromUtf8 r3).map (Char.ofNat v :: ·)
                  else none

/-! ## Lemmas -/

theorem char_range (c : Char) : c.toNat < 0xD800 ∨ (0xE000 ≤ c.toNat ∧ c.toNat < 0x110000) := by
  rcases c.valid with h | h
  · left; exact h
  · right
    refine ⟨?_, h.2⟩
    have := h.1
    simp only [Char.toNat] at *
    omega

theorem toNat_charOfNat {n : Nat} (h : n < 0xD800 ∨ (0xE000 ≤ n ∧ n < 0x110000)) :
    (Char.ofNat n).toNat = n := by
  have hv : n.isValidChar := by
    rcases h with h | ⟨h1, h2⟩
    · exact Or.inl h
    · exact Or.inr ⟨by omega, h2⟩
  unfold Char.ofNat
  rw [dif_pos hv]
  rfl

theorem utf16_cons (c : Char) (s : Str) : utf16 (c :: s) = utf16Char c ++ utf16 s := by
  simp [utf16]

theorem utf16_append (a b : Str) : utf16 (a ++ b) = utf16 a ++ utf16 b := by
  simp [utf16]

theorem utf8_cons (c : Char) (s : Str) : utf8 (c :: s) = utf8Char c ++ utf8 s := by
  simp [utf8]

theorem utf8_append (a b : Str) : utf8 (a ++ b) = utf8 a ++ utf8 b := by
  simp [utf8]

theorem fromUtf16_char (c : Char) (rest : List UInt16) :
    fromUtf16 (utf16Char c ++ rest) = (fromUtf16 rest).map (c :: ·) := by
  have hc := char_range c
  unfold utf16Char
  split
  · rename_i h
    have e : (UInt16.ofNat c.toNat).toNat = c.toNat := by
      simp only [UInt16.toNat_ofNat']; omega
    simp only [List.cons_append, List.nil_append]
    rw [fromUtf16.eq_def]
    simp only [e]
    rw [if_pos (by omega), Char.ofNat_toNat]
  · rename_i h
    have e1 : (UInt16.ofNat (0xD800 + (c.toNat - 0x10000) / 0x400)).toNat =
        0xD800 + (c.toNat - 0x10000) / 0x400 := by
      simp only [UInt16.toNat_ofNat']; omega
    have e2 : (UInt16.ofNat (0xDC00 + (c.toNat - 0x10000) % 0x400)).toNat =
        0xDC00 + (c.toNat - 0x10000) % 0x400 := by
      simp only [UInt16.toNat_ofNat']; omega
    simp only [List.cons_append, List.nil_append]
    rw [fromUtf16.eq_def]
    simp only [e1, e2]
    rw [if_neg (by omega), if_pos (by omega), if_pos (by omega)]
    have e3 : 0x10000 + (0xD800 + (c.toNat - 0x10000) / 0x400 - 0xD800) * 0x400 +
        (0xDC00 + (c.toNat - 0x10000) % 0x400 - 0xDC00) = c.toNat := by omega
    rw [e3, Char.ofNat_toNat]

/-- UTF-16 round trip. -/
theorem fromUtf16_utf16 (s : Str) : fromUtf16 (utf16 s) = some s := by
  induction s with
  | nil => rfl
  | cons c s ih => rw [utf16_cons, fromUtf16_char, ih]; rfl

/-- Whatever `String::from_utf16` accepts re-encodes to the same units. -/
theorem utf16_fromUtf16 {us : List UInt16} {s : Str} (h : fromUtf16 us = some s) :
    utf16 s = us := by
  induction us using fromUtf16.induct generalizing s with
  | case1 =>
    rw [fromUtf16.eq_def] at h
    simp only [Option.some.injEq] at h
    subst h; rfl
  | case2 u rest hu ih =>
    rw [fromUtf16.eq_def] at h
    simp only [if_pos hu] at h
    rw [Option.map_eq_some_iff] at h
    obtain ⟨t, ht, rfl⟩ := h
    rw [utf16_cons, ih ht]
    have hl := u.toNat_lt
    have e := toNat_charOfNat (n := u.toNat) (by omega)
    unfold utf16Char
    rw [e, if_pos (by omega), UInt16.ofNat_toNat]
    rfl
  | case3 u hu hu2 v rest' hv ih =>
    rw [fromUtf16.eq_def] at h
    simp only [if_neg hu, if_pos hu2, if_pos hv] at h
    rw [Option.map_eq_some_iff] at h
    obtain ⟨t, ht, rfl⟩ := h
    rw [utf16_cons, ih ht]
    have e := toNat_charOfNat
      (n := 0x10000 + (u.toNat - 0xD800) * 0x400 + (v.toNat - 0xDC00)) (by omega)
    unfold utf16Char
    rw [e, if_neg (by omega)]
    have e1 : 0xD800 + (0x10000 + (u.toNat - 0xD800) * 0x400 + (v.toNat - 0xDC00) - 0x10000) / 0x400
        = u.toNat := by omega
    have e2 : 0xDC00 + (0x10000 + (u.toNat - 0xD800) * 0x400 + (v.toNat - 0xDC00) - 0x10000) % 0x400
        = v.toNat := by omega
    rw [e1, e2, UInt16.ofNat_toNat, UInt16.ofNat_toNat]
    rfl
  | case4 u hu hu2 v rest' hv =>
    rw [fromUtf16.eq_def] at h
    simp only [if_neg hu, if_pos hu2, if_neg hv] at h
    exact absurd h (by simp)
  | case5 u hu hu2 =>
    rw [fromUtf16.eq_def] at h
    simp only [if_neg hu, if_pos hu2] at h
    exact absurd h (by simp)
  | case6 u rest hu hu2 =>
    rw [fromUtf16.eq_def] at h
    simp only [if_neg hu, if_neg hu2] at h
    exact absurd h (by simp)

theorem length_flatMap_be16 (l : List UInt16) : (l.flatMap be16).length = 2 * l.length := by
  induction l with
  | nil => rfl
  | cons a l ih => simp only [List.flatMap_cons, List.length_append, ih, length_be16,
      List.length_cons]; omega

theorem length_flatMap_le16 (l : List UInt16) : (l.flatMap le16).length = 2 * l.length := by
  induction l with
  | nil => rfl
  | cons a l ih => simp only [List.flatMap_cons, List.length_append, ih, length_le16,
      List.length_cons]; omega

@[simp] theorem length_utf16be (s : Str) : (utf16be s).length = 2 * (utf16 s).length :=
  length_flatMap_be16 _

@[simp] theorem length_utf16le (s : Str) : (utf16le s).length = 2 * (utf16 s).length :=
  length_flatMap_le16 _

theorem fromUtf8_char (c : Char) (rest : Bytes) :
    fromUtf8 (utf8Char c ++ rest) = (fromUtf8 rest).map (c :: ·) := by
  have hc := char_range c
  unfold utf8Char
  simp only
  split
  · have e : (UInt8.ofNat c.toNat).toNat = c.toNat := by
      simp only [UInt8.toNat_ofNat']; omega
    simp only [List.cons_append, List.nil_append]
    rw [fromUtf8.eq_def]
    simp only [e]
    rw [if_pos (by omega), Char.ofNat_toNat]
  · split
    · have e1 : (UInt8.ofNat (0xC0 + c.toNat / 0x40)).toNat = 0xC0 + c.toNat / 0x40 := by
        simp only [UInt8.toNat_ofNat']; omega
      have e2 : (UInt8.ofNat (0x80 + c.toNat % 0x40)).toNat = 0x80 + c.toNat % 0x40 := by
        simp only [UInt8.toNat_ofNat']; omega
      simp only [List.cons_append, List.nil_append]
      rw [fromUtf8.eq_def]
      simp only [e1, e2, isCont]
      rw [if_neg (by omega), if_neg (by omega), if_neg (by simp; omega), if_pos (by omega),
        if_pos (by omega)]
      have e3 : (0xC0 + c.toNat / 0x40 - 0xC0) * 0x40 + (0x80 + c.toNat % 0x40 - 0x80) =
        c.toNat := by omega
      rw [e3, Char.ofNat_toNat]
    · split
      · have e1 : (UInt8.ofNat (0xE0 + c.toNat / 0x1000)).toNat = 0xE0 + c.toNat / 0x1000 := by
          simp only [UInt8.toNat_ofNat']; omega
        have e2 : (UInt8.ofNat (0x80 + c.toNat / 0x40 % 0x40)).toNat =
            0x80 + c.toNat / 0x40 % 0x40 := by
          simp only [UInt8.toNat_ofNat']; omega
        have e3 : (UInt8.ofNat (0x80 + c.toNat % 0x40)).toNat = 0x80 + c.toNat % 0x40 := by
          simp only [UInt8.toNat_ofNat']; omega
        simp only [List.cons_append, List.nil_append]
        rw [fromUtf8.eq_def]
        simp only [e1, e2, e3, isCont]
        rw [if_neg (by omega), if_neg (by omega), if_neg (by simp; omega), if_neg (by omega),
          if_neg (by simp; omega), if_pos (by omega), if_pos (by omega)]
        have e4 : (0xE0 + c.toNat / 0x1000 - 0xE0) * 0x1000 +
            (0x80 + c.toNat / 0x40 % 0x40 - 0x80) * 0x40 + (0x80 + c.toNat % 0x40 - 0x80) =
            c.toNat := by omega
        rw [e4, Char.ofNat_toNat]
      · have e1 : (UInt8.ofNat (0xF0 + c.toNat / 0x40000)).toNat = 0xF0 + c.toNat / 0x40000 := by
          simp only [UInt8.toNat_ofNat']; omega
        have e2 : (UInt8.ofNat (0x80 + c.toNat / 0x1000 % 0x40)).toNat =
            0x80 + c.toNat / 0x1000 % 0x40 := by
          simp only [UInt8.toNat_ofNat']; omega
        have e3 : (UInt8.ofNat (0x80 + c.toNat / 0x40 % 0x40)).toNat =
            0x80 + c.toNat / 0x40 % 0x40 := by
          simp only [UInt8.toNat_ofNat']; omega
        have e4 : (UInt8.ofNat (0x80 + c.toNat % 0x40)).toNat = 0x80 + c.toNat % 0x40 := by
          simp only [UInt8.toNat_ofNat']; omega
        simp only [List.cons_append, List.nil_append]
        rw [fromUtf8.eq_def]
        simp only [e1, e2, e3, e4, isCont]
        rw [if_neg (by omega), if_neg (by omega), if_neg (by simp; omega), if_neg (by omega),
          if_neg (by simp; omega), if_neg (by omega), if_neg (by simp; omega), if_pos (by omega)]
        have e5 : (0xF0 + c.toNat / 0x40000 - 0xF0) * 0x40000 +
            (0x80 + c.toNat / 0x1000 % 0x40 - 0x80) * 0x1000 +
            (0x80 + c.toNat / 0x40 % 0x40 - 0x80) * 0x40 + (0x80 + c.toNat % 0x40 - 0x80) =
            c.toNat := by omega
        rw [e5, Char.ofNat_toNat]

/-- UTF-8 round trip. -/
theorem fromUtf8_utf8 (s : Str) : fromUtf8 (utf8 s) = some s := by
  induction s with
  | nil => rfl
  | cons c s ih => rw [utf8_cons, fromUtf8_char, ih]; rfl

theorem ofNat8_eq {b : UInt8} {n : Nat} (h : n = b.toNat) : UInt8.ofNat n = b := by
  rw [h, UInt8.ofNat_toNat]

/-- Whatever `str::from_utf8` accepts re-encodes to the same bytes. -/
theorem utf8_fromUtf8 {bs : Bytes} {s : Str} (h : fromUtf8 bs = some s) : utf8 s = bs := by
  induction hn : bs.length using Nat.strongRecOn generalizing bs s with
  | _ n ih =>
  subst hn
  match bs, h with
  | [], h =>
    rw [fromUtf8.eq_def] at h
    simp only [Option.some.injEq] at h
    subst h; rfl
  | b0 :: r0, h =>
    rw [fromUtf8.eq_def] at h
    simp only at h
    have hb0 := b0.toNat_lt
    split at h
    · rename_i h0
      rw [Option.map_eq_some_iff] at h
      obtain ⟨t, ht, rfl⟩ := h
      rw [utf8_cons, ih r0.length (by simp) ht rfl]
      unfold utf8Char
      simp only [toNat_charOfNat (n := b0.toNat) (by omega)]
      rw [if_pos (by omega), UInt8.ofNat_toNat]; rfl
    · rename_i h0
      split at h
      · exact absurd h (by simp)
      · rename_i h0'
        match r0, h with
        | b1 :: r1, h =>
          simp only [isCont, Bool.and_eq_true, decide_eq_true_eq] at h
          split at h
          · exact absurd h (by simp)
          · rename_i c1
            have hb1 := b1.toNat_lt
            split at h
            · rename_i h1
              split at h
              · rename_i h2
                rw [Option.map_eq_some_iff] at h
                obtain ⟨t, ht, rfl⟩ := h
                rw [utf8_cons, ih r1.length (by simp; omega) ht rfl]
                unfold utf8Char
                simp only [toNat_charOfNat
                  (n := (b0.toNat - 0xC0) * 0x40 + (b1.toNat - 0x80)) (by omega)]
                rw [if_neg (by omega), if_pos (by omega), ofNat8_eq (b := b0) (by omega),
                  ofNat8_eq (b := b1) (by omega)]
                rfl
              · exact absurd h (by simp)
            · rename_i h1
              match r1, h with
              | b2 :: r2, h =>
                simp only at h
                split at h
                · exact absurd h (by simp)
                · rename_i c2
                  have hb2 := b2.toNat_lt
                  split at h
                  · rename_i h2
                    split at h
                    · rename_i h3
                      rw [Option.map_eq_some_iff] at h
                      obtain ⟨t, ht, rfl⟩ := h
                      rw [utf8_cons, ih r2.length (by simp; omega) ht rfl]
                      unfold utf8Char
                      simp only [toNat_charOfNat
                        (n := (b0.toNat - 0xE0) * 0x1000 + (b1.toNat - 0x80) * 0x40 +
                          (b2.toNat - 0x80)) (by omega)]
                      rw [if_neg (by omega), if_neg (by omega), if_pos (by omega),
                        ofNat8_eq (b := b0) (by omega), ofNat8_eq (b := b1) (by omega),
                        ofNat8_eq (b := b2) (by omega)]
                      rfl
                    · exact absurd h (by simp)
                  · rename_i h2
                    match r2, h with
                    | b3 :: r3, h =>
                      simp only at h
                      split at h
                      · exact absurd h (by simp)
                      · rename_i c3
                        have hb3 := b3.toNat_lt
                        split at h
                        · rename_i h3
                          rw [Option.map_eq_some_iff] at h
                          obtain ⟨t, ht, rfl⟩ := h
                          rw [utf8_cons, ih r3.length (by simp; omega) ht rfl]
                          unfold utf8Char
                          simp only [toNat_charOfNat
                            (n := (b0.toNat - 0xF0) * 0x40000 + (b1.toNat - 0x80) * 0x1000 +
                              (b2.toNat - 0x80) * 0x40 + (b3.toNat - 0x80)) (by omega)]
                          rw [if_neg (by omega), if_neg (by omega), if_neg (by omega),
                            ofNat8_eq (b := b0) (by omega), ofNat8_eq (b := b1) (by omega),
                            ofNat8_eq (b := b2) (by omega), ofNat8_eq (b := b3) (by omega)]
                          rfl
                        · exact absurd h (by simp)
                    | [], h => exact absurd h (by simp)
              | [], h => exact absurd h (by simp)
        | [], h => exact absurd h (by simp)

end PDJ
