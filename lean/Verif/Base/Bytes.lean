/-!
# Bytes and fixed-width integers on the wire

`Bytes`, `BytesMut`, `Vec<u8>` and `&[u8]` of the Rust code are all `List UInt8`.
-/

namespace PDJ

/-- `bytes::Bytes`, `bytes::BytesMut`, `Vec<u8>`, `&[u8]`. -/
abbrev Bytes := List UInt8

/-- Build flavour: arithmetic overflow panics with `debug` (overflow checks on) and wraps with
`release` (overflow checks off). -/
inductive Mode
  | debug
  | release
deriving DecidableEq, Repr

/-- `u16::to_be_bytes`. -/
def be16 (x : UInt16) : Bytes :=
  [UInt8.ofNat (x.toNat / 256), UInt8.ofNat x.toNat]

/-- `u32::to_be_bytes`. -/
def be32 (x : UInt32) : Bytes :=
  [UInt8.ofNat (x.toNat / 16777216), UInt8.ofNat (x.toNat / 65536),
   UInt8.ofNat (x.toNat / 256), UInt8.ofNat x.toNat]

/-- `u64::to_be_bytes`. -/
def be64 (x : UInt64) : Bytes :=
  [UInt8.ofNat (x.toNat / 72057594037927936), UInt8.ofNat (x.toNat / 281474976710656),
   UInt8.ofNat (x.toNat / 1099511627776), UInt8.ofNat (x.toNat / 4294967296),
   UInt8.ofNat (x.toNat / 16777216), UInt8.ofNat (x.toNat / 65536),
   UInt8.ofNat (x.toNat / 256), UInt8.ofNat x.toNat]

/-- `u16::to_le_bytes`. -/
def le16 (x : UInt16) : Bytes := [UInt8.ofNat x.toNat, UInt8.ofNat (x.toNat / 256)]

/-- `u64::to_le_bytes`. -/
def le64 (x : UInt64) : Bytes := (be64 x).reverse

/-- `u16::from_be_bytes`.  (The literal factor comes first so that the kernel does not unfold the
multiplication of a symbolic byte.) -/
def ofBe16 (a b : UInt8) : UInt16 := UInt16.ofNat (256 * a.toNat + b.toNat)

/-- `u32::from_be_bytes`. -/
def ofBe32 (a b c d : UInt8) : UInt32 :=
  UInt32.ofNat (16777216 * a.toNat + 65536 * b.toNat + 256 * c.toNat + d.toNat)

/-- `u64::from_be_bytes`. -/
def ofBe64 (a b c d e f g h : UInt8) : UInt64 :=
  UInt64.ofNat (72057594037927936 * a.toNat + 281474976710656 * b.toNat +
    1099511627776 * c.toNat + 4294967296 * d.toNat +
    16777216 * e.toNat + 65536 * f.toNat + 256 * g.toNat + h.toNat)

@[simp] theorem length_be16 (x : UInt16) : (be16 x).length = 2 := rfl
@[simp] theorem length_be32 (x : UInt32) : (be32 x).length = 4 := rfl
@[simp] theorem length_be64 (x : UInt64) : (be64 x).length = 8 := rfl
@[simp] theorem length_le16 (x : UInt16) : (le16 x).length = 2 := rfl
@[simp] theorem length_le64 (x : UInt64) : (le64 x).length = 8 := rfl

theorem ofBe16_be16 (x : UInt16) :
    ofBe16 (UInt8.ofNat (x.toNat / 256)) (UInt8.ofNat x.toNat) = x := by
  apply UInt16.toNat.inj
  have := x.toNat_lt
  simp only [ofBe16, UInt16.toNat_ofNat', UInt8.toNat_ofNat']
  omega

theorem ofBe32_be32 (x : UInt32) :
    ofBe32 (UInt8.ofNat (x.toNat / 16777216)) (UInt8.ofNat (x.toNat / 65536))
      (UInt8.ofNat (x.toNat / 256)) (UInt8.ofNat x.toNat) = x := by
  apply UInt32.toNat.inj
  have := x.toNat_lt
  simp only [ofBe32, UInt32.toNat_ofNat', UInt8.toNat_ofNat']
  omega

theorem ofBe64_be64 (x : UInt64) :
    ofBe64 (UInt8.ofNat (x.toNat / 72057594037927936)) (UInt8.ofNat (x.toNat / 281474976710656))
      (UInt8.ofNat (x.toNat / 1099511627776)) (UInt8.ofNat (x.toNat / 4294967296))
      (UInt8.ofNat (x.toNat / 16777216)) (UInt8.ofNat (x.toNat / 65536))
      (UInt8.ofNat (x.toNat / 256)) (UInt8.ofNat x.toNat) = x := by
  apply UInt64.toNat.inj
  have := x.toNat_lt
  simp only [ofBe64, UInt64.toNat_ofNat', UInt8.toNat_ofNat']
  omega

theorem be16_ofBe16 (a b : UInt8) : be16 (ofBe16 a b) = [a, b] := by
  have ha := a.toNat_lt
  have hb := b.toNat_lt
  simp only [be16, ofBe16, UInt16.toNat_ofNat', List.cons.injEq, and_true]
  refine ⟨?_, ?_⟩ <;> apply UInt8.toNat.inj <;> simp only [UInt8.toNat_ofNat'] <;> omega

theorem be32_ofBe32 (a b c d : UInt8) : be32 (ofBe32 a b c d) = [a, b, c, d] := by
  have ha := a.toNat_lt
  have hb := b.toNat_lt
  have hc := c.toNat_lt
  have hd := d.toNat_lt
  simp only [be32, ofBe32, UInt32.toNat_ofNat', List.cons.injEq, and_true]
  refine ⟨?_, ?_, ?_, ?_⟩ <;> apply UInt8.toNat.inj <;> simp only [UInt8.toNat_ofNat'] <;> omega

theorem be64_ofBe64 (a b c d e f g h : UInt8) :
    be64 (ofBe64 a b c d e f g h) = [a, b, c, d, e, f, g, h] := by
  have ha := a.toNat_lt
  have hb := b.toNat_lt
  have hc := c.toNat_lt
  have hd := d.toNat_lt
  have he := e.toNat_lt
  have hf := f.toNat_lt
  have hg := g.toNat_lt
  have hh := h.toNat_lt
  simp only [be64, ofBe64, UInt64.toNat_ofNat', List.cons.injEq, and_true]
  refine ⟨?_, ?_, ?_, ?_, ?_, ?_, ?_, ?_⟩ <;> apply UInt8.toNat.inj <;>
    simp only [UInt8.toNat_ofNat'] <;> omega

theorem be32_inj {x y : UInt32} (h : be32 x = be32 y) : x = y := by
  simp only [be32, List.cons.injEq, and_true] at h
  obtain ⟨h1, h2, h3, h4⟩ := h
  rw [← ofBe32_be32 x, ← ofBe32_be32 y, h1, h2, h3, h4]

end PDJ
