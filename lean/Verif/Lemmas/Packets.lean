import Verif.Spec.Packets
import Verif.Lemmas.Status
import Verif.Props.Numbers

/-!
# Lemmas about fields at byte positions
-/

namespace PDJ

open Spec

theorem bind_eq_ok {α β : Type} {p : Parser α} {f : α → Parser β} {i r : Bytes} {v : β} :
    (p >>= f) i = .ok r v ↔ ∃ r1 x, p i = .ok r1 x ∧ f x r1 = .ok r v := by
  rw [bind_def, PRes.andThen_eq_ok]

theorem drop_eq_append {d x r : Bytes} {n k : Nat} (hk : x.length = k) :
    d.drop n = x ++ r ↔ (d.drop n).take k = x ∧ r = d.drop (n + k) := by
  subst hk
  constructor
  · intro h
    refine ⟨by rw [h, List.take_left], ?_⟩
    rw [← List.drop_drop, h, List.drop_left]
  · rintro ⟨h, rfl⟩
    conv => lhs; rw [← List.take_append_drop x.length (d.drop n), h, List.drop_drop]

theorem drop_eq_cons {d r : Bytes} {n : Nat} {b : UInt8} :
    d.drop n = b :: r ↔ d[n]? = some b ∧ r = d.drop (n + 1) := by
  constructor
  · intro h
    have hn : n < d.length := by
      rcases Nat.lt_or_ge n d.length with h' | h'
      · exact h'
      · rw [List.drop_eq_nil_of_le h'] at h; exact nomatch h
    rw [List.drop_eq_getElem_cons hn] at h
    obtain ⟨h1, h2⟩ := List.cons.inj h
    exact ⟨by rw [List.getElem?_eq_getElem hn, h1], h2.symm⟩
  · rintro ⟨h, rfl⟩
    obtain ⟨hn, rfl⟩ := List.getElem?_eq_some_iff.1 h
    exact List.drop_eq_getElem_cons hn

theorem take_at {d r v : Bytes} {n k : Nat} :
    P.take k (d.drop n) = .ok r v ↔
      n + k ≤ max n d.length ∧ v = (d.drop n).take k ∧ r = d.drop (n + k) := by
  rw [P.take_eq_ok]
  constructor
  · rintro ⟨hl, h⟩
    obtain ⟨h1, h2⟩ := (drop_eq_append hl).1 h
    refine ⟨?_, h1.symm, h2⟩
    have := congrArg List.length h1
    rw [List.length_take, List.length_drop] at this
    omega
  · rintro ⟨hn, rfl, rfl⟩
    have : ((d.drop n).take k).length = k := by rw [List.length_take, List.length_drop]; omega
    exact ⟨this, (drop_eq_append this).2 ⟨rfl, rfl⟩⟩

theorem u8_at {d r : Bytes} {n : Nat} {x : UInt8} :
    P.beU8 (d.drop n) = .ok r x ↔ d[n]? = some x ∧ r = d.drop (n + 1) := by
  rw [P.beU8_eq_ok, drop_eq_cons]

theorem u16_at {d r : Bytes} {n : Nat} {x : UInt16} :
    P.beU16 (d.drop n) = .ok r x ↔
      n + 2 ≤ d.length ∧ numberAt d n 2 = x.toNat ∧ r = d.drop (n + 2) := by
  rw [P.beU16_eq_ok, drop_eq_append (k := 2) rfl, (C74_u16 _ _).1, numberAt, List.length_take,
    List.length_drop]
  constructor
  · rintro ⟨⟨h1, h2⟩, h3⟩; exact ⟨by omega, h2, h3⟩
  · rintro ⟨h1, h2, h3⟩; exact ⟨⟨by omega, h2⟩, h3⟩

theorem u16_some {d : Bytes} {n : Nat} (h : n + 2 ≤ d.length) :
    ∃ x, P.beU16 (d.drop n) = .ok (d.drop (n + 2)) x := by
  rcases P.beU16_cases (d.drop n) with ⟨r, x, hx⟩ | ⟨_, hl⟩
  · exact ⟨x, by rw [hx, (u16_at.1 hx).2.2]⟩
  · rw [List.length_drop] at hl; omega

theorem u32_at {d r : Bytes} {n : Nat} {x : UInt32} :
    P.beU32 (d.drop n) = .ok r x ↔
      n + 4 ≤ d.length ∧ numberAt d n 4 = x.toNat ∧ r = d.drop (n + 4) := by
  rw [P.beU32_eq_ok, drop_eq_append (k := 4) rfl, (C74_u32 _ _).1, numberAt, List.length_take,
    List.length_drop]
  constructor
  · rintro ⟨⟨h1, h2⟩, h3⟩; exact ⟨by omega, h2, h3⟩
  · rintro ⟨h1, h2, h3⟩; exact ⟨⟨by omega, h2⟩, h3⟩

theorem u64_at {d r : Bytes} {n : Nat} {x : UInt64} :
    P.beU64 (d.drop n) = .ok r x ↔
      n + 8 ≤ d.length ∧ numberAt d n 8 = x.toNat ∧ r = d.drop (n + 8) := by
  rw [P.beU64_eq_ok, drop_eq_append (k := 8) rfl, (C74_u64 _ _).1, numberAt, List.length_take,
    List.length_drop]
  constructor
  · rintro ⟨⟨h1, h2⟩, h3⟩; exact ⟨by omega, h2, h3⟩
  · rintro ⟨h1, h2, h3⟩; exact ⟨⟨by omega, h2⟩, h3⟩

theorem magic_at {d r : Bytes} {u : Unit} :
    UdpMagic.decode d = .ok r u ↔ d.take 10 = signature ∧ r = d.drop 10 := by
  have h := drop_eq_append (d := d) (x := udpMagic) (r := r) (n := 0) (k := 10) rfl
  rw [List.drop_zero, Nat.zero_add] at h
  rw [magic_decode_ok, h]
  rfl

theorem name_at {d r : Bytes} {n : Nat} {m : Str} :
    ModelName.decode (d.drop n) = .ok r m ↔
      n + 20 ≤ max n d.length ∧ NameAt d n m ∧ r = d.drop (n + 20) := by
  rw [model_decode_ok]
  constructor
  · rintro ⟨b, whole, h1, h2, h3, h4⟩
    obtain ⟨rfl, rfl⟩ := (drop_eq_append h2).1 h1
    rw [List.length_take, List.length_drop] at h2
    exact ⟨by omega, ⟨whole, h3, h4⟩, rfl⟩
  · rintro ⟨hl, ⟨whole, h3, h4⟩, rfl⟩
    have : ((d.drop n).take 20).length = 20 := by rw [List.length_take, List.length_drop]; omega
    exact ⟨_, whole, (drop_eq_append this).2 ⟨rfl, rfl⟩, this, h3, h4⟩

theorem mac_at {d r : Bytes} {n : Nat} {m : Mac} :
    Mac.decode (d.drop n) = .ok r m ↔ MacAt d n m ∧ r = d.drop (n + 6) := by
  rw [mac_decode_ok, drop_eq_append (k := 6) rfl]
  rfl

theorem slotCode {b : UInt8} {s : PlayerSlot} :
    SlotCode b s ↔ s.encode = [b] ∧ CanonicalSlot s := by
  have key : ∀ b : UInt8, 4 < b ↔ b ∉ [0, 1, 2, 3, 4] := by
    set_option maxRecDepth 20000 in
    have : ∀ n < 256, 4 < UInt8.ofNat n ↔ UInt8.ofNat n ∉ [0, 1, 2, 3, 4] := by decide
    intro b
    have h := this b.toNat b.toNat_lt
    rwa [UInt8.ofNat_toNat] at h
  cases s with
  | unknown v =>
    simp only [SlotCode, PlayerSlot.encode, CanonicalSlot, key]
    constructor
    · rintro ⟨rfl, h⟩; exact ⟨rfl, h⟩
    · rintro ⟨h1, h⟩; obtain rfl := (List.cons.inj h1).1; exact ⟨rfl, h⟩
  | _ => simp [SlotCode, PlayerSlot.encode, CanonicalSlot, eq_comm]

theorem slot_at {d r : Bytes} {n : Nat} {s : PlayerSlot} :
    PlayerSlot.decode (d.drop n) = .ok r s ↔ SlotAt d n s ∧ r = d.drop (n + 1) := by
  rw [slot_decode_ok]
  have e : ∃ x, s.encode = [x] := by cases s <;> exact ⟨_, rfl⟩
  obtain ⟨x, hx⟩ := e
  rw [hx, List.singleton_append, drop_eq_cons]
  constructor
  · rintro ⟨⟨h1, h2⟩, h3⟩
    exact ⟨⟨x, h1, slotCode.2 ⟨hx, h3⟩⟩, h2⟩
  · rintro ⟨⟨b, h1, h2⟩, h3⟩
    obtain ⟨h4, h5⟩ := slotCode.1 h2
    rw [hx] at h4
    obtain rfl := (List.cons.inj h4).1
    exact ⟨⟨h1, h3⟩, h5⟩

theorem analyze_at {d r : Bytes} {n : Nat} {t : AnalyzeType} :
    AnalyzeType.decode (d.drop n) = .ok r t ↔
      (∃ b, d[n]? = some b ∧ AnalyzeCode b t) ∧ r = d.drop (n + 1) := by
  unfold AnalyzeType.decode
  rw [bind_eq_ok]
  have code : ∀ b : UInt8, AnalyzeCode b t ↔ (if b = 0 then AnalyzeType.unknown
      else if b = 1 then .rekordbox else if b = 2 then .file else if b = 5 then .cd
      else .unknown) = t := by
    intro b
    cases t <;> simp only [AnalyzeCode] <;> repeat' split
    all_goals simp_all
  constructor
  · rintro ⟨r1, b, h1, h2⟩
    obtain ⟨h3, rfl⟩ := u8_at.1 h1
    obtain ⟨rfl, h4⟩ := PRes.ok.inj h2
    exact ⟨⟨b, h3, (code b).2 h4⟩, rfl⟩
  · rintro ⟨⟨b, h1, h2⟩, rfl⟩
    exact ⟨_, b, u8_at.2 ⟨h1, rfl⟩, by rw [← (code b).1 h2]; rfl⟩

theorem count_beU16_ok {i r : Bytes} {n : Nat} {us : List UInt16} :
    P.count P.beU16 n i = .ok r us ↔ us.length = n ∧ i = us.flatMap be16 ++ r := by
  constructor
  · intro h
    induction n generalizing i us with
    | zero =>
      obtain ⟨rfl, rfl⟩ := PRes.ok.inj h
      exact ⟨rfl, rfl⟩
    | succ n ih =>
      rw [P.count, bind_eq_ok] at h
      obtain ⟨r1, u, h1, h⟩ := h
      rw [bind_eq_ok] at h
      obtain ⟨r2, vs, h2, h⟩ := h
      obtain ⟨rfl, rfl⟩ := PRes.ok.inj h
      obtain ⟨h3, h4⟩ := ih h2
      rw [P.beU16_eq_ok] at h1
      refine ⟨by rw [List.length_cons, h3], ?_⟩
      rw [h1, h4, List.flatMap_cons, List.append_assoc]
  · rintro ⟨rfl, rfl⟩
    exact count_beU16 us r

theorem text_at {d r : Bytes} {n k : Nat} {f : FixedString} :
    FixedString.decode (2 * k) (d.drop n) = .ok r f ↔
      n + 2 * k ≤ max n d.length ∧ TextAt d n (2 * k) f ∧ r = d.drop (n + 2 * k) := by
  unfold FixedString.decode
  rw [bind_eq_ok, Nat.mul_div_cancel_left k (by omega)]
  constructor
  · rintro ⟨r1, us, h1, h2⟩
    obtain ⟨h3, h4⟩ := count_beU16_ok.1 h1
    cases hs : fromUtf16 us with
    | none => rw [hs] at h2; exact nomatch h2
    | some s =>
      rw [hs] at h2
      obtain ⟨rfl, rfl⟩ := PRes.ok.inj h2
      have hu := utf16_fromUtf16 hs
      subst hu
      have hl : (utf16be s).length = 2 * k := by rw [length_utf16be, h3]
      have h4' : d.drop n = utf16be s ++ r1 := h4
      obtain ⟨h5, rfl⟩ := (drop_eq_append hl).1 h4'
      have := congrArg List.length h5
      rw [hl, List.length_take, List.length_drop] at this
      exact ⟨by omega, ⟨rfl, h5⟩, rfl⟩
  · rintro ⟨hn, ⟨h1, h2⟩, rfl⟩
    obtain ⟨c, s⟩ := f
    replace h1 : c = 2 * k := h1
    subst h1
    replace h2 : (d.drop n).take (2 * k) = utf16be s := h2
    have hl : (utf16be s).length = 2 * k := by
      rw [← h2, List.length_take, List.length_drop]; omega
    have hs : (utf16 s).length = k := by rw [length_utf16be] at hl; omega
    refine ⟨_, utf16 s, count_beU16_ok.2 ⟨hs, (drop_eq_append hl).2 ⟨h2, rfl⟩⟩, ?_⟩
    rw [fromUtf16_utf16]
    rfl

/-! ## Codes of keep-alive packets -/

theorem kaKind_at {d r : Bytes} {n : Nat} {k : KaKind} :
    KaKind.decode (d.drop n) = .ok r k ↔ (∃ b, d[n]? = some b ∧ KaCode b k) ∧ r = d.drop (n + 1) := by
  rw [kind_decode_ok]
  cases k <;>
    simp [KaKind.encode, drop_eq_cons, KaCode]

theorem device_at {d r : Bytes} {n : Nat} {k : DeviceType} :
    DeviceType.decode (d.drop n) = .ok r k ↔
      (∃ b, d[n]? = some b ∧ DeviceCode b k) ∧ r = d.drop (n + 1) := by
  rw [device_decode_ok]
  cases k <;> simp [DeviceType.encode, drop_eq_cons, DeviceCode]

theorem assignment_at {d r : Bytes} {n : Nat} {k : Assignment} :
    Assignment.decode (d.drop n) = .ok r k ↔
      (∃ b, d[n]? = some b ∧ AssignmentCode b k) ∧ r = d.drop (n + 1) := by
  rw [assignment_decode_ok]
  cases k <;> simp [Assignment.encode, drop_eq_cons, AssignmentCode]

theorem subkind_at {d r : Bytes} {n : Nat} {k : KaSubKind} :
    KaSubKind.decode (d.drop n) = .ok r k ↔
      (∃ b, d[n]? = some b ∧ KaSubCode b k) ∧ r = d.drop (n + 1) := by
  rw [subkind_decode_ok]
  cases k <;> simp [KaSubKind.encode, drop_eq_cons, KaSubCode, Canonical, and_assoc,
    and_comm, and_left_comm]

theorem statusKind_at {d r : Bytes} {n : Nat} {k : StatusKind} :
    StatusKind.decode (d.drop n) = .ok r k ↔
      (∃ b, d[n]? = some b ∧ k.encode = [b] ∧ CanonicalStatusKind k) ∧ r = d.drop (n + 1) := by
  rw [statusKind_decode_ok]
  cases k <;>
    simp [StatusKind.encode, drop_eq_cons, CanonicalStatusKind, and_assoc, and_comm,
      and_left_comm]

end PDJ
