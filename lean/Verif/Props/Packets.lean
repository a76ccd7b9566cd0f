import Verif.Lemmas.Packets

/-!
# Received packets by byte positions (C82, C83)
-/

namespace PDJ

open Spec

/-! ## C82: status packets -/

theorem cdj_at {d r : Bytes} {c : StatusContent} :
    decodeCdj (d.drop 34) = .ok r c ↔
      StatusContentAt d .cdj c 49 ∧ 49 ≤ d.length ∧ r = d.drop 49 := by
  unfold decodeCdj
  constructor
  · intro h
    obtain ⟨_, a, h1, h⟩ := bind_eq_ok.1 h
    obtain ⟨l1, e1, rfl⟩ := u16_at.1 h1
    obtain ⟨_, n, h1, h⟩ := bind_eq_ok.1 h
    obtain ⟨l2, e2, rfl⟩ := u16_at.1 h1
    obtain ⟨_, s, h1, h⟩ := bind_eq_ok.1 h
    obtain ⟨e3, rfl⟩ := slot_at.1 h1
    obtain ⟨_, t, h1, h⟩ := bind_eq_ok.1 h
    obtain ⟨e4, rfl⟩ := analyze_at.1 h1
    obtain ⟨_, x, h1, h⟩ := bind_eq_ok.1 h
    obtain ⟨_, _, rfl⟩ := take_at.1 h1
    obtain ⟨_, i, h1, h⟩ := bind_eq_ok.1 h
    obtain ⟨l5, e5, rfl⟩ := u32_at.1 h1
    obtain ⟨_, k, h1, h⟩ := bind_eq_ok.1 h
    obtain ⟨l6, e6, rfl⟩ := u32_at.1 h1
    obtain ⟨rfl, rfl⟩ := PRes.ok.inj h
    exact ⟨.cdj _ e1 e2 e3 e4 e5 e6, l6, rfl⟩
  · rintro ⟨h, hl, rfl⟩
    cases h with
    | cdj c e1 e2 e3 e4 e5 e6 =>
    rw [bind_apply_ok _ (u16_at.2 ⟨by omega, e1, rfl⟩), bind_apply_ok _ (u16_at.2 ⟨by omega, e2, rfl⟩),
      bind_apply_ok _ (slot_at.2 ⟨e3, rfl⟩), bind_apply_ok _ (analyze_at.2 ⟨e4, rfl⟩),
      bind_apply_ok _ (take_at.2 ⟨by omega, rfl, rfl⟩),
      bind_apply_ok _ (u32_at.2 ⟨by omega, e5, rfl⟩), bind_apply_ok _ (u32_at.2 ⟨by omega, e6, rfl⟩)]
    rfl

theorem linkQuery_at {d r : Bytes} {c : StatusContent} :
    decodeLinkQuery (d.drop 34) = .ok r c ↔
      StatusContentAt d .linkQuery c 48 ∧ 48 ≤ d.length ∧ r = d.drop 48 := by
  unfold decodeLinkQuery
  constructor
  · intro h
    obtain ⟨_, a, h1, h⟩ := bind_eq_ok.1 h
    obtain ⟨l1, e1, rfl⟩ := u16_at.1 h1
    obtain ⟨_, n, h1, h⟩ := bind_eq_ok.1 h
    obtain ⟨l2, e2, rfl⟩ := u32_at.1 h1
    obtain ⟨_, x, h1, h⟩ := bind_eq_ok.1 h
    obtain ⟨_, _, rfl⟩ := take_at.1 h1
    obtain ⟨_, p, h1, h⟩ := bind_eq_ok.1 h
    obtain ⟨e3, rfl⟩ := u8_at.1 h1
    obtain ⟨_, x, h1, h⟩ := bind_eq_ok.1 h
    obtain ⟨_, _, rfl⟩ := take_at.1 h1
    obtain ⟨_, s, h1, h⟩ := bind_eq_ok.1 h
    obtain ⟨e4, rfl⟩ := slot_at.1 h1
    obtain ⟨rfl, rfl⟩ := PRes.ok.inj h
    have hl : 48 ≤ d.length := by
      obtain ⟨b, hb, _⟩ := e4
      obtain ⟨hb, _⟩ := List.getElem?_eq_some_iff.1 hb
      omega
    exact ⟨.query _ e2 e3 e4, hl, rfl⟩
  · rintro ⟨h, hl, rfl⟩
    cases h with
    | query q e2 e3 e4 =>
    obtain ⟨x, hx⟩ := u16_some (d := d) (n := 34) (by omega)
    rw [bind_apply_ok _ hx, bind_apply_ok _ (u32_at.2 ⟨by omega, e2, rfl⟩),
      bind_apply_ok _ (take_at.2 ⟨by omega, rfl, rfl⟩), bind_apply_ok _ (u8_at.2 ⟨e3, rfl⟩),
      bind_apply_ok _ (take_at.2 ⟨by omega, rfl, rfl⟩), bind_apply_ok _ (slot_at.2 ⟨e4, rfl⟩)]
    rfl

theorem linkReply_at {d r : Bytes} {c : StatusContent} :
    decodeLinkReply (d.drop 34) = .ok r c ↔
      StatusContentAt d .linkReply c 183 ∧ 183 ≤ d.length ∧ r = d.drop 183 := by
  unfold decodeLinkReply
  constructor
  · intro h
    obtain ⟨_, s, h1, h⟩ := bind_eq_ok.1 h
    obtain ⟨e1, rfl⟩ := slot_at.1 h1
    obtain ⟨_, name, h1, h⟩ := bind_eq_ok.1 h
    obtain ⟨_, e2, rfl⟩ := (text_at (k := 32)).1 h1
    obtain ⟨_, date, h1, h⟩ := bind_eq_ok.1 h
    obtain ⟨_, e3, rfl⟩ := (text_at (k := 12)).1 h1
    obtain ⟨_, u5, h1, h⟩ := bind_eq_ok.1 h
    obtain ⟨_, e4, rfl⟩ := (text_at (k := 16)).1 h1
    obtain ⟨_, tc, h1, h⟩ := bind_eq_ok.1 h
    obtain ⟨_, e5, rfl⟩ := u32_at.1 h1
    obtain ⟨_, u6, h1, h⟩ := bind_eq_ok.1 h
    obtain ⟨_, e6, rfl⟩ := u16_at.1 h1
    obtain ⟨_, u7, h1, h⟩ := bind_eq_ok.1 h
    obtain ⟨_, e7, rfl⟩ := u16_at.1 h1
    obtain ⟨_, pc, h1, h⟩ := bind_eq_ok.1 h
    obtain ⟨_, e8, rfl⟩ := u32_at.1 h1
    obtain ⟨_, bt, h1, h⟩ := bind_eq_ok.1 h
    obtain ⟨_, e9, rfl⟩ := u64_at.1 h1
    obtain ⟨_, bf, h1, h⟩ := bind_eq_ok.1 h
    obtain ⟨hl, e10, rfl⟩ := u64_at.1 h1
    obtain ⟨rfl, rfl⟩ := PRes.ok.inj h
    exact ⟨.reply _ rfl e1 e2 e3 e4 e5 e6 e7 e8 e9 e10, hl, rfl⟩
  · rintro ⟨h, hl, rfl⟩
    cases h with
    | reply q e0 e1 e2 e3 e4 e5 e6 e7 e8 e9 e10 =>
    rw [bind_apply_ok _ (slot_at.2 ⟨e1, rfl⟩),
      bind_apply_ok _ ((text_at (k := 32)).2 ⟨by omega, e2, rfl⟩),
      bind_apply_ok _ ((text_at (k := 12)).2 ⟨by omega, e3, rfl⟩),
      bind_apply_ok _ ((text_at (k := 16)).2 ⟨by omega, e4, rfl⟩),
      bind_apply_ok _ (u32_at.2 ⟨by omega, e5, rfl⟩), bind_apply_ok _ (u16_at.2 ⟨by omega, e6, rfl⟩),
      bind_apply_ok _ (u16_at.2 ⟨by omega, e7, rfl⟩), bind_apply_ok _ (u32_at.2 ⟨by omega, e8, rfl⟩),
      bind_apply_ok _ (u64_at.2 ⟨by omega, e9, rfl⟩), bind_apply_ok _ (u64_at.2 ⟨by omega, e10, rfl⟩)]
    obtain ⟨src, _⟩ := q
    replace e0 : src = 17 := e0
    subst e0
    rfl

/-- C82: a datagram is decoded as a status packet exactly if the fields of that packet stand at their
places in the datagram; what is left over is what follows the last field. -/
theorem C82_status_packets (d r : Bytes) (p : StatusPacket) :
    StatusPacket.decode d = .ok r p ↔ ∃ size, StatusPacketAt d p size ∧ r = d.drop size := by
  unfold StatusPacket.decode
  constructor
  · intro h
    obtain ⟨_, u, h1, h⟩ := bind_eq_ok.1 h
    obtain ⟨e1, rfl⟩ := magic_at.1 h1
    obtain ⟨_, k, h1, h⟩ := bind_eq_ok.1 h
    obtain ⟨⟨b, e2, c2, _⟩, rfl⟩ := statusKind_at.1 h1
    obtain ⟨_, m, h1, h⟩ := bind_eq_ok.1 h
    obtain ⟨_, e3, rfl⟩ := name_at.1 h1
    obtain ⟨_, x, h1, h⟩ := bind_eq_ok.1 h
    obtain ⟨_, rfl⟩ := u8_at.1 h1
    obtain ⟨_, e, h1, h⟩ := bind_eq_ok.1 h
    obtain ⟨e4, rfl⟩ := u8_at.1 h1
    obtain ⟨_, n, h1, h⟩ := bind_eq_ok.1 h
    obtain ⟨e5, rfl⟩ := u8_at.1 h1
    obtain ⟨r1, c, h1, h⟩ := bind_eq_ok.1 h
    obtain ⟨rfl, rfl⟩ := PRes.ok.inj h
    have hl : 34 ≤ d.length := by
      obtain ⟨hb, _⟩ := List.getElem?_eq_some_iff.1 e5
      omega
    have key : ∃ size, StatusCode b k ∧ StatusContentAt d k c size ∧ size ≤ d.length ∧
        r1 = d.drop size := by
      cases k with
      | cdj => obtain rfl := (List.cons.inj c2).1; obtain ⟨h2, h3, h4⟩ := cdj_at.1 h1
               exact ⟨49, rfl, h2, h3, h4⟩
      | djm => obtain rfl := (List.cons.inj c2).1; obtain ⟨rfl, rfl⟩ := PRes.ok.inj h1
               exact ⟨34, rfl, .djm, hl, rfl⟩
      | linkQuery => obtain rfl := (List.cons.inj c2).1; obtain ⟨h2, h3, h4⟩ := linkQuery_at.1 h1
                     exact ⟨48, rfl, h2, h3, h4⟩
      | linkReply => obtain rfl := (List.cons.inj c2).1; obtain ⟨h2, h3, h4⟩ := linkReply_at.1 h1
                     exact ⟨183, rfl, h2, h3, h4⟩
      | rekordboxHello => obtain rfl := (List.cons.inj c2).1; obtain ⟨rfl, rfl⟩ := PRes.ok.inj h1
                          exact ⟨34, rfl, .hello, hl, rfl⟩
      | _ => exact nomatch h1
    obtain ⟨size, c2, h2, h3, h4⟩ := key
    exact ⟨size, ⟨e1, ⟨b, e2, c2⟩, e3, e4, e5, h2, h3⟩, h4⟩
  · rintro ⟨size, ⟨e1, ⟨b, e2, c2⟩, e3, e4, e5, h2, h3⟩, rfl⟩
    obtain ⟨k, m, e, n, c⟩ := p
    replace e3 : NameAt d 11 m := e3
    replace e4 : d[32]? = some e := e4
    replace e5 : d[33]? = some n := e5
    replace c2 : StatusCode b k := c2
    replace h2 : StatusContentAt d k c size := h2
    have hl : 34 ≤ d.length := by
      obtain ⟨hb, _⟩ := List.getElem?_eq_some_iff.1 e5
      omega
    have ck : k.encode = [b] ∧ CanonicalStatusKind k := by
      cases k <;>
      first
        | (replace c2 : b = _ := c2; subst c2; exact ⟨rfl, trivial⟩)
        | exact nomatch c2
    have key : k.decodeContent (d.drop 34) = .ok (d.drop size) c := by
      cases h2 with
      | djm => rfl
      | hello => rfl
      | query q a1 a2 a3 => exact linkQuery_at.2 ⟨.query q a1 a2 a3, h3, rfl⟩
      | cdj c a1 a2 a3 a4 a5 a6 => exact cdj_at.2 ⟨.cdj c a1 a2 a3 a4 a5 a6, h3, rfl⟩
      | reply c a0 a1 a2 a3 a4 a5 a6 a7 a8 a9 a10 =>
        exact linkReply_at.2 ⟨.reply c a0 a1 a2 a3 a4 a5 a6 a7 a8 a9 a10, h3, rfl⟩
    have g31 : d[31]? = some d[31] := List.getElem?_eq_getElem (by omega)
    rw [bind_apply_ok _ (magic_at (u := ()).2 ⟨e1, rfl⟩),
      bind_apply_ok _ (statusKind_at.2 ⟨⟨b, e2, ck⟩, rfl⟩),
      bind_apply_ok _ (name_at.2 ⟨by omega, e3, rfl⟩), bind_apply_ok _ (u8_at.2 ⟨g31, rfl⟩),
      bind_apply_ok _ (u8_at.2 ⟨e4, rfl⟩), bind_apply_ok _ (u8_at.2 ⟨e5, rfl⟩),
      bind_apply_ok _ key]
    rfl

/-! ## C83: keep-alive packets -/

theorem kaHello_at {d r : Bytes} {c : KaContent} :
    decodeHello (d.drop 36) = .ok r c ↔
      KaContentAt d .hello c 37 ∧ 37 ≤ d.length ∧ r = d.drop 37 := by
  unfold decodeHello
  constructor
  · intro h
    obtain ⟨_, v0, h1, h⟩ := bind_eq_ok.1 h
    obtain ⟨e0, rfl⟩ := u8_at.1 h1
    obtain ⟨rfl, rfl⟩ := PRes.ok.inj h
    have hl : 37 ≤ d.length := by
      obtain ⟨hb, _⟩ := List.getElem?_eq_some_iff.1 e0
      omega
    exact ⟨.hello _ e0, hl, rfl⟩
  · rintro ⟨h, hl, rfl⟩
    cases h with
    | hello u e0 =>
    rw [bind_apply_ok _ (u8_at.2 ⟨e0, rfl⟩)]
    rfl

theorem kaNumber_at {d r : Bytes} {c : KaContent} :
    decodeNumber (d.drop 36) = .ok r c ↔
      KaContentAt d .number c 38 ∧ 38 ≤ d.length ∧ r = d.drop 38 := by
  unfold decodeNumber
  constructor
  · intro h
    obtain ⟨_, v0, h1, h⟩ := bind_eq_ok.1 h
    obtain ⟨e0, rfl⟩ := u8_at.1 h1
    obtain ⟨_, v1, h1, h⟩ := bind_eq_ok.1 h
    obtain ⟨e1, rfl⟩ := u8_at.1 h1
    obtain ⟨rfl, rfl⟩ := PRes.ok.inj h
    have hl : 38 ≤ d.length := by
      obtain ⟨hb, _⟩ := List.getElem?_eq_some_iff.1 e1
      omega
    exact ⟨.number _ _ e0 e1, hl, rfl⟩
  · rintro ⟨h, hl, rfl⟩
    cases h with
    | number n i e0 e1 =>
    rw [bind_apply_ok _ (u8_at.2 ⟨e0, rfl⟩), bind_apply_ok _ (u8_at.2 ⟨e1, rfl⟩)]
    rfl

theorem kaMac_at {d r : Bytes} {c : KaContent} :
    decodeMac (d.drop 36) = .ok r c ↔
      KaContentAt d .mac c 44 ∧ 44 ≤ d.length ∧ r = d.drop 44 := by
  unfold decodeMac
  constructor
  · intro h
    obtain ⟨_, v0, h1, h⟩ := bind_eq_ok.1 h
    obtain ⟨e0, rfl⟩ := u8_at.1 h1
    obtain ⟨_, v1, h1, h⟩ := bind_eq_ok.1 h
    obtain ⟨e1, rfl⟩ := u8_at.1 h1
    obtain ⟨_, v2, h1, h⟩ := bind_eq_ok.1 h
    obtain ⟨e2, rfl⟩ := mac_at.1 h1
    obtain ⟨rfl, rfl⟩ := PRes.ok.inj h
    have hl : 44 ≤ d.length := by
      have := congrArg List.length e2
      rw [List.length_take, List.length_drop, show ∀ m, (macBytes m).length = 6 from fun _ => rfl] at this
      omega
    exact ⟨.mac _ _ _ e0 e1 e2, hl, rfl⟩
  · rintro ⟨h, hl, rfl⟩
    cases h with
    | mac i u m e0 e1 e2 =>
    rw [bind_apply_ok _ (u8_at.2 ⟨e0, rfl⟩), bind_apply_ok _ (u8_at.2 ⟨e1, rfl⟩),
      bind_apply_ok _ (mac_at.2 ⟨e2, rfl⟩)]
    rfl

theorem kaIp_at {d r : Bytes} {c : KaContent} :
    decodeIp (d.drop 36) = .ok r c ↔
      KaContentAt d .ip c 50 ∧ 50 ≤ d.length ∧ r = d.drop 50 := by
  unfold decodeIp
  constructor
  · intro h
    obtain ⟨_, v0, h1, h⟩ := bind_eq_ok.1 h
    obtain ⟨l0, e0, rfl⟩ := u32_at.1 h1
    obtain ⟨_, v1, h1, h⟩ := bind_eq_ok.1 h
    obtain ⟨e1, rfl⟩ := mac_at.1 h1
    obtain ⟨_, v2, h1, h⟩ := bind_eq_ok.1 h
    obtain ⟨e2, rfl⟩ := u8_at.1 h1
    obtain ⟨_, v3, h1, h⟩ := bind_eq_ok.1 h
    obtain ⟨e3, rfl⟩ := u8_at.1 h1
    obtain ⟨_, v4, h1, h⟩ := bind_eq_ok.1 h
    obtain ⟨_, rfl⟩ := u8_at.1 h1
    obtain ⟨_, v5, h1, h⟩ := bind_eq_ok.1 h
    obtain ⟨e5, rfl⟩ := assignment_at.1 h1
    obtain ⟨rfl, rfl⟩ := PRes.ok.inj h
    have hl : 50 ≤ d.length := by
      obtain ⟨b, hb, _⟩ := e5
      obtain ⟨hb, _⟩ := List.getElem?_eq_some_iff.1 hb
      omega
    exact ⟨.ip _ _ _ _ _ e0 e1 e2 e3 e5, hl, rfl⟩
  · rintro ⟨h, hl, rfl⟩
    cases h with
    | ip a m t x p e0 e1 e2 e3 e5 =>
    have g : d[48]? = some d[48] := List.getElem?_eq_getElem (by omega)
    rw [bind_apply_ok _ (u32_at.2 ⟨by omega, e0, rfl⟩), bind_apply_ok _ (mac_at.2 ⟨e1, rfl⟩),
      bind_apply_ok _ (u8_at.2 ⟨e2, rfl⟩), bind_apply_ok _ (u8_at.2 ⟨e3, rfl⟩),
      bind_apply_ok _ (u8_at.2 ⟨g, rfl⟩), bind_apply_ok _ (assignment_at.2 ⟨e5, rfl⟩)]
    rfl

theorem kaStatus_at {d r : Bytes} {c : KaContent} :
    decodeStatus (d.drop 36) = .ok r c ↔
      KaContentAt d .status c 54 ∧ 54 ≤ d.length ∧ r = d.drop 54 := by
  unfold decodeStatus
  constructor
  · intro h
    obtain ⟨_, v0, h1, h⟩ := bind_eq_ok.1 h
    obtain ⟨e0, rfl⟩ := u8_at.1 h1
    obtain ⟨_, v1, h1, h⟩ := bind_eq_ok.1 h
    obtain ⟨e1, rfl⟩ := u8_at.1 h1
    obtain ⟨_, v2, h1, h⟩ := bind_eq_ok.1 h
    obtain ⟨e2, rfl⟩ := mac_at.1 h1
    obtain ⟨_, v3, h1, h⟩ := bind_eq_ok.1 h
    obtain ⟨l3, e3, rfl⟩ := u32_at.1 h1
    obtain ⟨_, v4, h1, h⟩ := bind_eq_ok.1 h
    obtain ⟨e4, rfl⟩ := u8_at.1 h1
    obtain ⟨_, v5, h1, h⟩ := bind_eq_ok.1 h
    obtain ⟨_, _, rfl⟩ := take_at.1 h1
    obtain ⟨_, v6, h1, h⟩ := bind_eq_ok.1 h
    obtain ⟨l6, e6, rfl⟩ := u16_at.1 h1
    obtain ⟨_, v7, h1, h⟩ := bind_eq_ok.1 h
    obtain ⟨e7, rfl⟩ := u8_at.1 h1
    obtain ⟨rfl, rfl⟩ := PRes.ok.inj h
    have hl : 54 ≤ d.length := by
      obtain ⟨hb, _⟩ := List.getElem?_eq_some_iff.1 e7
      omega
    exact ⟨.status _ e0 e1 e2 e3 e4 e6 e7, hl, rfl⟩
  · rintro ⟨h, hl, rfl⟩
    cases h with
    | status s e0 e1 e2 e3 e4 e6 e7 =>
    rw [bind_apply_ok _ (u8_at.2 ⟨e0, rfl⟩), bind_apply_ok _ (u8_at.2 ⟨e1, rfl⟩),
      bind_apply_ok _ (mac_at.2 ⟨e2, rfl⟩), bind_apply_ok _ (u32_at.2 ⟨by omega, e3, rfl⟩),
      bind_apply_ok _ (u8_at.2 ⟨e4, rfl⟩), bind_apply_ok _ (take_at.2 ⟨by omega, rfl, rfl⟩),
      bind_apply_ok _ (u16_at.2 ⟨by omega, e6, rfl⟩), bind_apply_ok _ (u8_at.2 ⟨e7, rfl⟩)]
    rfl

theorem kaChange_at {d r : Bytes} {c : KaContent} :
    decodeChange (d.drop 36) = .ok r c ↔
      KaContentAt d .change c 41 ∧ 41 ≤ d.length ∧ r = d.drop 41 := by
  unfold decodeChange
  constructor
  · intro h
    obtain ⟨_, v0, h1, h⟩ := bind_eq_ok.1 h
    obtain ⟨e0, rfl⟩ := u8_at.1 h1
    obtain ⟨_, v1, h1, h⟩ := bind_eq_ok.1 h
    obtain ⟨l1, e1, rfl⟩ := u32_at.1 h1
    obtain ⟨rfl, rfl⟩ := PRes.ok.inj h
    have hl : 41 ≤ d.length := l1
    exact ⟨.change _ _ e0 e1, hl, rfl⟩
  · rintro ⟨h, hl, rfl⟩
    cases h with
    | change n a e0 e1 =>
    rw [bind_apply_ok _ (u8_at.2 ⟨e0, rfl⟩), bind_apply_ok _ (u32_at.2 ⟨by omega, e1, rfl⟩)]
    rfl

/-- C83: a datagram is decoded as a keep-alive packet exactly if the fields of that packet stand at
their places in the datagram; what is left over is what follows the last field. -/
theorem C83_keepalive_packets (d r : Bytes) (p : KaPacket) :
    KaPacket.decode d = .ok r p ↔ ∃ size, KaPacketAt d p size ∧ r = d.drop size := by
  unfold KaPacket.decode
  constructor
  · intro h
    obtain ⟨_, u, h1, h⟩ := bind_eq_ok.1 h
    obtain ⟨e1, rfl⟩ := magic_at.1 h1
    obtain ⟨_, k, h1, h⟩ := bind_eq_ok.1 h
    obtain ⟨e2, rfl⟩ := kaKind_at.1 h1
    obtain ⟨_, x, h1, h⟩ := bind_eq_ok.1 h
    obtain ⟨_, _, rfl⟩ := take_at.1 h1
    obtain ⟨_, m, h1, h⟩ := bind_eq_ok.1 h
    obtain ⟨_, e3, rfl⟩ := name_at.1 h1
    obtain ⟨_, u1, h1, h⟩ := bind_eq_ok.1 h
    obtain ⟨e4, rfl⟩ := u8_at.1 h1
    obtain ⟨_, t, h1, h⟩ := bind_eq_ok.1 h
    obtain ⟨e5, rfl⟩ := device_at.1 h1
    obtain ⟨_, y, h1, h⟩ := bind_eq_ok.1 h
    obtain ⟨_, _, rfl⟩ := take_at.1 h1
    obtain ⟨_, s, h1, h⟩ := bind_eq_ok.1 h
    obtain ⟨e6, rfl⟩ := subkind_at.1 h1
    obtain ⟨r1, c, h1, h⟩ := bind_eq_ok.1 h
    obtain ⟨rfl, rfl⟩ := PRes.ok.inj h
    have key : ∃ size, KaContentAt d k c size ∧ size ≤ d.length ∧ r1 = d.drop size := by
      cases k with
      | hello => exact ⟨_, kaHello_at.1 h1⟩
      | number => exact ⟨_, kaNumber_at.1 h1⟩
      | mac => exact ⟨_, kaMac_at.1 h1⟩
      | ip => exact ⟨_, kaIp_at.1 h1⟩
      | status => exact ⟨_, kaStatus_at.1 h1⟩
      | change => exact ⟨_, kaChange_at.1 h1⟩
    obtain ⟨size, h2, h3, h4⟩ := key
    exact ⟨size, ⟨e1, e2, e3, e4, e5, e6, h2, h3⟩, h4⟩
  · rintro ⟨size, ⟨e1, e2, e3, e4, e5, e6, h2, h3⟩, rfl⟩
    obtain ⟨k, s, m, u1, t, c⟩ := p
    replace h2 : KaContentAt d k c size := h2
    have hl : 37 ≤ d.length := by cases h2 <;> omega
    have key : k.decodeContent (d.drop 36) = .ok (d.drop size) c := by
      have h2' := h2
      cases h2 with
      | hello => exact kaHello_at.2 ⟨h2', h3, rfl⟩
      | number => exact kaNumber_at.2 ⟨h2', h3, rfl⟩
      | mac => exact kaMac_at.2 ⟨h2', h3, rfl⟩
      | ip => exact kaIp_at.2 ⟨h2', h3, rfl⟩
      | status => exact kaStatus_at.2 ⟨h2', h3, rfl⟩
      | change => exact kaChange_at.2 ⟨h2', h3, rfl⟩
    rw [bind_apply_ok _ (magic_at (u := ()).2 ⟨e1, rfl⟩), bind_apply_ok _ (kaKind_at.2 ⟨e2, rfl⟩),
      bind_apply_ok _ (take_at.2 ⟨by omega, rfl, rfl⟩),
      bind_apply_ok _ (name_at.2 ⟨by omega, e3, rfl⟩), bind_apply_ok _ (u8_at.2 ⟨e4, rfl⟩),
      bind_apply_ok _ (device_at.2 ⟨e5, rfl⟩), bind_apply_ok _ (take_at.2 ⟨by omega, rfl, rfl⟩),
      bind_apply_ok _ (subkind_at.2 ⟨e6, rfl⟩), bind_apply_ok _ key]
    rfl

/-! ## Instances -/

/-- The name `Linux` in its field. -/
theorem linuxName (d : Bytes) (i : Nat)
    (h : (d.drop i).take 20 = utf8 (['L', 'i', 'n', 'u', 'x'] ++ List.replicate 15 '\x00')) :
    NameAt d i ['L', 'i', 'n', 'u', 'x'] :=
  ⟨_, by rw [h, fromUtf8_utf8], 15, rfl, by decide⟩

/-- C82: a player that has loaded track 7 (number 3 in its list) from the USB slot of player 2. -/
example : StatusPacketAt
    (ownHeader 0x0a 1 ++ [0, 1, 0, 2, 3, 1, 0, 0, 0, 0, 7, 0, 0, 0, 3, 0xff])
    ⟨.cdj, ['L', 'i', 'n', 'u', 'x'], 1, 17, .cdj ⟨1, 2, .usb, .rekordbox, 7, 3⟩⟩ 49 :=
  ⟨rfl, ⟨0x0a, rfl, rfl⟩, linuxName _ _ rfl, rfl, rfl,
    .cdj _ rfl rfl ⟨3, rfl, rfl⟩ ⟨1, rfl, rfl⟩ rfl rfl, by decide⟩

/-- C82: a query for slot 4 of player 17 from 10.0.0.5. -/
example : StatusPacketAt
    (ownHeader 0x05 1 ++ [0, 12, 10, 0, 0, 5, 0, 0, 0, 17, 0, 0, 0, 4])
    ⟨.linkQuery, ['L', 'i', 'n', 'u', 'x'], 1, 17, .linkQuery ⟨0x0a000005, 17, .rekordbox⟩⟩ 48 :=
  ⟨rfl, ⟨0x05, rfl, rfl⟩, linuxName _ _ rfl, rfl, rfl, .query _ rfl rfl ⟨4, rfl, rfl⟩, by decide⟩

/-- C83: player 2 announces that it is now 10.0.0.5. -/
example : KaPacketAt
    (signature ++ [8, 0] ++ [0x4c, 0x69, 0x6e, 0x75, 0x78, 0, 0, 0, 0, 0, 0, 0, 0, 0, 0, 0, 0, 0, 0,
      0] ++ [1, 2, 0, 0x29] ++ [2, 10, 0, 0, 5])
    ⟨.change, .change, ['L', 'i', 'n', 'u', 'x'], 1, .cdj, .change 2 0x0a000005⟩ 41 :=
  ⟨rfl, ⟨8, rfl, rfl⟩, linuxName _ _ rfl, rfl, ⟨2, rfl, rfl⟩, ⟨0x29, rfl, rfl⟩,
    .change 2 _ rfl rfl, by decide⟩

end PDJ
