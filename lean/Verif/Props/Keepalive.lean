import Verif.Lemmas.Keepalive

/-!
# Keep-alive packets: properties C44 - C46, C58 (first part), C64
-/

namespace PDJ

open Spec

/-! ## C46: names -/

/-- C46: a name that fits is padded with zeros to 20 bytes. -/
theorem C46_name_padded (s : Str) (h : (utf8 s).length ≤ 20) :
    ∃ b, ModelName.encode s = .ok b ∧ b.length = 20 ∧
      b = utf8 s ++ List.replicate (20 - (utf8 s).length) 0 := by
  refine ⟨_, if_pos h, ?_, rfl⟩
  simp only [List.length_append, List.length_replicate]
  omega

/-- C46: a longer name panics. -/
theorem C46_long_name_panics (s : Str) (h : 20 < (utf8 s).length) : ModelName.encode s = .panic :=
  if_neg (by omega)

/-- C46: decoding takes 20 bytes of valid UTF-8 and strips exactly the trailing NULs. -/
theorem C46_name_decoded (i r : Bytes) (s : Str) :
    ModelName.decode i = .ok r s ↔
      ∃ b whole, i = b ++ r ∧ b.length = 20 ∧ fromUtf8 b = some whole ∧ NulPadded whole s :=
  model_decode_ok

theorem padded_name_read (s : Str) (h : FieldName s) :
    ∃ whole, fromUtf8 (utf8 s ++ List.replicate (20 - (utf8 s).length) 0) = some whole ∧
      NulPadded whole s := by
  refine ⟨s ++ List.replicate (20 - (utf8 s).length) '\x00', ?_, _, rfl, h.2⟩
  rw [← utf8_nuls, ← utf8_append, fromUtf8_utf8]

/-- C46: encoding and decoding give the name back. -/
theorem C46_name_round_trip (s : Str) (h : FieldName s) (r : Bytes) :
    ∃ b, ModelName.encode s = .ok b ∧ ModelName.decode (b ++ r) = .ok r s := by
  obtain ⟨b, h1, h2, rfl⟩ := C46_name_padded s h.1
  obtain ⟨w, hw, hp⟩ := padded_name_read s h
  exact ⟨_, h1, model_decode_ok.2 ⟨_, w, rfl, h2, hw, hp⟩⟩

/-- C46, non-vacuity: the name of the application fits, with a non-ASCII one. -/
example : FieldName rekordboxName := ⟨by decide, by decide⟩
example : FieldName ['é', 'x'] := ⟨by decide, by decide⟩
example : ¬ FieldName (List.replicate 21 'x') := fun h => absurd h.1 (by decide)

/-! ## C44: round trip -/

/-- The packet as it comes back: `unknown4` of a status packet is always sent as 8, and the last two
numbers of an ip packet are `code index, iteration`. -/
theorem packet_round_trip (p : KaPacket) (hn : FieldName p.model) (hs : Canonical p.subkind)
    (c : KaContent) (r : Bytes) (hc : p.kind.decodeContent (p.content.encode ++ r) = .ok r c) :
    ∃ b, p.encode = .ok b ∧ KaPacket.decode (b ++ r) = .ok r { p with content := c } := by
  obtain ⟨b, h1, h2, rfl⟩ := C46_name_padded p.model hn.1
  obtain ⟨w, hw, hp⟩ := padded_name_read p.model hn
  refine ⟨_, by unfold KaPacket.encode; rw [h1]; rfl, ?_⟩
  rw [packet_decode_ok]
  refine ⟨[0], [0], _, w, p.content.encode ++ r, rfl, rfl, h2, hw, hp, hs, ?_, hc⟩
  simp only [List.append_assoc]

theorem status_content_read (s : KaStatus) (r : Bytes) :
    decodeStatus ((KaContent.status s).encode ++ r) = .ok r (.status { s with unknown4 := 8 }) := by
  rw [status_decode_ok]
  refine ⟨_, [1, 0], rfl, rfl, ?_⟩
  simp [KaContent.encode]

theorem ip_content_read (a : Ip4) (m : Mac) (iteration index : UInt8) (t : Assignment) (r : Bytes) :
    decodeIp ((KaContent.ip a m iteration index t).encode ++ r) =
      .ok r (.ip a m (mapSequenceByte index) iteration t) := by
  have e : (KaContent.ip a m iteration index t).encode ++ r = be32 a ++ (m.octets ++
      ([mapSequenceByte index] ++ ([iteration] ++ ([4] ++ (t.encode ++ r))))) := by
    simp [KaContent.encode]
  rw [e]
  unfold decodeIp
  rw [bind_apply_ok _ (P.beU32_be32 _ _), bind_apply_ok _ (mac_decode_ok.2 rfl),
    bind_apply_ok _ (beU8_single _ _), bind_apply_ok _ (beU8_single _ _),
    bind_apply_ok _ (beU8_single _ _), bind_apply_ok _ (assignment_decode_ok.2 rfl)]
  rfl

/-- C44: hello, number, mac, change and status packets survive encoding and decoding, whatever
follows them (for status packets: if their last byte is the 8 that is always sent). -/
theorem C44_round_trip_partial (p : KaPacket) (hn : FieldName p.model) (hs : Canonical p.subkind)
    (ha : Agrees p.kind p.content) (hip : p.kind ≠ .ip)
    (h8 : ∀ s, p.content = .status s → s.unknown4 = 8) (r : Bytes) :
    ∃ b, p.encode = .ok b ∧ KaPacket.decode (b ++ r) = .ok r p := by
  refine packet_round_trip p hn hs p.content r ?_
  obtain ⟨kind, sub, model, u1, dt, content⟩ := p
  cases kind with
  | hello =>
    cases content with
    | hello u => rfl
    | _ => exact ha.elim
  | number =>
    cases content with
    | number n i => rfl
    | _ => exact ha.elim
  | mac =>
    cases content with
    | mac i u m => rfl
    | _ => exact ha.elim
  | ip => exact absurd rfl hip
  | status =>
    cases content with
    | status s =>
      have := h8 s rfl
      show decodeStatus _ = _
      rw [status_content_read, ← this]
    | _ => exact ha.elim
  | change =>
    cases content with
    | change n a =>
      show decodeChange ([n] ++ be32 a ++ r) = _
      unfold decodeChange
      rw [List.append_assoc, bind_apply_ok _ (beU8_single _ _), bind_apply_ok _ (P.beU32_be32 _ _)]
      rfl
    | _ => exact ha.elim

/-- C44: a status packet comes back with its last byte replaced by 8. -/
theorem C44_status_last_byte (p : KaPacket) (hn : FieldName p.model) (hs : Canonical p.subkind)
    (hk : p.kind = .status) (s : KaStatus) (hc : p.content = .status s) (r : Bytes) :
    ∃ b, p.encode = .ok b ∧
      KaPacket.decode (b ++ r) = .ok r { p with content := .status { s with unknown4 := 8 } } := by
  refine packet_round_trip p hn hs _ r ?_
  rw [hk, hc]
  exact status_content_read s r

/-- The device codes of the second negotiation stage, by index. -/
def deviceCode (index : UInt8) : UInt8 :=
  if index.toNat ∈ [1, 2, 3, 4, 5] then [0x11, 0x12, 0x29, 0x2a, 0x2b].getD (index.toNat - 1) 0
  else 0x2c

set_option maxRecDepth 20000 in
/-- C44: what an ip packet comes back as: the code of its index as iteration, and its iteration as
index. -/
theorem C44_ip_packet (p : KaPacket) (hn : FieldName p.model) (hs : Canonical p.subkind)
    (hk : p.kind = .ip) (a : Ip4) (m : Mac) (iteration index : UInt8) (t : Assignment)
    (hc : p.content = .ip a m iteration index t) (r : Bytes) :
    ∃ b, p.encode = .ok b ∧ KaPacket.decode (b ++ r) =
      .ok r { p with content := .ip a m (deviceCode index) iteration t } := by
  refine packet_round_trip p hn hs _ r ?_
  rw [hk, hc]
  have : deviceCode index = mapSequenceByte index := by
    have : ∀ n < 256, deviceCode (UInt8.ofNat n) = mapSequenceByte (UInt8.ofNat n) := by decide
    simpa using this index.toNat index.toNat_lt
  rw [this]
  exact ip_content_read a m iteration index t r

set_option maxRecDepth 20000 in
/-- C44, the negation: an ip packet never survives, except for the one pair of numbers (44, 44). -/
theorem C44_ip_packet_not_recovered (p : KaPacket) (hn : FieldName p.model)
    (hs : Canonical p.subkind) (hk : p.kind = .ip) (a : Ip4) (m : Mac) (iteration index : UInt8)
    (t : Assignment) (hc : p.content = .ip a m iteration index t) :
    ∃ b, p.encode = .ok b ∧
      (KaPacket.decode b = .ok [] p ↔ iteration = 0x2c ∧ index = 0x2c) := by
  obtain ⟨b, h1, h2⟩ := C44_ip_packet p hn hs hk a m iteration index t hc []
  refine ⟨b, h1, ?_⟩
  rw [List.append_nil] at h2
  rw [h2]
  obtain ⟨kind, sub, model, u1, dt, content⟩ := p
  subst hc hk
  simp only [PRes.ok.injEq, KaPacket.mk.injEq, KaContent.ip.injEq, true_and, and_true]
  constructor
  · rintro ⟨h3, h4⟩
    subst h4
    have : ∀ n < 256, deviceCode (UInt8.ofNat n) = UInt8.ofNat n → UInt8.ofNat n = 0x2c := by decide
    have h := this iteration.toNat iteration.toNat_lt
    simp only [UInt8.ofNat_toNat] at h
    exact ⟨h h3, h h3⟩
  · rintro ⟨rfl, rfl⟩
    exact ⟨by decide, rfl⟩

/-- C44, both halves in one: exactly which packets survive: all but status packets whose last byte is
not 8 and ip packets other than those with the pair of numbers (44, 44). -/
theorem C44_round_trip_iff (p : KaPacket) (hn : FieldName p.model) (hs : Canonical p.subkind)
    (ha : Agrees p.kind p.content) (r : Bytes) :
    ∃ b, p.encode = .ok b ∧ (KaPacket.decode (b ++ r) = .ok r p ↔
      match p.content with
      | .status s => s.unknown4 = 8
      | .ip _ _ iteration index _ => iteration = 0x2c ∧ index = 0x2c
      | _ => True) := by
  have simple : p.kind ≠ .ip → p.kind ≠ .status →
      ∃ b, p.encode = .ok b ∧ KaPacket.decode (b ++ r) = .ok r p := by
    intro h1 h2
    refine C44_round_trip_partial p hn hs ha h1 (fun s hc => ?_) r
    rw [hc] at ha
    cases hk : p.kind <;> rw [hk] at ha h2
    all_goals first | exact absurd rfl h2 | exact False.elim ha
  obtain ⟨kind, sub, model, u1, dt, content⟩ := p
  cases content with
  | status s =>
    cases kind with
    | status =>
      obtain ⟨b, h1, h2⟩ := C44_status_last_byte ⟨.status, sub, model, u1, dt, .status s⟩ hn hs rfl s rfl r
      refine ⟨b, h1, ?_⟩
      rw [h2]
      obtain ⟨a1, a2, a3, a4, a5, a6, a7⟩ := s
      simp only [PRes.ok.injEq, KaPacket.mk.injEq, KaContent.status.injEq, KaStatus.mk.injEq, true_and]
      exact eq_comm
    | _ => exact False.elim ha
  | ip a m iteration index t =>
    cases kind with
    | ip =>
      obtain ⟨b, h1, h2⟩ := C44_ip_packet ⟨.ip, sub, model, u1, dt, .ip a m iteration index t⟩ hn hs rfl
        a m iteration index t rfl r
      obtain ⟨b', h1', h3⟩ := C44_ip_packet_not_recovered
        ⟨.ip, sub, model, u1, dt, .ip a m iteration index t⟩ hn hs rfl a m iteration index t rfl
      obtain ⟨b'', h1'', h4⟩ := C44_ip_packet ⟨.ip, sub, model, u1, dt, .ip a m iteration index t⟩ hn hs rfl
        a m iteration index t rfl []
      rw [h1] at h1' h1''
      cases h1'
      cases h1''
      refine ⟨b, h1, ?_⟩
      rw [List.append_nil] at h4
      rw [h4] at h3
      rw [h2]
      show _ ↔ iteration = 0x2c ∧ index = 0x2c
      rw [← h3]
      simp only [PRes.ok.injEq, true_and]
    | _ => exact False.elim ha
  | _ =>
    cases kind with
    | ip => exact False.elim ha
    | status => exact False.elim ha
    | _ =>
      obtain ⟨b, h1, h2⟩ := simple (fun h => nomatch h) (fun h => nomatch h)
      exact ⟨b, h1, iff_of_true h2 trivial⟩

/-- C44, non-vacuity. -/
example (ip : Ip4) (mac : Mac) : FieldName (kaStatusPackage ip mac 4 8).model ∧
    Agrees (kaStatusPackage ip mac 4 8).kind (kaStatusPackage ip mac 4 8).content ∧
    Canonical (kaStatusPackage ip mac 4 8).subkind ∧
    (kaStatusPackage ip mac 4 8).kind ≠ .ip ∧
    ∀ s, (kaStatusPackage ip mac 4 8).content = .status s → s.unknown4 = 8 :=
  ⟨show FieldName rekordboxName from ⟨by decide, by decide⟩, trivial, trivial, by simp [kaStatusPackage], by
    rintro s h; injection h with h; rw [← h]⟩

/-! ## C45: robustness -/

/-- C45: no datagram makes the receiver panic while decoding. -/
theorem C45_never_panics (d : Bytes) : KaPacket.decode d ≠ .panic ∧ kaReceive d ≠ .panic := by
  refine ⟨Safe.packet d, ?_⟩
  unfold kaReceive
  have := Safe.packet (d.take 1024)
  cases h : KaPacket.decode (d.take 1024) <;> simp_all

/-- C45: the content of a decoded packet belongs to its kind. -/
theorem C45_content_agrees (d r : Bytes) (p : KaPacket) (h : KaPacket.decode d = .ok r p) :
    Agrees p.kind p.content := by
  obtain ⟨_, _, _, _, rest, _, _, _, _, _, _, _, h⟩ := packet_decode_ok.1 h
  exact content_agrees h

/-! ## C58: code tables of keep-alive packets -/

/-- C58: kind, sub-kind, device-type and assignment codes are read back, whatever follows. -/
theorem C58_keepalive_codes (r : Bytes) :
    (∀ k, KaKind.decode (k.encode ++ r) = .ok r k) ∧
    (∀ k, Canonical k → KaSubKind.decode (k.encode ++ r) = .ok r k) ∧
    (∀ t, DeviceType.decode (t.encode ++ r) = .ok r t) ∧
    (∀ t, Assignment.decode (t.encode ++ r) = .ok r t) :=
  ⟨fun _ => kind_decode_ok.2 rfl, fun _ h => subkind_decode_ok.2 ⟨rfl, h⟩,
    fun _ => device_decode_ok.2 rfl, fun _ => assignment_decode_ok.2 rfl⟩

/-- C58: every sub-kind byte, known or not, survives decoding and encoding. -/
theorem C58_subkind_byte_preserved (b : UInt8) (r : Bytes) :
    ∃ k, KaSubKind.decode (b :: r) = .ok r k ∧ k.encode = [b] := by
  have h : ∃ k, KaSubKind.decode (b :: r) = .ok r k := ⟨_, rfl⟩
  obtain ⟨k, hk⟩ := h
  refine ⟨k, hk, ?_⟩
  have := (subkind_decode_ok.1 hk).1
  have e : ∃ x, k.encode = [x] := by cases k <;> exact ⟨_, rfl⟩
  obtain ⟨x, hx⟩ := e
  rw [hx] at this ⊢
  simp only [List.cons_append, List.nil_append, List.cons.injEq, and_true] at this
  rw [this]

/-! ## C64: what counts as a status packet -/

theorem drop_split (d : Bytes) (n k : Nat) :
    d.drop n = (d.drop n).take k ++ d.drop (n + k) := by
  rw [← List.drop_drop, List.take_append_drop]

theorem drop_head (d : Bytes) (n : Nat) (x : UInt8) (h : d[n]? = some x) :
    d.drop n = [x] ++ d.drop (n + 1) := by
  obtain ⟨hn, rfl⟩ := List.getElem?_eq_some_iff.1 h
  exact List.drop_eq_getElem_cons hn

/-- C64: the receiver sees a status packet exactly in the datagrams with that byte layout; name,
number and address are read at their places. -/
theorem C64_status_layout (d : Bytes) (a : Announcement) :
    (∃ p s, kaReceive d = .ok (some p) ∧ p.kind = .status ∧ p.content = .status s ∧
      a = ⟨p.model, s.playerNumber, s.ip⟩) ↔ IsAnnouncement d a := by
  have hrec : ∀ p, kaReceive d = .ok (some p) ↔ ∃ r, KaPacket.decode (d.take 1024) = .ok r p := by
    intro p
    unfold kaReceive
    cases KaPacket.decode (d.take 1024) <;> simp
  constructor
  · rintro ⟨p, s, h1, h2, h3, rfl⟩
    obtain ⟨r, h⟩ := (hrec p).1 h1
    obtain ⟨p1, p2, name, whole, rest, e1, e2, e3, e4, e5, e6, e7, e8⟩ := packet_decode_ok.1 h
    rw [h2, h3] at e8
    obtain ⟨s', pad, e9, e10, e11⟩ := status_decode_ok.1 (show decodeStatus rest = _ from e8)
    cases e9
    rw [h2] at e7
    obtain ⟨x1, rfl⟩ : ∃ x, p1 = [x] := List.length_eq_one_iff.1 e1
    obtain ⟨x2, rfl⟩ : ∃ x, p2 = [x] := List.length_eq_one_iff.1 e2
    obtain ⟨y1, y2, rfl⟩ : ∃ x y, pad = [x, y] := by
      match pad, e10 with
      | [x, y], _ => exact ⟨x, y, rfl⟩
    have hd : d = d.take 1024 ++ d.drop 1024 := (List.take_append_drop _ _).symm
    generalize d.drop 1024 = tail at hd
    rw [e7, e11] at hd
    have hdt : ∃ t, p.deviceType.encode = [t] ∧ (t = 1 ∨ t = 2 ∨ t = 3) := by
      cases p.deviceType
      · exact ⟨_, rfl, .inl rfl⟩
      · exact ⟨_, rfl, .inr (.inl rfl)⟩
      · exact ⟨_, rfl, .inr (.inr rfl)⟩
    have hsk : ∃ t, p.subkind.encode = [t] := by cases p.subkind <;> exact ⟨_, rfl⟩
    obtain ⟨t, ht, ht'⟩ := hdt
    obtain ⟨sk, hsk⟩ := hsk
    rw [ht, hsk] at hd
    subst hd
    unfold IsAnnouncement
    refine ⟨?_, rfl, rfl, ⟨whole, ?_, e5⟩, ⟨t, ?_, ht'⟩, ?_, ?_⟩
    · simp only [List.length_append, List.length_cons, List.length_nil, length_be32, length_be16, e3,
        udpMagic, KaKind.encode, Mac.octets]
      omega
    · rw [← e4]
      congr 1
      simp [udpMagic, KaKind.encode, ← e3]
    · simp [udpMagic, KaKind.encode, List.getElem?_append, e3]
    · simp [udpMagic, KaKind.encode, List.getElem?_append, e3]
    · have e : ∀ (pre x post : Bytes), pre.length = 44 → x.length = 4 →
          ((pre ++ (x ++ post)).drop 44).take 4 = x := by
        intro pre x post h h'
        rw [← h, List.drop_left, ← h', List.take_left]
      have := e (udpMagic ++ (KaKind.status.encode ++ ([x1] ++ (name ++ ([p.unknown1] ++ ([t] ++
        ([x2] ++ ([sk] ++ ([s.playerNumber] ++ ([s.unknown2] ++ s.mac.octets)))))))))) (be32 s.ip)
        (([s.deviceCount] ++ ([y1, y2] ++ (be16 s.unknown3 ++ ([s.unknown4] ++ r)))) ++ tail) ?_ rfl
      · simpa only [List.append_assoc] using this
      · simp [e3, udpMagic, KaKind.encode, Mac.octets]
  · rintro ⟨h1, h2, h3, ⟨whole, h4, h5⟩, ⟨t, h6, h7⟩, h8, h9⟩
    have get : ∀ n < 54, ∃ x, d[n]? = some x := by
      intro n hn
      exact ⟨_, List.getElem?_eq_getElem (by omega)⟩
    obtain ⟨x11, g11⟩ := get 11 (by omega)
    obtain ⟨x32, g32⟩ := get 32 (by omega)
    obtain ⟨x34, g34⟩ := get 34 (by omega)
    obtain ⟨x35, g35⟩ := get 35 (by omega)
    obtain ⟨x37, g37⟩ := get 37 (by omega)
    obtain ⟨x38, g38⟩ := get 38 (by omega)
    obtain ⟨x39, g39⟩ := get 39 (by omega)
    obtain ⟨x40, g40⟩ := get 40 (by omega)
    obtain ⟨x41, g41⟩ := get 41 (by omega)
    obtain ⟨x42, g42⟩ := get 42 (by omega)
    obtain ⟨x43, g43⟩ := get 43 (by omega)
    obtain ⟨x48, g48⟩ := get 48 (by omega)
    obtain ⟨x49, g49⟩ := get 49 (by omega)
    obtain ⟨x50, g50⟩ := get 50 (by omega)
    obtain ⟨x51, g51⟩ := get 51 (by omega)
    obtain ⟨x52, g52⟩ := get 52 (by omega)
    obtain ⟨x53, g53⟩ := get 53 (by omega)
    have hname : ((d.drop 12).take 20).length = 20 := by simp; omega
    have hd : d = udpMagic ++ (KaKind.status.encode ++ ([x11] ++ ((d.drop 12).take 20 ++ ([x32] ++
        ([t] ++ ([x34] ++ ([x35] ++ ([a.number] ++ ([x37] ++ ((Mac.mk x38 x39 x40 x41 x42 x43).octets ++
        (be32 a.ip ++ ([x48] ++ ([x49, x50] ++ (be16 (ofBe16 x51 x52) ++ ([x53] ++
        d.drop 54))))))))))))))) := by
      conv => lhs; rw [← List.drop_zero (l := d), drop_split d 0 10, List.drop_zero, h2,
        drop_head d 10 _ h3, drop_head d 11 _ g11, drop_split d 12 20, drop_head d 32 _ g32,
        drop_head d 33 _ h6, drop_head d 34 _ g34, drop_head d 35 _ g35, drop_head d 36 _ h8,
        drop_head d 37 _ g37, drop_head d 38 _ g38, drop_head d 39 _ g39, drop_head d 40 _ g40,
        drop_head d 41 _ g41, drop_head d 42 _ g42, drop_head d 43 _ g43, drop_split d 44 4, h9,
        drop_head d 48 _ g48, drop_head d 49 _ g49, drop_head d 50 _ g50, drop_head d 51 _ g51,
        drop_head d 52 _ g52, drop_head d 53 _ g53]
      rw [be16_ofBe16]
      rfl
    have hdt : ∃ dt : DeviceType, dt.encode = [t] := by
      rcases h7 with rfl | rfl | rfl
      · exact ⟨.djm, rfl⟩
      · exact ⟨.cdj, rfl⟩
      · exact ⟨.rekordbox, rfl⟩
    obtain ⟨dt, hdt⟩ := hdt
    obtain ⟨sk, hsk, hsk2⟩ := C58_subkind_byte_preserved x35 []
    have hcan := (subkind_decode_ok.1 hsk).2
    generalize (d.drop 12).take 20 = name at h4 hname hd
    have htake : d.take 1024 = udpMagic ++ (KaKind.status.encode ++ ([x11] ++ (name ++ ([x32] ++
        (dt.encode ++ ([x34] ++ (sk.encode ++ ([a.number] ++ ([x37] ++
        ((Mac.mk x38 x39 x40 x41 x42 x43).octets ++ (be32 a.ip ++ ([x48] ++ ([x49, x50] ++
        (be16 (ofBe16 x51 x52) ++ ([x53] ++ (d.drop 54).take 970))))))))))))))) := by
      rw [hdt, hsk2]
      generalize d.drop 54 = tail at hd ⊢
      have hpre : ∀ pre : Bytes, pre.length = 54 → (pre ++ tail).take 1024 = pre ++ tail.take 970 := by
        intro pre h
        rw [List.take_append, List.take_of_length_le (by omega), h]
      rw [hd]
      have := hpre (udpMagic ++ (KaKind.status.encode ++ ([x11] ++ (name ++ ([x32] ++
        ([t] ++ ([x34] ++ ([x35] ++ ([a.number] ++ ([x37] ++
        ((Mac.mk x38 x39 x40 x41 x42 x43).octets ++ (be32 a.ip ++ ([x48] ++ ([x49, x50] ++
        (be16 (ofBe16 x51 x52) ++ [x53]))))))))))))))) (by
          simp [hname, udpMagic, KaKind.encode, Mac.octets])
      simpa only [List.append_assoc] using this
    refine ⟨⟨.status, sk, a.model, x32, dt,
      .status ⟨a.number, x37, ⟨x38, x39, x40, x41, x42, x43⟩, a.ip, x48, ofBe16 x51 x52, x53⟩⟩, _,
      (hrec _).2 ⟨(d.drop 54).take 970, ?_⟩, rfl, rfl, rfl⟩
    rw [packet_decode_ok]
    refine ⟨[x11], [x34], name, whole, _, rfl, rfl, hname, h4, h5, hcan, htake, ?_⟩
    exact status_decode_ok.2 ⟨_, [x49, x50], rfl, rfl, rfl⟩

/-- C64, non-vacuity: the announcement of the application itself has that layout. -/
example (ip : Ip4) (mac : Mac) : IsAnnouncement (statusDatagram ip mac 1) ⟨rekordboxName, 17, ip⟩ :=
  ⟨by simp [statusDatagram, ownDatagram, signature, macBytes], rfl, rfl,
    ⟨rekordboxName ++ List.replicate 11 '\x00', by
      rw [← fromUtf8_utf8 (rekordboxName ++ List.replicate 11 '\x00')]
      rfl, 11, rfl, show rekordboxName.getLast? ≠ some '\x00' by decide⟩,
    ⟨3, rfl, .inr (.inr rfl)⟩, rfl, rfl⟩

/-- C46, non-vacuity. -/
example := C46_name_padded ['é', 'x'] (by decide)
example := C46_long_name_panics (List.replicate 21 'x') (by decide)
/-- C44, C45, non-vacuity: a status packet of another player with a last byte that is not 8, and an
ip packet. -/
example (ip : Ip4) (mac : Mac) := C44_round_trip_partial (kaStatusPackage ip mac 4 8)
  (show FieldName rekordboxName from ⟨by decide, by decide⟩) trivial trivial (by simp [kaStatusPackage])
  (by rintro s h; injection h with h; rw [← h])
example (ip : Ip4) (mac : Mac) := C44_status_last_byte (kaStatusPackage ip mac 4 0)
  (show FieldName rekordboxName from ⟨by decide, by decide⟩) trivial rfl _ rfl
example (ip : Ip4) (mac : Mac) := C44_ip_packet (kaIpPackage 1 2 ip mac)
  (show FieldName rekordboxName from ⟨by decide, by decide⟩) trivial rfl _ _ _ _ _ rfl
example (ip : Ip4) (mac : Mac) := C44_ip_packet_not_recovered (kaIpPackage 1 2 ip mac)
  (show FieldName rekordboxName from ⟨by decide, by decide⟩) trivial rfl _ _ _ _ _ rfl
example (ip : Ip4) (mac : Mac) := C44_round_trip_iff (kaIpPackage 1 2 ip mac)
  (show FieldName rekordboxName from ⟨by decide, by decide⟩) trivial trivial
example (ip : Ip4) (mac : Mac) : ∃ d r p, KaPacket.decode d = .ok r p ∧ Agrees p.kind p.content := by
  obtain ⟨b, -, h⟩ := C44_status_last_byte (kaStatusPackage ip mac 4 0)
    (show FieldName rekordboxName from ⟨by decide, by decide⟩) trivial rfl _ rfl []
  exact ⟨_, _, _, h, C45_content_agrees _ _ _ h⟩
/-- C58_keepalive_codes, non-vacuity: a sub-kind without a name. -/
example : Canonical (.unknown 0x77) := by unfold Canonical; decide

end PDJ
