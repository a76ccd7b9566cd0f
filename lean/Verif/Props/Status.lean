import Verif.Lemmas.Status

/-!
# Status packets and the status server: properties C56 - C59, C65
-/

namespace PDJ

open Spec

/-! ## C56: replies -/

theorem hello_encode :
    (StatusPacket.new .rekordboxReply 1 1 (.rekordboxReply termDj)).encode = .ok helloReply := by
  rfl

theorem query_encode (p : StatusPacket) (hp : p.kind = .linkQuery) :
    ∃ q, processPacket p = some q ∧ q.encode = .ok (queryReply p.unknown1) := by
  unfold processPacket
  rw [hp]
  exact ⟨_, rfl, rfl⟩

/-- C56: the sizes of the replies. -/
theorem C56_sizes (echo : UInt8) : helloReply.length = 296 ∧ (queryReply echo).length = 192 := by
  simp only [helloReply, queryReply, ownHeader, signature, termDjBytes, List.length_append,
    List.length_replicate, List.length_cons, List.length_nil, and_self]

theorem header_unique {d : Bytes} {k k' e e' : UInt8} (h : StatusHeader d k e)
    (h' : StatusHeader d k' e') : k = k' ∧ e = e' := by
  have h1 := h.2.2.1
  have h2 := h.2.2.2.2
  rw [h'.2.2.1] at h1
  rw [h'.2.2.2.2] at h2
  exact ⟨(Option.some.inj h1).symm, (Option.some.inj h2).symm⟩

theorem header_take {d : Bytes} {k e : UInt8} (h : StatusHeader (d.take 1024) k e) :
    StatusHeader d k e := by
  rw [header_split] at h ⊢
  obtain ⟨hd, pl, m, rest, h1, h2⟩ := h
  refine ⟨hd, pl, m, rest ++ d.drop 1024, h1, ?_⟩
  rw [← List.append_assoc, ← h2, List.take_append_drop]

/-- Everything about one datagram. -/
theorem statusStep_datagram (d : Bytes) (sender : Ip4) :
    (Stops d ∧ statusStep (.datagram d sender) true = ([], false)) ∨
    (¬ Stops d ∧ ∃ out, Answers (.datagram d sender) out ∧
      statusStep (.datagram d sender) true = (out, true)) := by
  by_cases hh : ∃ kind echo, StatusHeader d kind echo
  · obtain ⟨kind, echo, hd⟩ := hh
    obtain ⟨h, player, model, rest, hb, he⟩ := header_split.1 hd
    obtain ⟨k, hk, hke, hkc⟩ := statusKind_of_byte kind
    have hlen := hb.length
    have htake : d.take 1024 = h ++ rest.take 990 := by
      rw [he, List.take_append, List.take_of_length_le (by omega), hlen]
    have hdec := status_decode_header hb hk (rest.take 990)
    rw [← htake] at hdec
    have hstop : Stops d ↔ kind ∉ implementedKinds := by
      constructor
      · rintro ⟨k', e', h1, h2⟩
        rwa [(header_unique hd h1).1]
      · exact fun h => ⟨kind, echo, hd, h⟩
    have silent : (∀ r c, k.decodeContent (rest.take 990) = .ok r c →
          processPacket ⟨k, model, echo, player, c⟩ = none) →
        k.decodeContent (rest.take 990) ≠ .panic →
        statusStep (.datagram d sender) true = ([], true) := by
      intro h1 h2
      simp only [statusStep]
      rw [hdec]
      cases hc : k.decodeContent (rest.take 990) with
      | panic => exact absurd hc h2
      | err => rfl
      | fail => rfl
      | ok r c => simp only [PRes.andThen_ok, h1 r c hc]
    have crash : (∀ i, k.decodeContent i = .panic) →
        statusStep (.datagram d sender) true = ([], false) := by
      intro h1
      simp only [statusStep]
      rw [hdec, h1]
      rfl
    have noAnswer : kind ≠ 0x10 → kind ≠ 0x05 → Answers (.datagram d sender) [] := by
      intro h1 h2
      refine .silent d sender (fun e h => h1 (header_unique hd h).1)
        (fun e h => absurd (header_unique hd h).1 h2)
    cases k with
    | cdj =>
      injection hke with hke _
      subst hke
      exact .inr ⟨by rw [hstop]; decide, [], noAnswer (by decide) (by decide),
        silent (fun _ _ _ => rfl) (Safe.cdj _)⟩
    | djm =>
      injection hke with hke _
      subst hke
      exact .inr ⟨by rw [hstop]; decide, [], noAnswer (by decide) (by decide),
        silent (fun _ _ _ => rfl) (Safe.pure _ _)⟩
    | linkReply =>
      injection hke with hke _
      subst hke
      exact .inr ⟨by rw [hstop]; decide, [], noAnswer (by decide) (by decide),
        silent (fun _ _ _ => rfl) (Safe.linkReply _)⟩
    | rekordboxHello =>
      injection hke with hke _
      subst hke
      refine .inr ⟨by rw [hstop]; decide, _, .hello d sender echo hd, ?_⟩
      simp only [statusStep]
      rw [hdec]
      show (match (StatusPacket.new .rekordboxReply 1 1 (.rekordboxReply termDj)).encode with
        | .ok b => ([(b, sender, statusPort)], true)
        | .panic => ([], false)) = _
      rw [hello_encode]
      rfl
    | linkQuery =>
      injection hke with hke _
      subst hke
      refine .inr ⟨by rw [hstop]; decide, ?_⟩
      have hlink := linkQuery_decode (rest.take 990)
      have hl : (rest.take 990).length = min 990 rest.length := List.length_take
      have hdl : d.length = 34 + rest.length := by rw [he, List.length_append, hlen]
      by_cases h48 : 48 ≤ d.length
      · refine ⟨_, .query d sender echo hd h48, ?_⟩
        obtain ⟨r, q, hq⟩ := hlink.1 (by omega)
        simp only [statusStep]
        rw [hdec, show StatusKind.linkQuery.decodeContent (rest.take 990) = _ from hq]
        obtain ⟨reply, h1, h2⟩ := query_encode ⟨.linkQuery, model, echo, player, .linkQuery q⟩ rfl
        simp only [PRes.andThen_ok, h1, h2]
        rfl
      · refine ⟨[], .silent d sender (fun e h => ?_) (fun _ _ => by omega), ?_⟩
        · exact absurd (header_unique hd h).1 (by decide)
        · simp only [statusStep]
          rw [hdec, show StatusKind.linkQuery.decodeContent (rest.take 990) = _ from
            hlink.2 (by omega)]
          rfl
    | loadCmd =>
      injection hke with hke _
      subst hke
      exact .inl ⟨by rw [hstop]; decide, crash fun _ => rfl⟩
    | loadCmdReply =>
      injection hke with hke _
      subst hke
      exact .inl ⟨by rw [hstop]; decide, crash fun _ => rfl⟩
    | rekordboxReply =>
      injection hke with hke _
      subst hke
      exact .inl ⟨by rw [hstop]; decide, crash fun _ => rfl⟩
    | unknown v =>
      injection hke with hke _
      subst hke
      refine .inl ⟨?_, crash fun _ => rfl⟩
      rw [hstop]
      intro hm
      apply hkc
      simp only [implementedKinds, List.mem_cons, List.not_mem_nil, or_false] at hm ⊢
      rcases hm with h | h | h | h | h <;> simp [h]
  · have hno : ∀ k e, ¬ StatusHeader d k e := fun k e h => hh ⟨k, e, h⟩
    obtain ⟨h1, h2⟩ := status_decode_no_header fun k e h => hno k e (header_take h)
    refine .inr ⟨?_, [], .silent d sender (fun e => hno _ e) (fun e h => absurd h (hno _ e)), ?_⟩
    · rintro ⟨k, e, h, _⟩
      exact hno k e h
    · simp only [statusStep]
      cases hc : StatusPacket.decode (d.take 1024) with
      | panic => exact absurd hc h1
      | ok r p => exact absurd hc (h2 r p)
      | err => rfl
      | fail => rfl

/-- C56: a hello is answered with the hello reply, at port 50002 of the sender. -/
theorem C56_hello (d : Bytes) (sender : Ip4) (echo : UInt8) (h : StatusHeader d 0x10 echo) :
    statusStep (.datagram d sender) true = ([(helloReply, sender, 50002)], true) := by
  rcases statusStep_datagram d sender with ⟨⟨k, e, h1, h2⟩, _⟩ | ⟨_, out, ha, hs⟩
  · rw [← (header_unique h h1).1] at h2
    exact absurd h2 (by decide)
  · rw [hs]
    cases ha with
    | hello => rfl
    | query _ _ e h1 => exact absurd (header_unique h h1).1 (by decide)
    | silent _ _ h1 => exact absurd h (h1 echo)

/-- C56: a complete link query is answered with the link reply, at port 50002 of the sender. -/
theorem C56_link_query (d : Bytes) (sender : Ip4) (echo : UInt8) (h : StatusHeader d 0x05 echo)
    (hl : 48 ≤ d.length) :
    statusStep (.datagram d sender) true = ([(queryReply echo, sender, 50002)], true) := by
  rcases statusStep_datagram d sender with ⟨⟨k, e, h1, h2⟩, _⟩ | ⟨_, out, ha, hs⟩
  · rw [← (header_unique h h1).1] at h2
    exact absurd h2 (by decide)
  · rw [hs]
    cases ha with
    | hello _ _ e h1 => exact absurd (header_unique h h1).1 (by decide)
    | query _ _ e h1 => rw [(header_unique h h1).2]
    | silent _ _ h1 h2 => exact absurd (h2 echo h) (by omega)

/-- C56: nothing else is answered. -/
theorem C56_silent (d : Bytes) (sender : Ip4) (hh : ∀ echo, ¬ StatusHeader d 0x10 echo)
    (hq : ∀ echo, StatusHeader d 0x05 echo → d.length < 48) (running : Bool) :
    (statusStep (.datagram d sender) running).1 = [] := by
  cases running with
  | false => rfl
  | true =>
    rcases statusStep_datagram d sender with ⟨_, hs⟩ | ⟨_, out, ha, hs⟩
    · rw [hs]
    · rw [hs]
      cases ha with
      | hello _ _ e h1 => exact absurd h1 (hh e)
      | query _ _ e h1 hl => exact absurd (hq e h1) (by omega)
      | silent => rfl

theorem statusRun_false (xs : List StatusRecv) : statusRun false xs = ([], false) := by
  induction xs with
  | nil => rfl
  | cons x xs ih => simp only [statusRun, statusStep, ih]; rfl

/-- C56, whole histories: as long as nothing stops the server, every input is answered as specified,
in order. -/
theorem C56_history (xs : List StatusRecv) (hs : ∀ d s, .datagram d s ∈ xs → ¬ Stops d) :
    ∃ outs, AnswersAll xs outs ∧ statusRun true xs = (outs, true) := by
  induction xs with
  | nil => exact ⟨[], .nil, rfl⟩
  | cons x xs ih =>
    obtain ⟨outs, h1, h2⟩ := ih fun d s h => hs d s (List.mem_cons_of_mem _ h)
    cases x with
    | ioError => exact ⟨[] ++ outs, .cons .error h1, by simp only [statusRun, statusStep, h2]⟩
    | datagram d s =>
      rcases statusStep_datagram d s with ⟨h, _⟩ | ⟨_, out, ha, hstep⟩
      · exact absurd h (hs d s List.mem_cons_self)
      · exact ⟨out ++ outs, .cons ha h1, by simp only [statusRun, hstep, h2]⟩

/-- The answers are determined by the input. -/
theorem C56_answers_unique (x : StatusRecv) (a b : List (Bytes × Ip4 × UInt16)) (ha : Answers x a)
    (hb : Answers x b) : a = b := by
  cases ha with
  | error => cases hb; rfl
  | hello d s e h =>
    cases hb with
    | hello => rfl
    | query _ _ _ h' => exact absurd (header_unique h h').1 (by decide)
    | silent _ _ h' => exact absurd h (h' e)
  | query d s e h hl =>
    cases hb with
    | hello _ _ _ h' => exact absurd (header_unique h h').1 (by decide)
    | query _ _ _ h' => rw [(header_unique h h').2]
    | silent _ _ h' h'' => exact absurd (h'' e h) (by omega)
  | silent d s h h' =>
    cases hb with
    | hello _ _ e h1 => exact absurd h1 (h e)
    | query _ _ e h1 hl => exact absurd (h' e h1) (by omega)
    | silent => rfl

/-! ## C57: robustness -/

/-- C57: a datagram stops the status server exactly if it has a header of a kind that is not
implemented. -/
theorem C57_stops_exactly (d : Bytes) (sender : Ip4) :
    (statusStep (.datagram d sender) true).2 = false ↔ Stops d := by
  rcases statusStep_datagram d sender with ⟨h, hs⟩ | ⟨h, out, _, hs⟩ <;> simp [h, hs]

/-- C57: the server survives a history exactly if no datagram in it is of that form. -/
theorem C57_survives_exactly (xs : List StatusRecv) :
    (statusRun true xs).2 = true ↔ ∀ d s, .datagram d s ∈ xs → ¬ Stops d := by
  constructor
  · induction xs with
    | nil => intro _ d s h; exact absurd h List.not_mem_nil
    | cons x xs ih =>
      intro h d s hm
      simp only [statusRun] at h
      cases hb : (statusStep x true).2 with
      | false => rw [hb, statusRun_false] at h; exact absurd h (by decide)
      | true =>
        rw [hb] at h
        rcases List.mem_cons.1 hm with rfl | hm
        · intro hst
          rw [(C57_stops_exactly d s).2 hst] at hb
          exact absurd hb (by decide)
        · exact ih h d s hm
  · intro h
    obtain ⟨outs, _, he⟩ := C56_history xs h
    rw [he]

/-- C57, the negation: the hello reply that this very program sends stops the status server of
another instance of it. -/
theorem C57_own_reply_stops : Stops helloReply := by
  refine ⟨0x11, 1, ⟨?_, rfl, rfl, ⟨['L', 'i', 'n', 'u', 'x'] ++ List.replicate 15 '\x00', ?_⟩, rfl⟩,
    by decide⟩
  · rw [(C56_sizes 0).1]; decide
  · rw [← fromUtf8_utf8 (['L', 'i', 'n', 'u', 'x'] ++ List.replicate 15 '\x00')]
    rfl

/-- C57: what is missing in the full claim is only this: datagrams of the implemented kinds, and
everything without a header, never stop the server. -/
theorem C57_robust_partial (xs : List StatusRecv)
    (h : ∀ d s, .datagram d s ∈ xs → ∀ kind echo, StatusHeader d kind echo →
      kind ∈ implementedKinds) : (statusRun true xs).2 = true := by
  rw [C57_survives_exactly]
  rintro d s hm ⟨k, e, h1, h2⟩
  exact h2 (h d s hm k e h1)

/-! ## C58: code tables -/

/-- C58: status kind and slot codes are read back, whatever follows. -/
theorem C58_status_codes (r : Bytes) :
    (∀ k, CanonicalStatusKind k → StatusKind.decode (k.encode ++ r) = .ok r k) ∧
    (∀ k, CanonicalSlot k → PlayerSlot.decode (k.encode ++ r) = .ok r k) :=
  ⟨fun _ h => statusKind_decode_ok.2 ⟨rfl, h⟩, fun _ h => slot_decode_ok.2 ⟨rfl, h⟩⟩

/-- C58: every kind and slot byte, known or not, survives decoding and encoding. -/
theorem C58_status_bytes_preserved (b : UInt8) (r : Bytes) :
    (∃ k, StatusKind.decode (b :: r) = .ok r k ∧ k.encode = [b]) ∧
    (∃ k, PlayerSlot.decode (b :: r) = .ok r k ∧ k.encode = [b]) := by
  constructor
  · obtain ⟨k, h1, h2, _⟩ := statusKind_of_byte b
    exact ⟨k, h1 r, h2⟩
  · have h : ∃ k, PlayerSlot.decode (b :: r) = .ok r k := ⟨_, rfl⟩
    obtain ⟨k, hk⟩ := h
    refine ⟨k, hk, ?_⟩
    have h2 := (slot_decode_ok.1 hk).1
    have e : ∃ x, k.encode = [x] := by cases k <;> exact ⟨_, rfl⟩
    obtain ⟨x, hx⟩ := e
    rw [hx] at h2 ⊢
    simp only [List.cons_append, List.nil_append, List.cons.injEq, and_true] at h2
    rw [h2]

/-! ## C59: fixed strings -/

/-- C59: a text that fits is written in exactly its capacity and read back followed by NULs. -/
theorem C59_round_trip (n : Nat) (s : Str) (h : (utf16 s).length ≤ n) (r : Bytes) :
    ∃ b, (FixedString.mk (2 * n) s).encode = .ok b ∧ b.length = 2 * n ∧
      FixedString.decode (2 * n) (b ++ r) =
        .ok r ⟨2 * n, s ++ List.replicate (n - (utf16 s).length) '\x00'⟩ := by
  have hl : (utf16be s).length = 2 * (utf16 s).length := length_utf16be s
  refine ⟨utf16be s ++ List.replicate (2 * n - 2 * (utf16 s).length) 0, ?_, ?_, ?_⟩
  · simp only [FixedString.encode, fillTo, hl]
    rw [if_pos (by omega)]
  · rw [List.length_append, List.length_replicate, hl]; omega
  · have e : utf16be s ++ List.replicate (2 * n - 2 * (utf16 s).length) 0 =
        (utf16 (s ++ List.replicate (n - (utf16 s).length) '\x00')).flatMap be16 := by
      rw [utf16_append, utf16_nuls, List.flatMap_append, flatMap_be16_zeros, Nat.mul_sub]
      rfl
    have hn : (utf16 (s ++ List.replicate (n - (utf16 s).length) '\x00')).length = n := by
      rw [utf16_append, utf16_nuls, List.length_append, List.length_replicate]; omega
    have hc := count_beU16 (utf16 (s ++ List.replicate (n - (utf16 s).length) '\x00')) r
    rw [hn] at hc
    rw [e]
    unfold FixedString.decode
    rw [Nat.mul_div_cancel_left n (by omega), bind_apply_ok _ hc]
    simp only [fromUtf16_utf16]
    rfl

/-- C59: for any capacity, a text that fits is written in exactly that many bytes, starting with the
text; a text that does not fit panics. -/
theorem C59_capacity (f : FixedString) :
    (∀ b, f.encode = .ok b → b.length = f.capacity ∧
      ∃ k, b = utf16be f.value ++ List.replicate k 0) ∧
    (f.encode = .panic ↔ f.capacity < 2 * (utf16 f.value).length) := by
  simp only [FixedString.encode, fillTo, length_utf16be]
  constructor
  · intro b h
    split at h
    · obtain rfl := Outcome.ok.inj h
      refine ⟨?_, _, rfl⟩
      rw [List.length_append, List.length_replicate, length_utf16be]; omega
    · exact nomatch h
  · split
    · constructor
      · intro h; exact nomatch h
      · intro h; omega
    · constructor
      · intro _; omega
      · intro _; rfl

/-- C59: the name of a hello reply takes 256 bytes; a longer name panics. -/
theorem C59_reply_name (name : Str) :
    ((utf16 name).length ≤ 128 → encodeRekordboxReply name = .ok ([0x01, 0x04, 0x11, 0x01, 0, 0] ++
      (utf16be name ++ List.replicate (256 - 2 * (utf16 name).length) 0))) ∧
    (128 < (utf16 name).length → encodeRekordboxReply name = .panic) := by
  unfold encodeRekordboxReply fillTo
  rw [length_utf16be]
  constructor
  · intro h; rw [if_pos (by omega)]; rfl
  · intro h; rw [if_neg (by omega)]; rfl

/-! ## C65: link replies are not read back -/

/-- C65, the negation: the decoder does not skip the header the encoder writes, so every link reply
comes back, if at all, with an empty slot. -/
theorem C65_slot_lost (l : LinkReply) (b r : Bytes) (h : l.encode = .ok b) (l' : LinkReply)
    (hd : decodeLinkReply b = .ok r (.linkReply l')) : l'.slot = .empty := by
  unfold LinkReply.encode at h
  cases h1 : l.name.encode with
  | panic => rw [h1] at h; exact nomatch h
  | ok name =>
    cases h2 : l.date.encode with
    | panic => rw [h1, h2] at h; exact nomatch h
    | ok date =>
      cases h3 : l.unknown5.encode with
      | panic => rw [h1, h2, h3] at h; exact nomatch h
      | ok u5 =>
        rw [h1, h2, h3] at h
        obtain rfl := Outcome.ok.inj h
        unfold decodeLinkReply at hd
        simp only [List.append_assoc] at hd
        have hs : ∀ x, PlayerSlot.decode (be16 156 ++ x) = .ok ([156] ++ x) .empty := fun _ => rfl
        rw [bind_apply_ok _ (hs _)] at hd
        generalize ([156] ++ _ : Bytes) = i at hd
        rw [bind_def, PRes.andThen_eq_ok] at hd
        obtain ⟨_, _, _, hd⟩ := hd
        rw [bind_def, PRes.andThen_eq_ok] at hd
        obtain ⟨_, _, _, hd⟩ := hd
        rw [bind_def, PRes.andThen_eq_ok] at hd
        obtain ⟨_, _, _, hd⟩ := hd
        rw [bind_def, PRes.andThen_eq_ok] at hd
        obtain ⟨_, _, _, hd⟩ := hd
        rw [bind_def, PRes.andThen_eq_ok] at hd
        obtain ⟨_, _, _, hd⟩ := hd
        rw [bind_def, PRes.andThen_eq_ok] at hd
        obtain ⟨_, _, _, hd⟩ := hd
        rw [bind_def, PRes.andThen_eq_ok] at hd
        obtain ⟨_, _, _, hd⟩ := hd
        rw [bind_def, PRes.andThen_eq_ok] at hd
        obtain ⟨_, _, _, hd⟩ := hd
        rw [bind_def, PRes.andThen_eq_ok] at hd
        obtain ⟨_, _, _, hd⟩ := hd
        obtain ⟨_, hd⟩ := PRes.ok.inj hd
        injection hd with hd
        rw [← hd]

/-- C65: the body of a link reply is read back if the nine bytes before the slot are removed, and
the texts fill their fields (as decoded texts do). -/
theorem C65_body_round_trip_partial (l : LinkReply) (hs : CanonicalSlot l.slot)
    (hsrc : l.sourcePlayerNumber = 0x11)
    (h1 : l.name.capacity = 64 ∧ (utf16 l.name.value).length = 32)
    (h2 : l.date.capacity = 24 ∧ (utf16 l.date.value).length = 12)
    (h3 : l.unknown5.capacity = 32 ∧ (utf16 l.unknown5.value).length = 16) (r : Bytes) :
    ∃ b, l.encode = .ok b ∧ decodeLinkReply (b.drop 9 ++ r) = .ok r (.linkReply l) := by
  obtain ⟨src, slot, ⟨c1, v1⟩, ⟨c2, v2⟩, ⟨c3, v3⟩, tc, u6, u7, pc, bt, bf⟩ := l
  obtain ⟨rfl, h1⟩ := h1
  obtain ⟨rfl, h2⟩ := h2
  obtain ⟨rfl, h3⟩ := h3
  replace h1 : (utf16 v1).length = 32 := h1
  replace h2 : (utf16 v2).length = 12 := h2
  replace h3 : (utf16 v3).length = 16 := h3
  replace hsrc : src = 0x11 := hsrc
  subst hsrc
  obtain ⟨b1, e1, _, d1⟩ := C59_round_trip 32 v1 (by omega) (List.nil)
  obtain ⟨b2, e2, _, d2⟩ := C59_round_trip 12 v2 (by omega) (List.nil)
  obtain ⟨b3, e3, _, d3⟩ := C59_round_trip 16 v3 (by omega) (List.nil)
  have q : ∀ n (v : Str) b, (utf16 v).length = n → (FixedString.mk (2 * n) v).encode = .ok b → ∀ r,
      FixedString.decode (2 * n) (b ++ r) = .ok r ⟨2 * n, v⟩ := by
    intro n v b hv hb r
    obtain ⟨b', e, _, d⟩ := C59_round_trip n v (by omega) r
    rw [hb] at e
    obtain rfl := Outcome.ok.inj e
    rw [d, hv, Nat.sub_self]
    simp
  refine ⟨be16 156 ++ [0x00, 0x00, 0x00] ++ [0x11] ++ [0x00, 0x00, 0x00] ++
      slot.encode ++ b1 ++ b2 ++ b3 ++ be32 tc ++ be16 u6 ++
      be16 u7 ++ be32 pc ++ be64 bt ++ be64 bf, ?_, ?_⟩
  · unfold LinkReply.encode
    rw [show FixedString.encode ⟨64, v1⟩ = _ from e1, show FixedString.encode ⟨24, v2⟩ = _ from e2,
      show FixedString.encode ⟨32, v3⟩ = _ from e3]
    rfl
  · have hdrop : (be16 156 ++ [0x00, 0x00, 0x00] ++ [0x11] ++ [0x00, 0x00, 0x00] ++
      slot.encode ++ b1 ++ b2 ++ b3 ++ be32 tc ++ be16 u6 ++
      be16 u7 ++ be32 pc ++ be64 bt ++ be64 bf).drop 9 = slot.encode ++ (b1 ++ (b2 ++ (b3 ++
      (be32 tc ++ (be16 u6 ++ (be16 u7 ++ (be32 pc ++ (be64 bt ++ be64 bf)))))))) := by
      simp only [List.append_assoc]
      rfl
    rw [hdrop]
    simp only [List.append_assoc]
    unfold decodeLinkReply
    rw [bind_apply_ok _ (slot_decode_ok.2 ⟨rfl, hs⟩), bind_apply_ok _ (q 32 v1 b1 h1 e1 _),
      bind_apply_ok _ (q 12 v2 b2 h2 e2 _), bind_apply_ok _ (q 16 v3 b3 h3 e3 _),
      bind_apply_ok _ (P.beU32_eq_ok.2 rfl), bind_apply_ok _ (P.beU16_eq_ok.2 rfl),
      bind_apply_ok _ (P.beU16_eq_ok.2 rfl), bind_apply_ok _ (P.beU32_eq_ok.2 rfl),
      bind_apply_ok _ (P.beU64_eq_ok.2 rfl), bind_apply_ok _ (P.beU64_eq_ok.2 rfl)]
    rfl

/-! ## Non-vacuity -/

/-- C56, C57: a header as sent by a player. -/
example : StatusHeader (ownHeader 0x10 1) 0x10 1 :=
  ⟨by decide, rfl, rfl, ⟨['L', 'i', 'n', 'u', 'x'] ++ List.replicate 15 '\x00', by
    rw [← fromUtf8_utf8 (['L', 'i', 'n', 'u', 'x'] ++ List.replicate 15 '\x00')]
    rfl⟩, rfl⟩

example : (utf16 ['T', 'e', 'r', 'm', ' ', 'D', 'J']).length ≤ 32 := by decide

example : (utf16 (['T', 'e', 'r', 'm', ' ', 'D', 'J'] ++ List.replicate 25 '\x00')).length = 32 := by
  decide

theorem exampleHeader (kind : UInt8) (rest : Bytes) : StatusHeader (ownHeader kind 1 ++ rest) kind 1 :=
  ⟨by simp [ownHeader, signature], rfl, rfl,
    ⟨['L', 'i', 'n', 'u', 'x'] ++ List.replicate 15 '\x00', by
      rw [← fromUtf8_utf8 (['L', 'i', 'n', 'u', 'x'] ++ List.replicate 15 '\x00')]
      rfl⟩, rfl⟩

theorem header_kind {d : Bytes} {k k' e e' : UInt8} (h : StatusHeader d k e) (h' : StatusHeader d k' e') :
    k = k' := Option.some.inj (h.2.2.1.symm.trans h'.2.2.1)

/-- C56, C57, non-vacuity: a hello, a complete and an incomplete link query, noise. -/
example := C56_hello _ 7 1 (exampleHeader 0x10 [])
example := C56_link_query _ 7 1 (exampleHeader 0x05 (List.replicate 14 0)) (by decide)
example := C56_silent (ownHeader 0x05 1 ++ []) 7
  (fun _ h => absurd (header_kind (exampleHeader 0x05 []) h) (by decide)) (fun _ _ => by decide) true
example := C56_answers_unique _ _ _ (.hello _ 7 1 (exampleHeader 0x10 []))
  (.hello _ 7 1 (exampleHeader 0x10 []))
theorem example_noStop (d : Bytes) (s : Ip4)
    (h : StatusRecv.datagram d s ∈ [StatusRecv.datagram (ownHeader 0x10 1 ++ []) 7, .ioError]) (kind echo : UInt8)
    (hk : StatusHeader d kind echo) : kind ∈ implementedKinds := by
  simp only [List.mem_cons, StatusRecv.datagram.injEq, reduceCtorEq, List.not_mem_nil, or_false] at h
  obtain ⟨rfl, rfl⟩ := h
  rw [← header_kind (exampleHeader 0x10 []) hk]
  decide
example := C57_robust_partial _ example_noStop
example := C56_history _ (fun d s h ⟨k, e, hk, hn⟩ => hn (example_noStop d s h k e hk))
example := (C57_survives_exactly _).mpr (fun d s h ⟨k, e, hk, hn⟩ => hn (example_noStop d s h k e hk))
/-- C58_status_codes, non-vacuity. -/
example : CanonicalStatusKind (.unknown 0x77) ∧ CanonicalSlot (.unknown 9) :=
  ⟨by unfold CanonicalStatusKind; decide, by unfold CanonicalSlot; decide⟩
/-- C59, non-vacuity: the texts of the program, and one that does not fit. -/
example := C59_round_trip 32 ['T', 'e', 'r', 'm', ' ', 'D', 'J'] (by decide)
example := (C59_capacity ⟨4, ['a', 'b', 'c']⟩).2.mpr (by decide)
example := (C59_reply_name ['T', 'e', 'r', 'm', ' ', 'D', 'J']).1 (by decide)

/-- C65_slot_lost, non-vacuity: a link reply with empty texts can be decoded, nine bytes too early. -/
example : ∃ b r l', (LinkReply.mk 17 .rekordbox ⟨64, []⟩ ⟨24, []⟩ ⟨32, []⟩ 0 0 0 0 0 0).encode = .ok b ∧
    decodeLinkReply b = .ok r (.linkReply l') :=
  ⟨_, _, _, rfl, rfl⟩

end PDJ
