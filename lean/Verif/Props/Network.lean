import Verif.Spec.Network

/-!
# Networks: property C55
-/

namespace PDJ

open Spec

theorem mask_toNat (n : Ipv4Network) :
    n.mask.toNat = 2 ^ 32 - 2 ^ (32 - n.prefixLen.val) := by
  have : ∀ p : Fin 33, (~~~ UInt32.ofNat (4294967295 >>> p.val)).toNat = 2 ^ 32 - 2 ^ (32 - p.val) := by
    decide
  exact this n.prefixLen

theorem mask_testBit (k i : Nat) (hk : k ≤ 32) :
    (2 ^ 32 - 2 ^ k).testBit i = (decide (i < 32) && !decide (i < k)) := by
  have h1 : 2 ^ k - 1 < 2 ^ 32 := by
    have := Nat.pow_le_pow_right (n := 2) (by omega) hk
    have := Nat.two_pow_pos k
    omega
  have h2 : 2 ^ 32 - 2 ^ k = 2 ^ 32 - ((2 ^ k - 1) + 1) := by
    have := Nat.two_pow_pos k
    omega
  rw [h2, Nat.testBit_two_pow_sub_succ h1, Nat.testBit_two_pow_sub_one]

/-- C55: the mask consists of `prefixLen` ones followed by zeros. -/
theorem C55_mask (n : Ipv4Network) (i : Nat) (hi : i < 32) :
    n.mask.toNat.testBit (31 - i) = decide (i < n.prefixLen.val) := by
  rw [mask_toNat, mask_testBit _ _ (by omega)]
  have := n.prefixLen.isLt
  by_cases h : i < n.prefixLen.val
  · simp [h]; omega
  · simp [h]; omega

/-- C55: an address is in a network exactly if the leading bits agree. -/
theorem C55_contains (n : Ipv4Network) (ip : Ip4) : n.contains ip = true ↔ InNet n ip := by
  unfold Ipv4Network.contains InNet
  rw [beq_iff_eq, ← UInt32.toNat_inj, UInt32.toNat_and, UInt32.toNat_and, mask_toNat]
  have hp := n.prefixLen.isLt
  have hx := ip.toNat_lt
  have hy := n.addr.toNat_lt
  generalize ip.toNat = x at hx
  generalize n.addr.toNat = y at hy
  generalize hk : 32 - n.prefixLen.val = k
  have hk' : k ≤ 32 := by omega
  have big : ∀ z, z < 2 ^ 32 → ∀ i, 32 ≤ i → z.testBit i = false := by
    intro z hz i hi
    exact Nat.testBit_lt_two_pow (Nat.lt_of_lt_of_le hz (Nat.pow_le_pow_right (by omega) hi))
  constructor
  · intro h
    apply Nat.eq_of_testBit_eq
    intro i
    rw [Nat.testBit_div_two_pow, Nat.testBit_div_two_pow]
    by_cases hi : i + k < 32
    · have := congrArg (fun z => z.testBit (i + k)) h
      simp only [Nat.testBit_and, mask_testBit k _ hk'] at this
      simpa [hi, Nat.not_lt.2 (Nat.le_add_left k i)] using this
    · rw [big x hx _ (by omega), big y hy _ (by omega)]
  · intro h
    apply Nat.eq_of_testBit_eq
    intro i
    rw [Nat.testBit_and, Nat.testBit_and, mask_testBit k i hk']
    by_cases hi : i < k
    · simp [hi]
    · have := congrArg (fun z => z.testBit (i - k)) h
      simp only [Nat.testBit_div_two_pow] at this
      rw [Nat.sub_add_cancel (by omega)] at this
      rw [this]

/-- C55: broadcasts go to the last address of the network. -/
theorem C55_broadcast (n : Ipv4Network) :
    InNet n n.broadcast ∧ ∀ ip, InNet n ip → ip.toNat ≤ n.broadcast.toNat := by
  have hp := n.prefixLen.isLt
  generalize hk : 32 - n.prefixLen.val = k
  have hk' : k ≤ 32 := by omega
  have hinv : (~~~ n.mask).toNat = 2 ^ k - 1 := by
    have : ∀ p : Fin 33, (~~~ ~~~ UInt32.ofNat (4294967295 >>> p.val)).toNat = 2 ^ (32 - p.val) - 1 := by
      decide
    rw [← hk]
    exact this n.prefixLen
  have hb : n.broadcast.toNat = 2 ^ k * (n.addr.toNat / 2 ^ k) + (2 ^ k - 1) := by
    unfold Ipv4Network.broadcast
    rw [UInt32.toNat_or, hinv]
    have hpos := Nat.two_pow_pos k
    apply Nat.eq_of_testBit_eq
    intro i
    rw [Nat.testBit_or, Nat.testBit_two_pow_sub_one, Nat.testBit_two_pow_mul_add _ (by omega),
      Nat.testBit_two_pow_sub_one]
    by_cases hi : i < k
    · simp [hi]
    · simp [hi, Nat.testBit_div_two_pow, Nat.sub_add_cancel (Nat.not_lt.1 hi)]
  have hpos := Nat.two_pow_pos k
  unfold InNet
  rw [hk]
  refine ⟨?_, ?_⟩
  · have hlt : 2 ^ k - 1 < 2 ^ k := by omega
    rw [hb, Nat.mul_add_div hpos, Nat.div_eq_of_lt hlt, Nat.add_zero]
  · intro ip h
    rw [hb, ← h]
    have h1 := Nat.div_add_mod ip.toNat (2 ^ k)
    have h2 := Nat.mod_lt ip.toNat hpos
    omega

/-- The search over all candidates. -/
def search (ip : Ip4) : List (Ipv4Network × Option Mac) → Outcome (Option PioneerNetwork)
  | [] => .ok none
  | (_, none) :: _ => .panic
  | (n, some m) :: r => if n.contains ip then .ok (some ⟨n, m⟩) else search ip r

theorem search_append (ip : Ip4) (a b : List (Ipv4Network × Option Mac)) :
    search ip (a ++ b) = (search ip a).bind fun x =>
      match x with
      | some n => .ok (some n)
      | none => search ip b := by
  induction a with
  | nil => rfl
  | cons c a ih =>
    obtain ⟨n, m⟩ := c
    cases m with
    | none => rfl
    | some m =>
      simp only [List.cons_append, search]
      split
      · rfl
      · exact ih

theorem findInIps_search (mac : Option Mac) (ip : Ip4) (ips : List IpNetwork) :
    findInIps mac ip ips = search ip (ips.filterMap fun
      | .v4 n => some (n, mac)
      | .v6 => none) := by
  induction ips with
  | nil => rfl
  | cons x ips ih =>
    cases x with
    | v6 => exact ih
    | v4 n =>
      cases mac with
      | none => rfl
      | some m =>
        show (if (PioneerNetwork.mk n m).contains ip then _ else _) = _
        rw [ih]
        rfl

theorem matchInterface_search (ip : Ip4) (ifaces : List Interface) :
    matchInterface ip ifaces = search ip (candidates ifaces) := by
  induction ifaces with
  | nil => rfl
  | cons i ifaces ih =>
    rw [matchInterface, ih, findInIps_search]
    unfold candidates
    rw [List.flatMap_cons, search_append]
    generalize search ip _ = o
    cases o with
    | panic => rfl
    | ok x => cases x <;> rfl

theorem passed_cons {ip : Ip4} {c : Ipv4Network × Option Mac} {pre : List (Ipv4Network × Option Mac)} :
    (∀ x ∈ c :: pre, Passed ip x) ↔ Passed ip c ∧ ∀ x ∈ pre, Passed ip x := by
  simp

/-- C55: the chosen network is the first one that contains the address. -/
theorem C55_first_match (ip : Ip4) (ifaces : List Interface) (n : Ipv4Network) (m : Mac) :
    matchInterface ip ifaces = .ok (some ⟨n, m⟩) ↔
      ∃ pre post, candidates ifaces = pre ++ (n, some m) :: post ∧ (∀ c ∈ pre, Passed ip c) ∧
        InNet n ip := by
  rw [matchInterface_search]
  generalize candidates ifaces = l
  induction l with
  | nil =>
    constructor
    · intro h; exact nomatch h
    · rintro ⟨pre, post, h, _⟩; simp at h
  | cons c l ih =>
    obtain ⟨n', m'⟩ := c
    cases m' with
    | none =>
      constructor
      · intro h; exact nomatch h
      · rintro ⟨pre, post, h, hp, _⟩
        cases pre with
        | nil => simp at h
        | cons x pre =>
          simp only [List.cons_append, List.cons.injEq] at h
          have := (hp x (by simp)).1
          rw [← h.1] at this
          exact absurd rfl this
    | some m' =>
      rw [search]
      by_cases hc : n'.contains ip = true
      · rw [if_pos hc]
        constructor
        · intro h
          simp only [Outcome.ok.injEq, Option.some.injEq, PioneerNetwork.mk.injEq] at h
          obtain ⟨rfl, rfl⟩ := h
          exact ⟨[], l, rfl, by simp, (C55_contains _ _).1 hc⟩
        · rintro ⟨pre, post, h, hp, hn⟩
          cases pre with
          | nil =>
            simp only [List.nil_append, List.cons.injEq, Prod.mk.injEq, Option.some.injEq] at h
            rw [h.1.1, h.1.2]
          | cons x pre =>
            simp only [List.cons_append, List.cons.injEq] at h
            have := (hp x (by simp)).2
            rw [← h.1] at this
            exact absurd ((C55_contains _ _).1 hc) this
      · rw [if_neg hc, ih]
        have hn : ¬ InNet n' ip := fun h => hc ((C55_contains _ _).2 h)
        constructor
        · rintro ⟨pre, post, h, hp, hin⟩
          refine ⟨(n', some m') :: pre, post, by rw [h]; rfl, ?_, hin⟩
          rw [passed_cons]
          exact ⟨⟨by simp, hn⟩, hp⟩
        · rintro ⟨pre, post, h, hp, hin⟩
          cases pre with
          | nil =>
            simp only [List.nil_append, List.cons.injEq, Prod.mk.injEq, Option.some.injEq] at h
            rw [← h.1.1] at hin
            exact absurd hin hn
          | cons x pre =>
            simp only [List.cons_append, List.cons.injEq] at h
            exact ⟨pre, post, h.2, fun c hc => hp c (by simp [hc]), hin⟩

/-- C55: no network is chosen exactly if none contains the address (and all have a MAC address). -/
theorem C55_no_match (ip : Ip4) (ifaces : List Interface) :
    matchInterface ip ifaces = .ok none ↔ ∀ c ∈ candidates ifaces, Passed ip c := by
  rw [matchInterface_search]
  generalize candidates ifaces = l
  induction l with
  | nil => simp [search]
  | cons c l ih =>
    obtain ⟨n', m'⟩ := c
    rw [passed_cons]
    cases m' with
    | none =>
      constructor
      · intro h; exact nomatch h
      · rintro ⟨h, _⟩; exact absurd rfl h.1
    | some m' =>
      rw [search]
      by_cases hc : n'.contains ip = true
      · rw [if_pos hc]
        constructor
        · intro h; simp at h
        · rintro ⟨h, _⟩; exact absurd ((C55_contains _ _).1 hc) h.2
      · rw [if_neg hc, ih]
        exact ⟨fun h => ⟨⟨by simp, fun h => hc ((C55_contains _ _).2 h)⟩, h⟩, fun h => h.2⟩

/-- C55: the search panics exactly at an interface without MAC address that has an IPv4 address, if
it comes before any match. -/
theorem C55_panics_exactly (ip : Ip4) (ifaces : List Interface) :
    matchInterface ip ifaces = .panic ↔
      ∃ pre n post, candidates ifaces = pre ++ (n, none) :: post ∧ ∀ c ∈ pre, Passed ip c := by
  rw [matchInterface_search]
  generalize candidates ifaces = l
  induction l with
  | nil =>
    constructor
    · intro h; exact nomatch h
    · rintro ⟨pre, n, post, h, _⟩; simp at h
  | cons c l ih =>
    obtain ⟨n', m'⟩ := c
    cases m' with
    | none => exact ⟨fun _ => ⟨[], n', l, rfl, by simp⟩, fun _ => rfl⟩
    | some m' =>
      rw [search]
      by_cases hc : n'.contains ip = true
      · rw [if_pos hc]
        constructor
        · intro h; exact nomatch h
        · rintro ⟨pre, n, post, h, hp⟩
          cases pre with
          | nil => simp at h
          | cons x pre =>
            simp only [List.cons_append, List.cons.injEq] at h
            have := (hp x (by simp)).2
            rw [← h.1] at this
            exact absurd ((C55_contains _ _).1 hc) this
      · rw [if_neg hc, ih]
        have hn : ¬ InNet n' ip := fun h => hc ((C55_contains _ _).2 h)
        constructor
        · rintro ⟨pre, n, post, h, hp⟩
          refine ⟨(n', some m') :: pre, n, post, by rw [h]; rfl, ?_⟩
          rw [passed_cons]
          exact ⟨⟨by simp, hn⟩, hp⟩
        · rintro ⟨pre, n, post, h, hp⟩
          cases pre with
          | nil => simp at h
          | cons x pre =>
            simp only [List.cons_append, List.cons.injEq] at h
            exact ⟨pre, n, post, h.2, fun c hc => hp c (by simp [hc])⟩

/-- C55: with MAC addresses everywhere the search always ends normally. -/
theorem C55_total (ip : Ip4) (ifaces : List Interface) (h : AllHaveMacs ifaces) :
    matchInterface ip ifaces ≠ .panic := by
  intro hp
  obtain ⟨pre, n, post, he, _⟩ := (C55_panics_exactly ip ifaces).1 hp
  exact h (n, none) (by rw [he]; simp) rfl

/-- C55, non-vacuity: 192.168.10.50/24 contains 192.168.10.7 and not 192.168.11.7. -/
example : InNet ⟨ofBe32 192 168 10 50, 24⟩ (ofBe32 192 168 10 7) ∧
    ¬ InNet ⟨ofBe32 192 168 10 50, 24⟩ (ofBe32 192 168 11 7) := by
  unfold InNet; decide

example : candidates [⟨none, [.v6]⟩, ⟨some ⟨1, 2, 3, 4, 5, 6⟩, [.v6, .v4 ⟨7, 24⟩]⟩] =
    [(⟨7, 24⟩, some ⟨1, 2, 3, 4, 5, 6⟩)] := by decide

/-- C55, non-vacuity: bit 8 of a mask of 24 ones, and an address below the broadcast address. -/
example := C55_mask ⟨ofBe32 192 168 10 50, 24⟩ 8 (by decide)
example := (C55_broadcast ⟨ofBe32 192 168 10 50, 24⟩).2 (ofBe32 192 168 10 7) (by unfold InNet; decide)

end PDJ
