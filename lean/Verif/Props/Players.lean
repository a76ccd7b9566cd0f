import Mathlib.Data.List.Induction
import Verif.Spec.Players
import Verif.Lemmas.App

/-!
# Property C73: the registry of players as a data structure
-/

namespace PDJ

open Spec

theorem getPlayer_addOrUpdate (a : Ip4) (new : Player) (ps : List Player) :
    (getPlayer a (addOrUpdate new ps)).map Entry.of =
      entryStep a ((getPlayer a ps).map Entry.of) (.add new) := by
  induction ps with
  | nil =>
    unfold addOrUpdate getPlayer entryStep
    by_cases h : new.address = a <;> simp [h, Entry.of]
  | cons p ps ih =>
    unfold addOrUpdate
    by_cases hp : p.address = new.address
    · rw [if_pos hp]
      unfold getPlayer entryStep
      by_cases h : new.address = a
      · have hu : (p.update new).address = a := hp.trans h
        simp only [List.find?_cons, hu, hp.trans h, h, decide_true, if_true, Option.map_some]
        unfold Entry.of Player.update
        cases p.linking <;> cases new.linking <;> rfl
      · have hu : ¬ (p.update new).address = a := fun e => h (hp.symm.trans e)
        have hu' : ¬ p.address = a := fun e => h (hp.symm.trans e)
        simp only [List.find?_cons, hu, hu', decide_false, if_neg h]
    · rw [if_neg hp]
      by_cases h : p.address = a
      · have h' : ¬ new.address = a := fun e => hp (h.trans e.symm)
        unfold getPlayer entryStep
        simp only [List.find?_cons, h, decide_true, if_neg h']
      · have e1 : ∀ l, getPlayer a (p :: l) = getPlayer a l := by
          intro l
          unfold getPlayer
          simp only [List.find?_cons, h, decide_false]
        rw [e1, e1, ih]

theorem getPlayer_modify (a b : Ip4) (v : Bool) (ps : List Player) :
    (getPlayer a (modifyPlayer b (·.setLinking v) ps)).map Entry.of =
      entryStep a ((getPlayer a ps).map Entry.of) (.setLinking b v) := by
  induction ps with
  | nil =>
    show none = if b = a then none else none
    split <;> rfl
  | cons p ps ih =>
    unfold modifyPlayer
    by_cases hp : p.address = b
    · rw [if_pos hp]
      have hs : (p.setLinking v).address = p.address := rfl
      unfold getPlayer entryStep
      by_cases h : b = a
      · simp only [List.find?_cons, hs, hp.trans h, decide_true, if_pos h, Option.map_some]
        rfl
      · have h' : ¬ p.address = a := fun e => h (hp.symm.trans e)
        simp only [List.find?_cons, hs, h', decide_false, if_neg h]
    · rw [if_neg hp]
      by_cases h : p.address = a
      · have h' : ¬ b = a := fun e => hp (h.trans e.symm)
        unfold getPlayer entryStep
        simp only [List.find?_cons, h, decide_true, if_neg h']
      · have e1 : ∀ l, getPlayer a (p :: l) = getPlayer a l := by
          intro l
          unfold getPlayer
          simp only [List.find?_cons, h, decide_false]
        rw [e1, e1, ih]

/-- C73: what the registry knows about an address after any operations. -/
theorem C73_entry (ops : List RegistryOp) (a : UInt32) :
    (getPlayer a (registryRun ops)).map Entry.of = entryOf a ops := by
  induction ops using List.reverseRecOn with
  | nil => rfl
  | append_singleton ops op ih =>
    unfold registryRun entryOf at ih ⊢
    rw [List.foldl_append, List.foldl_append]
    show (getPlayer a (registryStep _ op)).map Entry.of = entryStep a _ op
    rw [← ih]
    cases op with
    | add p => exact getPlayer_addOrUpdate a p _
    | setLinking b v => exact getPlayer_modify a b v _

theorem modify_addresses (b : Ip4) (v : Bool) (ps : List Player) :
    (modifyPlayer b (·.setLinking v) ps).map Player.address = ps.map Player.address := by
  induction ps with
  | nil => rfl
  | cons p ps ih =>
    unfold modifyPlayer
    split
    · rfl
    · rw [List.map_cons, List.map_cons, ih]

theorem announced_append (xs ys : List RegistryOp) : announced (xs ++ ys) = announced xs ++ announced ys := by
  induction xs with
  | nil => rfl
  | cons x xs ih => cases x <;> simp [announced, ih]

/-- C73: the players are listed in the order of their first announcement, one entry per address. -/
theorem C73_order (ops : List RegistryOp) :
    (registryRun ops).map Player.address = (announced ops).eraseDups := by
  induction ops using List.reverseRecOn with
  | nil => rfl
  | append_singleton ops op ih =>
    have hstep : registryRun (ops ++ [op]) = registryStep (registryRun ops) op := by
      unfold registryRun
      rw [List.foldl_append]
      rfl
    rw [hstep, announced_append]
    cases op with
    | setLinking b v =>
      show (modifyPlayer b (·.setLinking v) _).map Player.address = (announced ops ++ []).eraseDups
      rw [modify_addresses, ih, List.append_nil]
    | add p =>
      show (addOrUpdate p _).map Player.address = (announced ops ++ [p.address]).eraseDups
      rw [addOrUpdate_addresses, ih, List.eraseDups_append, List.cons_removeAll]
      simp only [List.mem_eraseDups, List.nil_removeAll]
      by_cases hm : p.address ∈ announced ops
      · simp [hm]
      · have hm' : (announced ops).contains p.address = false := by
          rw [Bool.eq_false_iff]
          intro hc
          exact hm (List.contains_iff_mem.1 hc)
        rw [if_neg hm, hm']
        rfl

/-- C73: calling the iterator `n` times yields the players from the last to the first, then nothing;
its length is the number of players not yet returned. -/
theorem C73_iteration (ps : List Player) (n : Nat) :
    (∀ k < n, (iterCalls n ps).1[k]? = some ps.reverse[k]?) ∧ (iterCalls n ps).1.length = n ∧
    (iterCalls n ps).2.length = ps.length - n := by
  induction n generalizing ps with
  | zero => exact ⟨(fun k h => absurd h (Nat.not_lt_zero k)), rfl, rfl⟩
  | succ n ih =>
    obtain ⟨h1, h2, h3⟩ := ih ps.dropLast
    refine ⟨?_, ?_, ?_⟩
    · intro k hk
      cases k with
      | zero =>
        show some ps.getLast? = some ps.reverse[0]?
        rw [← List.head?_eq_getElem?, List.head?_reverse]
      | succ k =>
        show (iterCalls n ps.dropLast).1[k]? = some ps.reverse[k + 1]?
        rw [h1 k (by omega)]
        congr 1
        rw [← List.tail_reverse, List.getElem?_tail]
    · show (iterCalls n ps.dropLast).1.length + 1 = n + 1
      rw [h2]
    · show (iterCalls n ps.dropLast).2.length = ps.length - (n + 1)
      rw [h3, List.length_dropLast]
      omega

/-- C73: indexing reads the entries in registry order and panics exactly out of bounds. -/
theorem C73_index (ops : List RegistryOp) (i : Nat) :
    (indexPlayer (registryRun ops) i = .panic ↔ (announced ops).eraseDups.length ≤ i) ∧
    ∀ p, indexPlayer (registryRun ops) i = .ok p → (announced ops).eraseDups[i]? = some p.address := by
  have hl : (registryRun ops).length = (announced ops).eraseDups.length := by
    rw [← C73_order, List.length_map]
  rw [← C73_order]
  unfold indexPlayer
  cases h : (registryRun ops)[i]? with
  | none =>
    rw [List.getElem?_eq_none_iff] at h
    refine ⟨⟨fun _ => by rw [List.length_map]; exact h, fun _ => rfl⟩, fun p hp => nomatch hp⟩
  | some q =>
    obtain ⟨hi, rfl⟩ := List.getElem?_eq_some_iff.1 h
    refine ⟨⟨fun e => (nomatch e), fun e => ?_⟩, fun p hp => ?_⟩
    · rw [List.length_map] at e
      omega
    · obtain rfl : (registryRun ops)[i] = p := by injection hp
      rw [List.getElem?_map, h]
      rfl

/-- C73: `push` alone does not keep addresses unique. -/
theorem C73_push_can_duplicate : ∃ (ps : List Player) (p : Player),
    (ps.map Player.address).Nodup ∧ ¬ ((pushPlayer p ps).map Player.address).Nodup :=
  ⟨[Player.new [] 1 7], Player.new [] 2 7, by decide, by decide⟩

/-- C73 in use: the flag of a player, once raised by an announcement, is not lowered by the next. -/
example : entryOf 7 [.add ⟨['X'], 7, 1, true⟩, .add ⟨['Y'], 7, 2, false⟩, .setLinking 8 false] =
    some ⟨['X'], 2, true⟩ := by decide

example : announced [.add ⟨['X'], 7, 1, true⟩, .add ⟨['Y'], 9, 2, false⟩, .add ⟨['Y'], 7, 2, false⟩] =
    [7, 9, 7] := rfl

/-- C73_index, non-vacuity: the second of two players. -/
example : ∃ p, indexPlayer (registryRun [.add ⟨['X'], 7, 1, true⟩, .add ⟨['Y'], 9, 2, false⟩]) 1 = .ok p :=
  ⟨⟨['Y'], 9, 2, false⟩, by decide⟩

end PDJ
