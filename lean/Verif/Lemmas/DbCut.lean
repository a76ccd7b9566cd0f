import Verif.Lemmas.DbWrite
import Verif.Lemmas.DbPanic

/-!
# A request cut short
-/

namespace PDJ

open Spec

theorem argDecode_cut (m : Mode) (v : Val) (hw : Writable v) (j : Nat)
    (hj : j < (writeVal v).length) (r : Bytes) (f : DBField) :
    argDecode m (fieldOf v).kind ((writeVal v).take j) ≠ PRes.ok r f := by
  have h := argDecode_span m (fieldOf v).kind ((writeVal v).take j)
  have hn : argSpan m (fieldOf v).kind.argValue ((writeVal v).take j) = none := by
    cases v with
    | u8 v =>
      have hj : j < 2 := hj
      show argSpan m FieldKind.u8.argValue _ = none
      rw [argSpan_u8, if_neg]
      simp
      omega
    | u16 v =>
      have hj : j < 3 := hj
      show argSpan m FieldKind.u16.argValue _ = none
      rw [argSpan_u16, if_neg]
      simp
      omega
    | u32 v =>
      have hj : j < 5 := hj
      show argSpan m FieldKind.u32.argValue _ = none
      rw [argSpan_u32, if_neg]
      simp
      omega
    | blob b => exact hw.elim
    | text s =>
      have hw : (utf16 s).length < 2147483648 := hw
      show argSpan m FieldKind.string.argValue _ = none
      have he : ∃ a b c d, writeVal (.text s) = 0x26 :: a :: b :: c :: d :: (utf16be s ++ [0, 0]) ∧
          (ofBe32 a b c d).toNat = (utf16 s).length + 1 := by
        refine ⟨_, _, _, _, rfl, ?_⟩
        rw [ofBe32_be32, UInt32.toNat_ofNat']
        omega
      obtain ⟨a, b, c, d, he, hn⟩ := he
      rw [he] at hj ⊢
      simp only [List.length_cons, List.length_append, length_utf16be, List.length_nil] at hj
      by_cases h5 : j < 5
      · exact argSpan_string_short _ _ (by simp; omega)
      · obtain ⟨k, rfl⟩ : ∃ k, j = k + 5 := ⟨j - 5, by omega⟩
        simp only [List.take_succ_cons]
        generalize hr : (utf16be s ++ [0, 0]).take k = r
        have hl : r.length = k := by
          rw [← hr]
          simp
          omega
        have hw : word (((0x26 : UInt8) :: a :: b :: c :: d :: r).drop 1) = (utf16 s).length + 1 := hn
        cases m with
        | debug =>
          rw [argSpan_string_debug _ (by simp), hw, if_neg]
          simp only [List.length_cons]
          omega
        | release =>
          rw [argSpan_string_release _ (by simp), hw, if_neg]
          simp only [List.length_cons]
          omega
  rw [hn] at h
  exact h r f

theorem argsLoop_cut (m : Mode) (vs : List Val) (pre post : Bytes) (j : Nat)
    (hs : ∀ v ∈ vs, Writable v)
    (hj : j < (vs.flatMap writeVal).length) :
    argsLoop m (pre ++ vs.map (fun v => (fieldOf v).kind.argValue) ++ post) pre.length vs.length
      ((vs.flatMap writeVal).take j) = .panic := by
  induction vs generalizing pre j with
  | nil => exact absurd hj (by simp)
  | cons v vs ih =>
    have ht : (pre ++ List.map (fun v => (fieldOf v).kind.argValue) (v :: vs) ++ post)[pre.length]? =
        some (fieldOf v).kind.argValue := by
      simp
    have hv := hs v (by simp)
    simp only [List.length_cons]
    unfold argsLoop
    rw [ht]
    simp only [argNew_argValue]
    simp only [List.flatMap_cons, List.length_append] at hj ⊢
    by_cases h : j < (writeVal v).length
    · rw [List.take_append_of_le_length (by omega)]
      have := argDecode_cut m v hv j h
      split
      · rename_i r f he
        exact absurd he (this r f)
      · rfl
    · rw [List.take_append, List.take_of_length_le (by omega), argDecode_writeVal m v hv]
      have ih' := ih (pre ++ [(fieldOf v).kind.argValue]) (j - (writeVal v).length)
        (fun w hw => hs w (by simp [hw])) (by omega)
      simp only [List.length_append, List.length_cons, List.length_nil, List.append_assoc,
        List.cons_append, List.nil_append, Nat.zero_add] at ih'
      simp only [List.map_cons, List.cons_append, List.append_assoc]
      rw [ih']

/-- No request is understood before its last byte is there. -/
theorem parse_cut (m : Mode) (q : Msg) (h : Sendable q) (k : Nat) (hk : k < (writeMsg q).length) :
    DBMessage.parse m ((writeMsg q).take k) = if k < 32 then .err else .panic := by
  obtain ⟨h12, hs⟩ := (sendable_iff q).1 h
  have hl : (head20 q).length = 20 := rfl
  rw [writeMsg_head q h12] at hk ⊢
  generalize hT : q.args.map (fun v => (fieldOf v).kind.argValue) ++
      List.replicate (12 - q.args.length) 0 = T at hk ⊢
  have hT' : T.length = 12 := by
    rw [← hT]
    simp
    omega
  by_cases h20 : k < 20
  · rw [if_pos (by omega), List.take_append_of_le_length (by omega)]
    rcases (by omega : k = 0 ∨ k = 1 ∨ k = 2 ∨ k = 3 ∨ k = 4 ∨ k = 5 ∨ k = 6 ∨ k = 7 ∨ k = 8 ∨ k = 9 ∨
      k = 10 ∨ k = 11 ∨ k = 12 ∨ k = 13 ∨ k = 14 ∨ k = 15 ∨ k = 16 ∨ k = 17 ∨ k = 18 ∨ k = 19) with
      rfl | rfl | rfl | rfl | rfl | rfl | rfl | rfl | rfl | rfl | rfl | rfl | rfl | rfl | rfl | rfl | rfl |
      rfl | rfl | rfl <;> rfl
  · rw [List.take_append, List.take_of_length_le (by omega), parse_head20, hl]
    by_cases h32 : k < 32
    · rw [if_pos h32, P.take_short (by simp [hT']; omega)]
      rfl
    · rw [if_neg h32, List.take_append, List.take_of_length_le (by omega), P.take_append hT']
      have hc : (UInt8.ofNat q.args.length).toNat = q.args.length := by
        simp only [UInt8.toNat_ofNat']; omega
      have := argsLoop_cut m q.args [] (List.replicate (12 - q.args.length) 0) (k - 20 - 12) hs (by
        simp only [List.length_append, hl, hT'] at hk
        omega)
      simp only [List.nil_append, List.length_nil, hT] at this
      simp only [PRes.andThen_ok, argsBody, hc, hT', this]
      rfl

end PDJ
