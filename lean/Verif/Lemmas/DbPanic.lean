import Verif.Lemmas.DbCodec
import Verif.Spec.DbPanic

/-!
# Helper lemmas: when the remote-DB parser panics
-/

namespace PDJ

open Spec

theorem word_cons (a b c d : UInt8) (r : Bytes) :
    word (a :: b :: c :: d :: r) = (ofBe32 a b c d).toNat := rfl

theorem argSpan_u8 (m : Mode) (i : Bytes) :
    argSpan m FieldKind.u8.argValue i = if 2 ≤ i.length then some 2 else none := by
  unfold argSpan
  rw [if_pos (by decide)]

theorem argSpan_u16 (m : Mode) (i : Bytes) :
    argSpan m FieldKind.u16.argValue i = if 3 ≤ i.length then some 3 else none := by
  unfold argSpan
  rw [if_neg (by decide), if_pos (by decide)]

theorem argSpan_u32 (m : Mode) (i : Bytes) :
    argSpan m FieldKind.u32.argValue i = if 5 ≤ i.length then some 5 else none := by
  unfold argSpan
  rw [if_neg (by decide), if_neg (by decide), if_pos (by decide)]

theorem argSpan_binary (m : Mode) (i : Bytes) :
    argSpan m FieldKind.binary.argValue i = if i.length < 4 then some 0
      else if 4 + word i ≤ i.length then some (4 + word i) else none := by
  unfold argSpan
  rw [if_neg (by decide), if_neg (by decide), if_neg (by decide), if_neg (by decide), if_pos (by decide)]

theorem argSpan_string_short (m : Mode) (i : Bytes) (h : i.length < 5) :
    argSpan m FieldKind.string.argValue i = none := by
  unfold argSpan
  rw [if_neg (by decide), if_neg (by decide), if_neg (by decide), if_pos (by decide), if_neg (by omega)]

theorem argSpan_string_debug (i : Bytes) (h : 5 ≤ i.length) :
    argSpan .debug FieldKind.string.argValue i =
      if 1 ≤ word (i.drop 1) ∧ (word (i.drop 1) - 1) * 2 < 4294967296 ∧
        7 + (word (i.drop 1) - 1) * 2 ≤ i.length then
        some (7 + (word (i.drop 1) - 1) * 2) else none := by
  unfold argSpan
  rw [if_neg (by decide), if_neg (by decide), if_neg (by decide), if_pos (by decide), if_pos h]

theorem argSpan_string_release (i : Bytes) (h : 5 ≤ i.length) :
    argSpan .release FieldKind.string.argValue i =
      if 7 + (word (i.drop 1) + 4294967295) * 2 % 4294967296 ≤ i.length then
        some (7 + (word (i.drop 1) + 4294967295) * 2 % 4294967296) else none := by
  unfold argSpan
  rw [if_neg (by decide), if_neg (by decide), if_neg (by decide), if_pos (by decide), if_pos h]

/-- `sp` says how many bytes a parser consumes, or that it does not succeed. -/
def SpanOf (p : PRes DBField) (i : Bytes) : Option Nat → Prop
  | some n => ∃ f, p = PRes.ok (i.drop n) f
  | none => ∀ r f, p ≠ PRes.ok r f

theorem span_take2 (i : Bytes) (n : Nat) (k : FieldKind) :
    SpanOf ((do
        let _ ← P.take 1
        let data ← P.take n
        pure (⟨k, data⟩ : DBField) : Parser DBField) i) i
      (if n + 1 ≤ i.length then some (n + 1) else none) := by
  simp only [bind_def, pure_def]
  match i with
  | [] => rw [if_neg (by simp)]; simp [SpanOf]
  | a :: r =>
    simp only [P.take_succ_cons, P.take_zero, PRes.andThen_ok, List.length_cons]
    by_cases h : n ≤ r.length
    · rw [if_pos (by omega), P.take_long h]
      exact ⟨_, rfl⟩
    · rw [if_neg (by omega), P.take_short (by omega)]
      simp [SpanOf]

theorem span_binary (i : Bytes) :
    SpanOf (argDecodeBinary i) i (if i.length < 4 then some 0
      else if 4 + word i ≤ i.length then some (4 + word i) else none) := by
  unfold argDecodeBinary
  by_cases h4 : i.length < 4
  · rw [if_pos h4, if_pos h4]
    exact ⟨_, rfl⟩
  · rw [if_neg h4, if_neg h4]
    match i, h4 with
    | a :: b :: c :: d :: r, _ =>
      have hd : argDecodeBlob (a :: b :: c :: d :: r) =
          (P.take (ofBe32 a b c d).toNat r).andThen (fun rest v => PRes.ok rest ⟨.binary, v⟩) := rfl
      have hl : (a :: b :: c :: d :: r).length = r.length + 4 := rfl
      rw [hd, word_cons, hl]
      generalize (ofBe32 a b c d).toNat = v
      by_cases h : v ≤ r.length
      · rw [if_pos (by omega), P.take_long h]
        refine ⟨⟨.binary, r.take v⟩, ?_⟩
        rw [show 4 + v = v + 1 + 1 + 1 + 1 by omega]
        rfl
      · rw [if_neg (by omega), P.take_short (by omega)]
        simp [SpanOf]
    | [], h4 => exact absurd h4 (by simp)
    | [_], h4 => exact absurd h4 (by simp)
    | [_, _], h4 => exact absurd h4 (by simp)
    | [_, _, _], h4 => exact absurd h4 (by simp)

/-- Reading `n` bytes and a two-byte terminator. -/
def strTail (n : Nat) : Parser DBField := do
  let data ← P.take n
  let _ ← P.beU16
  pure ⟨.string, data⟩

theorem span_strTail (t a b c d : UInt8) (r : Bytes) (n : Nat) :
    SpanOf (strTail n r) (t :: a :: b :: c :: d :: r)
      (if 7 + n ≤ r.length + 5 then some (7 + n) else none) := by
  simp only [strTail, bind_def, pure_def]
  by_cases h : n + 2 ≤ r.length
  · rw [if_pos (by omega), P.take_long (show n ≤ r.length by omega)]
    simp only [PRes.andThen_ok]
    rcases P.beU16_cases (r.drop n) with ⟨r', x, hx⟩ | ⟨_, hlt⟩
    · rw [hx]
      refine ⟨⟨.string, r.take n⟩, ?_⟩
      simp only [PRes.andThen_ok]
      have hdr := P.beU16_eq_ok.1 hx
      rw [show 7 + n = (n + 2) + 1 + 1 + 1 + 1 + 1 by omega]
      simp only [List.drop_succ_cons]
      rw [← List.drop_drop, hdr]
      rfl
    · rw [List.length_drop] at hlt; omega
  · rw [if_neg (by omega)]
    intro r' f
    by_cases h2 : n ≤ r.length
    · rw [P.take_long h2]
      simp only [PRes.andThen_ok]
      rcases P.beU16_cases (r.drop n) with ⟨r'', x, hx⟩ | ⟨he, _⟩
      · have hdr := P.beU16_eq_ok.1 hx
        have := congrArg List.length hdr
        simp at this
        omega
      · rw [he]; simp
    · rw [P.take_short (by omega)]; simp

theorem argDecode_string_cons (m : Mode) (t a b c d : UInt8) (r : Bytes) :
    argDecode m .string (t :: a :: b :: c :: d :: r) =
      match strTakeLen m (ofBe32 a b c d) with
      | none => PRes.panic
      | some n => strTail n r := by
  simp only [argDecode, bind_def, P.take_succ_cons, P.take_zero, PRes.andThen_ok, P.beU32_cons]
  cases strTakeLen m (ofBe32 a b c d) <;> rfl

theorem toNat_expr (v : UInt32) : ((v - 1) * 2).toNat = (v.toNat + 4294967295) * 2 % 4294967296 := by
  have h1 : (v - 1).toNat = (v.toNat + 4294967295) % 4294967296 := by
    rw [UInt32.toNat_sub]
    have : (1 : UInt32).toNat = 1 := rfl
    rw [this]
    omega
  rw [UInt32.toNat_mul, h1]
  have : (2 : UInt32).toNat = 2 := rfl
  rw [this]
  omega
theorem strTakeLen_release (v : UInt32) :
    strTakeLen .release v = some ((v.toNat + 4294967295) * 2 % 4294967296) := by
  rw [← toNat_expr]
  rfl

theorem span_string (m : Mode) (t a b c d : UInt8) (r : Bytes) :
    SpanOf (argDecode m .string (t :: a :: b :: c :: d :: r)) (t :: a :: b :: c :: d :: r)
      (argSpan m FieldKind.string.argValue (t :: a :: b :: c :: d :: r)) := by
  have h5 : 5 ≤ (t :: a :: b :: c :: d :: r).length := by simp
  have hw : word ((t :: a :: b :: c :: d :: r).drop 1) = (ofBe32 a b c d).toNat := rfl
  have hlen : (t :: a :: b :: c :: d :: r).length = r.length + 5 := rfl
  rw [argDecode_string_cons]
  cases m with
  | debug =>
    rw [argSpan_string_debug _ h5, hw, hlen]
    simp only [strTakeLen]
    generalize (ofBe32 a b c d).toNat = v
    by_cases h0 : v = 0
    · rw [if_pos h0, if_neg (by omega)]
      simp [SpanOf]
    · rw [if_neg h0]
      by_cases h1 : (v - 1) * 2 < 4294967296
      · rw [if_pos h1]
        have key := span_strTail t a b c d r ((v - 1) * 2)
        by_cases h2 : 7 + (v - 1) * 2 ≤ r.length + 5
        · rw [if_pos h2] at key
          rw [if_pos ⟨by omega, h1, h2⟩]
          exact key
        · rw [if_neg h2] at key
          rw [if_neg (fun h => h2 h.2.2)]
          exact key
      · rw [if_neg h1, if_neg (fun h => h1 h.2.1)]
        simp [SpanOf]
  | release =>
    rw [argSpan_string_release _ h5, hw, hlen, strTakeLen_release]
    generalize ((ofBe32 a b c d).toNat + 4294967295) * 2 % 4294967296 = n
    exact span_strTail t a b c d r n

theorem argDecode_string_short (m : Mode) (i : Bytes) (h : i.length < 5) :
    SpanOf (argDecode m .string i) i none := by
  intro r f
  simp only [argDecode, bind_def]
  match i with
  | [] => simp
  | t :: s =>
    simp only [P.take_succ_cons, P.take_zero, PRes.andThen_ok]
    rcases P.beU32_cases s with ⟨r', x, hx⟩ | ⟨he, _⟩
    · have := congrArg List.length (P.beU32_eq_ok.1 hx)
      simp at this h
      omega
    · rw [he]; simp

theorem argDecode_span (m : Mode) (k : FieldKind) (i : Bytes) :
    SpanOf (argDecode m k i) i (argSpan m k.argValue i) := by
  cases k with
  | u8 => rw [argSpan_u8]; exact span_take2 i 1 .u8
  | u16 => rw [argSpan_u16]; exact span_take2 i 2 .u16
  | u32 => rw [argSpan_u32]; exact span_take2 i 4 .u32
  | binary => rw [argSpan_binary]; exact span_binary i
  | string =>
    match i with
    | t :: a :: b :: c :: d :: r => exact span_string m t a b c d r
    | [] => rw [argSpan_string_short _ _ (by simp)]; exact argDecode_string_short m _ (by simp)
    | [_] => rw [argSpan_string_short _ _ (by simp)]; exact argDecode_string_short m _ (by simp)
    | [_, _] => rw [argSpan_string_short _ _ (by simp)]; exact argDecode_string_short m _ (by simp)
    | [_, _, _] =>
      rw [argSpan_string_short _ _ (by simp)]; exact argDecode_string_short m _ (by simp)
    | [_, _, _, _] =>
      rw [argSpan_string_short _ _ (by simp)]; exact argDecode_string_short m _ (by simp)

theorem argSpan_unknown (m : Mode) (t : UInt8) (i : Bytes) (h : FieldKind.argNew t = none) :
    argSpan m t i = none := by
  unfold FieldKind.argNew at h
  unfold argSpan
  split at h
  · simp at h
  · split at h
    · simp at h
    · split at h
      · simp at h
      · split at h
        · simp at h
        · split at h
          · simp at h
          · simp [*]

theorem argValue_argNew {t : UInt8} {k : FieldKind} (h : FieldKind.argNew t = some k) :
    k.argValue = t := by
  unfold FieldKind.argNew at h
  repeat' split at h
  all_goals first
    | (simp only [Option.some.injEq] at h; subst h; simp only [FieldKind.argValue, *])
    | simp at h

theorem argsLoop_panic (m : Mode) (types : Bytes) (c n : Nat) (i : Bytes) (hc : c ≤ types.length) :
    argsLoop m types c n i = .panic ↔
      (types.length < c + n ∨ ¬ ArgsReadable m ((types.drop c).take n) i) := by
  induction n generalizing c i with
  | zero => simp [argsLoop, ArgsReadable]; omega
  | succ n ih =>
    unfold argsLoop
    by_cases hlt : c < types.length
    · have hget : types[c]? = some types[c] := List.getElem?_eq_getElem hlt
      have hdrop : types.drop c = types[c] :: types.drop (c + 1) := List.drop_eq_getElem_cons hlt
      rw [hget, hdrop, List.take_succ_cons]
      simp only [ArgsReadable]
      cases hk : FieldKind.argNew types[c] with
      | none =>
        simp [argSpan_unknown m _ i hk]
      | some k =>
        have hsp := argDecode_span m k i
        rw [argValue_argNew hk] at hsp
        cases hs : argSpan m types[c] i with
        | none =>
          rw [hs] at hsp
          simp only [SpanOf] at hsp ⊢
          cases hd : argDecode m k i with
          | ok r f => exact absurd hd (hsp r f)
          | err => simp
          | fail => simp
          | panic => simp
        | some sp =>
          rw [hs] at hsp
          simp only [SpanOf] at hsp ⊢
          obtain ⟨f, hf⟩ := hsp
          rw [hf]
          have ih' := ih (c + 1) (i.drop sp) hlt
          have hr : (∃ n', some sp = some n' ∧
              ArgsReadable m (List.take n (List.drop (c + 1) types)) (List.drop n' i)) ↔
              ArgsReadable m (List.take n (List.drop (c + 1) types)) (List.drop sp i) := by simp
          rw [hr]
          have hlen : types.length < c + (n + 1) ↔ types.length < c + 1 + n := by omega
          rw [hlen, ← ih']
          simp only
          cases argsLoop m types (c + 1) n (i.drop sp) <;> simp
    · have hget : types[c]? = none := List.getElem?_eq_none (by omega)
      rw [hget]
      simp only [true_iff]
      left; omega

theorem argsBody_panic (m : Mode) (types : Bytes) (n : Nat) (i : Bytes) :
    argsBody m types n i = .panic ↔
      (types.length < n ∨ ¬ ArgsReadable m (types.take n) i) := by
  have h := argsLoop_panic m types 0 n i (by omega)
  simp only [Nat.zero_add, List.drop_zero] at h
  rw [← h]
  unfold argsBody
  cases argsLoop m types 0 n i <;> simp

theorem argsDecode_panic (m : Mode) (i : Bytes) :
    argsDecode m i = .panic ↔
      ∃ (n0 n : UInt8) (fill tags body : Bytes), fill.length = 5 ∧ tags.length = 12 ∧
        i = n0 :: n :: (fill ++ (tags ++ body)) ∧
        (12 < n.toNat ∨ ¬ ArgsReadable m (tags.take n.toNat) body) := by
  constructor
  · intro h
    simp only [argsDecode, bind_def, PRes.andThen_eq_panic, P.take_ne_panic, false_or] at h
    obtain ⟨r1, cnt, h1, r2, fill, h2, r3, tags, h3, h4⟩ := h
    obtain ⟨hl1, rfl⟩ := P.take_eq_ok.1 h1
    obtain ⟨hl2, rfl⟩ := P.take_eq_ok.1 h2
    obtain ⟨hl3, rfl⟩ := P.take_eq_ok.1 h3
    match cnt, hl1 with
    | [n0, n], _ =>
      rw [argsBody_panic, hl3] at h4
      exact ⟨n0, n, fill, tags, r3, hl2, hl3, rfl, h4⟩
  · rintro ⟨n0, n, fill, tags, body, hf, ht, rfl, h⟩
    simp only [argsDecode, bind_def, P.take_succ_cons, P.take_zero, PRes.andThen_ok]
    have := P.take_append (a := fill) (b := tags ++ body) hf
    rw [this]
    simp only [PRes.andThen_ok]
    have := P.take_append (a := tags) (b := body) ht
    rw [this]
    simp only [PRes.andThen_ok]
    rw [argsBody_panic, ht]
    exact h

theorem name_none (k : UInt8) :
    FieldKind.name k = none ↔ k ∉ ([0x0f, 0x10, 0x11, 0x14, 0x26] : List UInt8) := by
  unfold FieldKind.name
  repeat' split
  all_goals simp_all

theorem requestType_ne_panic (i : Bytes) : DBMessage.requestType i ≠ .panic := by
  match i with
  | [] => simp [DBMessage.requestType, bind_def]
  | [_] => simp [DBMessage.requestType, bind_def, P.beU16]
  | [_, _] => simp [DBMessage.requestType, bind_def, P.beU16]
  | _ :: _ :: _ :: _ => simp [DBMessage.requestType, bind_def, pure_def]

theorem requestType_eq_ok {i r : Bytes} {rt : ReqType} (h : DBMessage.requestType i = .ok r rt) :
    ∃ t a b, i = t :: a :: b :: r ∧ rt = ReqType.new (ofBe16 a b) := by
  match i, h with
  | [], h => simp [DBMessage.requestType, bind_def] at h
  | [_], h => simp [DBMessage.requestType, bind_def, P.beU16] at h
  | [_, _], h => simp [DBMessage.requestType, bind_def, P.beU16] at h
  | t :: a :: b :: s, h =>
    simp only [DBMessage.requestType, bind_def, pure_def, P.take_succ_cons, P.take_zero,
      PRes.andThen_ok, P.beU16_cons, PRes.ok.injEq] at h
    exact ⟨t, a, b, by rw [h.1], h.2.symm⟩

theorem requestType_cons (t a b : UInt8) (r : Bytes) :
    DBMessage.requestType (t :: a :: b :: r) = .ok r (ReqType.new (ofBe16 a b)) := by
  simp [DBMessage.requestType, bind_def, pure_def]

theorem magic_eq_ok {i r v : Bytes} (h : DBMessage.magic i = .ok r v) :
    ∃ t, i = t :: (DBMessage.magicBytes ++ r) := by
  match i, h with
  | [], h => simp [DBMessage.magic, bind_def] at h
  | t :: s, h =>
    simp only [DBMessage.magic, bind_def, P.take_succ_cons, P.take_zero, PRes.andThen_ok] at h
    obtain ⟨_, rfl⟩ := P.tag_eq_ok.1 h
    exact ⟨t, rfl⟩

theorem magic_ne_panic (i : Bytes) : DBMessage.magic i ≠ .panic := by
  match i with
  | [] => simp [DBMessage.magic, bind_def]
  | t :: s =>
    simp only [DBMessage.magic, bind_def, P.take_succ_cons, P.take_zero, PRes.andThen_ok]
    exact P.tag_ne_panic _ _

theorem transactionId_eval (k : UInt8) (tx r : Bytes) (h : tx.length = 4) :
    DBMessage.transactionId (k :: (tx ++ r)) =
      match FieldKind.name k with
      | none => PRes.panic
      | some f => PRes.ok r ⟨f, tx⟩ := by
  simp only [DBMessage.transactionId, bind_def, P.take_succ_cons, P.take_zero, PRes.andThen_ok]
  rw [P.take_append h]
  simp only [PRes.andThen_ok, List.getD_cons_zero]
  cases FieldKind.name k <;> rfl

theorem transactionId_cases {i : Bytes} :
    (∃ k tx r, tx.length = 4 ∧ i = k :: (tx ++ r)) ∨ DBMessage.transactionId i = .err := by
  match i with
  | [] => right; simp [DBMessage.transactionId, bind_def]
  | k :: s =>
    by_cases h : s.length < 4
    · right
      simp only [DBMessage.transactionId, bind_def, P.take_succ_cons, P.take_zero,
        PRes.andThen_ok, P.take_short h, PRes.andThen_err]
    · left
      exact ⟨k, s.take 4, s.drop 4, by simp; omega, by simp⟩

/-- The parser panics exactly on the chunks described by the specification. -/
theorem parse_panic_iff (m : Mode) (i : Bytes) :
    DBMessage.parse m i = .panic ↔ ChunkCrashes m i := by
  constructor
  · intro h
    simp only [DBMessage.parse, bind_def, PRes.andThen_eq_panic, magic_ne_panic, false_or] at h
    obtain ⟨r1, v1, h1, h2⟩ := h
    obtain ⟨t0, rfl⟩ := magic_eq_ok h1
    rcases transactionId_cases (i := r1) with ⟨k, tx, r, hl, rfl⟩ | he
    · rw [transactionId_eval k tx r hl] at h2
      refine ⟨t0, k, tx, r, hl, rfl, ?_⟩
      cases hk : FieldKind.name k with
      | none => left; exact (name_none k).1 hk
      | some f =>
        right
        rw [hk] at h2
        simp only [reduceCtorEq, PRes.ok.injEq, false_or] at h2
        obtain ⟨_, _, ⟨rfl, rfl⟩, h3⟩ := h2
        rcases h3 with h3 | ⟨r4, rt, h3, h4⟩
        · exact absurd h3 (requestType_ne_panic _)
        obtain ⟨t1, a, b, rfl, _⟩ := requestType_eq_ok h3
        rcases h4 with h4 | ⟨r5, args, _, h6⟩
        · obtain ⟨n0, n, fill, tags, body, hf, ht, rfl, hp⟩ := (argsDecode_panic m _).1 h4
          exact ⟨t1, a, b, n0, n, fill, tags, body, hf, ht, rfl, hp⟩
        · simp at h6
    · rw [he] at h2
      simp at h2
  · rintro ⟨t0, k, tx, rest, hl, rfl, h⟩
    simp only [DBMessage.parse, bind_def]
    have hm := magic_ok t0 (k :: (tx ++ rest))
    simp only [DBMessage.magicBytes, List.cons_append, List.nil_append] at hm
    rw [hm]
    simp only [PRes.andThen_ok]
    rw [transactionId_eval k tx rest hl]
    cases hk : FieldKind.name k with
    | none => rfl
    | some f =>
      rcases h with h | ⟨t1, ty1, ty2, n0, n, fill, tags, body, hf, ht, rfl, hp⟩
      · exact absurd ((name_none k).2 h) (by simp [hk])
      · simp only [PRes.andThen_ok]
        rw [requestType_cons]
        simp only [PRes.andThen_ok]
        rw [(argsDecode_panic m _).2 ⟨n0, n, fill, tags, body, hf, ht, rfl, hp⟩]
        rfl

end PDJ
