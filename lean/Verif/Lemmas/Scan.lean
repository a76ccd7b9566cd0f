import Verif.Spec.Scan

/-! # The walk, the name conditions and the number parser -/

namespace PDJ

open Spec

/-! ## names -/

theorem utf8Char_head (c : Char) : (utf8Char c).head? = some 0x2e ↔ c = '.' := by
  constructor
  · intro h
    have hc := char_range c
    unfold utf8Char at h
    simp only at h
    have key : ∀ n : Nat, n < 256 → UInt8.ofNat n = 0x2e → n = 0x2e := by
      intro n hn e
      have := congrArg UInt8.toNat e
      simp only [UInt8.toNat_ofNat'] at this
      have h2 : (0x2e : UInt8).toNat = 46 := rfl
      omega
    have done : c.toNat = 0x2e → c = '.' := by
      intro e
      apply Char.ext
      apply UInt32.toNat.inj
      exact e
    split at h
    · simp only [List.head?_cons, Option.some.injEq] at h
      exact done (key _ (by omega) h)
    · split at h
      · simp only [List.head?_cons, Option.some.injEq] at h
        have := key _ (by omega) h
        omega
      · split at h
        · simp only [List.head?_cons, Option.some.injEq] at h
          have := key _ (by omega) h
          omega
        · simp only [List.head?_cons, Option.some.injEq] at h
          have := key _ (by omega) h
          omega
  · rintro rfl
    decide

theorem isHidden_iff (name : Bytes) : isHidden name = true ↔ HiddenName name := by
  unfold isHidden HiddenName
  cases h : fromUtf8 name with
  | none => simp
  | some s =>
    have hu := utf8_fromUtf8 h
    simp only [decide_eq_true_eq]
    constructor
    · intro hs
      refine ⟨?_, s, rfl⟩
      cases s with
      | nil => simp at hs
      | cons c s =>
        simp only [List.head?_cons, Option.some.injEq] at hs
        subst hs
        rw [← hu, utf8_cons]
        rfl
    · rintro ⟨hs, _⟩
      cases s with
      | nil =>
        rw [← hu] at hs
        simp [utf8] at hs
      | cons c s =>
        rw [← hu, utf8_cons] at hs
        have hne : utf8Char c ≠ [] := by
          unfold utf8Char
          simp only
          split
          · simp
          · split
            · simp
            · split <;> simp
        rw [List.head?_append] at hs
        cases hu8 : utf8Char c with
        | nil => exact absurd hu8 hne
        | cons b l =>
          rw [hu8] at hs
          have hs' : (utf8Char c).head? = some 0x2e := by
            rw [hu8]
            simpa using hs
          rw [(utf8Char_head c).1 hs']
          rfl

theorem mp3_iff (name : Bytes) : hasMp3Extension name = true ↔ Mp3Name name := by
  unfold hasMp3Extension Mp3Name
  simp only [decide_eq_true_eq]
  constructor
  · intro h
    unfold extensionOf at h
    split at h
    · simp at h
    · simp only at h
      split at h
      · simp at h
      · rename_i hlen
        split at h
        · simp at h
        · rename_i hbefore
          simp only [Option.some.injEq] at h
          have h1 : name.reverse.takeWhile (· ≠ 0x2e) = [0x33, 0x70, 0x6d] := by
            have := congrArg List.reverse h
            simpa using this
          have h2 := List.takeWhile_append_dropWhile (p := (· ≠ (0x2e : UInt8)))
            (l := name.reverse)
          rw [h1] at h2
          cases hd : name.reverse.dropWhile (· ≠ (0x2e : UInt8)) with
          | nil =>
            rw [hd] at h2
            exfalso
            apply hlen
            have := congrArg List.length h2
            rw [h1]
            simpa using this
          | cons x pre =>
            have hx : x = 0x2e := by
              have := List.head?_dropWhile_not (· ≠ (0x2e : UInt8)) name.reverse
              rw [hd] at this
              simpa using this
            subst hx
            rw [hd] at h2
            have h3 : name = pre.reverse ++ [0x2e, 0x6d, 0x70, 0x33] := by
              have := congrArg List.reverse h2
              rw [List.reverse_reverse] at this
              rw [← this]
              simp
            refine ⟨pre.reverse, ?_, h3⟩
            intro hp
            apply hbefore
            rw [h1, h3, hp]
            rfl
  · rintro ⟨pre, hp, rfl⟩
    have hpos : 0 < pre.length := List.length_pos_iff.2 hp
    have h1 : (pre ++ [0x2e, 0x6d, 0x70, 0x33]).reverse.takeWhile (· ≠ (0x2e : UInt8)) =
        [0x33, 0x70, 0x6d] := by
      simp
    unfold extensionOf
    rw [if_neg (by
      intro e
      have := congrArg List.length e
      simp at this)]
    simp only [h1]
    rw [if_neg (by simp), if_neg (by
      simp only [List.length_append, List.length_cons, List.length_nil, List.length_reverse]
      rw [show pre.length + (0 + 1 + 1 + 1 + 1) - (0 + 1 + 1 + 1) - 1 = pre.length by omega,
        List.take_left]
      exact hp)]
    rfl

/-! ## the walk -/

/-- The name, path and contents of the entries that are files. -/
def fileEntries (es : List Entry) : List (Bytes × Bytes × FileInfo) :=
  es.filterMap (fun e => e.file.map (fun i => (e.name, e.path, i)))

/-- No name is hidden. -/
def visible (names : List Bytes) : Bool := names.all (fun n => !isHidden n)

theorem fileEntries_append (a b : List Entry) :
    fileEntries (a ++ b) = fileEntries a ++ fileEntries b := by
  simp [fileEntries]

theorem getLastD_cons_ne {α : Type} (a : α) (l : List α) (d : α) (h : l ≠ []) :
    (a :: l).getLastD d = l.getLastD d := by
  cases l with
  | nil => exact absurd rfl h
  | cons b l => simp

mutual
theorem allFiles_ne (n : Node) : ∀ x ∈ allFiles n, x.1 ≠ [] := by
  match n with
  | .file name info => simp [allFiles]
  | .dir name es =>
    intro x hx
    rw [allFiles, List.mem_map] at hx
    obtain ⟨y, _, rfl⟩ := hx
    simp
  | .other name => simp [allFiles]
  | .broken => simp [allFiles]
end

theorem allFilesIn_ne (ns : List Node) : ∀ x ∈ allFilesIn ns, x.1 ≠ [] := by
  induction ns with
  | nil => simp [allFilesIn]
  | cons n ns ih =>
    intro x hx
    rw [allFilesIn, List.mem_append] at hx
    rcases hx with hx | hx
    · exact allFiles_ne n x hx
    · exact ih x hx

theorem joinPath_eq (p n : Bytes) : joinPath p n = below p n := by
  unfold joinPath below
  by_cases h : p = []
  · simp [h]
  · simp only [h, if_false, false_or]
    split <;> simp


/-- Where a node of a directory is: its own name is the first of its names. -/
def placed (path : Bytes) (x : List Bytes × FileInfo) : Bytes × Bytes × FileInfo :=
  (x.1.getLastD [], x.1.foldl below path, x.2)

/-- The same for the root, whose own name is not part of its path. -/
def placedRoot (path : Bytes) (x : List Bytes × FileInfo) : Bytes × Bytes × FileInfo :=
  (x.1.getLastD [], pathBelow path x.1, x.2)

mutual
theorem walkNode_files (path : Bytes) (n : Node) :
    fileEntries (walkNode path n) =
      ((allFiles n).filter (fun x => visible x.1)).map (placedRoot path) := by
  match n with
  | .file name info =>
    by_cases h : isHidden name <;>
      simp [walkNode, allFiles, h, visible, fileEntries, placedRoot, pathBelow]
  | .dir name es =>
    rw [walkNode, allFiles]
    by_cases h : isHidden name
    · rw [if_pos h, List.filter_eq_nil_iff.2]
      · rfl
      · intro x hx
        rw [List.mem_map] at hx
        obtain ⟨y, _, rfl⟩ := hx
        simp [visible, h]
    · rw [if_neg h]
      have ih := walkList_files path es
      have e1 : fileEntries (⟨name, path, none⟩ :: walkList path es) =
          fileEntries (walkList path es) := rfl
      rw [e1, ih, List.filter_map, List.map_map]
      have e2 : ((fun x : List Bytes × FileInfo => visible x.1) ∘
          fun x : List Bytes × FileInfo => (name :: x.1, x.2)) = fun x => visible x.1 := by
        funext x
        simp [visible, h]
      rw [e2]
      apply List.map_congr_left
      intro x hx
      have hne := allFilesIn_ne es x ((List.mem_filter.1 hx).1)
      simp only [placed, placedRoot, Function.comp, pathBelow, List.drop_succ_cons, List.drop_zero,
        getLastD_cons_ne _ _ _ hne]
  | .other name =>
    by_cases h : isHidden name <;> simp [walkNode, allFiles, h, fileEntries]
  | .broken => simp [walkNode, allFiles, fileEntries]
theorem walkList_files (path : Bytes) (ns : List Node) :
    fileEntries (walkList path ns) =
      ((allFilesIn ns).filter (fun x => visible x.1)).map (placed path) := by
  match ns with
  | [] => simp [walkList, allFilesIn, fileEntries]
  | n :: ns =>
    rw [walkList, allFilesIn, fileEntries_append, walkList_files path ns, List.filter_append,
      List.map_append]
    congr 1
    rw [joinPath_eq, walkNode_files (below path n.name) n]
    apply List.map_congr_left
    intro x hx
    have hx := (List.mem_filter.1 hx).1
    match n, hx with
    | .file name info, hx =>
      simp only [allFiles, List.mem_singleton] at hx
      subst hx
      simp [placed, placedRoot, pathBelow, Node.name]
    | .dir name es, hx =>
      rw [allFiles, List.mem_map] at hx
      obtain ⟨y, _, rfl⟩ := hx
      simp [placed, placedRoot, pathBelow, Node.name]
    | .other name, hx => simp [allFiles] at hx
    | .broken, hx => simp [allFiles] at hx
end

/-! ## numbers -/

theorem digitOf_eq (c : Char) :
    digitOf c = if '0' ≤ c ∧ c ≤ '9' then some (c.toNat - '0'.toNat) else none := by
  have e : (0x30 ≤ c.toNat ∧ c.toNat ≤ 0x39) ↔ ('0' ≤ c ∧ c ≤ '9') := Iff.rfl
  unfold digitOf
  by_cases h : '0' ≤ c ∧ c ≤ '9'
  · rw [if_pos h, if_pos (e.2 h)]
    rfl
  · rw [if_neg h, if_neg (fun x => h (e.1 x))]

theorem foldl_digits_ge (cs : Str) (acc : Nat) :
    acc ≤ cs.foldl (fun n c => 10 * n + (c.toNat - '0'.toNat)) acc := by
  induction cs generalizing acc with
  | nil => exact Nat.le_refl _
  | cons c cs ih =>
    rw [List.foldl_cons]
    exact Nat.le_trans (by omega) (ih _)

theorem parseDigits_eq (cs : Str) (acc : Nat) (hacc : acc < 4294967296) :
    parseDigits acc cs =
      if (∀ c ∈ cs, '0' ≤ c ∧ c ≤ '9') ∧
          cs.foldl (fun n c => 10 * n + (c.toNat - '0'.toNat)) acc < 4294967296 then
        some (cs.foldl (fun n c => 10 * n + (c.toNat - '0'.toNat)) acc)
      else none := by
  induction cs generalizing acc with
  | nil => simp [parseDigits, hacc]
  | cons c cs ih =>
    rw [parseDigits, digitOf_eq]
    by_cases h : '0' ≤ c ∧ c ≤ '9'
    · rw [if_pos h]
      simp only [List.foldl_cons, List.forall_mem_cons]
      have hge := foldl_digits_ge cs (10 * acc + (c.toNat - '0'.toNat))
      have hcomm : acc * 10 + (c.toNat - '0'.toNat) = 10 * acc + (c.toNat - '0'.toNat) := by omega
      by_cases h1 : acc * 10 < 4294967296
      · rw [if_pos h1]
        by_cases h2 : acc * 10 + (c.toNat - '0'.toNat) < 4294967296
        · rw [if_pos h2, ih _ h2, hcomm]
          simp only [h, true_and, and_self]
        · rw [if_neg h2, if_neg]
          rintro ⟨_, hlt⟩
          omega
      · rw [if_neg h1, if_neg]
        rintro ⟨_, hlt⟩
        omega
    · rw [if_neg h]
      simp only
      rw [if_neg]
      rintro ⟨hall, _⟩
      exact h (hall c (by simp))

theorem parseU32_eq (s : Str) :
    parseU32 s = (decimal s).bind
      (fun v => if v < 4294967296 then some (UInt32.ofNat v) else none) := by
  have gen : ∀ ds : Str, (parseDigits 0 ds).map UInt32.ofNat =
      if (∀ c ∈ ds, '0' ≤ c ∧ c ≤ '9') ∧
          ds.foldl (fun n c => 10 * n + (c.toNat - '0'.toNat)) 0 < 4294967296 then
        some (UInt32.ofNat (ds.foldl (fun n c => 10 * n + (c.toNat - '0'.toNat)) 0))
      else none := by
    intro ds
    rw [parseDigits_eq ds 0 (by omega)]
    split <;> rfl
  have fin : ∀ ds : Str, ds ≠ [] → (parseDigits 0 ds).map UInt32.ofNat =
      (if ds ≠ [] ∧ ∀ c ∈ ds, '0' ≤ c ∧ c ≤ '9' then
        some (ds.foldl (fun n c => 10 * n + (c.toNat - '0'.toNat)) 0)
      else none).bind (fun v => if v < 4294967296 then some (UInt32.ofNat v) else none) := by
    intro ds hne
    rw [gen]
    by_cases h : ∀ c ∈ ds, '0' ≤ c ∧ c ≤ '9'
    · have e : (ds ≠ [] ∧ ∀ c ∈ ds, '0' ≤ c ∧ c ≤ '9') := ⟨hne, h⟩
      rw [if_pos e, Option.bind_some]
      by_cases h2 : ds.foldl (fun n c => 10 * n + (c.toNat - '0'.toNat)) 0 < 4294967296
      · rw [if_pos (And.intro h h2), if_pos h2]
      · rw [if_neg (fun x => h2 x.2), if_neg h2]
    · have e : ¬ (ds ≠ [] ∧ ∀ c ∈ ds, '0' ≤ c ∧ c ≤ '9') := fun x => h x.2
      rw [if_neg (fun x => h x.1), if_neg e]
      rfl
  unfold decimal
  cases s with
  | nil => rfl
  | cons c s =>
    by_cases hc : c = '+'
    · subst hc
      rw [if_pos (show (('+' :: s).head? = some '+') from rfl)]
      cases s with
      | nil => rfl
      | cons d s => exact fin (d :: s) (by simp)
    · rw [if_neg (show ¬ ((c :: s).head? = some '+') by simpa using hc)]
      have e : parseU32 (c :: s) = (parseDigits 0 (c :: s)).map UInt32.ofNat := by
        unfold parseU32
        split
        · rename_i h; simp at h
        · rename_i h
          simp only [List.cons.injEq] at h
          exact absurd h.1 hc
        · rename_i h
          simp only [List.cons.injEq] at h
          exact absurd h.1 hc
        · rfl
      rw [e]
      exact fin (c :: s) (by simp)

end PDJ
