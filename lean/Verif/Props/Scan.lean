import Verif.Lemmas.Scan
import Verif.Lemmas.Database

/-!
# Properties C24, C25: scanning the music folder
-/

namespace PDJ

open Spec

open Classical in
/-- The wanted files of a tree with their paths, in the order of the walk. -/
noncomputable def libraryFiles (root : Bytes) (t : Node) : List (Bytes × FileInfo) :=
  ((allFiles t).filter (fun x => Wanted x.1)).map (fun x => (pathBelow root x.1, x.2))

theorem allFiles_nonempty {t : Node} {x : List Bytes × FileInfo} (h : x ∈ allFiles t) :
    ∃ n, x.1.getLast? = some n ∧ x.1.getLastD [] = n := by
  have hne := allFiles_ne t x h
  refine ⟨x.1.getLast hne, List.getLast?_eq_some_getLast hne, ?_⟩
  rw [List.getLastD_eq_getLast?, List.getLast?_eq_some_getLast hne]
  rfl

theorem visible_iff (names : List Bytes) : visible names = true ↔ ∀ n ∈ names, ¬ HiddenName n := by
  simp only [visible, List.all_eq_true, Bool.not_eq_true', ← isHidden_iff, Bool.not_eq_true]

/-- The files the walk selects are the wanted files. -/
theorem mp3Files_eq (root : Bytes) (t : Node) :
    (mp3Files root t).filterMap (fun e => e.file.map (fun i => (e.path, i))) =
      libraryFiles root t := by
  classical
  have h1 : (mp3Files root t).filterMap (fun e => e.file.map (fun i => (e.path, i))) =
      ((fileEntries (walkNode root t)).filter (fun x => hasMp3Extension x.1)).map (·.2) := by
    unfold mp3Files fileEntries
    generalize walkNode root t = es
    induction es with
    | nil => rfl
    | cons e es ih =>
      cases hf : e.file with
      | none => simpa [List.filter_cons, hf] using ih
      | some i =>
        by_cases hm : hasMp3Extension e.name
        · simpa [List.filter_cons, hf, hm] using ih
        · simpa [List.filter_cons, hf, hm] using ih
  rw [h1, walkNode_files, List.filter_map, List.map_map, List.filter_filter]
  unfold libraryFiles
  have h2 : (allFiles t).filter (fun a => ((fun x => hasMp3Extension x.1) ∘ placedRoot root) a &&
      visible a.1) = (allFiles t).filter (fun x => decide (Wanted x.1)) := by
    apply List.filter_congr
    intro x hx
    obtain ⟨n, hn, hn'⟩ := allFiles_nonempty hx
    rw [Bool.eq_iff_iff]
    simp only [Function.comp, placedRoot, Bool.and_eq_true, decide_eq_true_eq, visible_iff, hn',
      mp3_iff, Wanted, hn, Option.some.injEq, exists_eq_left']
    exact And.comm
  rw [h2]
  rfl

theorem decimal_tempo (s : Str) (t : Id3v2) (h : t.tbpm = some (.text s)) (f : FileInfo)
    (hf : f.v2 = some t) :
    tempo f = (parseU32 s).map (fun v => 100 * v.toNat) := by
  rw [parseU32_eq]
  simp only [tempo, hf, h]
  cases decimal s with
  | none => rfl
  | some v =>
    simp only [Option.bind_some]
    by_cases hv : v < 4294967296
    · rw [if_pos hv, if_pos hv]
      simp only [Option.map_some, UInt32.toNat_ofNat']
      rw [Nat.mod_eq_of_lt (by omega)]
    · rw [if_neg hv, if_neg hv]
      rfl

theorem ofNat_times100 (v : UInt32) : UInt32.ofNat (100 * v.toNat) = v * 100 := by
  apply UInt32.toNat.inj
  simp only [UInt32.toNat_ofNat', UInt32.toNat_mul]
  have : (100 : UInt32).toNat = 100 := rfl
  rw [this, Nat.mul_comm]

/-- Reading one file: a panic exactly for a tempo that does not fit, in a checked build. -/
theorem extractMetadata_eq (m : Mode) (path : Bytes) (f : FileInfo) :
    extractMetadata m path f =
      if m = .debug ∧ ∃ b, tempo f = some b ∧ 4294967296 ≤ b then .panic
      else .ok (record path f) := by
  cases hv2 : f.v2 with
  | none =>
    have ht : tempo f = none := by simp [tempo, hv2]
    rw [if_neg (by simp [ht])]
    unfold extractMetadata extractTags record tagTexts
    rw [hv2, ht]
    cases f.v1 <;> cases f.size <;> rfl
  | some t =>
    have hnone : ∀ (_ : extractBpm m t = .ok none) (_ : tempo f = none),
        extractMetadata m path f =
        if m = .debug ∧ ∃ b, tempo f = some b ∧ 4294967296 ≤ b then .panic
        else .ok (record path f) := by
      intro hb ht
      rw [if_neg (by simp [ht])]
      unfold extractMetadata extractTags record tagTexts
      rw [hv2, ht]
      simp only [hb]
      cases f.size <;> rfl
    cases htb : t.tbpm with
    | none =>
      exact hnone (by simp [extractBpm, htb]) (by simp [tempo, hv2, htb])
    | some c =>
      cases c with
      | other => exact hnone (by simp [extractBpm, htb]) (by simp [tempo, hv2, htb])
      | text s =>
        have ht := decimal_tempo s t htb f hv2
        cases hp : parseU32 s with
        | none =>
          rw [hp] at ht
          exact hnone (by simp [extractBpm, htb, hp]) ht
        | some v =>
          rw [hp, Option.map_some] at ht
          cases m with
          | release =>
            rw [if_neg (by simp)]
            unfold extractMetadata extractTags record tagTexts
            rw [hv2, ht, Option.map_some, ofNat_times100]
            simp only [extractBpm, htb, hp, times100]
            cases f.size <;> rfl
          | debug =>
            by_cases hlt : v.toNat * 100 < 4294967296
            · rw [if_neg (by simp only [ht, Option.some.injEq]; rintro ⟨_, b, rfl, hb⟩; omega)]
              unfold extractMetadata extractTags record tagTexts
              rw [hv2, ht, Option.map_some, ofNat_times100]
              simp only [extractBpm, htb, hp, times100, if_pos hlt]
              cases f.size <;> rfl
            · rw [if_pos ⟨rfl, _, ht, by omega⟩]
              unfold extractMetadata extractTags
              rw [hv2]
              simp only [extractBpm, htb, hp, times100, if_neg hlt]
              rfl

theorem extractAll_eq (m : Mode) (es : List Entry) :
    extractAll m es =
      if m = .debug ∧ ∃ x ∈ es.filterMap (fun e => e.file.map (fun i => (e.path, i))),
          ∃ b, tempo x.2 = some b ∧ 4294967296 ≤ b then .panic
      else .ok ((es.filterMap (fun e => e.file.map (fun i => (e.path, i)))).filterMap
        (fun x => record x.1 x.2)) := by
  induction es with
  | nil => simp [extractAll]
  | cons e es ih =>
    rw [extractAll]
    cases hf : e.file with
    | none =>
      simp only [List.filterMap_cons, hf, Option.map_none]
      exact ih
    | some f =>
      simp only [List.filterMap_cons, hf, Option.map_some, List.mem_cons, exists_eq_or_imp]
      rw [extractMetadata_eq, ih]
      generalize es.filterMap (fun e => e.file.map (fun i => (e.path, i))) = l
      by_cases h1 : m = .debug ∧ ∃ b, tempo f = some b ∧ 4294967296 ≤ b
      · have h3 : m = .debug ∧ ((∃ b, tempo f = some b ∧ 4294967296 ≤ b) ∨
            ∃ x ∈ l, ∃ b, tempo x.2 = some b ∧ 4294967296 ≤ b) := ⟨h1.1, Or.inl h1.2⟩
        rw [if_pos h1, if_pos h3]
        rfl
      · rw [if_neg h1]
        by_cases h2 : m = .debug ∧ ∃ x ∈ l, ∃ b, tempo x.2 = some b ∧ 4294967296 ≤ b
        · have h3 : m = .debug ∧ ((∃ b, tempo f = some b ∧ 4294967296 ≤ b) ∨
              ∃ x ∈ l, ∃ b, tempo x.2 = some b ∧ 4294967296 ≤ b) := ⟨h2.1, Or.inr h2.2⟩
          rw [if_pos h2, if_pos h3]
          rfl
        · have h3 : ¬ (m = .debug ∧ ((∃ b, tempo f = some b ∧ 4294967296 ≤ b) ∨
              ∃ x ∈ l, ∃ b, tempo x.2 = some b ∧ 4294967296 ≤ b)) := by
            rintro ⟨hm, h | h⟩
            · exact h1 ⟨hm, h⟩
            · exact h2 ⟨hm, h⟩
          rw [if_neg h2, if_neg h3]
          simp only [Outcome.bind_ok, Outcome.pure_eq]
          cases record e.path f <;> rfl

/-! ## C24 -/

/-- C24: for every file tree and every content of its files, the scan of an unchecked build yields
exactly the records of the wanted files: regular files with extension `mp3`, no hidden name from the
root entry down, with a readable tag; each once, in the order of the walk. -/
theorem C24_scan_selects_wanted_files (root : Bytes) (t : Node) :
    scanFolder .release root t =
      .ok ((libraryFiles root t).filterMap (fun x => record x.1 x.2)) := by
  unfold scanFolder
  rw [extractAll_eq, if_neg (by simp), mp3Files_eq]

/-- C24 for a checked build: the same, unless some wanted file has a tempo of more than 42949672,
in which case the scan (and with it the start of the program) panics. -/
theorem C24_scan_checked_build (root : Bytes) (t : Node) :
    scanFolder .debug root t =
      if ∃ x ∈ libraryFiles root t, ∃ b, tempo x.2 = some b ∧ 4294967296 ≤ b then .panic
      else .ok ((libraryFiles root t).filterMap (fun x => record x.1 x.2)) := by
  unfold scanFolder
  rw [extractAll_eq, mp3Files_eq]
  simp only [true_and]

/-- C24: every name on the way matters, and only names: membership in terms of the tree. -/
theorem C24_selected_iff (root : Bytes) (t : Node) (path : Bytes) (f : FileInfo) :
    (path, f) ∈ libraryFiles root t ↔
      ∃ names, (names, f) ∈ allFiles t ∧ Wanted names ∧ path = pathBelow root names := by
  simp only [libraryFiles, List.mem_map, List.mem_filter, decide_eq_true_eq, Prod.exists,
    Prod.mk.injEq]
  constructor
  · rintro ⟨names, f', ⟨h1, h2⟩, h3, rfl⟩
    exact ⟨names, h1, h2, h3.symm⟩
  · rintro ⟨names, h1, h2, h3⟩
    exact ⟨names, f, ⟨h1, h2⟩, h3.symm, rfl⟩

/-- A tree with a hidden folder, a file in capitals, a link and a wanted file. -/
def sampleTree : Node :=
  let info : FileInfo := ⟨some ⟨some ['A'], some ['x'], none, some (.text ['1', '2', '0'])⟩, none,
    some 4294967300⟩
  .dir [0x6d]
    [.dir [0x2e, 0x68] [.file [0x61, 0x2e, 0x6d, 0x70, 0x33] info],
     .file [0x61, 0x2e, 0x4d, 0x50, 0x33] info,
     .other [0x6c, 0x2e, 0x6d, 0x70, 0x33],
     .broken,
     .file [0x61, 0x2e, 0x6d, 0x70, 0x33] info]

example : scanFolder .debug [0x2f, 0x6d] sampleTree =
    .ok [⟨['A'], ['x'], some 12000, [], [0x2f, 0x6d, 0x2f, 0x61, 0x2e, 0x6d, 0x70, 0x33], 4⟩] := by
  decide +kernel

/-! ## C25 -/

/-- C25: exactly what a tempo text is stored as.  `decimal s` is the number the text denotes. -/
theorem C25_tempo_partial (m : Mode) (tag : Id3v2) (s : Str) (h : tag.tbpm = some (.text s)) :
    match decimal s with
    | none => extractBpm m tag = .ok none
    | some v =>
      (v ≤ 42949672 → ∃ b, extractBpm m tag = .ok (some b) ∧ b.toNat = 100 * v) ∧
      (42949672 < v → v < 4294967296 → extractBpm .debug tag = .panic ∧
        ∃ b, extractBpm .release tag = .ok (some b) ∧ b.toNat = 100 * v % 4294967296 ∧
          b.toNat ≠ 100 * v) ∧
      (4294967296 ≤ v → extractBpm m tag = .ok none) := by
  have e : ∀ m, extractBpm m tag = match parseU32 s with
      | some v => (times100 m v).bind (fun b => .ok (some b))
      | none => .ok none := by
    intro m
    simp only [extractBpm, h]
    rfl
  simp only [e, parseU32_eq]
  cases decimal s with
  | none => rfl
  | some v =>
    simp only [Option.bind_some]
    refine ⟨?_, ?_, ?_⟩
    · intro hv
      rw [if_pos (by omega)]
      have hn : (UInt32.ofNat v).toNat = v := by
        rw [UInt32.toNat_ofNat']; omega
      have hb : (UInt32.ofNat v * 100).toNat = 100 * v := by
        have h100 : (100 : UInt32).toNat = 100 := rfl
        rw [UInt32.toNat_mul, hn, h100]
        omega
      cases m with
      | debug =>
        simp only [times100, hn]
        rw [if_pos (by omega)]
        exact ⟨_, rfl, hb⟩
      | release => exact ⟨_, rfl, hb⟩
    · intro h1 h2
      rw [if_pos h2]
      have hn : (UInt32.ofNat v).toNat = v := by
        rw [UInt32.toNat_ofNat']; omega
      have hb : (UInt32.ofNat v * 100).toNat = 100 * v % 4294967296 := by
        have h100 : (100 : UInt32).toNat = 100 := rfl
        rw [UInt32.toNat_mul, hn, h100]
        omega
      constructor
      · simp only [times100, hn]
        rw [if_neg (by omega)]
        rfl
      · refine ⟨_, rfl, hb, ?_⟩
        rw [hb]
        omega
    · intro h1
      rw [if_neg (by omega)]

/-- C25: a missing or non-text frame is no tempo. -/
theorem C25_no_text_no_tempo (m : Mode) (tag : Id3v2) (h : ∀ s, tag.tbpm ≠ some (.text s)) :
    extractBpm m tag = .ok none := by
  unfold extractBpm
  split
  · rename_i s hs
    exact absurd hs (h s)
  · rfl

/-- C25: what the decimal texts are: the usual decimal representation of every number denotes it. -/
theorem C25_decimal_representation (v : Nat) : decimal (Nat.toDigits 10 v) = some v := by
  have hdig : ∀ c ∈ Nat.toDigits 10 v, '0' ≤ c ∧ c ≤ '9' := by
    intro c hc
    have := Nat.isDigit_of_mem_toDigits (by omega) (by omega) hc
    simp only [Char.isDigit, Bool.and_eq_true, decide_eq_true_eq] at this
    exact this
  have hne : Nat.toDigits 10 v ≠ [] := by
    intro e
    have := Nat.length_toDigits_pos (b := 10) (n := v)
    rw [e] at this
    simp at this
  unfold decimal
  have hplus : (Nat.toDigits 10 v).head? ≠ some '+' := by
    intro e
    cases hd : Nat.toDigits 10 v with
    | nil => exact hne hd
    | cons c l =>
      rw [hd] at e hdig
      simp only [List.head?_cons, Option.some.injEq] at e
      subst e
      have := (hdig '+' (by simp)).1
      exact absurd this (by decide)
  rw [if_neg hplus, if_pos ⟨hne, hdig⟩]
  have := Nat.ofDigitChars_toDigits (b := 10) (n := v) (by omega) (by omega)
  rw [Nat.ofDigitChars_eq_foldl] at this
  rw [this]

/-- C25 is false for large tempos: a witness in both builds. -/
theorem C25_large_tempo_wrong :
    ∃ tag : Id3v2, tag.tbpm = some (.text "42949673".toList) ∧
      extractBpm .debug tag = .panic ∧ extractBpm .release tag = .ok (some 4) := by
  refine ⟨⟨none, none, none, some (.text "42949673".toList)⟩, rfl, ?_, ?_⟩ <;> decide +kernel

example : extractBpm .debug ⟨none, none, none, some (.text "128".toList)⟩ =
    .ok (some 12800) := by decide +kernel

/-- C25, instances: a tempo of 174, and a tag without one. -/
example := C25_tempo_partial .debug ⟨none, none, none, some (.text ['1', '7', '4'])⟩ ['1', '7', '4'] rfl
example := C25_no_text_no_tempo .debug ⟨some ['A'], some ['x'], none, none⟩ (by simp)

end PDJ
