import Verif.Model.Scan

/-!
# Specification: the music files below a folder

All files with the list of names leading to them, without regard to hiding or extensions; then the
conditions on the names.
-/

namespace PDJ.Spec

mutual
/-- All files in a tree, each with the names from the root entry down to the file. -/
def allFiles : Node → List (List Bytes × FileInfo)
  | .file name info => [([name], info)]
  | .dir name entries => (allFilesIn entries).map (fun x => (name :: x.1, x.2))
  | .other _ => []
  | .broken => []
/-- All files in a list of trees. -/
def allFilesIn : List Node → List (List Bytes × FileInfo)
  | [] => []
  | n :: ns => allFiles n ++ allFilesIn ns
end

/-- A name that is valid UTF-8 and starts with a dot. -/
def HiddenName (name : Bytes) : Prop := name.head? = some 0x2e ∧ ∃ s, fromUtf8 name = some s

/-- A name with a non-empty part before `.mp3`. -/
def Mp3Name (name : Bytes) : Prop := ∃ pre, pre ≠ [] ∧ name = pre ++ [0x2e, 0x6d, 0x70, 0x33]

/-- The files that belong in the library. -/
def Wanted (names : List Bytes) : Prop :=
  (∀ n ∈ names, ¬ HiddenName n) ∧ ∃ n, names.getLast? = some n ∧ Mp3Name n

/-- A name below a path: a slash in between, unless the path is empty or already ends with one. -/
def below (path name : Bytes) : Bytes :=
  if path = [] ∨ path.getLast? = some 0x2f then path ++ name else path ++ 0x2f :: name

/-- The path of a file below the root path: the names after the root entry, separated by slashes. -/
def pathBelow (root : Bytes) (names : List Bytes) : Bytes := (names.drop 1).foldl below root

/-- The number a text denotes: an optional plus sign, then digits. -/
def decimal (s : Str) : Option Nat :=
  let ds := if s.head? = some '+' then s.tail else s
  if ds ≠ [] ∧ ∀ c ∈ ds, '0' ≤ c ∧ c ≤ '9' then
    some (ds.foldl (fun n c => 10 * n + (c.toNat - '0'.toNat)) 0)
  else none

/-- The tempo of a file in hundredths, `none` for no tempo: only an ID3v2 tag has one. -/
def tempo (f : FileInfo) : Option Nat :=
  match f.v2 with
  | some t =>
    match t.tbpm with
    | some (.text s) =>
      match decimal s with
      | some v => if v < 4294967296 then some (100 * v) else none
      | none => none
    | _ => none
  | none => none

/-- Artist, title and album of a file: the ID3v2 tag, else the ID3v1 tag. -/
def tagTexts (f : FileInfo) : Option (Str × Str × Str) :=
  match f.v2, f.v1 with
  | some t, _ => some (t.artist.getD [], t.title.getD [], t.album.getD [])
  | none, some t => some (t.artist, t.title, t.album)
  | none, none => none

/-- The library record of a file, `none` if it has no readable tag or its size is unknown. -/
def record (path : Bytes) (f : FileInfo) : Option MetaTrack :=
  match tagTexts f, f.size with
  | some (artist, title, album), some n =>
    some ⟨artist, title, (tempo f).map UInt32.ofNat, album, path, UInt32.ofNat n.toNat⟩
  | _, _ => none

end PDJ.Spec
