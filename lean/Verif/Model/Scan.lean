import Verif.Model.Database

/-!
# Scanning the music folder

`/repo/src/library.rs`.

* The file tree is a value: what `walkdir` finds below the root, in the order it finds it.  Symbolic
  links, devices and so on are `other`; entries that cannot be read (and directories that cannot be
  listed) are `broken`.
* The `id3` crate is a parameter: for each file the result of reading its ID3v2 tag, the result of
  reading its ID3v1 tag (including opening the file), and the result of `metadata`.
* `scanFolder` is the scan of a folder that is not given by a symbolic link, and whatever its name; links and the
  name that belongs to a path are at the end.  The behaviour of walkdir (2.3) is from memory.
-/

namespace PDJ

/-- The content of a `TBPM` frame: text or something else (src/library.rs 40-48). -/
inductive FrameContent
  | text (s : Str)
  | other
deriving DecidableEq, Repr

/-- The part of an ID3v2 tag that is used (src/library.rs 54-61). -/
structure Id3v2 where
  artist : Option Str
  title : Option Str
  album : Option Str
  tbpm : Option FrameContent
deriving DecidableEq, Repr

/-- The part of an ID3v1 tag that is used (src/library.rs 63-70). -/
structure Id3v1 where
  artist : Str
  title : Str
  album : Str
deriving DecidableEq, Repr

/-- What reading a file gives (src/library.rs 94-119). -/
structure FileInfo where
  v2 : Option Id3v2
  v1 : Option Id3v1
  size : Option UInt64
deriving DecidableEq, Repr

/-- A node of the file tree with its file name (what `WalkDir` meets, src/library.rs 29). -/
inductive Node
  | file (name : Bytes) (info : FileInfo)
  | dir (name : Bytes) (entries : List Node)
  | other (name : Bytes)
  | broken

/-- The file name of a node (none is needed for a broken one) (`file_name` in src/library.rs 14). -/
def Node.name : Node → Bytes
  | .file name _ => name
  | .dir name _ => name
  | .other name => name
  | .broken => []

/-- A `DirEntry` that `walkdir` yields: its file name, its path, and its contents if it is a regular
file (src/library.rs 28). -/
structure Entry where
  name : Bytes
  path : Bytes
  file : Option FileInfo

/-- `is_hidden` (library.rs 13-18): a name that is not UTF-8 is not hidden. -/
def isHidden (name : Bytes) : Bool :=
  match fromUtf8 name with
  | some s => s.head? = some '.'
  | none => false

/-- `Path::extension`: the part of the file name after its last dot, unless that dot is its first
byte or the name is `..` (used in src/library.rs 25). -/
def extensionOf (name : Bytes) : Option Bytes :=
  if name = [0x2e, 0x2e] then none
  else
    let ext := (name.reverse.takeWhile (· ≠ 0x2e)).reverse
    let before := name.take (name.length - ext.length - 1)
    if ext.length = name.length then none
    else if before = [] then none
    else some ext

/-- `has_mp3_extension` (library.rs 24-26). -/
def hasMp3Extension (name : Bytes) : Bool := extensionOf name = some [0x6d, 0x70, 0x33]

/-- `Path::join` with a relative name (inside walkdir, src/library.rs 29). -/
def joinPath (p n : Bytes) : Bytes :=
  if p = [] then n else if p.getLast? = some 0x2f then p ++ n else p ++ [0x2f] ++ n

mutual
/-- `WalkDir::new(t).into_iter().filter_entry(|e| !is_hidden(e)).filter_map(|e| e.ok())`
(library.rs 29-32): a hidden entry is skipped and not descended into; `path` is the path of the
node. -/
def walkNode (path : Bytes) : Node → List Entry
  | .file name info => if isHidden name then [] else [⟨name, path, some info⟩]
  | .dir name entries =>
    if isHidden name then [] else ⟨name, path, none⟩ :: walkList path entries
  | .other name => if isHidden name then [] else [⟨name, path, none⟩]
  | .broken => []
/-- The entries of a directory in turn (src/library.rs 29-32). -/
def walkList (path : Bytes) : List Node → List Entry
  | [] => []
  | n :: ns => walkNode (joinPath path n.name) n ++ walkList path ns
end

/-- `mp3_files_iterator` (library.rs 28-35). -/
def mp3Files (root : Bytes) (t : Node) : List Entry :=
  (walkNode root t).filter (fun e => e.file.isSome && hasMp3Extension e.name)

/-- `char::to_digit(10)` (inside `parse`, src/library.rs 42). -/
def digitOf (c : Char) : Option Nat :=
  if 0x30 ≤ c.toNat ∧ c.toNat ≤ 0x39 then some (c.toNat - 0x30) else none

/-- The digit loop of `u32::from_str` with its checked multiplication and addition (src/library.rs
42). -/
def parseDigits (acc : Nat) : Str → Option Nat
  | [] => some acc
  | c :: cs =>
    match digitOf c with
    | none => none
    | some d =>
      if acc * 10 < 4294967296 then
        if acc * 10 + d < 4294967296 then parseDigits (acc * 10 + d) cs else none
      else none

/-- `str::parse::<u32>`: an optional plus sign and at least one digit (src/library.rs 42). -/
def parseU32 (s : Str) : Option UInt32 :=
  match s with
  | [] => none
  | '+' :: [] => none
  | '+' :: cs => (parseDigits 0 cs).map UInt32.ofNat
  | cs => (parseDigits 0 cs).map UInt32.ofNat

/-- `value * 100` (library.rs 43). -/
def times100 (m : Mode) (v : UInt32) : Outcome UInt32 :=
  match m with
  | .debug => if v.toNat * 100 < 4294967296 then .ok (v * 100) else .panic
  | .release => .ok (v * 100)

/-- `extract_bpm` (library.rs 37-52). -/
def extractBpm (m : Mode) (tag : Id3v2) : Outcome (Option UInt32) :=
  match tag.tbpm with
  | some (.text s) =>
    match parseU32 s with
    | some v => do
      let b ← times100 m v
      pure (some b)
    | none => .ok none
  | _ => .ok none

/-- The tags of a file (library.rs 95-108): `extract_id3v2` (54-61), else `extract_id3v1` (63-70).
Artist, title, tempo, album. -/
def extractTags (m : Mode) (f : FileInfo) : Outcome (Option (Str × Str × Option UInt32 × Str)) :=
  match f.v2 with
  | some t =>
    (extractBpm m t).bind fun bpm =>
      .ok (some (t.artist.getD [], t.title.getD [], bpm, t.album.getD []))
  | none =>
    match f.v1 with
    | some t => .ok (some (t.artist, t.title, none, t.album))
    | none => .ok none

/-- `metadata_extractor` (library.rs 94-120), followed by `Track::new` (model.rs 19-25). -/
def extractMetadata (m : Mode) (path : Bytes) (f : FileInfo) : Outcome (Option MetaTrack) :=
  (extractTags m f).bind fun
    | none => .ok none
    | some (artist, title, bpm, album) =>
      match f.size with
      | some n => .ok (some ⟨artist, title, bpm, album, path, n.toUInt32⟩)
      | none => .ok none

/-- `filter_map(metadata_extractor)` over the entries found (src/library.rs 124). -/
def extractAll (m : Mode) : List Entry → Outcome (List MetaTrack)
  | [] => .ok []
  | e :: es =>
    match e.file with
    | none => extractAll m es
    | some f => do
      let t ← extractMetadata m e.path f
      let ts ← extractAll m es
      pure (t.toList ++ ts)

/-- `scan_folder` (library.rs 122-127). -/
def scanFolder (m : Mode) (root : Bytes) (t : Node) : Outcome (List MetaTrack) :=
  extractAll m (mp3Files root t)

/-! ## The folder as it is given -/

/-- What is at the path of the music folder: no symbolic link, or a link of that name and what it leads to
(`WalkDir::new`, src/library.rs 29). -/
inductive RootEntry
  | node (t : Node)
  | link (name : Bytes) (target : Node)

/-- The walk from there (src/library.rs 29-32).  walkdir follows a link at the root, though its entry is that of a
link and not of a directory.  As `filter_entry` keeps from descending only below entries of directories, the
target of a hidden link is listed nevertheless.  A link that leads nowhere is an error. -/
def walkRoot (path : Bytes) : RootEntry → List Entry
  | .node t => walkNode path t
  | .link name (.dir _ entries) =>
    (if isHidden name then [] else [⟨name, path, none⟩]) ++ walkList path entries
  | .link _ .broken => []
  | .link name _ => if isHidden name then [] else [⟨name, path, none⟩]

/-- `scan_folder` (library.rs 122-127) of whatever is at a path. -/
def scanRoot (m : Mode) (root : Bytes) (t : RootEntry) : Outcome (List MetaTrack) :=
  extractAll m ((walkRoot root t).filter (fun e => e.file.isSome && hasMp3Extension e.name))

/-- The parts of a path between its slashes (`Path::components`, used in src/library.rs 14). -/
def splitSlash : Bytes → List Bytes
  | [] => [[]]
  | b :: bs =>
    if b = 0x2f then [] :: splitSlash bs
    else
      match splitSlash bs with
      | [] => [[b]]
      | p :: ps => (b :: p) :: ps

/-- `file_name` of the entry for the root (src/library.rs 14): `Path::file_name`, or the whole path if there is
none: if it ends with `..`, or has no component except `.`. -/
def rootName (path : Bytes) : Bytes :=
  match ((splitSlash path).filter (fun c => c ≠ [] ∧ c ≠ [0x2e])).getLast? with
  | some n => if n = [0x2e, 0x2e] then path else n
  | none => path

/-- The music folder of the program (main.rs 11), by the components of its path. -/
def mainFolder : List Str :=
  ["home".toList, "jonas".toList, "Music".toList, "TermDJ".toList]

end PDJ
