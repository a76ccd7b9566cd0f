import Verif.Base.Unicode
import Verif.Base.Outcome

/-!
# The in-memory track database

`/repo/src/rekordbox/library/database.rs`, `library/helper.rs`, `library/model.rs`.

* `HashMap<u32, T>` is an association list with unique keys (`mapInsert` keeps them unique).
  Iterating a `HashMap` visits the entries in an unspecified order: every iteration goes through an
  arbitrary `IterOrder`.
* The `RwLock` is only written while the database is built (`Database::new`), so it is never
  poisoned afterwards: a panic while writing unwinds out of the constructor.  Reads therefore
  always succeed and the lock is not part of the model.
* The mutex inside `Sequence` is private to the table and never poisoned for the same reason.
-/

namespace PDJ

/-- An iteration order of hash maps: any permutation of the entries (`HashMap` iteration, used by
the queries in library/database.rs; the order is unspecified by the standard library). -/
structure IterOrder where
  f : {α : Type} → List α → List α
  perm : ∀ {α : Type} (l : List α), (f l).Perm l

/-- The order in which the entries are stored (no line in the source; one of the orders a `HashMap`
(library/database.rs 15, 20) may have). -/
def IterOrder.id : IterOrder := ⟨fun l => l, fun _ => List.Perm.refl _⟩

/-- `HashMap::insert` (used in library/database.rs 93, 108). -/
def mapInsert {α : Type} (k : UInt32) (v : α) (l : List (UInt32 × α)) : List (UInt32 × α) :=
  l.filter (fun e => e.1 ≠ k) ++ [(k, v)]

/-- `HashMap::get` (used in library/database.rs 212, 237). -/
def mapGet {α : Type} (k : UInt32) (l : List (UInt32 × α)) : Option α :=
  (l.find? (fun e => e.1 = k)).map (·.2)

/-- `Artist` (database.rs 52-56). -/
structure Artist where
  id : UInt32
  name : Str
deriving DecidableEq, Repr

/-- `Track` (database.rs 32-40).  A `PathBuf` is its bytes. -/
structure Track where
  id : UInt32
  artistId : UInt32
  title : Str
  path : Bytes
  size : UInt32
  bpm : Option UInt32
deriving DecidableEq, Repr

/-- `Metadata` and `MetadataTrack` (model.rs 3-16), flattened. -/
structure MetaTrack where
  artist : Str
  title : Str
  bpm : Option UInt32
  album : Str
  path : Bytes
  size : UInt32
deriving DecidableEq, Repr

/-- `ArtistTable` / `TrackTable` with their `Sequence` (database.rs 14-22, 150-160). -/
structure Table (α : Type) where
  rows : List (UInt32 × α)
  counter : UInt32

/-- `ArtistTable::new` / `TrackTable::new`, `Sequence::new` (database.rs 124-140, 154-160). -/
def Table.empty {α : Type} : Table α := ⟨[], 1⟩

/-- `Sequence::increment` (database.rs 162-172): the new counter value, or an overflow panic. -/
def seqIncrement (m : Mode) (c : UInt32) : Outcome UInt32 :=
  match m with
  | .debug => if c.toNat + 1 < 4294967296 then .ok (c + 1) else .panic
  | .release => .ok (c + 1)

/-- `ArtistTable::insert` (database.rs 83-102). -/
def artistInsert (m : Mode) (io : IterOrder) (t : Table Artist) (name : Str) :
    Outcome (UInt32 × Table Artist) :=
  match (io.f t.rows).find? (fun e => e.2.name = name) with
  | some e => .ok (e.1, t)
  | none =>
    match seqIncrement m t.counter with
    | .ok id => .ok (id, ⟨mapInsert id ⟨id, name⟩ t.rows, id⟩)
    | .panic => .panic

/-- `TrackTable::insert` (database.rs 104-121). -/
def trackInsert (m : Mode) (t : Table Track) (artistId : UInt32) (title : Str) (path : Bytes)
    (size : UInt32) (bpm : Option UInt32) : Outcome (UInt32 × Table Track) :=
  match seqIncrement m t.counter with
  | .ok id => .ok (id, ⟨mapInsert id ⟨id, artistId, title, path, size, bpm⟩ t.rows, id⟩)
  | .panic => .panic

/-- `InnerDatabase` (database.rs 182-185). -/
structure Db where
  artists : Table Artist
  tracks : Table Track

namespace Db

/-- The empty database of `Database::new` (database.rs 193-200). -/
def empty : Db := ⟨.empty, .empty⟩

/-- `Database::index` (database.rs 261-276). -/
def index (m : Mode) (io : IterOrder) (db : Db) (t : MetaTrack) : Outcome Db := do
  let (aid, artists) ← artistInsert m io db.artists t.artist
  let (_, tracks) ← trackInsert m db.tracks aid t.title t.path t.size t.bpm
  pure ⟨artists, tracks⟩

/-- The loop of `Database::new` (database.rs 202-204) from a given database.  Each iteration may see
its own hash order. -/
def indexAll (m : Mode) : Db → List (IterOrder × MetaTrack) → Outcome Db
  | db, [] => .ok db
  | db, (io, t) :: ts => do
    let db' ← db.index m io t
    indexAll m db' ts

/-- `Database::new` (database.rs 192-207) for the tracks a scan yields. -/
def build (m : Mode) (ts : List (IterOrder × MetaTrack)) : Outcome Db := indexAll m empty ts

/-- `Database::get_track` (database.rs 209-221). -/
def getTrack (db : Db) (id : UInt32) : Option Track := mapGet id db.tracks.rows

/-- `Database::get_artist` (database.rs 234-246). -/
def getArtist (db : Db) (id : UInt32) : Option Artist := mapGet id db.artists.rows

/-- `Database::artists` (database.rs 223-232). -/
def allArtists (io : IterOrder) (db : Db) : List Artist := (io.f db.artists.rows).map (·.2)

/-- `Database::title_by_artist` (database.rs 248-259). -/
def titleByArtist (io : IterOrder) (db : Db) (aid : UInt32) : List Track :=
  ((io.f db.tracks.rows).map (·.2)).filter (fun t => t.artistId = aid)

end Db

/-- `number_of_artists` (helper.rs 7-9). -/
def numberOfArtists (io : IterOrder) (db : Db) : UInt32 := UInt32.ofNat (db.allArtists io).length

/-- `number_of_tracks_by_artist` (helper.rs 11-13). -/
def numberOfTracksByArtist (io : IterOrder) (db : Db) (aid : UInt32) : UInt32 :=
  UInt32.ofNat (db.titleByArtist io aid).length

end PDJ
