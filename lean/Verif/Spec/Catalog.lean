import Verif.Model.Database

/-!
# Specification: the catalogue of a scanned music folder

Written without reference to tables, counters or hash maps: the distinct artist names in the order
of first appearance, and ids that are positions.
-/

namespace PDJ.Spec

/-- The distinct elements in the order of first appearance. -/
def distinct : List Str → List Str
  | l => l.foldl (fun acc s => if s ∈ acc then acc else acc ++ [s]) []

/-- The artist names of a scan, each once. -/
def artistNames (ts : List MetaTrack) : List Str := distinct (ts.map (·.artist))

/-- The artist id of a name: positions count from 2. -/
def artistIdOf (ts : List MetaTrack) (name : Str) : UInt32 :=
  UInt32.ofNat ((artistNames ts).idxOf name + 2)

/-- The artists of a scan. -/
def catalogArtists (ts : List MetaTrack) : List Artist :=
  (artistNames ts).mapIdx (fun k n => ⟨UInt32.ofNat (k + 2), n⟩)

/-- The tracks of a scan: the k-th track (from 0) has id k + 2. -/
def catalogTracks (ts : List MetaTrack) : List Track :=
  ts.mapIdx (fun k t =>
    ⟨UInt32.ofNat (k + 2), artistIdOf ts t.artist, t.title, t.path, t.size, t.bpm⟩)

/-- How many tracks fit: ids 2 to 2^32 - 1. -/
def capacity : Nat := 4294967294

end PDJ.Spec
