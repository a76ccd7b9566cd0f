import Verif.Spec.EndToEnd
import Verif.Spec.Catalog

/-!
# Specification: the folder before and after a restart
-/

namespace PDJ.Spec

open Classical in
/-- The library records of a list of files, in the order of the list: the wanted files with a
readable tag and a known size. -/
noncomputable def musicOf (root : Bytes) (files : List (List Bytes × FileInfo)) : List MetaTrack :=
  files.filterMap fun x => if Wanted x.1 then record (pathBelow root x.1) x.2 else none

/-- A record without the album, which the library does not keep. -/
def exceptAlbum (r : MetaTrack) : MetaTrack := { r with album := [] }

/-- What a player can learn about a record. -/
def shownOf (r : MetaTrack) : Str × Str × UInt32 × Bytes × UInt32 :=
  (r.artist, r.title, r.bpm.getD 0, r.path, r.size)

/-- A start of the application on the folder `t` found at `root` ended with the library `db`; the
hash orders during indexing are arbitrary. -/
def StartedOn (m : Mode) (root : Bytes) (t : Node) (db : Db) : Prop :=
  ∃ l : List (IterOrder × MetaTrack), scanFolder m root t = .ok (l.map (·.2)) ∧
    l.length ≤ capacity ∧ Db.build m l = .ok db

/-- A player that asks for the mount info of `id` is sent to the file `path`. -/
def LeadsTo (m : Mode) (db : Db) (id : UInt32) (path : Str) (size : UInt32) : Prop :=
  ∀ dmst, MenuShows m db 0x2102 [.u32 dmst, .u32 id] fun ms => lines 0x00 ms = [(size, 5, path)]

end PDJ.Spec
