import Verif.Model.Flow

/-!
# Specification: what a library connection can make the process send and keep

Only the types of the model are used, and for the slow player the replies of a connection that is read at
once.
-/

namespace PDJ.Spec

/-- What a reply of the library can need at most: 2000 bytes, and for each track of the library 102 bytes,
four for each character of the names of its artist and itself and two for each byte of its path. -/
def libraryBytes (l : List MetaTrack) : Nat :=
  2000 + (l.map fun x => 102 + 4 * x.artist.length + 4 * x.title.length + 2 * x.path.length).sum

/-- The pieces a player has sent in a history. -/
def piecesOf : List FlowEvent → List (IterOrder × Bytes)
  | [] => []
  | .chunk io b :: xs => (io, b) :: piecesOf xs
  | _ :: xs => piecesOf xs

/-- What is yet to be sent to the player. -/
def owed (s : FlowEnd) : Bytes :=
  match s.sending with
  | .before reply => s.buffer ++ reply
  | _ => s.buffer

end PDJ.Spec
