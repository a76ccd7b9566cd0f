import Verif.Model.Stream
import Verif.Spec.Replies

/-!
# Specification: reading a stream of replies

TCP keeps no boundaries: a player reads the stream message by message.
-/

namespace PDJ.Spec

/-- From the beginning of the stream the player reads these messages and then comes to these bytes. -/
inductive Reads : Bytes → List Msg → Bytes → Prop
  | nil {s} : Reads s [] s
  | cons {s q s' qs r} (h : readMsg s = some (q, s')) (hs : Reads s' qs r) : Reads s (q :: qs) r

/-- The player reads these messages, and the bytes that are left are not a message (yet). -/
def ReadsAll (s : Bytes) (qs : List Msg) (rest : Bytes) : Prop := Reads s qs rest ∧ readMsg rest = none

/-- The replies of a connection to these pieces. -/
def replyList (m : Mode) (db : Db) (xs : List StreamEvent) : List Bytes :=
  (connRun m db (.open none) (xs.map fun x => (x.order, x.chunk))).1.filterMap id

/-- The replies of a connection to these pieces, one after another. -/
def answers (m : Mode) (db : Db) (xs : List StreamEvent) : Bytes := (replyList m db xs).flatten

/-- All texts of a scanned library can be written: names, titles and paths of at most 127 units. -/
def AllFit (l : List MetaTrack) : Prop :=
  ∀ x ∈ l, Fits x.artist ∧ Fits x.title ∧ ∃ path, fromUtf8 x.path = some path ∧ Fits path

/-- A request of a well-behaved player, with any bytes behind it; not the title request, to which the
answer is not a message. -/
structure Request (n : Nat) (q : Msg) : Prop where
  sendable : Sendable q
  complete : ¬ Incomplete q
  known : AsksForTrackBelow n q
  notTitle : q.type ≠ 0x1004

/-- Any request of a well-behaved player, the title request among them. -/
structure AnyRequest (n : Nat) (q : Msg) : Prop where
  sendable : Sendable q
  complete : ¬ Incomplete q
  known : AsksForTrackBelow n q

end PDJ.Spec
