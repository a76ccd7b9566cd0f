import Verif.Model.Library
import Verif.Spec.Browse
import Verif.Spec.Scan
import Verif.Spec.Nfs

/-!
# Specification: from the folder to the player

A player asks for a menu with one message and reads it with a second one, the render request.
-/

namespace PDJ.Spec

/-- Whatever the session state, hash orders, transaction ids, render arguments and bytes after the
two messages: the player gets a readable menu for which `P` holds. -/
def MenuShows (m : Mode) (db : Db) (type : UInt16) (args : List Val) (P : List Msg → Prop) : Prop :=
  ∀ (io io' : IterOrder) (ctx : Ctx) (tx tx' : UInt32) (more more' : Bytes) (window : List Val),
    Sendable ⟨tx', 0x3000, window⟩ → ∃ reply ctx' reply' msgs,
      process m io db (writeMsg ⟨tx, type, args⟩ ++ more) ctx = .ok (reply, ctx') ∧
      process m io' db (writeMsg ⟨tx', 0x3000, window⟩ ++ more') ctx' = .ok (reply', ctx') ∧
      readReply reply' = some msgs ∧ P msgs

/-- The absolute path made of components. -/
def pathOf (parts : List Str) : Str := parts.flatMap fun c => '/' :: c

/-- In the file system `w` the components lead through directories to the regular file `g` with
metadata `md`; everything on the way can be opened and has its time stamps. -/
def OnDisk {F : Type} (w : World F) (parts : List Str) (md : Meta) (g : F) : Prop :=
  w.stat (pathOf parts) = some md ∧ md.isFile = true ∧ Dated md ∧
  w.openFile (pathOf parts) = some g ∧
  ∀ dir rest, dir ≠ [] → rest ≠ [] → parts = dir ++ rest → ∃ dm dg,
    w.stat (pathOf dir) = some dm ∧ dm.isFile = false ∧ Dated dm ∧
    w.openFile (pathOf dir) = some dg

end PDJ.Spec
