import Verif.Spec.DbWrite
import Verif.Model.Database

/-!
# Specification: a browsing session as a player sees it

Menus, the items of a menu, and the messages that show them, in terms of the read wire format
(`Spec.Msg`) and of the query functions of the library.
-/

namespace PDJ.Spec

/-- The menus a player can ask for. -/
inductive Menu
  | root
  | artists
  | titles
  | albums (artist : UInt32)
  | tracks (artist : UInt32)
  | metadata (track : UInt32)
  | mountInfo (track : UInt32)
deriving DecidableEq, Repr

/-- The number at a position of an argument list. -/
def numAt (i : Nat) (args : List Val) : Option UInt32 :=
  match args[i]? with
  | some (.u32 v) => some v
  | _ => none

/-- The menu a request asks for. -/
def menuOf (q : Msg) : Option Menu :=
  if q.type = 0x1000 then some .root
  else if q.type = 0x1002 then some .artists
  else if q.type = 0x1004 then some .titles
  else if q.type = 0x1102 then (numAt 2 q.args).map .albums
  else if q.type = 0x1202 then (numAt 2 q.args).map .tracks
  else if q.type = 0x2002 then (numAt 1 q.args).map .metadata
  else if q.type = 0x2102 then (numAt 1 q.args).map .mountInfo
  else none

/-- A menu line. -/
structure Item where
  id1 : UInt32 := 0
  id2 : UInt32 := 0
  id4 : UInt32 := 0
  text : Str := []
  kind : UInt32
deriving DecidableEq, Repr

/-- The message showing a menu line. -/
def Item.msg (tx : UInt32) (i : Item) : Msg :=
  ⟨tx, 0x4101,
    [.u32 i.id1, .u32 i.id2, .u32 (UInt32.ofNat (2 * (utf16 i.text).length + 2)), .text i.text,
     .u32 2, .text [], .u32 i.kind, .u32 0, .u32 0, .u32 0, .u32 i.id4, .u32 0]⟩

/-- The messages showing a menu: header, one message per line, footer. -/
def pageMsgs (tx : UInt32) (footer : List Val) (items : List Item) : List Msg :=
  ⟨tx, 0x4001, [.u32 1, .u32 0]⟩ :: items.map (Item.msg tx) ++ [⟨tx, 0x4201, footer⟩]

/-- The arguments of the footer: only the root menu has any. -/
def footerOf : Menu → List Val
  | .root => [.u32 1, .u32 1]
  | _ => []

/-- A bracketed name of the root menu. -/
def bracketed (s : String) : Str := Char.ofNat 0xfffa :: s.toList ++ [Char.ofNat 0xfffb]

/-- The lines of a menu; `none` if the menu cannot be shown (unknown track). -/
def menuItems (io : IterOrder) (db : Db) : Menu → Option (List Item)
  | .root => some
      [ { text := bracketed "ARTIST", kind := 0x81, id2 := 2 },
        { text := bracketed "ALBUM", kind := 0x82, id2 := 3 },
        { text := bracketed "TRACK", kind := 0x83, id2 := 4 },
        { text := bracketed "KEY", kind := 0x8b, id2 := 12 },
        { text := bracketed "PLAYLIST", kind := 0x84, id2 := 5 },
        { text := bracketed "HISTORY", kind := 0x95, id2 := 22 },
        { text := bracketed "SEARCH", kind := 0x91, id2 := 18 } ]
  | .artists => some ((db.allArtists io).map (fun a => { text := a.name, kind := 7, id2 := a.id }))
  | .titles => some [{ text := "Loopmasters".toList, kind := 4, id2 := 5 }]
  | .albums _ => some [{ text := "Unknown".toList, kind := 2 }]
  | .tracks a =>
    some ((db.titleByArtist io a).map (fun t => { text := t.title, kind := 4, id2 := t.id }))
  | .metadata id => do
    let t ← db.getTrack id
    let a ← db.getArtist t.artistId
    some
      [ { id1 := 1, id2 := 5, id4 := 256, text := t.title, kind := 4 },
        { id1 := 1, id2 := 1, text := a.name, kind := 7 },
        { id1 := 1, kind := 2 },
        { id2 := 195, kind := 0x0b },
        { id2 := t.bpm.getD 0, kind := 0x0d },
        { id2 := 5, kind := 0x23 },
        { id1 := 1, kind := 0x0f },
        { kind := 0x0a },
        { kind := 0x13 },
        { kind := 0x06 } ]
  | .mountInfo id => do
    let t ← db.getTrack id
    let path ← fromUtf8 t.path
    some
      [ { id2 := 1, kind := 4 },
        { id2 := 195, kind := 0x0b },
        { id2 := t.bpm.getD 0, kind := 0x0d },
        { text := "Tracks by www.loopmasters.com".toList, kind := 0x23 },
        { id1 := t.size, id2 := 5, text := path, kind := 0 },
        { id2 := 1, kind := 0x2f } ]

/-- The request codes the server has a handler for. -/
def handledCodes : List UInt16 :=
  [0x0000, 0x1000, 0x1002, 0x1004, 0x1102, 0x1202, 0x2002, 0x2004, 0x2102, 0x2b04, 0x3000]

/-- The bytes of a message after its transaction id: type, argument count, tag table, arguments. -/
def IsBody (b : Bytes) : Prop :=
  ∃ c1 c2 n rest, b = 0x10 :: c1 :: c2 :: 0x0f :: n :: 0x14 :: 0 :: 0 :: 0 :: 0x0c :: rest

end PDJ.Spec
