import Verif.Model.DbMessage
import Verif.Model.Database
import Verif.Model.Waveform

/-!
# The remote-DB request handlers

`/repo/src/rekordbox/library.rs`.
-/

namespace PDJ

/-- `StatefulRequest` (library.rs 595-604). -/
inductive Stateful
  | rootMenu
  | artist
  | title
  | albumByArtist (artistId : UInt32)
  | titleByArtistAlbum (artistId : UInt32)
  | metadata (trackId : UInt32)
  | mountInfo (trackId : UInt32)
deriving DecidableEq, Repr

/-- The part of `ClientState` that changes (library.rs 28-46): `previous_request`.  The shared
server state is never used by the handlers and the database is read-only. -/
abbrev Ctx := Option Stateful

/-- `MOUNT_PATH` (library/metadata_type.rs 3). -/
def MT.mountPath : UInt32 := 0x00
/-- library/metadata_type.rs 5. -/
def MT.album : UInt32 := 0x02
/-- library/metadata_type.rs 6. -/
def MT.title : UInt32 := 0x04
/-- library/metadata_type.rs 7. -/
def MT.genre : UInt32 := 0x06
/-- library/metadata_type.rs 8. -/
def MT.artist : UInt32 := 0x07
/-- library/metadata_type.rs 10. -/
def MT.rating : UInt32 := 0x0a
/-- library/metadata_type.rs 11. -/
def MT.duration : UInt32 := 0x0b
/-- library/metadata_type.rs 12. -/
def MT.bpm : UInt32 := 0x0d
/-- library/metadata_type.rs 14. -/
def MT.key : UInt32 := 0x0f
/-- library/metadata_type.rs 15. -/
def MT.colorNone : UInt32 := 0x13
/-- library/metadata_type.rs 18. -/
def MT.comment : UInt32 := 0x23
/-- library/metadata_type.rs 16. -/
def MT.unknown1 : UInt32 := 0x2f
/-- library/metadata_type.rs 19. -/
def MT.rootArtist : UInt32 := 0x81
/-- library/metadata_type.rs 20. -/
def MT.rootAlbum : UInt32 := 0x82
/-- library/metadata_type.rs 21. -/
def MT.rootTrack : UInt32 := 0x83
/-- library/metadata_type.rs 22. -/
def MT.rootPlaylist : UInt32 := 0x84
/-- library/metadata_type.rs 24. -/
def MT.rootKey : UInt32 := 0x8b
/-- library/metadata_type.rs 26. -/
def MT.rootSearch : UInt32 := 0x91
/-- library/metadata_type.rs 27. -/
def MT.rootHistory : UInt32 := 0x95

/-- `ok_request` (library.rs 53-55). -/
def okRequest : Bytes := (⟨.u16, [0x40, 0x00]⟩ : DBField).asBytes

/-- `dbfield_to_u32` (library.rs 523-535): panics on a non-u32 field and on fewer than four
bytes (slice index). -/
def dbfieldToU32 (f : DBField) : Outcome UInt32 :=
  if f.kind ≠ .u32 then .panic
  else
    match f.value with
    | a :: b :: c :: d :: _ => .ok (ofBe32 a b c d)
    | _ => .panic

/-- `arguments[i]` (db_message_argument.rs 75-80): panics when out of bounds. -/
def argAt (d : DBMessage) (i : Nat) : Outcome DBField := Outcome.unwrap d.args[i]?

/-- The field `[0, 0, request_type[0], request_type[1]]` used in several replies (library.rs 96,
114). -/
def typeField (r : ReqType) : DBField := ⟨.u32, [0, 0] ++ r.value⟩

/-- `build_message_header` (library.rs 145-154). -/
def msgHeader (t : DBField) : DBMessage :=
  ⟨t, .menuHeader, [.ofArr4 0 0 0 1, .ofArr4 0 0 0 0]⟩

/-- A menu item message (the `MenuItem` messages, library.rs 156-172, 321-482). -/
def msgItem (t : DBField) (a : ItemArgs) : DBMessage := ⟨t, .menuItem, a.toArgs⟩

/-- `build_message_item` (library.rs 156-172). -/
def buildItem (t : DBField) (value1 : Str) (ty id2 : UInt32) : DBMessage :=
  msgItem t { entryId2 := id2, value1 := value1, ty := ty }

/-- `build_message_footer` (library.rs 174-180). -/
def msgFooter11 (t : DBField) : DBMessage := ⟨t, .menuFooter, [.ofU32 1, .ofU32 1]⟩

/-- The footer with no arguments used by all renderers but the root menu
(e.g. library.rs 225-229). -/
def msgFooter (t : DBField) : DBMessage := ⟨t, .menuFooter, []⟩

/-- `"\u{fffa}NAME\u{fffb}"` (library.rs 191-201). -/
def menuName (s : Str) : Str := Char.ofNat 0xfffa :: s ++ [Char.ofNat 0xfffb]

/-- The root menu table (library.rs 188-204). -/
def rootMenuItems : List (Str × UInt32 × UInt32) :=
  [ (menuName ['A', 'R', 'T', 'I', 'S', 'T'], MT.rootArtist, 0x02),
    (menuName ['A', 'L', 'B', 'U', 'M'], MT.rootAlbum, 0x03),
    (menuName ['T', 'R', 'A', 'C', 'K'], MT.rootTrack, 0x04),
    (menuName ['K', 'E', 'Y'], MT.rootKey, 0x0c),
    (menuName ['P', 'L', 'A', 'Y', 'L', 'I', 'S', 'T'], MT.rootPlaylist, 0x05),
    (menuName ['H', 'I', 'S', 'T', 'O', 'R', 'Y'], MT.rootHistory, 0x16),
    (menuName ['S', 'E', 'A', 'R', 'C', 'H'], MT.rootSearch, 0x12) ]

/-- `render_root_menu` (library.rs 184-210). -/
def renderRootMenu (t : DBField) : List DBMessage :=
  [msgHeader t] ++ rootMenuItems.map (fun it => buildItem t it.1 it.2.1 it.2.2) ++ [msgFooter11 t]

/-- `render_artist_page` (library.rs 212-232). -/
def renderArtistPage (io : IterOrder) (db : Db) (t : DBField) : List DBMessage :=
  [msgHeader t] ++ (db.allArtists io).map (fun a => buildItem t a.name MT.artist a.id) ++
    [msgFooter t]

/-- `render_title_page` (library.rs 234-251). -/
def renderTitlePage (t : DBField) : List DBMessage :=
  [msgHeader t,
   buildItem t ['L', 'o', 'o', 'p', 'm', 'a', 's', 't', 'e', 'r', 's'] MT.title 0x05,
   msgFooter t]

/-- `render_album_by_artist` (library.rs 253-276). -/
def renderAlbumByArtist (t : DBField) (_artistId : UInt32) : List DBMessage :=
  [msgHeader t, buildItem t ['U', 'n', 'k', 'n', 'o', 'w', 'n'] MT.album 0x00, msgFooter t]

/-- `render_title_by_artist_album` (library.rs 278-305). -/
def renderTitleByArtistAlbum (io : IterOrder) (db : Db) (t : DBField) (aid : UInt32) :
    List DBMessage :=
  [msgHeader t] ++ (db.titleByArtist io aid).map (fun tr => buildItem t tr.title MT.title tr.id) ++
    [msgFooter t]

/-- `render_metadata` (library.rs 307-418). -/
def renderMetadata (db : Db) (t : DBField) (trackId : UInt32) : Outcome (List DBMessage) := do
  let track ← Outcome.unwrap (db.getTrack trackId)
  let artist ← Outcome.unwrap (db.getArtist track.artistId)
  pure
    [ msgHeader t,
      msgItem t { entryId1 := 1, entryId2 := 5, entryId4 := 256, value1 := track.title,
                  ty := MT.title },
      msgItem t { entryId1 := 1, entryId2 := 1, value1 := artist.name, ty := MT.artist },
      msgItem t { entryId1 := 1, ty := MT.album },
      msgItem t { entryId2 := 195, ty := MT.duration },
      msgItem t { entryId2 := track.bpm.getD 0, ty := MT.bpm },
      msgItem t { entryId2 := 5, value1 := [], ty := MT.comment },
      msgItem t { entryId1 := 1, ty := MT.key },
      msgItem t { ty := MT.rating },
      msgItem t { ty := MT.colorNone },
      msgItem t { ty := MT.genre },
      msgFooter t ]

/-- The literal `"Tracks by www.loopmasters.com"` (library.rs 465). -/
def commentText : Str :=
  ['T', 'r', 'a', 'c', 'k', 's', ' ', 'b', 'y', ' ', 'w', 'w', 'w', '.', 'l', 'o', 'o', 'p', 'm',
   'a', 's', 't', 'e', 'r', 's', '.', 'c', 'o', 'm']

/-- `render_mount_info` (library.rs 420-500).  `Track::path` (database.rs 43-45) panics if the path
is not UTF-8. -/
def renderMountInfo (db : Db) (t : DBField) (trackId : UInt32) : Outcome (List DBMessage) := do
  let track ← Outcome.unwrap (db.getTrack trackId)
  let path ← Outcome.unwrap (fromUtf8 track.path)
  pure
    [ msgHeader t,
      msgItem t { ty := MT.title, entryId2 := 1 },
      msgItem t { ty := MT.duration, entryId2 := 195 },
      msgItem t { ty := MT.bpm, entryId2 := track.bpm.getD 0 },
      msgItem t { ty := MT.comment, value1 := commentText },
      msgItem t { ty := MT.mountPath, entryId1 := track.size, entryId2 := 5, value1 := path },
      msgItem t { ty := MT.unknown1, entryId2 := 1 },
      msgFooter t ]

/-- `RenderController::to_response` (library.rs 606-627) before the final conversion to bytes. -/
def renderMessages (io : IterOrder) (db : Db) (t : DBField) (ctx : Ctx) :
    Outcome (List DBMessage) :=
  match ctx with
  | some .rootMenu => .ok (renderRootMenu t)
  | some .artist => .ok (renderArtistPage io db t)
  | some .title => .ok (renderTitlePage t)
  | some (.albumByArtist a) => .ok (renderAlbumByArtist t a)
  | some (.titleByArtistAlbum a) => .ok (renderTitleByArtistAlbum io db t a)
  | some (.metadata tr) => renderMetadata db t tr
  | some (.mountInfo tr) => renderMountInfo db t tr
  | none => .ok []

/-- The controllers that exist (library.rs 629-644). -/
inductive Controller
  | albumByArtist
  | artist
  | loadTrack
  | metadata
  | mountInfo
  | previewWaveform
  | render
  | rootMenu
  | setup
  | titleByArtistAlbum
  | title
deriving DecidableEq, Repr

/-- `get_controller` (library.rs 629-644). -/
def getController : ReqType → Option Controller
  | .albumByArtist => some .albumByArtist
  | .artist => some .artist
  | .loadTrack => some .loadTrack
  | .metadata => some .metadata
  | .mountInfo => some .mountInfo
  | .previewWaveform => some .previewWaveform
  | .render => some .render
  | .rootMenu => some .rootMenu
  | .setup => some .setup
  | .titleByArtistAlbum => some .titleByArtistAlbum
  | .title => some .title
  | _ => none

/-- `Controller::to_response` of each controller: `SetupController` (library.rs 57-70),
`RootMenuController` (72-85), `AlbumByArtistController` (87-104), `ArtistController` (106-120),
`PreviewWaveformController` (122-136), `TitleController` (138-143), `QueryMountInfoController`
(503-521), `TitleByArtistAlbumController` (537-555), `MetadataController` (557-574),
`LoadTrackController` (576-593), `RenderController` (606-627).  Returns the reply bytes and the new
session state. -/
def respond (io : IterOrder) (db : Db) (c : Controller) (d : DBMessage) (ctx : Ctx) :
    Outcome (Bytes × Ctx) :=
  match c with
  | .setup =>
    .ok (d.toResponse ++ okRequest ++ argsEncode [.ofArr4 0 0 0 0, .ofArr4 0 0 0 0x11], ctx)
  | .rootMenu =>
    .ok (d.toResponse ++ okRequest ++ argsEncode [.ofArr4 0 0 0x10 0, .ofArr4 0 0 0 8], ctx)
  | .albumByArtist => do
    let f ← argAt d 2
    let aid ← dbfieldToU32 f
    .ok (d.toResponse ++ okRequest ++
      argsEncode [typeField d.rtype, .ofU32 (numberOfTracksByArtist io db aid)],
      some (.albumByArtist aid))
  | .artist =>
    .ok (d.toResponse ++ okRequest ++
      argsEncode [typeField d.rtype, .ofU32 (numberOfArtists io db)], ctx)
  | .previewWaveform =>
    .ok (d.toResponse ++ (DBField.ofArr2 0x44 0x02).asBytes ++
      argsEncode [.ofArr4 0 0 0x20 0x04, .ofU32 0, .ofArr4 0 0 0x03 0x88,
        ⟨.binary, previewWaveform⟩], ctx)
  | .title => .ok (d.toResponse, ctx)
  | .mountInfo => do
    let f ← argAt d 1
    let tr ← dbfieldToU32 f
    .ok ((⟨d.txid, .success, [typeField d.rtype, .ofU32 6]⟩ : DBMessage).encode,
      some (.mountInfo tr))
  | .titleByArtistAlbum => do
    let f ← argAt d 2
    let aid ← dbfieldToU32 f
    .ok ((⟨d.txid, .success,
      [typeField d.rtype, .ofU32 (numberOfTracksByArtist io db aid)]⟩ : DBMessage).encode,
      some (.titleByArtistAlbum aid))
  | .metadata => do
    let f ← argAt d 1
    let tr ← dbfieldToU32 f
    .ok ((⟨d.txid, .success, [typeField d.rtype, .ofU32 10]⟩ : DBMessage).encode,
      some (.metadata tr))
  | .loadTrack =>
    .ok ((⟨d.txid, .loadTrackSuccess,
      [typeField d.rtype, .ofU32 1, .ofU32 0, ⟨.binary, []⟩, .ofU32 0]⟩ : DBMessage).encode, ctx)
  | .render => do
    let ms ← renderMessages io db d.txid ctx
    .ok (DBMessage.encodeMany ms, ctx)

/-- `handle_sequence_requests` (library.rs 650-665). -/
def handleSequence (r : ReqType) (ctx : Ctx) : Ctx :=
  match r with
  | .artist => some .artist
  | .title => some .title
  | .rootMenu => some .rootMenu
  | _ => ctx

/-- `Bytes::from("panic")` (library.rs 697). -/
def panicText : Bytes := [0x70, 0x61, 0x6e, 0x69, 0x63]

/-- `process` (library.rs 667-698): one chunk from the player, the reply and the new session state.
`Outcome.panic` unwinds the connection's task. -/
def process (m : Mode) (io : IterOrder) (db : Db) (chunk : Bytes) (ctx : Ctx) :
    Outcome (Bytes × Ctx) :=
  if chunk.length = 5 then .ok (chunk, ctx)
  else
    match DBMessage.parse m chunk with
    | .ok _ d =>
      match getController d.rtype with
      | some c => respond io db c d (handleSequence d.rtype ctx)
      | none => .ok ((⟨d.txid, .success, []⟩ : DBMessage).encode, ctx)
    | .err => .ok (panicText, ctx)
    | .fail => .ok (panicText, ctx)
    | .panic => .panic

end PDJ
