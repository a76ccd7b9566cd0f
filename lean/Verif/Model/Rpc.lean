import Verif.Base.Nom
import Verif.Base.Unicode
import Verif.Base.Outcome

/-!
# ONC-RPC messages

`/repo/src/rpc/packets.rs` and `/repo/src/rpc/codec.rs`.

`nom::multi::count` reserves `count` elements in advance; see `Model/Memory.lean` for that.
-/

namespace PDJ

/-- `RpcAuth` (packets.rs 86-92). -/
inductive RpcAuth
  | null
  | unix
  | short
  | des
deriving DecidableEq, Repr

/-- `RpcProgram` (packets.rs 618-623). -/
inductive RpcProgram
  | portmap
  | nfs
  | mount
deriving DecidableEq, Repr

/-- `PortmapProtocol` (packets.rs 934-938). -/
inductive PortmapProtocol
  | ip
  | udp
deriving DecidableEq, Repr

/-- `FileHandle` (packets.rs 748-751): `data: Vec<u8>`. -/
structure FileHandle where
  data : Bytes
deriving DecidableEq, Repr

/-- `PortmapGetport` (packets.rs 903-909). -/
structure PortmapGetport where
  version : UInt32
  program : RpcProgram
  protocol : PortmapProtocol
  port : UInt32
deriving DecidableEq, Repr

/-- `NfsGetAttr` (packets.rs 811-814). -/
structure NfsGetAttr where
  fhandle : FileHandle
deriving DecidableEq, Repr

/-- `NfsLookup` (packets.rs 872-876); the `PathBuf` is the text it was built from. -/
structure NfsLookup where
  filename : Str
  fhandle : FileHandle
deriving DecidableEq, Repr

/-- `NfsRead` (packets.rs 785-791). -/
structure NfsRead where
  fhandle : FileHandle
  offset : UInt32
  count : UInt32
  totalCount : UInt32
deriving DecidableEq, Repr

/-- `MountMnt` (packets.rs 721-724). -/
structure MountMnt where
  paths : List Str
deriving DecidableEq, Repr

/-- `RpcProcedure` (packets.rs 668-683). -/
inductive RpcProcedure
  | portmapNull
  | portmapSet
  | portmapUnset
  | portmapGetport (a : PortmapGetport)
  | portmapDump
  | portmapCallResult
  | nfsNull
  | nfsGetAttr (a : NfsGetAttr)
  | nfsLookup (a : NfsLookup)
  | nfsRead (a : NfsRead)
  | mountMnt (a : MountMnt)
  | mountExport
  | mountNull
deriving DecidableEq, Repr

/-- `RpcCredentials` (packets.rs 1004-1013). -/
structure RpcCredentials where
  flavor : UInt32
  length : UInt32
  stamp : UInt32
  machineName : UInt32
  uid : UInt32
  gid : UInt32
  auxGid : UInt32
deriving DecidableEq, Repr

/-- `RpcCall` (packets.rs 134-142). -/
structure RpcCall where
  version : UInt32
  program : RpcProgram
  programVersion : UInt32
  procedure : RpcProcedure
  credentials : RpcCredentials
  verifier : RpcAuth
deriving DecidableEq, Repr

/-! ## Decoding -/

/-- `RpcAuth::decode` (packets.rs 94-107): the length is read and ignored. -/
def RpcAuth.decode : Parser RpcAuth := do
  let flavor ← P.beU32
  let _ ← P.beU32
  if flavor = 0 then pure .null
  else if flavor = 1 then pure .unix
  else P.err

/-- `RpcProgram::decode` (packets.rs 625-639). -/
def RpcProgram.decode : Parser (RpcProgram × UInt32) := do
  let program ← P.beU32
  let version ← P.beU32
  if program = 100000 then pure (.portmap, version)
  else if program = 100003 then pure (.nfs, version)
  else if program = 100005 then pure (.mount, version)
  else P.fail

/-- `PortmapProtocol::decode` (packets.rs 940-951). -/
def PortmapProtocol.decode : Parser PortmapProtocol := do
  let protocol ← P.beU32
  if protocol = 17 then pure .udp else P.err

/-- `PortmapGetport::decode` (packets.rs 917-932). -/
def PortmapGetport.decode : Parser PortmapGetport := do
  let pv ← RpcProgram.decode
  let protocol ← PortmapProtocol.decode
  let port ← P.beU32
  pure ⟨pv.2, pv.1, protocol, port⟩

/-- `FileHandle::decode` (packets.rs 769-777): `count(be_u8, 32)`. -/
def FileHandle.decode : Parser FileHandle := do
  let d ← P.count P.beU8 32
  pure ⟨d⟩

/-- `NfsGetAttr::decode` (packets.rs 816-826). -/
def NfsGetAttr.decode : Parser NfsGetAttr := do
  let h ← FileHandle.decode
  pure ⟨h⟩

/-- `NfsRead::decode` (packets.rs 793-809). -/
def NfsRead.decode : Parser NfsRead := do
  let h ← FileHandle.decode
  let offset ← P.beU32
  let count ← P.beU32
  let total ← P.beU32
  pure ⟨h, offset, count, total⟩

/-- The text of `String::from_utf16(&contents)` or the parse error (packets.rs 735-745, 893-894). -/
def textOrErr (units : List UInt16) : Parser Str :=
  match fromUtf16 units with
  | some s => pure s
  | none => P.err

/-- `NfsLookup::decode` (packets.rs 884-901): the fill bytes after the text are left unread. -/
def NfsLookup.decode : Parser NfsLookup := do
  let h ← FileHandle.decode
  let length ← P.beU32
  let units ← P.count P.leU16 (length.toNat / 2)
  let s ← textOrErr units
  pure ⟨s, h⟩

/-- `MountMnt::decode` (packets.rs 726-746): two fill bytes are always required. -/
def MountMnt.decode : Parser MountMnt := do
  let length ← P.beU32
  let units ← P.count P.leU16 (length.toNat / 2)
  let _ ← P.beU16
  let s ← textOrErr units
  pure ⟨[s]⟩

/-- The portmapper arms of `RpcProcedure::decode` (packets.rs 688-697). -/
def decodePortmapProc (p : UInt32) : Parser RpcProcedure :=
  if p = 0 then pure .portmapNull
  else if p = 1 then pure .portmapSet
  else if p = 2 then pure .portmapUnset
  else if p = 3 then RpcProcedure.portmapGetport <$> PortmapGetport.decode
  else if p = 4 then pure .portmapDump
  else if p = 5 then pure .portmapCallResult
  else P.err

/-- The NFS arms of `RpcProcedure::decode` (packets.rs 698-710). -/
def decodeNfsProc (p : UInt32) : Parser RpcProcedure :=
  if p = 1 then RpcProcedure.nfsGetAttr <$> NfsGetAttr.decode
  else if p = 4 then RpcProcedure.nfsLookup <$> NfsLookup.decode
  else if p = 6 then RpcProcedure.nfsRead <$> NfsRead.decode
  else P.err

/-- The mount arms of `RpcProcedure::decode` (packets.rs 711-716). -/
def decodeMountProc (p : UInt32) : Parser RpcProcedure :=
  if p = 5 then pure .mountExport
  else if p = 1 then RpcProcedure.mountMnt <$> MountMnt.decode
  else P.err

/-- `RpcProcedure::decode` (packets.rs 685-719). -/
def RpcProcedure.decode (program : RpcProgram) (p : UInt32) : Parser RpcProcedure :=
  match program with
  | .portmap => decodePortmapProc p
  | .nfs => decodeNfsProc p
  | .mount => decodeMountProc p

/-- `RpcCredentials::decode` (packets.rs 1015-1037): seven words, whatever the length says. -/
def RpcCredentials.decode : Parser RpcCredentials := do
  let flavor ← P.beU32
  let length ← P.beU32
  let stamp ← P.beU32
  let machineName ← P.beU32
  let uid ← P.beU32
  let gid ← P.beU32
  let auxGid ← P.beU32
  pure ⟨flavor, length, stamp, machineName, uid, gid, auxGid⟩

/-- `RpcCall::decode` (packets.rs 154-174). -/
def RpcCall.decode : Parser RpcCall := do
  let version ← P.beU32
  let pv ← RpcProgram.decode
  let procedure ← P.beU32
  let credentials ← RpcCredentials.decode
  let verifier ← RpcAuth.decode
  let proc ← RpcProcedure.decode pv.1 procedure
  pure ⟨version, pv.1, pv.2, proc, credentials, verifier⟩

/-- A decoded `RpcMessage` (packets.rs 26-30).  Decoding never yields a reply
(`RpcReply::decode`, 184-190, is `unimplemented!()`), so only the call variant is needed here. -/
structure RpcRequest where
  xid : UInt32
  call : RpcCall
deriving DecidableEq, Repr

/-- `RpcMessageType::decode` (packets.rs 582-600). -/
def decodeMessageType : Parser RpcCall := do
  let t ← P.beU32
  if t = 0 then RpcCall.decode
  else if t = 1 then P.panic
  else P.err

/-- `RpcMessage::decode` (packets.rs 40-48). -/
def RpcRequest.decode : Parser RpcRequest := do
  let xid ← P.beU32
  let call ← decodeMessageType
  pure ⟨xid, call⟩

/-- What `RpcBytesCodec::decode` (codec.rs 19-30) makes of the receive buffer. -/
inductive Frame
  /-- `Ok(None)` -/
  | nothing
  /-- `Ok(Some(message))` -/
  | request (r : RpcRequest)
  /-- `Err(InvalidInput)` -/
  | invalid
  /-- the decoder panicked -/
  | panic
deriving DecidableEq, Repr

/-- `RpcBytesCodec::decode` (codec.rs 19-30) with `TryFrom<Bytes> for RpcMessage`
(packets.rs 59-71): unread bytes are dropped. -/
def rpcFrame (buf : Bytes) : Frame :=
  if buf.length > 0 then
    match RpcRequest.decode buf with
    | .ok _ r => .request r
    | .err => .invalid
    | .fail => .invalid
    | .panic => .panic
  else .nothing

/-! ## Encoding -/

/-- `From<RpcAuth> for Bytes` (packets.rs 109-123). -/
def RpcAuth.encode (a : RpcAuth) : Bytes :=
  (match a with
    | .null => be32 0
    | _ => be32 16) ++ be32 0

/-- `std::time::SystemTime`: whole seconds since the epoch (rounded down) and nanoseconds (used in
rpc/packets.rs 459-460). -/
structure SysTime where
  secs : Int
  nanos : Nat
deriving DecidableEq, Repr

/-- `system_time_to_bytes` (packets.rs 457-473): `duration_since` fails before the epoch. -/
def systemTimeToBytes (t : SysTime) : Bytes :=
  if 0 ≤ t.secs then (be64 (UInt64.ofNat t.secs.toNat)).drop 4 ++ be32 0
  else [0, 0, 0, 0, 0, 0, 0, 0]

/-- `FileType` (packets.rs 529-533). -/
inductive FileType
  | file
  | directory
deriving DecidableEq, Repr

/-- `From<FileType> for Bytes` (packets.rs 535-544). -/
def FileType.encode : FileType → Bytes
  | .file => be32 1
  | .directory => be32 2

/-- `FileMode` (packets.rs 510-516). -/
structure FileMode where
  name : UInt8
  user : UInt8
  group : UInt8
  other : UInt8
deriving DecidableEq, Repr

/-- `From<FileMode> for Bytes` (packets.rs 518-527). -/
def FileMode.encode (m : FileMode) : Bytes := [m.name, m.user, m.group, m.other]

/-- `NfsFileAttributes` (packets.rs 828-844). -/
structure NfsFileAttributes where
  type : FileType
  mode : FileMode
  nlink : UInt32
  uid : UInt32
  gid : UInt32
  size : UInt32
  blocksize : UInt32
  rdev : UInt32
  blocks : UInt32
  fsid : UInt32
  fileId : UInt32
  atime : SysTime
  mtime : SysTime
  ctime : SysTime
deriving DecidableEq, Repr

/-- `From<NfsFileAttributes> for Bytes` (packets.rs 487-508). -/
def NfsFileAttributes.encode (a : NfsFileAttributes) : Bytes :=
  a.type.encode ++ a.mode.encode ++ be32 a.nlink ++ be32 a.uid ++ be32 a.gid ++ be32 a.size ++
    be32 a.blocksize ++ be32 a.rdev ++ be32 a.blocks ++ be32 a.fsid ++ be32 a.fileId ++
    systemTimeToBytes a.atime ++ systemTimeToBytes a.mtime ++ systemTimeToBytes a.ctime

/-- `NfsStatus` (packets.rs 344-347). -/
inductive NfsStatus
  | ok
deriving DecidableEq, Repr

/-- `From<NfsStatus> for Bytes` (packets.rs 349-357). -/
def NfsStatus.encode : NfsStatus → Bytes
  | .ok => be32 0

/-- `ExportListEntry` (packets.rs 329-333). -/
structure ExportListEntry where
  directory : Str
  groups : List Str
deriving DecidableEq, Repr

/-- One iteration of the group loop (packets.rs 290-294). -/
def encodeGroup (g : Str) : Bytes :=
  be32 (UInt32.ofNat (utf8 g).length) ++ utf8 g ++ [0x00, 0x00]

/-- `From<ExportListEntry> for Bytes` (packets.rs 275-301). -/
def ExportListEntry.encode (e : ExportListEntry) : Bytes :=
  be32 (UInt32.ofNat (utf16le e.directory).length) ++ utf16le e.directory ++ [0x00, 0x00] ++
    (if e.groups.length > 0 then [0x00, 0x00, 0x00, 0x01] ++ e.groups.flatMap encodeGroup else []) ++
    [0x00, 0x00, 0x00, 0x00]

/-- `RpcReplyMessage` with the reply structs (packets.rs 205-264, 303-306, 359-363, 450-455,
846-850). -/
inductive RpcReplyMessage
  | portmapGetport (port : UInt32)
  | mountExport (entries : List ExportListEntry)
  | mountMnt (status : UInt32) (fhandle : FileHandle)
  | nfsLookup (status : NfsStatus) (fhandle : FileHandle) (attributes : NfsFileAttributes)
  | nfsGetAttr (status : NfsStatus) (attributes : NfsFileAttributes)
  | nfsRead (status : NfsStatus) (attributes : NfsFileAttributes) (data : Bytes)
deriving DecidableEq, Repr

/-- `From<RpcReplyMessage> for Bytes` (packets.rs 250-261) with the encoders of the replies:
`PortmapGetportReply` 268-272, `MountExportReply` 312-327, `MountMntReply` 374-383,
`NfsLookupReply` 475-485, `NfsGetAttrReply` 852-861, `NfsReadReply` 212-222 with
`NfsDataWrapper` 229-238. -/
def RpcReplyMessage.encode : RpcReplyMessage → Bytes
  | .portmapGetport port => be32 port
  | .mountExport entries =>
    (if entries.length > 0 then [0x00, 0x00, 0x00, 0x01] ++ entries.flatMap ExportListEntry.encode
      else []) ++ [0x00, 0x00, 0x00, 0x00]
  | .mountMnt status fhandle => be32 status ++ fhandle.data
  | .nfsLookup status fhandle attributes => status.encode ++ fhandle.data ++ attributes.encode
  | .nfsGetAttr status attributes => status.encode ++ attributes.encode
  | .nfsRead status attributes data =>
    status.encode ++ attributes.encode ++ (be32 (UInt32.ofNat data.length) ++ data)

/-- `RpcReplyState` and `RpcAcceptState` (packets.rs 546-574) have one value each, encoded as 0.
`RpcReply` (packets.rs 176-182). -/
structure RpcReply where
  verifier : RpcAuth
  data : RpcReplyMessage
deriving DecidableEq, Repr

/-- `From<RpcReply> for Bytes` (packets.rs 192-203). -/
def RpcReply.encode (r : RpcReply) : Bytes :=
  r.verifier.encode ++ be32 0 ++ be32 0 ++ r.data.encode

/-- `RpcMessage` to be sent (packets.rs 26-30, 576-580). -/
inductive RpcOutgoing
  | call (xid : UInt32) (c : RpcCall)
  | reply (xid : UInt32) (r : RpcReply)
deriving DecidableEq, Repr

/-- `TryFrom<RpcMessage> for Bytes` (packets.rs 73-84) with `From<RpcMessageType> for Bytes`
(602-616): a call is encoded as its xid alone. -/
def RpcOutgoing.encode : RpcOutgoing → Bytes
  | .call xid _ => be32 xid
  | .reply xid r => be32 xid ++ (be32 1 ++ r.encode)

/-- `calculate_fill_bytes` (codec.rs 33-40). -/
def calculateFillBytes (length : Nat) : Bytes :=
  if length % 4 ≠ 0 then List.replicate (4 - length % 4) 0x00 else []

/-- `RpcBytesCodec::encode` (codec.rs 45-59) into an empty write buffer. -/
def rpcDatagram (m : RpcOutgoing) : Bytes :=
  m.encode ++ calculateFillBytes m.encode.length

/-- `serialize_rpc_reply_message` (server.rs 29-39), and the replies built in
`RpcNfsProgramHandler::run` (nfs_program.rs 125-135) and `PortmapServer::run` (server.rs 143-153). -/
def successReply (xid : UInt32) (d : RpcReplyMessage) : RpcOutgoing := .reply xid ⟨.null, d⟩

/-! ## File handles -/

/-- Byte order of the host (`from_ne_bytes` in rpc/packets.rs 765). -/
inductive Endian
  | little
  | big
deriving DecidableEq, Repr

/-- `FileHandle::ino` (packets.rs 760-766): the first eight bytes in the host's order; the slice
`[0..=7]` panics on shorter data. -/
def FileHandle.ino (e : Endian) (h : FileHandle) : Outcome UInt64 :=
  match h.data with
  | b0 :: b1 :: b2 :: b3 :: b4 :: b5 :: b6 :: b7 :: _ =>
    match e with
    | .little => .ok (ofBe64 b7 b6 b5 b4 b3 b2 b1 b0)
    | .big => .ok (ofBe64 b0 b1 b2 b3 b4 b5 b6 b7)
  | _ => .panic

/-- `encode_file_handler` (fs.rs 36-42). -/
def encodeFileHandler (inode : UInt64) : Bytes := le64 inode ++ List.replicate 24 0x00

end PDJ
