import Verif.Model.Rpc

/-!
# The NFS program

`/repo/src/rpc/nfs_program.rs` and `/repo/src/rpc/fs.rs`.

* The operating system is a parameter of every step (`World`), so files may change between steps.
  `F` is the type of open files (`std::fs::File`); `File::open` of a named pipe, which waits, is in
  `Model/Pipes.lean`.
* Texts of paths are lists of characters; `fs::metadata`/`File::open` are functions of that text.
* Sending goes through `UdpFramed` (tokio-util 0.6): a datagram the OS refuses to send stays in the
  write buffer and is retried before the next one (`UdpFramed::poll_ready`, `poll_flush`).
-/

namespace PDJ

/-- The parts of `std::fs::Metadata` the code uses; `none` is the `Err` of `accessed`, `modified`
and `created` (rpc/packets.rs 385-412, rpc/nfs_program.rs 51-56). -/
structure Meta where
  ino : UInt64
  isFile : Bool
  isDir : Bool
  nlink : UInt64
  uid : UInt32
  gid : UInt32
  size : UInt64
  blksize : UInt64
  rdev : UInt64
  blocks : UInt64
  accessed : Option SysTime
  modified : Option SysTime
  created : Option SysTime
deriving DecidableEq, Repr

/-- The operating system during one call (rpc/nfs_program.rs 51, 81, 96; rpc/fs.rs 16, 28-29). -/
structure World (F : Type) where
  /-- `std::fs::metadata(path)` -/
  stat : Str → Option Meta
  /-- `File::open(path)` -/
  openFile : Str → Option F
  /-- `File::metadata` -/
  fstat : F → Option Meta
  /-- `seek(SeekFrom::Start(start))` and one `read` of at most `count` bytes: the bytes read, or an
  error of either call -/
  pread : F → (start count : Nat) → Option Bytes

/-- `From<Metadata> for NfsFileAttributes` (packets.rs 385-412). -/
def attributesOf (m : Meta) : Outcome NfsFileAttributes :=
  (Outcome.unwrap m.accessed).bind fun a =>
  (Outcome.unwrap m.modified).bind fun md =>
  (Outcome.unwrap m.created).bind fun c =>
  .ok
    { type := if m.isDir then .directory else .file
      mode := ⟨0x00, 0x00, 81, 24⟩
      nlink := UInt32.ofNat m.nlink.toNat
      uid := m.uid
      gid := m.gid
      size := UInt32.ofNat m.size.toNat
      blocksize := UInt32.ofNat m.blksize.toNat
      rdev := UInt32.ofNat m.rdev.toNat
      blocks := UInt32.ofNat m.blocks.toNat
      fsid := 0
      fileId := 0
      atime := a
      mtime := md
      ctime := c }

/-- `RpcNfsProgramHandler` (nfs_program.rs 14-17); the map is only used through `get`, `get_mut`
and `insert`. -/
structure Nfs (F : Type) where
  path : Str
  handlers : UInt64 → Option F

/-- `RpcNfsProgramHandler::new` (nfs_program.rs 33-38). -/
def Nfs.new {F : Type} : Nfs F := ⟨['/'], fun _ => none⟩

/-- `reset_path` (nfs_program.rs 40-42). -/
def Nfs.resetPath {F : Type} (s : Nfs F) : Nfs F := { s with path := ['/'] }

/-- `HashMap::insert` (rpc/nfs_program.rs 57). -/
def Nfs.insert {F : Type} (s : Nfs F) (i : UInt64) (f : F) : Nfs F :=
  { s with handlers := fun j => if j = i then some f else s.handlers j }

/-- `PathBuf::push` (Unix): an absolute path replaces, otherwise a separator is added if needed
(used in rpc/nfs_program.rs 49). -/
def pushPath (p n : Str) : Str :=
  if n.head? = some '/' then n
  else if p ≠ [] ∧ p.getLast? ≠ some '/' then p ++ '/' :: n
  else p ++ n

/-- `NfsProcedureError` (nfs_program.rs 19-24). -/
inductive NfsError
  | fileDoesNotExist
  | staleFileHandle
  | notImplemented
deriving DecidableEq, Repr

/-- What a procedure of the handler returns, with the new state (rpc/nfs_program.rs 47, 77, 91). -/
abbrev NfsResult (F : Type) := Outcome (Except NfsError RpcReplyMessage × Nfs F)

/-- `lookup` (nfs_program.rs 44-72) with `get_fhandle` (fs.rs 15-23). -/
def Nfs.lookup {F : Type} (w : World F) (a : NfsLookup) (s : Nfs F) : NfsResult F :=
  match w.stat (pushPath s.path a.filename) with
  | none => .ok (.error .fileDoesNotExist, s.resetPath)
  | some m =>
    let s1 : Nfs F := { s with path := pushPath s.path a.filename }
    match w.openFile s1.path with
    | none => .ok (.error .fileDoesNotExist, s1)
    | some f =>
      let s2 := if m.isFile then (s1.insert m.ino f).resetPath else s1
      (attributesOf m).bind fun attrs =>
        .ok (.ok (.nfsLookup .ok ⟨encodeFileHandler m.ino⟩ attrs), s2)

/-- `getattr` (nfs_program.rs 74-89). -/
def Nfs.getattr {F : Type} (e : Endian) (w : World F) (a : NfsGetAttr) (s : Nfs F) : NfsResult F :=
  (a.fhandle.ino e).bind fun inode =>
  match s.handlers inode with
  | none => .ok (.error .staleFileHandle, s)
  | some f =>
    match w.fstat f with
    | none => .ok (.error .fileDoesNotExist, s)
    | some m => (attributesOf m).bind fun attrs => .ok (.ok (.nfsGetAttr .ok attrs), s)

/-- `read_file_range` (fs.rs 25-34): the buffer has `count` zero bytes, one `read` fills the front
of it. -/
def readFileRange {F : Type} (w : World F) (f : F) (start count : UInt32) : Option Bytes :=
  (w.pread f start.toNat count.toNat).map fun b =>
    b.take count.toNat ++ List.replicate (count.toNat - b.length) 0x00

/-- `read` (nfs_program.rs 91-106). -/
def Nfs.read {F : Type} (e : Endian) (w : World F) (a : NfsRead) (s : Nfs F) : NfsResult F :=
  (a.fhandle.ino e).bind fun inode =>
  match s.handlers inode with
  | none => .ok (.error .staleFileHandle, s)
  | some f =>
    match readFileRange w f a.offset a.count with
    | none => .ok (.error .fileDoesNotExist, s)
    | some data =>
      match w.fstat f with
      | none => .ok (.error .fileDoesNotExist, s)
      | some m => (attributesOf m).bind fun attrs => .ok (.ok (.nfsRead .ok attrs data), s)

/-- `call_procedure` (nfs_program.rs 108-115). -/
def Nfs.callProcedure {F : Type} (e : Endian) (w : World F) (p : RpcProcedure) (s : Nfs F) :
    NfsResult F :=
  match p with
  | .nfsLookup a => s.lookup w a
  | .nfsGetAttr a => s.getattr e w a
  | .nfsRead a => s.read e w a
  | _ => .ok (.error .notImplemented, s)

/-! ## The socket loop -/

/-- A socket address (the `address` of rpc/nfs_program.rs 120). -/
structure Addr where
  ip : UInt32
  port : UInt16
deriving DecidableEq, Repr

/-- What `socket.next()` sees: a datagram, or an error of the receive call (rpc/nfs_program.rs
118-145). -/
inductive Recv
  | datagram (data : Bytes) (peer : Addr)
  | ioError
deriving DecidableEq, Repr

/-- Does the OS accept a datagram for sending? The flag tells the retry of a datagram left in the
write buffer from the first attempt for a new one (the OS below rpc/nfs_program.rs 136). -/
abbrev SendOs := (retry : Bool) → Bytes → Addr → Bool

/-- `socket.send(item).await` on a `UdpFramed` whose write buffer holds `pending`: result, datagrams
handed to the network, new write buffer (rpc/nfs_program.rs 136; tokio-util code, from memory). -/
def udpSend (os : SendOs) (pending : Option (Bytes × Addr)) (b : Bytes) (to : Addr) :
    Bool × List (Bytes × Addr) × Option (Bytes × Addr) :=
  match pending with
  | none => if os false b to then (true, [(b, to)], none) else (false, [], some (b, to))
  | some p =>
    if os true p.1 p.2 then
      if os false b to then (true, [p, (b, to)], none) else (false, [p], some (b, to))
    else (false, [], some p)

/-- The task running an NFS handler (rpc/server.rs 121-125; rpc/nfs_program.rs 117-148). -/
inductive NfsTask (F : Type)
  | running (s : Nfs F) (pending : Option (Bytes × Addr))
  | dead

/-- A handler just spawned by the portmapper (server.rs 122-126). -/
def NfsTask.start {F : Type} : NfsTask F := .running Nfs.new none

/-- The continuation of `run` after the procedure call (nfs_program.rs 122-143). -/
def nfsReply {F : Type} (os : SendOs) (pending : Option (Bytes × Addr)) (xid : UInt32) (peer : Addr) :
    NfsResult F → List (Bytes × Addr) × NfsTask F
  | .panic => ([], .dead)
  | .ok (.error _, s) => ([], .running s pending)
  | .ok (.ok reply, s) =>
    let r := udpSend os pending (rpcDatagram (successReply xid reply)) peer
    (r.2.1, .running s r.2.2)

/-- One iteration of `run` (nfs_program.rs 117-148). -/
def nfsStep {F : Type} (e : Endian) (w : World F) (os : SendOs) (r : Recv) :
    NfsTask F → List (Bytes × Addr) × NfsTask F
  | .dead => ([], .dead)
  | .running s pending =>
    match r with
    | .ioError => ([], .running s pending)
    | .datagram d peer =>
      match rpcFrame d with
      | .nothing => ([], .running s pending)
      | .invalid => ([], .running s pending)
      | .panic => ([], .dead)
      | .request q => nfsReply os pending q.xid peer (s.callProcedure e w q.call.procedure)

/-- One event at an NFS handler: the environment and what is received (rpc/nfs_program.rs 118). -/
structure NfsEvent (F : Type) where
  world : World F
  os : SendOs
  recv : Recv

/-- A history of an NFS handler (the loop of rpc/nfs_program.rs 118-147). -/
def nfsRun {F : Type} (e : Endian) : NfsTask F → List (NfsEvent F) →
    List (Bytes × Addr) × NfsTask F
  | t, [] => ([], t)
  | t, x :: xs =>
    let r := nfsStep e x.world x.os x.recv t
    let rs := nfsRun e r.2 xs
    (r.1 ++ rs.1, rs.2)

end PDJ
