import Verif.Model.System

/-!
# Memory for RPC calls

`read_file_range` (`/repo/src/rpc/fs.rs` 25-34) reserves a buffer of as many bytes as a READ call asks for before
it looks at the file.  `count(le_u16, length as usize / 2)` (`/repo/src/rpc/packets.rs` 731 and 891) reserves room
for as many units of text as a MNT or LOOKUP call announces before it looks at the text (nom 6, from memory).
When the operating system does not grant that much, the process is aborted (`handle_alloc_error`): unlike a panic
this ends all threads and tasks.

* How many bytes the operating system grants is a parameter of every step.
* Only these buffers are counted.  The copies of the first made for the reply are as large; by reading, everything
  else a request makes the process reserve is bounded by the size of the request or of the library.
* `usize` has 64 bits, so every length in a call fits.
-/

namespace PDJ

variable {F : Type}

/-- The process, and whether it has been aborted (rpc/fs.rs 26, rpc/packets.rs 731, 891). -/
structure MemSystem (F : Type) where
  sys : System F
  aborted : Bool

/-- The process just started (component/mod.rs 27-28). -/
def MemSystem.start : MemSystem F := ⟨.start, false⟩

/-- The number of bytes a READ call makes an NFS handler reserve: those it asks for, if the handler has a file for
the handle (rpc/nfs_program.rs 91-95, rpc/fs.rs 26). -/
def readBuffer (e : Endian) (st : Nfs F) (a : NfsRead) : Nat :=
  match a.fhandle.ino e with
  | .ok inode =>
    match st.handlers inode with
    | some _ => a.count.toNat
    | none => 0
  | .panic => 0

/-- The number of bytes reserved for the text of a LOOKUP call (rpc/packets.rs 888-891): two for each unit. -/
def NfsLookup.reserve : Parser Nat := do
  let _ ← FileHandle.decode
  let length ← P.beU32
  pure (2 * (length.toNat / 2))

/-- The number of bytes reserved for the text of a MNT call (rpc/packets.rs 730-731). -/
def MountMnt.reserve : Parser Nat := do
  let length ← P.beU32
  pure (2 * (length.toNat / 2))

/-- The same for any procedure (rpc/packets.rs 685-719). -/
def RpcProcedure.reserve (program : RpcProgram) (p : UInt32) : Parser Nat :=
  match program with
  | .portmap => pure 0
  | .nfs => if p = 4 then NfsLookup.reserve else pure 0
  | .mount => if p = 1 then MountMnt.reserve else pure 0

/-- The same for a call (rpc/packets.rs 154-174). -/
def RpcCall.reserve : Parser Nat := do
  let _ ← P.beU32
  let pv ← RpcProgram.decode
  let procedure ← P.beU32
  let _ ← RpcCredentials.decode
  let _ ← RpcAuth.decode
  RpcProcedure.reserve pv.1 procedure

/-- The same for a message (rpc/packets.rs 40-48, 582-600). -/
def RpcRequest.reserve : Parser Nat := do
  let _ ← P.beU32
  let t ← P.beU32
  if t = 0 then RpcCall.reserve else pure 0

/-- The number of bytes the decoder reserves for the text in a datagram, whether or not it can be decoded in the end
(rpc/codec.rs 19-30, rpc/packets.rs 731, 891). -/
def textBuffer (d : Bytes) : Nat :=
  match RpcRequest.reserve d with
  | .ok _ n => n
  | _ => 0

/-- The number of bytes an event makes the process reserve for texts and the contents of files: every RPC service
decodes what it receives (rpc/server.rs 64, 106, rpc/nfs_program.rs 118), and a handler of files then reads
(rpc/nfs_program.rs 108-113). -/
def bufferFor (e : Endian) (s : System F) : SysAction F → Nat
  | .portmap _ _ (.datagram d _) => if s.services.rpc.portmap then textBuffer d else 0
  | .port p ev =>
    match ev.recv with
    | .ioError => 0
    | .datagram d _ =>
      match s.services.rpc.tasks.find? (fun t => t.1 = p && t.2.live) with
      | some (_, .nfs (.running st _)) =>
        match rpcFrame d with
        | .request q =>
          match q.call.procedure with
          | .nfsRead a => readBuffer e st a
          | _ => textBuffer d
        | _ => textBuffer d
      | some _ => textBuffer d
      | none => 0
  | _ => 0

/-- One event, while the operating system grants `granted` bytes (rpc/fs.rs 26, rpc/packets.rs 731, 891; otherwise as in
`Model/System.lean`). -/
def memStep (e : Endian) (m : Mode) (db : Db) (s : MemSystem F) (granted : Nat) (x : SysAction F) :
    List SysOut × MemSystem F :=
  if s.aborted then ([], s)
  else if s.sys.app.running = true ∧ granted < bufferFor e s.sys x then ([], { s with aborted := true })
  else
    let r := sysStep e m db s.sys x
    (r.1, { s with sys := r.2 })

/-- A history of the process (rekordbox/server.rs 76-99). -/
def memRun (e : Endian) (m : Mode) (db : Db) : MemSystem F → List (Nat × SysAction F) →
    List SysOut × MemSystem F
  | s, [] => ([], s)
  | s, x :: xs =>
    let r := memStep e m db s x.1 x.2
    let rs := memRun e m db r.2 xs
    (r.1 ++ rs.1, rs.2)

end PDJ
