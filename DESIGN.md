# Formal model of pioneer-pro-dj-linux

Lean 4 model and proofs of the properties listed in `properties.jsonl`.
The Rust source in `/repo` was read as text; nothing was built or run.

## Layout

* `lean/Verif/Base/*`   bytes, parser results, Unicode codecs (UTF-8/UTF-16), generic lemmas
* `lean/Verif/Model/*`  the code, function by function, each definition cites file and lines
  (for library and OS behaviour: the line that uses it)
* `lean/Verif/Spec/*`   independent specifications: wire readers, RFC 1014/1057/1094 encoders and
  readers, byte-offset predicates, abstract maps and histories
* `lean/Verif/Lemmas/*` helper lemmas about the model
* `lean/Verif/Props/*`  the property theorems (`Cnn_...`) and `example`s meeting their hypotheses: beside the theorem, or in the last section of the file, where the
  theorem is applied to a concrete case
* `MANIFEST.json`       property -> theorem names and status
* `AXIOMS.md`           output of `#print axioms` for every theorem in the manifest
* `seeded/LOG.jsonl`    mutation log

## Modelling conventions

* `Bytes`/`BytesMut`/`Vec<u8>`/`&[u8]` are `List UInt8`; `u16`/`u32`/`u64` are `UInt16`/`UInt32`/`UInt64`.
* nom parsers (`nom` 6, `complete` flavour) are functions `Bytes -> PRes a` with four outcomes:
  `ok rest value`, `err` (recoverable), `fail` (`Err::Failure`), `panic`. `Incomplete` cannot occur.
* A Rust panic is an explicit outcome, never an exception of the model.
* Arithmetic that can overflow takes a `Mode` (`debug` panics, `release` wraps).
* `String`/`&str` are `List Char` (Unicode scalar values).
* `&mut self` methods return the new state. Loops are folds/recursions.
* `HashMap` is a key-unique association list; every iteration passes through an arbitrary
  permutation supplied by an oracle, so results hold for every hashing order.
* OS behaviour (file metadata, open, read, socket bind, send, interface table) is a parameter
  of each step, so it may change between any two steps.
* Concurrency: shared-memory steps are atomic at the granularity of the mutex/RwLock critical
  sections in the code; a schedule is any list of steps. `Model/System.lean` interleaves all
  threads, tasks and connections of the process. That whole steps are enough is proved:
  `Model/Overlap.lean` cuts a step into what can be seen of it from elsewhere (the lock, single writes
  and events, single datagrams), and C127 gives for every overlapping history one of whole steps.

## What is modelled

| source | model | remarks |
|--------|-------|---------|
| `src/library.rs` | `Scan` | walkdir is a traversal of a tree value; id3 is an oracle |
| `src/main.rs`, `src/component/mod.rs` | `App`, `System` | the application loop; a panic in it ends the process (what may delay that: `Linger`) |
| `src/rekordbox/db_field.rs`, `db_message_argument.rs` | `DbField` | |
| `src/rekordbox/db_request_type.rs`, `DBMessage` in `packets.rs` | `DbMessage` | |
| `src/rekordbox/library.rs` | `Library` (controllers, `process`), `LibServer` (listeners, connections), `Stream` (the write buffer of a connection) | |
| `src/rekordbox/library/{database,helper,model,metadata_type,request}.rs` | `Database`, `Library` | |
| `src/rekordbox/library/fixtures.rs` | `Waveform` | the constant bytes |
| `src/rekordbox/keepalive.rs` | `Keepalive` | |
| rest of `src/rekordbox/packets.rs`, `status_event_server.rs` | `Status` | |
| `src/rekordbox/player.rs` | `App`, `Players` | |
| `src/rekordbox/rpc.rs`, `src/rpc/server.rs` | `RpcServer` | |
| `src/rekordbox/server.rs` | `App`, `RpcServer`, `System` | |
| `src/rpc/packets.rs`, `src/rpc/codec.rs` | `Rpc` | |
| `src/rpc/nfs_program.rs`, `src/rpc/fs.rs` | `Nfs` | |
| `src/utils/network.rs` | `Network` | |
| sockets bound by `App::new` and `Server::run` | `Startup` | which binds fail is a parameter |
| `App::new`, `App::run` and `Server::run` step by step | `Launch` | which steps fail and what happens between them is a parameter; the log is left out |
| the sleeps of the receiver, the broadcaster and the main thread | `Timed` | a sleep takes at least its duration, everything else any time; only the negotiation takes time while it holds the lock |
| `src/rekordbox/library/codec.rs`, `Argument::encode` | `Codec` | not used by the running program |
| the setters and getters of `ServerState` | `Control` | not called by the running program; interleaved with its threads |
| the worker threads of `#[tokio::main]`, the lock in the EXPORT callback | `Workers` | their number is a parameter; which task a free worker runs next is left open; the datagrams of a negotiation appear when it ends |
| `File::open` of a named pipe on the worker threads | `Pipes` | on top of `Workers`; which paths are pipes without a writer is a parameter of every step |
| the panic of the main thread, the runtime being dropped | `Linger` | on top of `Pipes`; takes no time unless a LOOKUP waits for a pipe |
| a library connection whose player reads when it likes (TCP flow control) | `Flow` | a refinement of `Stream`; how many bytes the OS takes is a parameter of every step |
| `vec![0x00; count]` for a READ call, the room `count` reserves for the texts of MNT and LOOKUP | `Memory` | on top of `System`; how much the OS grants is a parameter of every step; no other memory is counted |
| the lines written with `eprintln!`, `dbg!` and `println!` | `Log` | on top of `System`; which lines can be written, and what the OS refuses, is a parameter of every step |
| the loop that accepts connections at the library's port, with the queue of its socket | `Accept` | on top of `Log`; what `accept` makes of the first connection is a parameter of every step |
| a log that blocks, on worker threads and threads | `Stall` | on top of `Log`; when a line has to wait is a parameter of every step; who waits and for what is state; standard output and standard error count as one log |
| steps of threads and tasks that overlap in time | `Overlap` | on top of `System`; the receiver's writes and events and everybody's datagrams are actions of their own; that a negotiation sets `linking` is seen when it gives the lock back; the effect of a step on what belongs to its own thread or task alone (and on the list of handlers, which only the tasks of the runtime use) comes at one point |
| the receive buffer of the keep-alive receiver's socket | `Inbox` | on top of `Timed`; the buffer holds a number of datagrams; one that waits for the lock still has its place |
| the sleep of the status server, the receive buffer of its socket | `StatusTimed` | as `Timed`; the buffer holds a number of datagrams |

## Not modelled

Code that nothing calls: `term_dj::Name` (`packets.rs` 205-219), `clone_into_array` (`rekordbox/util.rs`),
`ArgumentType`, `PortmapProcedure` and `RpcUnixAuth` (`rpc/packets.rs`), test fixtures.

The texts of log lines, memory exhaustion except by what one RPC call asks for, loss and
reordering by the network (covered by quantifying over histories).

## Properties and proof methods

| id | model | method |
|----|-------|--------|
| C01 C74 | fields, numbers | symbolic evaluation for all values; positional notation; UTF-16 definition in Spec |
| C02 C03 C04 | messages; a tag-driven reader in Spec | induction over argument and message lists, both directions |
| C05 | request-type tables | case analysis over all codes symbolically |
| C06 C29 C57 C64 C81-C83 | decoders | exact acceptance / panic sets by byte offsets, by case analysis on parser stages |
| C07-C12 C14 C15 C68 C69 C84 | controllers, renderers | symbolic evaluation; reader of the wire format in Spec |
| C11 C13 C70 | sessions | refinement to "latest menu request"; projection of interleavings by induction |
| C16 | chunk function | witnesses plus trailing-bytes theorem |
| C17-C22 | database | invariants by induction over the track list; abstract catalogue in Spec |
| C23 | `Sequence::increment` | boundary analysis in both modes |
| C24 C25 C86 C87 | folder scan, tempo text | mutual induction over trees; induction over digits |
| C26 C27 C28 C33 C41 C75 | RPC codecs; RFC encoders and readers in Spec | symbolic evaluation, length lemmas |
| C30-C32 C60 | portmapper, mount server | invariants over datagram histories, exact stopping conditions |
| C34-C36 C38-C40 C42 C43 C63 C67 | NFS handler over an arbitrary file system oracle | induction over histories; witnesses |
| C99 | NFS handler | invariant on what the handler knows; every datagram sent accounted for |
| C100 | the whole process | per socket, what is sent and what waits is a sublist of what waited and what arrived |
| C102 | any chunk at a library connection | messages, their code and numbers specified on raw bytes; parser proved equal to it by induction on the argument tags |
| C101 | folder -> library menus -> NFS, in the whole process | composition of C77, C85 and the split of a history at the two replies that hand out ports |
| C37 | file handle codec, endianness parameter | byte arithmetic |
| C44-C46 C58 C59 C62 C65 | packet codecs | symbolic evaluation; induction for text codecs |
| C47-C52 C54 C71 C72 C73 | registry, event queue, application loop | invariants, refinement to an abstract registry, progress measure |
| C53 | negotiation loop | evaluation of nested loops for symbolic address |
| C55 | `match_interface` | list search lemmas, bit-mask containment |
| C56 | status server | symbolic evaluation, relation "Answers" in Spec |
| C61 | library listener | history induction |
| C66 C85 | folder -> database -> menus -> wire reader | composition of C17-C25 with C04/C08 (and C63) |
| C76 | `UdpFramed` sending | induction over histories with refusals |
| C77-C80 C88 | the whole process, from start-up | projection of interleavings onto each service; equality of runs with and without a service |
| C89-C92 | the threads in time | refinement to the untimed threads; spacing invariants; an invariant of the phases of linking; deadlines of a prompt broadcaster; a potential for both threads together; generated histories that attain the bounds |
| C93 C94 | portmapper, library listener | invariant on the ports held, pigeonhole |
| C95 C96 | frame codec, argument writer | induction over chunks; composition with C02 and C01 |
| C97 | setters interleaved with the threads | invariants; simulation up to the discovery flag |
| C103 | the whole process on a pool of workers | refinement to the process without workers; induction over histories and over the handlers that wait |
| C104 | the threads in time with the receiver's socket | refinement to `Timed` (C89-C92); a leaky-bucket invariant with the time the lock is held; generated schedules of any length, rate and lateness |
| C105 | NFS handler with the files it has open | invariant on the open files; a generated history of any length |
| C106 | process with all sockets and files it holds for clients | invariant on their number over all histories; a generated history for every limit |
| C107 | NFS handler behind a network that loses, repeats and exchanges datagrams | invariant on every answer sent or held back; evaluation of repeated lookups |
| C108 | folders before and after a restart, scan, database, menus about one track | equality of catalogues; places in the list of music files |
| C109 | a connection with its write buffer, sessions of requests | induction over what is read; prefix and sublist arguments for what goes out |
| C110 | the whole process, bytes of datagrams sent and received | invariant: bytes sent and bytes waiting in write buffers; length of each kind of answer against the least length of its question |
| C111 | the whole process, ports handed out, calls other than LOOKUP | invariant: a handler without files answers nothing; C77 for the whole process |
| C112 | the application, the whole process for EXPORT | C71 destinations from any state; C52; C77 |
| C113 | the application | C71 destinations; uniqueness of what a datagram announces; C49 |
| C114 | the application, the whole process | measure: events before the first link request; C54, C72 rounds, C77; an invariant of the programs that cannot be ended |
| C115 | the threads in time | the invariant of C92 with the phases after linking: the main thread has caught up before the next datagram |
| C116 | the workers with handlers that open pipes | refinement to the process without pipes; induction over histories and over the handlers that wait |
| C117 | the process with a limit on what it can reserve for a call | exact condition by case analysis on the datagram; refinement to the process without limit; a history for every limit |
| C118 | a library connection with its write buffer and a slow player; the whole process | size of each kind of reply against the rows of the database it is made of (C17 invariants); refinement to C109's connection |
| C119 | the process when its main thread fails | refinement to C116 before; invariants of what is left after; a generated history for any number of announcements |
| C120 C121 | the process with its log | refinement to the process without log; every step with a lost line is a prefix of the step without; lines by case analysis against the byte-offset specifications; counting invariant |
| C123 C124 | the process with its log and the queue at the library's port | number of lines of each kind of step; refinement to the process with its log; a generated history for every limit and length |
| C125 C126 | the process from its first step | invariant until the main thread is in its loop; simulation by the process started at once, which accepts the connections that the library accepts after the portmapper has ended in advance |
| C127 | steps that overlap | linearisation: every step has its effect at one action; invariant on what each thread or task has sent and has to send; commutation of steps without the lock with the writes of who has it |
| C128 | what overlapping steps send | what is sent from a socket is sent by one party; C127 for that party, then C100, C110, C77, C66, C85 for the whole steps |
| C129 | what overlapping steps send is true | invariant: whoever has still to broadcast has the lock and it names the network known; a step's effect is one whole step at one moment |
| C130 | what is taken up is finished | infinite histories; measure on what is left of a step, the lock is free again and again under weak fairness, strong fairness of the one who waits; starvation by an explicit periodic history |
| C131 | an announcement leads to a whole negotiation | infinite histories with the loop of the main thread; the place of the request in the channel decreases, nobody else takes anything off the channel, the state is frozen while the main thread has the lock; starvation of the main thread by an explicit periodic history |
| C132 | presence is announced again and again | the same histories with the loop of the broadcaster; it runs unless the lock is poisoned; starvation of the broadcaster by an explicit periodic history |
| C133 | a mutex with limited overtaking passes no thread over | the same histories; the times the lock is given to others while a thread waits are counted as lists of moments; if they are limited the lock stays free from some time on, so the thread can go on for ever; a lock given in turn keeps a limit, since whoever overtakes has waited before and does so once; stated for the three threads, whose need for the lock does not depend on the state |
| C122 | the process with a log that blocks | every history is one of the process with its log, per thread and task in order; invariants of histories in which nobody reads; every waiting step can go on |
| C98 | the status server in time | spacing and conservation invariants; generated schedules of any length, rate and lateness |

## Where the code does not do what one would expect

Each item is backed by a theorem of the property named, under the hypotheses of that theorem, except where
"by reading" is said. The property is marked `partial` when its full claim is false; C24, C33, C69, C73, C75, C85, C92, C97 and C115
describe the behaviour as it is and are marked `proved`.

* C01 C04: texts over 127 UTF-16 units are not recovered; a reply put together the way the application does
  is recovered exactly if no text is longer. Non-empty binary fields are not decoded (inputs below 320 MiB).
* C06 C16: some chunks panic the connection task; two requests in one chunk: the second is lost; a request
  in two chunks: not understood, and if it is cut among its arguments the connection ends.
* C09: the root menu announces 8 lines and renders 7; the album menu announces the number of the artist's
  tracks and renders 1; the reply to the title menu is cut off and announces nothing.
* C23: beyond 2^32 - 2 tracks indexing panics (checked build) or overwrites earlier rows (unchecked build).
* C25: tempo texts above 42949672 overflow. C86: file sizes are kept modulo 2^32.
* C26: MNT with a path of an even number of UTF-16 units and nothing after it is rejected, so are calls with
  AUTH_NULL and fewer than 20 bytes of arguments, and GETPORT with a machine name of one to four bytes.
* C29 C32 C42 C60: a single RPC *reply* datagram panics the decoder. At an NFS or mount port it ends that
  handler; at the portmapper it ends the portmapper and the
  library listener for good.
* C31: every call other than GETPORT at the portmapper is answered with the number of a closed port. GETPORT
  for the portmapper itself hands out a mount handler.
* C33 C75: EXPORT replies carry four surplus zero bytes unless the text length is 1 or 2 modulo 4; export
  lists of two entries are not valid XDR. The verifier is written before `reply_stat`, so only the null
  verifier is readable. A call message encodes as its xid alone.
* C35 C36 C43: the directory handle of LOOKUP is ignored, absolute names escape the exported folder, every
  readable file is served, a lookup of an entry that exists but cannot be opened fails and still moves the current directory.
* C42: READ of more than 65404 bytes of an open file silences the handler, given an OS that refuses oversized
  datagrams. A successful LOOKUP of a file lacking a time stamp (such as the birth time) kills it.
* C44: ip packets do not round-trip, except for the numbers (44, 44); the last status byte is always written as 8.
* C54 C79: an announcement from outside the local networks ends the process once the link request it queues is
  acted on. An announcement matching an interface without MAC address ends the receiver and poisons the
  lock.
* C57: an unimplemented status packet kind stops the status server; the program's own hello reply does.
* C65: `LinkReply::decode` does not skip the nine bytes the encoder writes.
* C69: RENDER ignores offset and limit.
* C73: `PlayerCollection::push` can duplicate addresses (by reading: only `add_or_update` is called).
* C80: link replies always announce 1051 tracks and 94 playlists.
* C84: every waveform request is answered with the same recorded waveform.
* C85: below a relative music folder the shown paths are relative; the file service only knows absolute ones.
* C87: a music folder whose own name starts with a dot (`.` and `..` included) gives an empty library. A hidden
  symbolic link to a folder does not.
* C88: if the portmapper's port is taken the library is silent too; if the keep-alive or the status port is
  taken the process ends.
* C90: the receiver handles at most four datagrams a second, of whatever kind, and falls behind without bound
  beyond that. By reading: its own broadcasts may come back to it and then use up two of the four.
* C91: a negotiation holds the lock for at least 3.95 s, in which neither presence is announced nor a player
  taken notice of. The main thread leaves the lock alone for 150 ms between two negotiations; a broadcaster that
  is late by that much may miss every one of these gaps, and presence is not announced while link requests wait.
* C92 C115: with a late main thread a player is linked with twice; the channel of events has no bound of its own.
* C93 C94: handlers of the RPC services never end because their client has gone, library listeners that nobody
  connects to stay; when the ports run out, the portmapper and the library listener stop, or the connection
  that asked is no longer answered.
* C95: a second message in one chunk is dropped by the codec, the beginning of a message is an
  error or a panic, so no use can be made of it on a TCP stream.
* C96: binary arguments are written without their length.
* C97: the discovery flag has no effect.
* C98: the status server handles at most one datagram per 150 ms; two players that send every 200 ms each make
  it lose datagrams, link queries among them.
* C104: the keep-alive receiver handles at most one datagram per 250 ms, and it listens on the port the
  application itself broadcasts to: after the 40 datagrams of a negotiation (if the OS hands them back) the next
  announcement waits ten seconds, and beyond one datagram per 250 ms datagrams are lost.
* C105: an NFS handler keeps one file open for each different file looked up and closes none; at the limit of the
  OS (1024 by default on Linux, for the whole process) no LOOKUP is answered any more.
* C106: sockets and files taken for clients add up until the OS gives no more; then the broadcaster panics with the
  lock held, and the application is never heard of again and hears of nobody. Connections that nothing is sent
  on are enough.
* C107: LOOKUP is not idempotent, because the handler keeps the current directory itself: when a LOOKUP arrives
  twice (a lost answer, a repeated datagram) the walk goes on from the root and can end at another file.
* C108: numbers are not kept across restarts. They are places in the walk, which follows the order in which the
  file system lists a directory. A file added in front of others moves them all by one: a player that still has
  an old number is sent to another file, without any sign of it.
* C109: the stream of replies cannot be read any more behind the answer to a title request (ten bytes that
  are only the beginning of a message; `TitleController` sends `to_response()` with nothing behind it) and
  behind `panic`, the answer to bytes that are not a message. And since errors of `send` are only logged, a
  reply is missing in the middle if more than 8192 bytes wait in the write buffer, the OS reports an error,
  and takes bytes again later.
* C110: a READ call is answered with as many bytes as it asks for, from wherever it comes, once anybody has looked
  up the file at that port; a handle is a known pattern around an inode number. Calls of 104 bytes with a
  forged sender direct datagrams of up to 65507 bytes (all that UDP carries) at somebody else.
* C111: handles are not good anywhere but at the port where the file was looked up. A player that asks the
  portmapper again (or meets a restarted application) and goes on reading with its handle gets no answer, not even
  an error.
* C112: the application follows whoever was heard last. One announcement from an address on no local network
  (any host can send it, also by unicast) silences it and makes the next EXPORT call fatal for the mount handler.
  One with an address on another local network moves it there. The comment at
  `synchronize_player_broadcast_network` suspects as much.
* C113: the application is always number 17, and does not notice other devices with that number.
* C114: before it has linked, the application does not survive a foreign announcement unless a local player is
  heard before the main thread acts; afterwards nothing received can end it (C112: it can be silenced).
* C116: `File::open` of a named pipe waits for a writer on a worker thread of the runtime; as many LOOKUP calls
  of one pipe as there are workers stop the RPC and library services for good.
* C117: a READ call reserves as many bytes as it asks for, whatever the length of the file, and the decoder as many
  as a MNT or LOOKUP call announces for its text, whether or not the text follows; if the operating system does not
  grant them the process is aborted. 64 bytes sent to the portmapper are enough.
* C119: if a LOOKUP waits for a named pipe when the main thread fails, the process does not end: the services are
  dead, but it is heard and keeps announcing itself (and, by reading, keeps its ports, so that it cannot be started
  again).
* C120: the macros the log is written with panic when a line cannot be written. With the standard error on a pipe
  whose reader has gone, or on a full file system, the application does not start; if that happens later, the first
  new player ends the process, and one byte sent to the portmapper ends it and the library's port.
* C122: a line that the log does not take (a stopped terminal, a full pipe) is waited for, by a task on its worker
  thread; as many undecodable datagrams as there are workers stop all RPC and library services until somebody
  reads, and one refused broadcast keeps the lock until then. Nothing is lost, and everything goes on afterwards.
* C123: when the process has no descriptor left, a connection waiting at the library's port makes the accepting loop
  write the same line to the log over and over, without rest.
* C125: the broadcaster and the receiver run before the status port is asked for; a process that does not start because
  that port is taken may announce itself first.
* C130, C131, C132: nothing keeps the broadcaster from getting the mutex each time before the receiver or the main thread
  does; a player would then not be noticed, or never be sent a negotiation, though no thread is stopped.  In the same way
  the receiver may keep the broadcaster from ever announcing the process.  A mutex that limits how often a waiting thread
  is overtaken excludes all of this (C133); `std::sync::Mutex` does not promise it.
* C103: an EXPORT call during a negotiation blocks a worker thread of the runtime until it ends; as many of
  them as there are workers stop all RPC and library services for that time.

## Trusted base

* Lean 4.33.0 kernel. The theorems depend on at most `propext`, `Classical.choice` and `Quot.sound`
  (per theorem: `AXIOMS.md`); no own axioms, no `sorry`, no `native_decide`, no `bv_decide`.
* The faithfulness of the model to the Rust source, by reading; line citations in each definition.
* The modelled semantics of library code. Its source was not available (no network, no Cargo.lock), so these
  semantics are from memory and unchecked, and the versions are the requirements in `Cargo.toml`, not
  necessarily those a build resolves to:
  * nom 6.0.1 `complete` combinators (`take`, `tag`, `be_u*`, `count`, `many`, `alt`);
  * `bytes`, `Vec`, `HashMap` (unspecified iteration order), `PathBuf::push`, `str::parse::<u32>`,
    `str::from_utf8`, `String::from_utf16`, `encode_utf16`, `trim_end_matches`;
  * dropping a tokio runtime takes up no task again and waits for the worker threads, however long they take;
  * tokio 1.0 tasks: a panic ends only the task; `try_join!` drops the other future when one fails;
  * tokio-util 0.6.7 `UdpFramed`: each datagram is decoded once with an empty buffer before it; a datagram
    the OS refuses stays in the write buffer and is retried before the next send;
  * tokio-util `Framed`: `decode` is called until it yields nothing, then the next chunk is appended (the
    model goes on after an error; no theorem is about a stream that does);
  * `accept` without a descriptor left leaves the connection in the queue (Linux), and tokio takes the socket for
    ready until an `accept` finds the queue empty;
  * the receive buffer of a UDP socket: first in, first out; a datagram that finds it full is lost;
  * tokio-util `Framed::send`: if more than 8192 bytes wait in the write buffer these are written first, and
    after an error the item is not taken; otherwise the item is appended and the buffer written until it is
    empty or an error comes, what has not been written stays in it; a task that waits in `send` holds no worker and
    reads nothing;
  * tokio-util `BytesCodec`: one chunk per read, never empty;
  * walkdir 2.3: links below the root are not followed, one at the root is; `filter_entry` keeps from descending
    only below entries that are themselves directories; the name of the root is the last component of its path,
    or the whole path if that has none;
  * `vec!` and `Vec::with_capacity` abort the process when memory is refused; nom's `count` calls the latter with
    the number of elements wanted (nom 7.1 limits it, nom 6 does not);
  * `eprintln!`, `dbg!` and `println!` panic when the line cannot be written (a closed standard error is not an
    error); that the message of a panic cannot be written is no error;
  * `std::sync::Mutex` poisoning; it does not say which of those that wait gets it next (C130 says what follows from
    either assumption); `mpsc::Sender::send` fails only after the receiver is gone;
  * ipnetwork: `contains`, `broadcast`, `mask` by the prefix length (at most 32); `pnet` interface tables are
    an oracle.
* The layout of a preview waveform (400 columns of height and whiteness, 100 overview columns) in Spec/Replies
  is from memory of the players' protocol.
* The specifications in `lean/Verif/Spec` say what the properties in `properties.jsonl` mean.

## The repository's own tests

`Props/Conformance.lean` runs the assertions of the repository's test suite, and the dialogues recorded from
the original application in `src/rekordbox/fixtures.rs`, on the model. They are `example`s on literals: a check
of the model, not a proof of a property. Every test that asserts something about modelled code holds of the
model, except the three dialogues in `src/rekordbox/library.rs`, which expect artist number 0 to be remembered
where the request says 1; they fail on the model with every library, as by reading they do on the code. Of the
recorded dialogues the second halves of the metadata and the mount info dialogue are left out: the code
answers with other constants there (duration, comment).

## Mutation testing

The model is copied to a scratch directory, one definition is changed (a flipped comparison, swapped
branches, a changed constant, a dropped element, or a hand-written realistic bug), and the project is
rebuilt. `seeded/LOG.jsonl` lists for each mutant the edit, the claim it breaks, the theorems that fail and
those tightened when a mutant survived.

The automatic run is not finished; `seeded/LOG.jsonl` holds what has been tried so far, in a random order.
Entries "survived, equivalent" were judged equivalent by hand argument, not by proof. An entry "survived" has
not been resolved.
