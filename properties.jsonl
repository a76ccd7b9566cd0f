{"id": "C01", "title": "Field codec round trip", "statement": "Serialising any one-byte, two-byte, four-byte or string field (as the field serialiser does) and then decoding it with the argument decoder for that field's type yields the same field and leaves exactly the bytes that followed it. Full claim: for all strings. The code truncates the string length to 8 bits, so it holds for strings up to 127 UTF-16 units and fails from 128 units on; binary fields do not round trip because the decoder does not expect the type tag the encoder writes (the only exception, an empty one before fewer than four bytes, is an accident). Proved: exactly which fields survive.", "quantifier": "all numeric values, all strings, all trailing bytes", "why_tests_cant": "Unit tests sample a handful of packets; the claim is about every value/byte string of any length.", "anchors": ["src/rekordbox/db_field.rs: DBField::as_bytes, From<&str>", "src/rekordbox/db_message_argument.rs: Argument::decode"]}
{"id": "C02", "title": "Request message round trip", "statement": "Encoding a remote-DB message and parsing the bytes returns the same transaction id, request type and argument list, for every message with a 4-byte numeric transaction id, a request type that has its own wire code, and at most twelve arguments each of numeric type or a string of at most 127 UTF-16 units. And a request written as the protocol says, with any code and texts of any length a 32-bit count allows, is parsed to its number, type and arguments.", "quantifier": "all transaction ids, all argument lists up to the protocol's twelve slots, all strings/values in them", "why_tests_cant": "Unit tests sample a handful of packets; the claim is about every value/byte string of any length.", "anchors": ["src/rekordbox/packets.rs: DBMessage::parse, From<DBMessage> for Bytes", "src/rekordbox/db_message_argument.rs: ArgumentCollection::decode, From<ArgumentCollection> for Bytes"]}
{"id": "C03", "title": "Menu items announce the true string byte length", "statement": "In every menu item the numeric length that precedes each of the two strings equals the number of bytes that string occupies on the wire including its two-byte terminator (texts below 2^31-1 UTF-16 units, i.e. lengths that fit the 32-bit number).", "quantifier": "all pairs of strings that fit in memory (below 2^31 UTF-16 units)", "why_tests_cant": "Unit tests sample a handful of packets; the claim is about every value/byte string of any length.", "anchors": ["src/rekordbox/packets.rs: From<Arguments> for ArgumentCollection", "src/rekordbox/db_field.rs: From<&str>"]}
{"id": "C04", "title": "A player can split a rendered reply back into its messages", "statement": "The concatenated bytes of a multi-message reply, read by an independent tag-driven reader of the wire format, give back exactly the messages that were rendered, in order, with nothing left over, exactly when no text in it exceeds 127 UTF-16 units: one longer text anywhere and the reply is not recovered.", "quantifier": "all lists of messages of any length", "why_tests_cant": "Unit tests sample a handful of packets; the claim is about every value/byte string of any length.", "anchors": ["src/rekordbox/packets.rs: From<ManyDBMessages> for Bytes", "src/rekordbox/db_field.rs: DBField::as_bytes"]}
{"id": "C05", "title": "Request-type codes", "statement": "Decoding a 16-bit code never loses it: unknown codes are preserved verbatim, no two different codes decode to the same request type, and for every request type the server answers with an echo of the type, the echoed code is the one received. Types without their own code (e.g. title, album, genre, key requests) all serialise as the setup code.", "quantifier": "all 65536 codes and all request types", "why_tests_cant": "Unit tests sample a handful of packets; the claim is about every value/byte string of any length.", "anchors": ["src/rekordbox/db_request_type.rs: DBRequestType::new, DBRequestType::value"]}
{"id": "C06", "title": "Robustness of the remote-DB parser", "statement": "No byte string makes the remote-DB parser panic. FALSE of the code: an unknown transaction-id tag, an unknown argument tag, more than twelve arguments or a truncated argument panics. Proved: the exact set of byte strings that panic.", "quantifier": "all byte strings", "why_tests_cant": "Unit tests sample a handful of packets; the claim is about every value/byte string of any length.", "anchors": ["src/rekordbox/packets.rs: DBMessage::parse, DBMessage::transaction_id", "src/rekordbox/db_message_argument.rs: ArgumentCollection::decode, ArgumentType::new, Argument::decode"]}
{"id": "C07", "title": "Greeting is echoed", "statement": "Any five-byte chunk from a player is answered with exactly the same five bytes and changes nothing in the session.", "quantifier": "all five-byte chunks, all session states", "why_tests_cant": "Unit tests sample a handful of packets; the claim is about every value/byte string of any length.", "anchors": ["src/rekordbox/library.rs: process"]}
{"id": "C08", "title": "Replies carry the request's transaction id", "statement": "Whatever the request, session state and library, if the server answers a message, then every message in the reply starts with the protocol magic followed by the request's own transaction id, byte for byte as received, when that id is numeric.", "quantifier": "all requests, session states and libraries", "why_tests_cant": "Unit tests sample a handful of packets; the claim is about every value/byte string of any length.", "anchors": ["src/rekordbox/library.rs: process, RenderController, build_message_header", "src/rekordbox/packets.rs: DBMessage::to_response"]}
{"id": "C09", "title": "Announced item count equals rendered item count", "statement": "After a menu request that announces n items, the following render request delivers exactly n menu items. Holds for artist list, titles of an artist, track metadata and mount info in every library of fewer than 2^32 rows whose lines are readable (at most 127 UTF-16 units, C04); FALSE of the code for the root menu (announces 8, renders 7), and for albums-by-artist (announces the number of the artist's tracks, renders 1), and the title menu announces nothing. Exactly (proved): the count is right if and only if the menu is one of these four or the albums of an artist with exactly one track.", "quantifier": "all libraries, all ids, all intervening non-menu requests", "why_tests_cant": "Unit tests sample a handful of packets; the claim is about every value/byte string of any length.", "anchors": ["src/rekordbox/library.rs: RootMenuController, ArtistController, AlbumByArtistController, TitleByArtistAlbumController, MetadataController, QueryMountInfoController, RenderController"]}
{"id": "C10", "title": "Rendered menus are framed", "statement": "Every non-empty render reply consists of one menu header, then only menu items, then one menu footer.", "quantifier": "all session states and libraries", "why_tests_cant": "Unit tests sample a handful of packets; the claim is about every value/byte string of any length.", "anchors": ["src/rekordbox/library.rs: RenderController"]}
{"id": "C11", "title": "A render shows the most recent menu request", "statement": "For every history of chunks on a connection, a render request renders the menu of the latest menu request in that history, with that request's own id argument; greetings, setup, waveform, load-track, unknown, malformed and render requests in between do not matter. With no menu request yet the reply is empty. The page is readable exactly when each of its lines has at most 127 UTF-16 units.", "quantifier": "all finite histories of chunks on one connection", "why_tests_cant": "It quantifies over every finite history of operations; a test executes one history.", "anchors": ["src/rekordbox/library.rs: handle_sequence_requests, set_previous_request, RenderController::to_response"]}
{"id": "C12", "title": "Rendering is repeatable", "statement": "A render request does not change the session: rendering again yields the same reply up to the transaction id, and up to the order of the items if the hash tables are iterated in another order.", "quantifier": "all session states, libraries and number of repetitions", "why_tests_cant": "It quantifies over every finite history of operations; a test executes one history.", "anchors": ["src/rekordbox/library.rs: RenderController::to_response"]}
{"id": "C13", "title": "Connections are isolated", "statement": "For every interleaving of chunks of any number of connections, what a connection receives is exactly what it would receive if it were alone; a chunk that kills one connection's handler does not affect any other.", "quantifier": "all interleavings of all finite histories over any number of connections", "why_tests_cant": "It quantifies over every interleaving of several actors; tests exercise one schedule.", "anchors": ["src/rekordbox/library.rs: spawn_library_client_handler, DBLibraryServer::spawn, ClientState"]}
{"id": "C14", "title": "Unsupported requests are acknowledged harmlessly", "statement": "A message whose type has no controller is answered with an empty success message with its transaction id and leaves the session unchanged.", "quantifier": "all requests without a controller, all session states", "why_tests_cant": "Unit tests sample a handful of packets; the claim is about every value/byte string of any length.", "anchors": ["src/rekordbox/library.rs: process, get_controller"]}
{"id": "C15", "title": "Undecodable requests leave the session unchanged", "statement": "A chunk that is neither a greeting nor a message nor one that crashes the parser is answered with the five bytes `panic` and the session state is unchanged.", "quantifier": "all rejected chunks, all session states", "why_tests_cant": "Unit tests sample a handful of packets; the claim is about every value/byte string of any length.", "anchors": ["src/rekordbox/library.rs: process"]}
{"id": "C16", "title": "Independence of TCP segmentation", "statement": "The bytes a player receives depend only on the byte stream it sends, not on how TCP splits or merges it. FALSE of the code: merged requests are dropped and no part of a request is understood (both proved). Proved: each chunk is handled exactly as one request, trailing bytes are dropped, so if whole requests are merged a session goes as if the first of each segment had been sent and nothing else; of every request cut at any place the first part is echoed if it is five bytes, answered with `panic` if it is shorter than the 32-byte header, and ends the connection otherwise.", "quantifier": "all ways of splitting a byte stream into chunks", "why_tests_cant": "It quantifies over every interleaving of several actors; tests exercise one schedule.", "anchors": ["src/rekordbox/library.rs: spawn_library_client_handler, process", "src/rekordbox/db_message_argument.rs: ArgumentCollection::decode"]}
{"id": "C17", "title": "Metadata and mount info describe the requested track", "statement": "For every track in the library, a metadata request followed by a render delivers that track's title, its artist's name and its tempo; a mount-info request followed by a render delivers its path, size and tempo (for texts of at most 127 UTF-16 units on that page, whatever the rest of the library holds). For an id that is not in the library the handler panics (connection dies) - proved exactly.", "quantifier": "all libraries produced by any scan, all track ids", "why_tests_cant": "Unit tests sample a handful of packets; the claim is about every value/byte string of any length.", "anchors": ["src/rekordbox/library.rs: render_metadata, render_mount_info", "src/rekordbox/library/database.rs: get_track, get_artist"]}
{"id": "C18", "title": "Browsing finds exactly the scanned music", "statement": "For every scanned list of tracks: the artist menu lists each distinct artist name exactly once, and the title menu of a listed artist lists exactly the titles scanned with that artist name, whatever the hash-map iteration order. (For texts of at most 127 UTF-16 units on the page in question.)", "quantifier": "all scan results, all iteration orders", "why_tests_cant": "Unit tests sample a handful of packets; the claim is about every value/byte string of any length.", "anchors": ["src/rekordbox/library/database.rs: Database::index, artists, title_by_artist", "src/rekordbox/library.rs: render_artist_page, render_title_by_artist_album"]}
{"id": "C19", "title": "Artists are deduplicated by name", "statement": "After indexing any list of tracks, two different artist ids never have the same name, and every artist has at least one track.", "quantifier": "all lists of tracks below the id capacity, all iteration orders", "why_tests_cant": "It quantifies over every finite history of operations; a test executes one history.", "anchors": ["src/rekordbox/library/database.rs: ArtistTable::insert, Database::index"]}
{"id": "C20", "title": "Every scanned track is retrievable", "statement": "After indexing any list of tracks, the k-th scanned track has id k+1 (counting from 1), get_track on it returns its title, path, size and tempo, its artist exists and has the scanned artist name, and every other id returns nothing.", "quantifier": "all lists of tracks below the id capacity", "why_tests_cant": "It quantifies over every finite history of operations; a test executes one history.", "anchors": ["src/rekordbox/library/database.rs: TrackTable::insert, Sequence::increment, get_track, get_artist"]}
{"id": "C21", "title": "Titles-by-artist partitions the library", "statement": "Every indexed track appears in the title list of exactly one artist, exactly once, and the announced per-artist counts add up to the number of tracks.", "quantifier": "all lists of tracks, all iteration orders", "why_tests_cant": "It quantifies over every finite history of operations; a test executes one history.", "anchors": ["src/rekordbox/library/database.rs: title_by_artist", "src/rekordbox/library/helper.rs: number_of_tracks_by_artist"]}
{"id": "C22", "title": "Ids are stable, dense and never 0 or 1", "statement": "Ids are handed out consecutively from 2, indexing more tracks never changes or removes an existing row.", "quantifier": "all sequences of insertions below capacity", "why_tests_cant": "It quantifies over every finite history of operations; a test executes one history.", "anchors": ["src/rekordbox/library/database.rs: Sequence, ArtistTable::insert, TrackTable::insert"]}
{"id": "C23", "title": "Id exhaustion", "statement": "The id counter never reuses an id. FALSE of the code in a build without overflow checks: at 2^32-1 it wraps to 0 and later overwrites rows; with overflow checks it panics. Proved: no reuse strictly below capacity, exact behaviour at the boundary in both builds.", "quantifier": "all counter values", "why_tests_cant": "Unit tests sample a handful of packets; the claim is about every value/byte string of any length.", "anchors": ["src/rekordbox/library/database.rs: Sequence::increment"]}
{"id": "C24", "title": "Folder scan selects exactly the visible mp3 files", "statement": "The scan yields exactly the regular files with extension mp3 (case sensitive) that have readable tags and no hidden component from the root entry down, each exactly once.", "quantifier": "all directory trees", "why_tests_cant": "Unit tests sample a handful of packets; the claim is about every value/byte string of any length.", "anchors": ["src/library.rs: mp3_files_iterator, is_hidden, has_mp3_extension, metadata_extractor, scan_folder"]}
{"id": "C25", "title": "Tempo conversion", "statement": "A TBPM text that is an unsigned decimal integer v is stored as exactly 100*v, anything else as no tempo. FALSE for v > 42949672: panic with overflow checks, wrap-around without. Proved exactly with that boundary.", "quantifier": "all texts", "why_tests_cant": "Unit tests sample a handful of packets; the claim is about every value/byte string of any length.", "anchors": ["src/library.rs: extract_bpm"]}
{"id": "C26", "title": "RPC calls of the players are understood", "statement": "Every ONC-RPC call encoded per RFC 1057 with AUTH_UNIX credentials with empty machine name and no auxiliary gids and an empty verifier, for every implemented procedure, is decoded to that call: same xid, program, version, procedure and arguments. FALSE for MNT with a path of an even number of UTF-16 units and no further bytes: always rejected (proved). Calls with AUTH_NULL credentials and short arguments, or with a short machine name, are rejected (proved). For any credentials of twenty bytes and an empty verifier exactly the calls with an AUTH_NULL or AUTH_UNIX verifier are understood, MNT only with a path of an odd number of units or two more bytes; all others are rejected.", "quantifier": "all xids, versions, credentials fields, arguments, path strings", "why_tests_cant": "Unit tests sample a handful of packets; the claim is about every value/byte string of any length.", "anchors": ["src/rpc/packets.rs: RpcMessage::decode, RpcCall::decode, RpcProcedure::decode, RpcCredentials::decode, RpcAuth::decode"]}
{"id": "C27", "title": "RPC replies echo the xid in an RFC accepted-success header", "statement": "Every reply the RPC servers send starts with the request's xid and the RFC 1057 header of an accepted, successful reply with null verifier.", "quantifier": "all xids and all reply bodies", "why_tests_cant": "Unit tests sample a handful of packets; the claim is about every value/byte string of any length.", "anchors": ["src/rpc/packets.rs: TryFrom<RpcMessage> for Bytes, From<RpcReply> for Bytes", "src/rpc/server.rs: serialize_rpc_reply_message", "src/rpc/nfs_program.rs: run"]}
{"id": "C28", "title": "RPC datagrams are four-byte aligned", "statement": "Every RPC datagram sent has a length that is a multiple of four and consists of the message followed by fewer than four zero bytes.", "quantifier": "all messages", "why_tests_cant": "Unit tests sample a handful of packets; the claim is about every value/byte string of any length.", "anchors": ["src/rpc/codec.rs: RpcBytesCodec::encode, calculate_fill_bytes"]}
{"id": "C29", "title": "Robustness of the RPC decoder", "statement": "No datagram makes the RPC decoder panic. FALSE of the code: exactly the datagrams of at least eight bytes whose second word is 1 (a reply) panic.", "quantifier": "all byte strings", "why_tests_cant": "Unit tests sample a handful of packets; the claim is about every value/byte string of any length.", "anchors": ["src/rpc/packets.rs: RpcMessageType::decode, RpcReply::decode"]}
{"id": "C30", "title": "GETPORT hands out a live port of the right program", "statement": "After any history, the portmapper answers a decodable UDP GETPORT call for NFS or MOUNT with the port number the OS bound for it (a port not in use by another handler; the OS accepts the reply), and a fresh handler for that program listens there; what that port sends afterwards depends only on the datagrams arriving at it (and, for MOUNT, the network known at each time).", "quantifier": "all histories of datagrams, all port choices of the OS", "why_tests_cant": "It quantifies over every finite history of operations; a test executes one history.", "anchors": ["src/rpc/server.rs: PortmapServer::run"]}
{"id": "C31", "title": "Other portmapper calls must not be answered with a dead port", "statement": "The portmapper never announces a port nobody listens on. FALSE of the code: every other decodable call (null, dump, NFS or MOUNT calls sent to the portmapper) is answered with a port that is closed again; so somebody listens on an announced port iff the call was GETPORT.", "quantifier": "all decodable calls other than GETPORT", "why_tests_cant": "It quantifies over every finite history of operations; a test executes one history.", "anchors": ["src/rpc/server.rs: PortmapServer::run"]}
{"id": "C32", "title": "Mount program server: what is answered and what stops it", "statement": "A mount handler answers EXPORT (when a network is known) and MNT, ignores undecodable datagrams, and stops for good exactly at the first decodable call of any other procedure, EXPORT without known network, or reply datagram, or at the first answer the OS refuses to send.", "quantifier": "all histories of datagrams and network states", "why_tests_cant": "It quantifies over every finite history of operations; a test executes one history.", "anchors": ["src/rpc/server.rs: rpc_program_server, rpc_procedure_router", "src/rekordbox/rpc.rs: EventHandler::on_event, mount_export_rpc_callback"]}
{"id": "C33", "title": "EXPORT reply is valid XDR", "statement": "The EXPORT reply read by an RFC 1094 mount-protocol reader gives exactly one exported directory `/` with one client group, the `address/mask` text, for all addresses and masks. Nothing is left over exactly when the text length is 1 or 2 mod 4; otherwise exactly four extra zero bytes follow (proved).", "quantifier": "all network addresses and masks", "why_tests_cant": "Unit tests sample a handful of packets; the claim is about every value/byte string of any length.", "anchors": ["src/rpc/packets.rs: From<ExportListEntry> for Bytes, From<MountExportReply> for Bytes", "src/rekordbox/rpc.rs: mount_export_rpc_callback"]}
{"id": "C34", "title": "Path walk by successive LOOKUPs", "statement": "Starting from the root, looking up the components of any path one by one, where all but the last are directories and the last is a file, resolves exactly that path, returns the file's handle, and leaves the handler ready for the next walk.", "quantifier": "all paths of any depth, all file systems", "why_tests_cant": "It quantifies over every finite history of operations; a test executes one history.", "anchors": ["src/rpc/nfs_program.rs: RpcNfsProgramHandler::lookup, reset_path"]}
{"id": "C35", "title": "A failed LOOKUP leaves the handler usable", "statement": "After a LOOKUP that fails because the name does not exist the handler is back at the root with its handles unchanged. FALSE when the entry exists but cannot be opened: the handler then stays inside the unopenable entry (proved). So it is back at the root if and only if the entry does not exist or is the root.", "quantifier": "all handler states, all file systems", "why_tests_cant": "It quantifies over every finite history of operations; a test executes one history.", "anchors": ["src/rpc/nfs_program.rs: RpcNfsProgramHandler::lookup"]}
{"id": "C36", "title": "LOOKUP is relative to the directory handle in the request", "statement": "The result of LOOKUP is determined by the directory handle and the name. FALSE of the code: the directory handle is ignored; interleaving two walks resolves the wrong file (proved). An absolute name escapes to any path.", "quantifier": "all interleavings of lookups", "why_tests_cant": "It quantifies over every interleaving of several actors; tests exercise one schedule.", "anchors": ["src/rpc/nfs_program.rs: RpcNfsProgramHandler::lookup"]}
{"id": "C37", "title": "File handles identify the inode", "statement": "The 32-byte handle returned for inode i decodes to i again on a little-endian host, for all 2^64 inodes; different inodes get different handles. On a big-endian host the decode reverses the bytes (proved).", "quantifier": "all 64-bit inode numbers", "why_tests_cant": "Unit tests sample a handful of packets; the claim is about every value/byte string of any length.", "anchors": ["src/rpc/fs.rs: encode_file_handler", "src/rpc/packets.rs: FileHandle::ino"]}
{"id": "C38", "title": "A returned file handle keeps meaning the same file", "statement": "After a LOOKUP returned a handle for a file, every later READ or GETATTR with that handle is served from that very file, after any further operations, unless another file with the same inode number comes into view. Without that proviso FALSE (two file systems).", "quantifier": "all histories of operations", "why_tests_cant": "It quantifies over every finite history of operations; a test executes one history.", "anchors": ["src/rpc/nfs_program.rs: lookup, getattr, read"]}
{"id": "C39", "title": "READ returns the requested range", "statement": "On a little-endian host READ(offset,count) inside the file returns exactly the bytes of that range. At end of file it returns count bytes padded with zeroes instead of a short reply; a short read of the OS is also padded with zeroes (proved).", "quantifier": "all files, offsets, counts, OS short-read lengths", "why_tests_cant": "Unit tests sample a handful of packets; the claim is about every value/byte string of any length.", "anchors": ["src/rpc/fs.rs: read_file_range", "src/rpc/nfs_program.rs: read"]}
{"id": "C40", "title": "Stale handles are refused without side effect", "statement": "READ and GETATTR with a handle never returned by LOOKUP of a file give no reply and change nothing; directories and the mounted root are always stale. Where there are only files and directories, the OS takes the answers and knows every open file, such a call is answered exactly if a LOOKUP at this handler was answered with this handle for a file.", "quantifier": "all handler states and handles", "why_tests_cant": "It quantifies over every finite history of operations; a test executes one history.", "anchors": ["src/rpc/nfs_program.rs: getattr, read"]}
{"id": "C41", "title": "NFS replies have their fixed wire size and layout", "statement": "Attribute blocks are 68 bytes, GETATTR bodies 72, LOOKUP bodies 104, READ bodies 76+count; type, size, owner and times are at their RFC 1094 offsets, times being seconds modulo 2^32 with zero microseconds.", "quantifier": "all attribute values, all data", "why_tests_cant": "Unit tests sample a handful of packets; the claim is about every value/byte string of any length.", "anchors": ["src/rpc/packets.rs: From<NfsFileAttributes> for Bytes, From<NfsLookupReply> for Bytes, From<NfsGetAttrReply>, From<NfsReadReply>, system_time_to_bytes"]}
{"id": "C42", "title": "The NFS handler survives bad input", "statement": "After any datagrams, none of which is an RPC reply, the NFS handler still serves; each unanswerable call is dropped without reply. Requires a file system that records birth times; otherwise a successful LOOKUP panics. FALSE for READ counts above 65404: the refused datagram stays in the send buffer and the handler never answers again (proved). After any other refused sends it answers again as soon as the OS takes the datagram that waits, which is sent first (proved). Exactly what ends the handler is proved as well: an RPC reply, and a LOOKUP, GETATTR or READ that would succeed but for a missing time stamp.", "quantifier": "all histories of datagrams", "why_tests_cant": "It quantifies over every finite history of operations; a test executes one history.", "anchors": ["src/rpc/nfs_program.rs: run, call_procedure", "src/rpc/packets.rs: From<Metadata> for NfsFileAttributes"]}
{"id": "C43", "title": "Only library files are served", "statement": "NFS never serves a file outside the music folder. FALSE of the code: any readable absolute path is served (proved), the only limit being the file system's own permissions.", "quantifier": "all paths", "why_tests_cant": "Unit tests sample a handful of packets; the claim is about every value/byte string of any length.", "anchors": ["src/rpc/nfs_program.rs: RpcNfsProgramHandler::lookup", "src/rekordbox/rpc.rs: mount_mnt_rpc_callback"]}
{"id": "C44", "title": "Keep-alive packet round trip", "statement": "Decoding the bytes of a keep-alive packet returns that packet, for hello, number, mac, change and status packets (status: the last byte is always sent as 8) with a model name of at most 20 UTF-8 bytes not ending in NUL. FALSE for ip packets: iteration and index come back exchanged/mapped. Proved: exactly which packets survive.", "quantifier": "all packets, all field values", "why_tests_cant": "Unit tests sample a handful of packets; the claim is about every value/byte string of any length.", "anchors": ["src/rekordbox/keepalive.rs: KeepAlivePacket::decode, From<KeepAlivePacket> for Bytes"]}
{"id": "C45", "title": "Robustness of the keep-alive decoder", "statement": "No datagram makes the keep-alive decoder panic, and the content variant always agrees with the packet kind.", "quantifier": "all byte strings", "why_tests_cant": "Unit tests sample a handful of packets; the claim is about every value/byte string of any length.", "anchors": ["src/rekordbox/keepalive.rs: KeepAlivePacket::decode"]}
{"id": "C46", "title": "Model names", "statement": "A model name of at most 20 bytes is always padded to exactly 20 bytes; a longer one panics; decoding strips exactly the trailing NULs.", "quantifier": "all strings", "why_tests_cant": "Unit tests sample a handful of packets; the claim is about every value/byte string of any length.", "anchors": ["src/rekordbox/packets.rs: ModelName::encode, ModelName::decode"]}
{"id": "C47", "title": "The application does not react to its own broadcasts", "statement": "Receiving any keep-alive packet the application itself broadcasts changes neither players, network nor event queue.", "quantifier": "all own addresses, MACs, sequence numbers, server states", "why_tests_cant": "Unit tests sample a handful of packets; the claim is about every value/byte string of any length.", "anchors": ["src/rekordbox/server.rs: KeepaliveEventHandler::on_event", "src/rekordbox/keepalive.rs: KeepAliveStatusPackage, KeepAliveMacPackage, KeepAliveIpPackage"]}
{"id": "C48", "title": "One registry entry per player address", "statement": "After any sequence of received datagrams no two registered players share an address, and players are never dropped.", "quantifier": "all histories of datagrams", "why_tests_cant": "It quantifies over every finite history of operations; a test executes one history.", "anchors": ["src/rekordbox/player.rs: PlayerCollection::add_or_update", "src/rekordbox/server.rs: handle_keepalive_status"]}
{"id": "C49", "title": "Registry content", "statement": "A player's number is the one in its latest status packet and its model the one in its first; the registry lists players in order of first appearance. This holds for the packets received while the process, the receiver and the shared lock are usable; afterwards the registry is frozen (proved).", "quantifier": "all histories of datagrams", "why_tests_cant": "It quantifies over every finite history of operations; a test executes one history.", "anchors": ["src/rekordbox/player.rs: PlayerCollection::add_or_update"]}
{"id": "C50", "title": "Device-change notifications", "statement": "A device-change event is emitted exactly once per new player address and never otherwise.", "quantifier": "all histories of datagrams", "why_tests_cant": "It quantifies over every finite history of operations; a test executes one history.", "anchors": ["src/rekordbox/server.rs: handle_keepalive_status"]}
{"id": "C51", "title": "Linking is not re-initiated", "statement": "Once link negotiation has started no further initiate-link event is ever queued, in every schedule of receiver, application and broadcaster. Negotiation itself can run several times (proved) because several events may be queued before the first is consumed.", "quantifier": "all schedules", "why_tests_cant": "It quantifies over every interleaving of several actors; tests exercise one schedule.", "anchors": ["src/rekordbox/server.rs: is_linking_possible, initiate_mac_ip_negotiation", "src/component/mod.rs: App::next"]}
{"id": "C52", "title": "The broadcast network follows the latest status packet", "statement": "After any history the known network is the first local network containing the address in the most recent status packet accepted while the process, the receiver and the shared lock were usable, or none; initially none.", "quantifier": "all histories, all interface tables", "why_tests_cant": "It quantifies over every finite history of operations; a test executes one history.", "anchors": ["src/rekordbox/server.rs: synchronize_player_broadcast_network", "src/utils/network.rs: match_interface"]}
{"id": "C53", "title": "Negotiation sequence", "statement": "A negotiation with a known network broadcasts exactly 40 packets: 3 mac packets numbered 1..3, then 36 ip packets in order, then 1 status packet, all carrying the application's own address and MAC.", "quantifier": "all networks and MACs", "why_tests_cant": "Unit tests sample a handful of packets; the claim is about every value/byte string of any length.", "anchors": ["src/rekordbox/server.rs: initiate_mac_ip_negotiation"]}
{"id": "C54", "title": "A player's packet never crashes the application", "statement": "No received datagram leads to the termination of the application. FALSE of the code: a status packet with an address outside all local networks queues a link request without a network, and the application panics on it. Proved: the exact condition.", "quantifier": "all schedules and datagrams", "why_tests_cant": "It quantifies over every interleaving of several actors; tests exercise one schedule.", "anchors": ["src/component/mod.rs: App::initiate_linking", "src/rekordbox/server.rs: handle_keepalive_status, initiate_mac_ip_negotiation"]}
{"id": "C55", "title": "Interface matching", "statement": "The chosen local network contains the remote address and is the first such in interface order; none is chosen exactly if no interface network contains it. This is for tables whose interfaces with an IPv4 address have a MAC address; otherwise the search panics, exactly if such an interface comes before any match (proved).", "quantifier": "all interface tables and addresses", "why_tests_cant": "Unit tests sample a handful of packets; the claim is about every value/byte string of any length.", "anchors": ["src/utils/network.rs: match_interface"]}
{"id": "C56", "title": "Status server replies", "statement": "A hello is answered with one 296-byte reply and a link query with one 192-byte link reply to port 50002 of the sender; mixer/player status packets get no reply.", "quantifier": "all datagrams", "why_tests_cant": "Unit tests sample a handful of packets; the claim is about every value/byte string of any length.", "anchors": ["src/rekordbox/status_event_server.rs: process_packet, run", "src/rekordbox/packets.rs: From<StatusPacket> for Bytes, From<LinkReply> for Bytes"]}
{"id": "C57", "title": "Robustness of the status server", "statement": "No datagram stops the status server. FALSE of the code: proved exactly which datagrams stop it (valid magic and model name, at least 34 bytes, and a packet kind the decoder does not implement).", "quantifier": "all byte strings, all histories", "why_tests_cant": "It quantifies over every finite history of operations; a test executes one history.", "anchors": ["src/rekordbox/packets.rs: StatusPacketType::decode_content", "src/rekordbox/status_event_server.rs: recv_from, run"]}
{"id": "C58", "title": "Status code tables are lossless", "statement": "Packet-kind, sub-kind, slot and device-type codes survive encode/decode; unknown slot, kind and sub-kind codes are preserved.", "quantifier": "all code values", "why_tests_cant": "Unit tests sample a handful of packets; the claim is about every value/byte string of any length.", "anchors": ["src/rekordbox/packets.rs: StatusPacketType, PlayerSlot", "src/rekordbox/keepalive.rs: KeepAlivePacketSubType, KeepAlivePacketType, DeviceType"]}
{"id": "C59", "title": "Fixed-size strings", "statement": "A UTF-16 string of fixed even byte capacity that fits is encoded to exactly its capacity and its text is recovered, followed by NULs; one that does not fit panics.", "quantifier": "all strings and capacities", "why_tests_cant": "Unit tests sample a handful of packets; the claim is about every value/byte string of any length.", "anchors": ["src/rekordbox/packets.rs: Utf16FixedString, From<RekordboxReply> for Bytes"]}
{"id": "C60", "title": "One service failing does not stop the other", "statement": "A datagram to the portmapper never stops the library service. FALSE of the code: a reply datagram panics the portmapper task, which ends the joint supervision and drops the library listener. Proved: exactly when the portmapper stops - at a reply datagram, or at a call for which the OS provides no socket or refuses the answer.", "quantifier": "all histories of datagrams", "why_tests_cant": "It quantifies over every finite history of operations; a test executes one history.", "anchors": ["src/rekordbox/server.rs: Server::run", "src/rekordbox/rpc.rs: server", "src/rpc/server.rs: PortmapServer::run"]}
{"id": "C61", "title": "Library port allocation", "statement": "As long as the OS provides ports, every chunk sent to the library's well-known port is answered with the two-byte big-endian number of a freshly bound listener; each such listener serves at most one connection, with a fresh session.", "quantifier": "all histories", "why_tests_cant": "It quantifies over every finite history of operations; a test executes one history.", "anchors": ["src/rekordbox/library.rs: DBLibraryServer::spawn, spawn_library_client_handler"]}
{"id": "C62", "title": "Text codecs are lossless", "statement": "UTF-16 encoding followed by decoding returns the same text for all texts, lone surrogates are rejected; the same for UTF-8.", "quantifier": "all Unicode texts, all unit/byte sequences", "why_tests_cant": "Unit tests sample a handful of packets; the claim is about every value/byte string of any length.", "anchors": ["src/rekordbox/packets.rs: Utf16FixedString::decode, ModelName::decode", "src/rpc/packets.rs: MountMnt::decode, NfsLookup::decode"]}
{"id": "C63", "title": "A file downloaded block by block is the file", "statement": "Looking up a file's path and reading it in consecutive blocks of any size up to 65404 bytes delivers one reply per request and the concatenated data equals the file's contents, for every file below 4 GiB.", "quantifier": "all files, paths, block sizes", "why_tests_cant": "It quantifies over every finite history of operations; a test executes one history.", "anchors": ["src/rpc/nfs_program.rs: lookup, read, run", "src/rpc/fs.rs: read_file_range", "src/rpc/codec.rs: RpcBytesCodec::encode"]}
{"id": "C64", "title": "What counts as a player announcement", "statement": "The keep-alive receiver takes a datagram for a player's status packet exactly if it carries the signature, kind 6 at offset 10, a 20-byte UTF-8 name at 12, a device type 1-3 at 33 and at least 54 bytes; name, player number and address are the bytes at their fixed offsets.", "quantifier": "all byte strings", "why_tests_cant": "Unit tests sample a handful of packets; the claim is about every value/byte string of any length.", "anchors": ["src/rekordbox/keepalive.rs: KeepAlivePacket::decode, KeepAliveStatus::decode", "src/rekordbox/packets.rs: ModelName::decode, UdpMagic::decode", "src/rekordbox/server.rs: KeepAliveReceiver"]}
{"id": "C65", "title": "Link replies are read back", "statement": "A link reply encoded by the program decodes to the same values. FALSE of the code: the decoder does not skip the nine bytes the encoder writes before the slot, so the slot always comes back empty. Proved: the body without those bytes is read back.", "quantifier": "all link replies", "why_tests_cant": "Unit tests sample a handful of packets; the claim is about every value/byte string of any length.", "anchors": ["src/rekordbox/packets.rs: LinkReply::decode, From<LinkReply> for Bytes"]}
{"id": "C66", "title": "From the music folder to the player", "statement": "Every visible mp3 file below the scanned folder with a readable tag can be reached from the artist menu: the artist is listed under some id, the title menu of that id lists the title under some track id, and metadata and mount info of that track id show title, artist, tempo, path and size. Conversely every title line in any title menu belongs to such a file, and mount info of its id shows that file's path. For libraries within capacity; each page needs only its own texts to have at most 127 UTF-16 units.", "quantifier": "all folder trees, files, session states, hash orders, transaction ids", "why_tests_cant": "It quantifies over every finite history of operations; a test executes one history.", "anchors": ["src/library.rs: scan_folder, metadata_extractor", "src/rekordbox/library/database.rs: Database::new", "src/rekordbox/library.rs: process"]}
{"id": "C67", "title": "The path shown to a player downloads the file", "statement": "A player that splits the path in a track's mount info into its components, looks them up one by one in a fresh NFS session and reads the shown number of bytes in blocks of any size up to 65404 receives exactly the contents of that file, if it is still on disk with its scanned size below 4 GiB and the path has at most 127 UTF-16 units.", "quantifier": "all folder trees, file contents, block sizes", "why_tests_cant": "It quantifies over every finite history of operations; a test executes one history.", "anchors": ["src/rekordbox/library.rs: render_mount_info", "src/rpc/nfs_program.rs: lookup, read", "src/library.rs: metadata_extractor"]}
{"id": "C68", "title": "Replies outside of menus", "statement": "Setup, track-load and waveform requests are answered with exactly one message under the request's transaction id: (0, 17), an empty analysis blob, and a waveform blob of exactly the announced 904 bytes; the session state does not change.", "quantifier": "all requests, arguments, session states", "why_tests_cant": "Unit tests sample a handful of packets; the claim is about every value/byte string of any length.", "anchors": ["src/rekordbox/library.rs: SetupController, LoadTrackController, PreviewWaveformController"]}
{"id": "C69", "title": "A render request is answered with the whole menu", "statement": "The reply to a render request does not depend on its arguments (first line, number of lines): the whole menu is sent, even if that is more than asked for.", "quantifier": "all session states, libraries, argument lists", "why_tests_cant": "Unit tests sample a handful of packets; the claim is about every value/byte string of any length.", "anchors": ["src/rekordbox/library.rs: RenderController::to_response"]}
{"id": "C70", "title": "What ends a player's connection", "statement": "A well-formed request ends its connection exactly if it lacks the id it needs, or if it is a render request and the menu last asked for cannot be shown (unknown track or a path that is not text). Hence with a scanned library of text paths a player that sends complete requests about listed tracks is always answered, for sessions of any length.", "quantifier": "all requests, session states, session histories", "why_tests_cant": "It quantifies over every finite history of operations; a test executes one history.", "anchors": ["src/rekordbox/library.rs: process, spawn_library_client_handler"]}
{"id": "C71", "title": "Broadcast traffic is bounded and stays local", "statement": "In every schedule the number of broadcast datagrams is at most 40 for each player announcement heard plus one for each iteration of the broadcaster; each goes to the broadcast address of a local network in which a player was heard and is one of the datagrams of that network's negotiation or presence announcement; nothing is sent before a player is heard.", "quantifier": "all schedules, interface tables, datagrams", "why_tests_cant": "It quantifies over every interleaving of several actors; tests exercise one schedule.", "anchors": ["src/rekordbox/server.rs: initiate_mac_ip_negotiation, broadcast_sender_handler, send_broadcast_payload"]}
{"id": "C72", "title": "Linking happens", "statement": "Once a player on a local network has been heard, the complete sequence of 40 negotiation datagrams is sent without a gap at the latest when the application has worked off the events then queued plus one, whatever else the other threads do, provided sockets work and every announcing player is on a local network.", "quantifier": "all schedules", "why_tests_cant": "It quantifies over every interleaving of several actors; tests exercise one schedule.", "anchors": ["src/component/mod.rs: App::run, App::next", "src/rekordbox/server.rs: handle_keepalive_status, is_linking_possible, initiate_mac_ip_negotiation"]}
{"id": "C73", "title": "The registry of players as a data structure", "statement": "After any sequence of announcements and flag changes the registry holds one entry per announced address, in order of first announcement; its model is from the first announcement, its number from the latest, and its linking flag is lowered only by an explicit flag change. Iterating yields every player once, latest first; indexing panics exactly out of bounds. (Plain push does not keep addresses unique: proved.)", "quantifier": "all sequences of operations, all addresses", "why_tests_cant": "It quantifies over every finite history of operations; a test executes one history.", "anchors": ["src/rekordbox/player.rs: PlayerCollection, PlayerIter, Player"]}
{"id": "C74", "title": "Numbers and characters on the wire", "statement": "Numbers are written and read most significant byte first (inode numbers in file handles in host order), and texts are in the standard UTF-8 and UTF-16 encodings, for all values.", "quantifier": "all 16/32/64-bit values, all texts", "why_tests_cant": "Unit tests sample a handful of packets; the claim is about every value/byte string of any length.", "anchors": ["src/rekordbox/db_field.rs: From<u32> for DBField", "src/rpc/packets.rs: RpcReply encoders", "src/rpc/fs.rs: FileHandle"]}
{"id": "C75", "title": "What the RPC encoder does with every message value", "statement": "A reply with the null verifier is written exactly as RFC 1057 prescribes; with any other verifier flavour the client cannot read it; a call is written as its transaction id alone. An empty export list is a single zero word; one export with at most one group is readable whenever its texts end two bytes before a word boundary; an export list with a second (non-empty) export is rejected by every RFC 1094 reader.", "quantifier": "all transaction ids, verifiers, reply messages, export lists and group names", "why_tests_cant": "the encoders are public and generic, tests encode two literal messages; the texts and list lengths are unbounded", "anchors": ["src/rpc/packets.rs: TryFrom<RpcMessage> for Bytes, From<RpcAuth> for Bytes, From<RpcReply> for Bytes, From<MountExportReply> for Bytes, From<ExportListEntry> for Bytes"]}
{"id": "C76", "title": "Replies of the RPC services are delivered once, in order, to the asker", "statement": "The datagrams an RPC service puts on the network are exactly its replies, in the order of the requests, each to the sender of its request. If the OS refuses to send some, the others still arrive in order, none twice; a reply refused once is sent before the next reply.", "quantifier": "all histories of datagrams, all patterns of refusals by the OS", "why_tests_cant": "It quantifies over every finite history of operations; a test executes one history.", "anchors": ["src/rpc/nfs_program.rs: run", "src/rpc/server.rs: PortmapServer::run, ProgramHandler::run"]}
{"id": "C77", "title": "The services do not disturb each other", "statement": "In the whole process - receiver, broadcaster, main thread, portmapper, RPC handlers, library connections and status server interleaved in any order - every service answers what arrives at it exactly as if it ran alone, as long as the process has not ended.", "quantifier": "all interleavings of all events", "why_tests_cant": "It quantifies over every interleaving of several actors; tests exercise one schedule.", "anchors": ["src/rekordbox/server.rs: Server::run", "src/main.rs: main", "src/rekordbox/library.rs: DBLibraryServer", "src/rekordbox/rpc.rs: server"]}
{"id": "C78", "title": "EXPORT names the network of the player heard last", "statement": "In every history of the process, once a player on a local network has been heard, EXPORT at a mount handler is answered with directory / and the application's address and mask on the network of the player heard last. Before any player is heard EXPORT is not answered and the handler's port never answers again.", "quantifier": "all interleavings of all events", "why_tests_cant": "It quantifies over every interleaving of several actors; tests exercise one schedule.", "anchors": ["src/rekordbox/rpc.rs: mount_export_rpc_callback, EventHandler::on_event", "src/rekordbox/server.rs: synchronize_player_broadcast_network"]}
{"id": "C79", "title": "What a player sends never silences the application", "statement": "Nothing sent by players ends the services. FALSE of the code: a single announcement from outside the local networks ends the whole process, and with it library, file service and status server, whatever they were doing. Proved: the process ends exactly when a queued link request is acted on without a usable network or socket; and as long as no such announcement, no RPC reply at the portmapper and no unimplemented status packet arrives and the OS provides sockets, all services stay up.", "quantifier": "all interleavings of all events", "why_tests_cant": "It quantifies over every interleaving of several actors; tests exercise one schedule.", "anchors": ["src/component/mod.rs: App::run, App::next", "src/rekordbox/server.rs: Server::run, handle_keepalive_status, initiate_mac_ip_negotiation"]}
{"id": "C80", "title": "The link reply announces the size of the library", "statement": "A link query is answered with the number of tracks in the library. FALSE of the code: the reply announces 1051 tracks and 94 playlists whatever the library contains (proved); it is right exactly for libraries of 1051 tracks.", "quantifier": "all libraries, all histories", "why_tests_cant": "Unit tests sample a handful of packets; the claim is about every value/byte string of any length.", "anchors": ["src/rekordbox/packets.rs: From<LinkReply> for Bytes", "src/rekordbox/status_event_server.rs: process_packet"]}
{"id": "C81", "title": "Which datagrams are calls", "statement": "A datagram is taken for an RPC call exactly if by byte offsets it is one: at least 60 bytes, message type 0 at offset 4, a known program at 12 and procedure at 20, verifier flavour 0 or 1 at 52, and the procedure's arguments from 60 on; versions, the seven credential words, the verifier length and trailing bytes are irrelevant. Transaction id, procedure and arguments are determined by the datagram, and two datagrams that are the same call have the same effect at every RPC service in every state. Every other non-empty datagram is rejected, except replies, which panic.", "quantifier": "all byte strings, all service states", "why_tests_cant": "Unit tests sample a handful of packets; the claim is about every value/byte string of any length.", "anchors": ["src/rpc/packets.rs: RpcMessage::decode, RpcCall::decode, RpcProcedure::decode, RpcCredentials::decode, RpcAuth::decode", "src/rpc/codec.rs: RpcBytesCodec::decode"]}
{"id": "C82", "title": "What a received status packet says", "statement": "A datagram is decoded as a status packet exactly if it carries the signature, one of the five implemented kinds at offset 10 and a 20-byte UTF-8 name at 11, and the fields of the decoded packet are the numbers, texts and codes at their fixed offsets (player status: activity at 34, player at 36, slot at 38, analysis at 39, track id at 41, track number at 45; link query: address at 36, player at 43, slot at 47; link reply: slot at 34, texts at 35, 99 and 123, counts and sizes from 155 on). The source player of a decoded link reply is always 17.", "quantifier": "all byte strings, all packets", "why_tests_cant": "Unit tests sample a handful of packets; the claim is about every value/byte string of any length.", "anchors": ["src/rekordbox/packets.rs: StatusPacket::decode, StatusPacketType::decode, Cdj::decode, LinkQuery::decode, LinkReply::decode, PlayerSlot::decode, TrackAnalyzeType::decode"]}
{"id": "C83", "title": "What a received keep-alive packet says", "statement": "A datagram is decoded as a keep-alive packet exactly if it carries the signature, one of the six kinds at offset 10, a 20-byte UTF-8 name at 12, a device type at 33 and a sub-kind at 35, and the fields of the decoded packet are the numbers, addresses and codes at their fixed offsets from 36 on.", "quantifier": "all byte strings, all packets", "why_tests_cant": "Unit tests sample a handful of packets; the claim is about every value/byte string of any length.", "anchors": ["src/rekordbox/keepalive.rs: KeepAlivePacket::decode, KeepAlivePacketType::decode, KeepAlivePacketSubType::decode, DeviceType::decode, PlayerNumberAssignment::decode, Hello::decode, Number::decode, Mac::decode, Ip::decode, Change::decode, Status::decode"]}
{"id": "C84", "title": "The preview waveform", "statement": "A waveform request is answered with the waveform of the requested track. FALSE of the code: every request, for every track of every library, is answered with one and the same recorded waveform (proved), so of two tracks with different waveforms at least one is shown wrongly (proved). Proved besides: this waveform can be drawn - 400 columns of a height below 32 and a whiteness below 8, then 100 overview columns of a height below 16.", "quantifier": "all libraries, requests, session states", "why_tests_cant": "Unit tests sample a handful of packets; the claim is about every value/byte string of any length.", "anchors": ["src/rekordbox/library.rs: PreviewWaveformController", "src/rekordbox/library/fixtures.rs: PREVIEW_WAVEFORM_RESPONSE"]}
{"id": "C85", "title": "Every scanned file can be downloaded under its shown path", "statement": "If the music folder is given by an absolute path (with or without trailing slash), the path shown for a scanned file is the absolute path of its components, and a player that looks these up one by one in a fresh NFS session and reads the size shown, in blocks, gets the contents of the file. Below a relative folder no shown path is the absolute path of any list of components. Below the folder of the program a path fits a menu line exactly if the names below the folder have, with a slash each, at most 103 UTF-16 units.", "quantifier": "all folders, file trees, file names in UTF-8, contents, block sizes", "why_tests_cant": "Unit tests sample a handful of packets; the claim is about every value/byte string of any length.", "anchors": ["src/library.rs: scan_folder", "src/rekordbox/library.rs: render_mount_info", "src/rpc/nfs_program.rs: lookup, read"]}
{"id": "C86", "title": "The size of a scanned file", "statement": "The size in the record of a scanned file, which is the size shown to players, is the size of the file. FALSE of the code from 4 GiB on: it is the size modulo 2^32 (proved), so it is right exactly below 4 GiB.", "quantifier": "all file trees, sizes", "why_tests_cant": "Unit tests sample a handful of packets; the claim is about every value/byte string of any length.", "anchors": ["src/library.rs: metadata_extractor"]}
{"id": "C87", "title": "The name of the music folder", "statement": "The library does not depend on the name of the music folder itself. FALSE of the code: a folder whose own name starts with a dot, such as the current directory given as a dot, gives an empty library; so does every path that starts with a dot and is made of dots and slashes (proved). Proved: all other names give the same library; the name of a folder given by an absolute path is its last component; a symbolic link to a folder is followed and gives the library of a folder that is not hidden, even if the link is hidden; a link to anything else gives an empty library; the folder of the program is not hidden.", "quantifier": "all folder names, paths, links, file trees", "why_tests_cant": "Unit tests sample a handful of packets; the claim is about every value/byte string of any length.", "anchors": ["src/library.rs: is_hidden, mp3_files_iterator", "src/main.rs: main"]}
{"id": "C88", "title": "A taken port disables the service on that port only", "statement": "If a port the program needs is taken at start-up, the service on that port is missing and all others work as usual. FALSE of the code for the portmapper's port: the library never answers either, although its own port is free (proved). Also, a taken keep-alive or status port, or a music folder whose indexing panics, means that no service ever sends anything (proved). All this is from the moment the failure has taken effect; C125 deals with what goes on meanwhile. Proved: with the library's port taken all other services send exactly what they would send otherwise, with the portmapper's port taken announcements, linking and status replies do; with all ports free all services start. Exactly: announcements and status replies are ever sent iff the folder could be indexed and the keep-alive and status sockets could be had, RPC replies iff the portmapper's port was free besides, library replies iff both that and the library's own were.", "quantifier": "all combinations of taken ports, all interleavings of all events", "why_tests_cant": "It quantifies over every interleaving of several actors; tests exercise one schedule.", "anchors": ["src/component/mod.rs: App::new", "src/rekordbox/server.rs: Server::run, keepalive_server, status_event_server", "src/rekordbox/rpc.rs: server", "src/rekordbox/library.rs: DBLibraryServer::run", "src/rekordbox/keepalive.rs: KeepAliveServer::bind", "src/rekordbox/status_event_server.rs: StatusEventServer::bind"]}
{"id": "C89", "title": "How much is broadcast", "statement": "In every window of T milliseconds of every history at most ceil(T/100) + ceil(T/500) datagrams are broadcast, and at most ceil(T/100) + 2, which is attained in windows of any length (proved), whatever the players send and however the threads are scheduled. A history in time is a history of the threads, so what holds of all histories holds in time.", "quantifier": "all timed histories, all windows", "why_tests_cant": "It quantifies over every interleaving of several actors; tests exercise one schedule.", "anchors": ["src/rekordbox/server.rs: keepalive_server, initiate_mac_ip_negotiation"]}
{"id": "C90", "title": "Announcements are handled as they arrive", "statement": "Every datagram at the keep-alive port is handled within a bounded time after its arrival. FALSE of the code: the receiver sleeps 250 ms after every datagram, so if datagrams arrive faster than one per 250 ms, the delay exceeds every bound (proved). Proved: at most ceil(T/250) datagrams are handled in every window of T milliseconds, and so many can be.", "quantifier": "all timed histories, windows, periods, delays", "why_tests_cant": "It quantifies over every interleaving of several actors; tests exercise one schedule.", "anchors": ["src/rekordbox/keepalive.rs: KeepAliveServer::run, recv_from", "src/rekordbox/server.rs: keepalive_server"]}
{"id": "C91", "title": "Presence is announced twice a second", "statement": "While the process runs it announces its presence twice a second and takes notice of players. FALSE of the code during a negotiation, which holds the lock: for at least 3950 ms from its beginning nothing but its own datagrams is broadcast and no announcement is taken notice of (both proved). Proved, for a broadcaster that is never late by more than a given time, working sockets and players on local networks: while no negotiation is under way presence is announced at least once for every 500 ms plus the lateness; and with a lateness below 150 ms the next announcement always comes within 500 ms plus the length of the longest negotiation plus twice the lateness. These bounds are exact: there are histories in which it is not announced more often or earlier, and with a lateness of 150 ms it may not be announced for any length of time, though every negotiation ends (proved).", "quantifier": "all states with a queued link request, all timed continuations; all histories with a prompt broadcaster", "why_tests_cant": "It quantifies over every interleaving of several actors; tests exercise one schedule.", "anchors": ["src/rekordbox/server.rs: initiate_mac_ip_negotiation, keepalive_server, handle_keepalive_status"]}
{"id": "C92", "title": "A player is linked with once", "statement": "If the main thread is never late by more than 33 ms, there is at most one negotiation in every history; and if the OS provides sockets and the first player heard is on a local network, there is exactly one, complete, on that network, once 250 ms have passed since its announcement. 33 ms is the exact bound: from 34 ms on there are histories with two (proved).", "quantifier": "all timed histories with a prompt main thread", "why_tests_cant": "It quantifies over every interleaving of several actors; tests exercise one schedule.", "anchors": ["src/component/mod.rs: App::run, App::next", "src/rekordbox/server.rs: initiate_mac_ip_negotiation, handle_keepalive_status"]}
{"id": "C93", "title": "The portmapper serves any number of players", "statement": "GETPORT requests are answered however many there have been. FALSE of the code: every GETPORT starts a handler on a port of its own and no handler ends because its client has gone; with more requests than the OS has ports and no handler ended, the portmapper has stopped and the library accepts nobody any more (proved); for every pool of ports, as many requests are answered as it has ports and the next one ends the portmapper (proved). Proved: as long as the portmapper runs there have been at most as many GETPORT calls as the OS has ports plus the handlers that have ended. And exactly: a call at a running portmapper is answered - with a port on which nobody listens - if and only if fewer handlers are left than the OS has ports, provided the OS hands out a port whenever it has a free one and takes what is sent; otherwise the portmapper ends.", "quantifier": "all histories, all finite pools of ports", "why_tests_cant": "It quantifies over every finite history of operations; a test executes one history.", "anchors": ["src/rpc/server.rs: PortmapServer::run", "src/rekordbox/server.rs: Server::run"]}
{"id": "C94", "title": "Every player that asks for a library connection gets a port", "statement": "Requests at the well-known port of the library are answered however many there have been. FALSE of the code: a port that has been announced and is never connected to is kept for ever (proved), and once all ports are held the next request is not answered, nor any later one on its connection (proved); for every pool of ports, as many requests are answered as it has ports and the next one is not (proved). Proved: at most as many ports are announced as the OS has plus the connections that have ended. And exactly: a request is answered - with a port no handler holds - if and only if no earlier request on its connection was left without a port and fewer handlers are left than the OS has ports, provided the OS hands out a port whenever it has a free one.", "quantifier": "all histories, all finite pools of ports", "why_tests_cant": "It quantifies over every finite history of operations; a test executes one history.", "anchors": ["src/rekordbox/library.rs: DBLibraryServer::spawn, spawn_library_client_handler"]}
{"id": "C95", "title": "The message codec does not depend on segmentation", "statement": "The messages the library's frame codec decodes from a stream depend only on the bytes of the stream, not on how they are cut into chunks. FALSE of the code: every two messages in one chunk yield one frame, in two chunks two (proved); every beginning of a message yields an error or, from 32 bytes on, a panic (proved). Proved: if every chunk begins with a message, exactly these are decoded, in order; an encoded reply decodes to itself and empties the buffer; encoding appends to the buffer; nothing is yielded exactly if the buffer is empty.", "quantifier": "all messages, streams, buffers, chunkings", "why_tests_cant": "It quantifies over every finite history of operations; a test executes one history.", "anchors": ["src/rekordbox/library/codec.rs: DbBytesCodec::decode, DbBytesCodec::encode"]}
{"id": "C96", "title": "The argument writer", "statement": "An argument is written as the field of its kind and value. FALSE of the code for binary arguments: never, since their length is not written (proved). Proved: true of all other kinds, so that a player reads the value.", "quantifier": "all kinds and values of arguments", "why_tests_cant": "Unit tests sample a handful of packets; the claim is about every value/byte string of any length.", "anchors": ["src/rekordbox/db_message_argument.rs: Argument::encode"]}
{"id": "C97", "title": "Controlling the server from outside", "statement": "What is set on the shared server state is what is read, and each setter leaves the rest alone. While linking is set no link request is queued, whatever the threads do; after it is reset the next announcement of a player queues one. After a network is set the next presence announcement goes there. The discovery flag has no effect on anything but itself.", "quantifier": "all schedules of the threads interleaved with all sequences of setter calls", "why_tests_cant": "It quantifies over every interleaving of several actors; tests exercise one schedule.", "anchors": ["src/rekordbox/server.rs: ServerState::set_linking, set_discovery, set_address, is_linking, is_discovery, keepalive_server, handle_keepalive_status"]}
{"id": "C98", "title": "Status queries are answered soon", "statement": "Every datagram at the status port is answered within a bounded time and none is lost. FALSE of the code: the server sleeps 150 ms after every datagram, so if one arrives every 100 ms - two players send that often together - any number of them is lost in the end, however large the receive buffer and although the server is never late (proved). Proved: in every history the server handles at most one datagram per 150 ms; if at most some number of datagrams arrive at a time and in the long run one per 150 ms plus its lateness, and the receive buffer holds a burst, none is lost and every one is answered within its lateness and the time for a burst after the arrival; these conditions are exact (otherwise there is a history in which datagrams are lost), and the delay is attained; and every history in time answers some of the datagrams that arrived, in their order, exactly as the server does without regard to time (C56), and nothing after one that stops it.", "quantifier": "all timed histories, buffer sizes, periods", "why_tests_cant": "It quantifies over every interleaving of several actors; tests exercise one schedule.", "anchors": ["src/rekordbox/status_event_server.rs: StatusEventServer::run, recv_from, process_packet"]}
{"id": "C99", "title": "The file service sends nothing but answers", "statement": "What an NFS handler sends, in every history of datagrams, file system changes and refusals by the OS, are answers to some of the LOOKUP, GETATTR and READ calls (by byte offsets) it received, each call answered at most once and in the order they came; each goes to the sender of its call under its transaction id, and carries the attributes and data the OS gave for a file that was opened at a path made only of names in LOOKUP calls it had received; for GETATTR and READ a regular file with the inode the handle means. In the whole process this holds of every port the portmapper hands out for NFS, whatever else happens. (Little-endian hosts.)", "quantifier": "all histories, file systems that change at will, patterns of refusal", "why_tests_cant": "It quantifies over every finite history of operations; a test executes one history.", "anchors": ["src/rpc/nfs_program.rs: lookup, getattr, read, run", "src/rpc/fs.rs: get_fhandle, read_file_range"]}
{"id": "C100", "title": "Apart from its broadcasts the process sends nothing but answers", "statement": "In every history of the whole process - any interleaving of everything that can arrive at the portmapper, the RPC handlers, the library connections and the status server, with refusals by the OS - what is sent from a socket are answers to some of the questions that arrived at the same socket, at most one for each, in their order, each to the party that asked (an RPC reply with the first four bytes of the call, to its sender; a status reply to port 50002 of the sender; a library reply on the connection the chunk came from). So the process never sends more than one reply for each datagram or chunk that arrives, 40 broadcasts for each player announcement heard and one for each iteration of the broadcaster.", "quantifier": "all interleavings of all events, libraries, patterns of refusal", "why_tests_cant": "It quantifies over every interleaving of several actors; tests exercise one schedule.", "anchors": ["src/rekordbox/server.rs: Server::run", "src/rpc/server.rs: PortmapServer::run, rpc_program_server", "src/rpc/nfs_program.rs: run", "src/rekordbox/library.rs: spawn_library_client_handler", "src/rekordbox/status_event_server.rs: run"]}
{"id": "C101", "title": "A player gets its music whatever else goes on", "statement": "In the whole process, whatever else arrives and in whatever order: a player that has been handed a library port and keeps its connection open gets the menus it asks for; and a player that asks for the mount info of a scanned file below an absolute music folder, is handed an NFS port at any time, looks the shown path up there and reads the shown size in blocks gets exactly the contents of the file, as long as the process has not ended and the OS has not given that port to anyone else.", "quantifier": "all interleavings with all other events, all folders, files, block sizes, menus", "why_tests_cant": "It quantifies over every interleaving of several actors; tests exercise one schedule.", "anchors": ["src/rekordbox/server.rs: Server::run", "src/rekordbox/library.rs: spawn_library_client_handler, render_mount_info", "src/rpc/server.rs: PortmapServer::run", "src/rpc/nfs_program.rs: run, lookup, read"]}
{"id": "C102", "title": "What any chunk of bytes at a library connection does", "statement": "For any bytes at all that arrive as one chunk, well-formed or not: they are read in at most one way; they end the connection exactly if they crash the parser, or ask for a menu without the id it needs, or ask to be shown the menu last asked for and that menu cannot be shown; and a message is answered by what its request code and its numbers at positions 1 and 2 say, exactly as the request of a well-behaved player with the same code and numbers, under its own transaction id. What a message is, where its code stands and how its numbers are found is stated on the raw bytes.", "quantifier": "all byte strings, session histories, libraries", "why_tests_cant": "Unit tests sample a handful of packets; the claim is about every value/byte string of any length.", "anchors": ["src/rekordbox/library.rs: process, dbfield_to_u32, to_response of the controllers", "src/rekordbox/packets.rs: DBMessage::parse", "src/rekordbox/db_message_argument.rs: ArgumentCollection::decode"]}
{"id": "C103", "title": "Requests are served during a negotiation", "statement": "While the application negotiates with the players (some four seconds, with the lock of the state held) requests at the RPC and library services are answered. FALSE of the code: an EXPORT call at a mount handler waits for the lock and blocks a worker thread of the runtime; with as many EXPORT calls as there are workers no request of any kind is answered until the negotiation ends, and for every number of workers, from every state in which a negotiation is about to begin, that many GETPORT calls and that many EXPORT calls bring this about (proved). Proved: while fewer wait than there are workers every other request can be dealt with and is answered as without a negotiation; the calls that wait can all be dealt with once the lock is released; and the workers change nothing but the order: whatever is sent is what the process sends for the same events, in the order they are taken up for each connection and port.", "quantifier": "all numbers of workers, all schedules of workers and threads", "why_tests_cant": "It quantifies over every interleaving of several actors; tests exercise one schedule.", "anchors": ["src/main.rs: main", "src/rekordbox/rpc.rs: mount_export_rpc_callback", "src/rekordbox/server.rs: Server::run, initiate_mac_ip_negotiation"]}
{"id": "C104", "title": "Players that appear are noticed and linked with in time", "statement": "A player that appears on the network is known, and linked with, soon after its first announcement reaches the machine. FALSE of the code under load: the receiver handles at most one datagram per 250 ms, and everything else that reaches its socket (other machines, the application's own broadcasts) occupies it as well, so a datagram waits at least 250 ms for each one before it, and when datagrams arrive faster in the long run any number of them is lost although the receiver is never late (all proved). Proved: while no negotiation goes on nothing is lost in any history exactly if the buffer holds a burst and in the long run datagrams come no faster than one per 250 ms and the receiver's lateness; in general, if at most a burst arrives at a time and in the long run one datagram per 250 ms and the receiver's lateness, and the buffer holds a burst and what arrives during negotiations, nothing is lost, every datagram is handled within the time for a burst, the lateness and the time negotiations hold the lock, and the players that announced themselves longer ago are known; and if the main thread is not late either and sockets work there is exactly one negotiation, complete and on the network of the first player, by then.", "quantifier": "all capacities of the socket, all arrivals with the stated rate, all schedules with the stated lateness", "why_tests_cant": "It quantifies over every interleaving of several actors; tests exercise one schedule.", "anchors": ["src/rekordbox/keepalive.rs: KeepAliveServer::bind, run, recv_from", "src/rekordbox/server.rs: Server::run, handle_keepalive_status, initiate_mac_ip_negotiation", "src/component/mod.rs: App::next"]}
{"id": "C105", "title": "A player can load any number of tracks", "statement": "However many tracks a player has loaded, the next one can be loaded. FALSE of the code: an NFS handler keeps one file open for each different regular file looked up and closes none as long as it runs, so once it has as many open as the OS allows no LOOKUP is answered any more, be it of a file or of a directory, whatever arrives in between; and for every limit a player that looked up that many different files and was answered each time gets no answer to the next (proved). Proved: the files open are exactly those for which a LOOKUP was answered, one per inode, and as long as there are fewer of them to be found than the OS allows open a LOOKUP of an existing path is answered.", "quantifier": "all histories of an NFS handler, file systems and limits", "why_tests_cant": "It quantifies over every finite history of operations; a test executes one history.", "anchors": ["src/rpc/nfs_program.rs: lookup", "src/rpc/fs.rs: get_fhandle"]}
{"id": "C106", "title": "The process does not run out of sockets and files", "statement": "Whatever clients ask of the services, the application goes on announcing itself and takes notice of players. FALSE of the code: when the clients hold all the sockets and files the OS gives the process, the broadcaster ends at its next turn with the lock poisoned; from then on nothing is broadcast and no player is taken notice of, whatever happens; for every limit an announcement of a player and as many GETPORT calls, all answered, or as many silent connections to the library's well-known port, bring this about, and acting on the player's link request then ends the process (proved). Proved: the process never holds more sockets and files for its clients than there were GETPORT calls, LOOKUP calls, connections to the library's well-known port, chunks on these and connections to library handlers; closing a connection gives one socket back, at a handler two; and as long as these are fewer than the OS gives all services stay up in every history without the causes of C79. Exactly: if the OS gives so many and no more, a turn of the broadcaster on a known network announces the application and leaves the broadcaster running iff the clients hold fewer.", "quantifier": "all interleavings of all events, all limits of the OS", "why_tests_cant": "It quantifies over every interleaving of several actors; tests exercise one schedule.", "anchors": ["src/rekordbox/server.rs: keepalive_server, initiate_mac_ip_negotiation", "src/rpc/server.rs: PortmapServer::run", "src/rpc/nfs_program.rs: lookup", "src/rekordbox/library.rs: DBLibraryServer::spawn, spawn_library_client_handler"]}
{"id": "C107", "title": "Calls that are sent again", "statement": "A call that arrives more than once, because the network has repeated it or the player got no answer and has sent it again, is answered each time alike, so that a player gets its file over a network that loses, repeats and exchanges datagrams. FALSE of the code for LOOKUP: the LOOKUP of a directory that arrives twice is looked up inside itself; unless that exists the second one is not answered and the rest of the path is looked up from the root, where it may be another file, without any sign of it; and the LOOKUP of a file below a directory is not answered a second time unless a file of that name is in the root (all proved). Proved: whatever gets lost, is repeated or exchanged, whatever others send and whatever else the process does, a player that has the handle of a file has got the file once it has an answer to the READ call of each block; GETATTR calls and LOOKUP calls by absolute names are answered each time alike; a LOOKUP by name that is answered is answered alike when it arrives again exactly if, for a file, the entry of that name in the root and, for a directory, the entry of that name inside it has the same answer: where no two paths share an inode number, exactly if it names a file in the root; and after a LOOKUP of a name that is found nowhere a walk can begin again from the root.", "quantifier": "all histories, all patterns of loss, repetition and exchange, all file systems", "why_tests_cant": "It quantifies over every interleaving of several actors; tests exercise one schedule.", "anchors": ["src/rpc/nfs_program.rs: lookup, read, getattr, run", "src/rpc/fs.rs: read_file_range"]}
{"id": "C108", "title": "A track keeps its number when the application is restarted", "statement": "A player that remembers the number of a track reaches the same file under it after a restart. FALSE of the code: numbers are places in the walk of the music folder, so one music file that comes earlier in the walk than others makes the number of each of these lead to the file before it; and if the file system merely lists two neighbouring files the other way round each has the number of the other (proved). Proved: every number keeps leading to its file exactly if the music files there were are the first ones of the new walk, in the same order and with the same sizes (names and paths of at most 127 units). If the walk meets the same music files in the same order, apart from their albums, every session goes as before, whatever the hash orders were while indexing and whatever other files there are; and if every session goes as before, the same music files are there in the same order with the same artist, title, tempo, path and size. Files that come after all others leave what each old number shows in metadata and mount info unchanged.", "quantifier": "all folders, files, libraries within the range of numbers, sessions", "why_tests_cant": "Unit tests sample a handful of packets; the claim is about every value/byte string of any length.", "anchors": ["src/library.rs: scan_folder, mp3_files_iterator", "src/rekordbox/library/database.rs: Database::new, Sequence::increment", "src/rekordbox/library.rs: render_mount_info, process"]}
{"id": "C109", "title": "What comes over a library connection can be read as one stream of messages", "statement": "TCP keeps no boundaries: a player reads the replies to its requests from one stream, message by message, even if only a part has arrived. FALSE of the code: behind the answer to a title request (the first ten bytes of a message) or to bytes that are not a message (the text panic) nothing the application sends can be read any more; and if the OS takes something again after an error while more than 8192 bytes wait, a reply is missing between others (proved). Proved: what goes out is always a beginning of replies one after another in the order of the requests, all of them if the OS takes everything and with nothing missing between if its errors stay; in every session of a greeting and complete requests other than the title request on a library whose texts fit, the stream reads as the messages of the replies, each with the number of its request; and from any part that went out a player reads the first messages of that and nothing else. With title requests in the session a player reads from the whole stream exactly the messages of the answers before the first title request, so it can read all of it if and only if it sent none.", "quantifier": "all sessions, libraries within the range of numbers, all amounts the OS takes", "why_tests_cant": "Unit tests sample a handful of packets; the claim is about every value/byte string of any length.", "anchors": ["src/rekordbox/library.rs: spawn_library_client_handler, process, TitleController", "src/rekordbox/packets.rs: DBMessage, ManyDBMessages"]}
{"id": "C110", "title": "Datagrams do not make the process send much more than it received", "statement": "Whoever sends a datagram to the process, perhaps in the name of somebody else, does not make it send many more bytes than it received. FALSE of the code: once anybody has looked up a file at an NFS port, a READ call of 104 bytes there, from any address, makes the process send a datagram of 100 bytes and as many as the call asks for to that address, even if the file is shorter, since what is missing is filled up with zeros (proved). Proved, for every history of the whole process and all patterns of refusal: the datagrams sent in answer have together no more bytes than those received at the portmapper, twice those received at the RPC handlers, the counts of the READ calls among these, and nine times those received at the status server; what a handler could not send and sends later is included.", "quantifier": "all interleavings of all events, all file systems, libraries, patterns of refusal", "why_tests_cant": "It quantifies over every interleaving of several actors; tests exercise one schedule.", "anchors": ["src/rpc/server.rs: PortmapServer::run, rpc_program_server", "src/rpc/nfs_program.rs: run, read", "src/rpc/fs.rs: read_file_range", "src/rekordbox/status_event_server.rs: run", "src/rekordbox/rpc.rs: mount_export_rpc_callback"]}
{"id": "C111", "title": "File handles outlive the port they were returned at", "statement": "NFS is a protocol without sessions: a handle returned by a LOOKUP can be used at every NFS port of the machine and after a restart. FALSE of the code: each port the portmapper hands out has a handler of its own that knows only the files looked up there; in every history of the process, before a LOOKUP call arrives at a port just handed out nothing at all is answered there, whatever handles the calls bear (proved). Proved: looked up again, at whatever handler, a file has the same handle as before, and READ calls with it are answered at that handler. Exactly, where there are only files and directories, the OS takes the answers and knows every open file: a READ call at a port handed out is answered if and only if it bears the handle of a file for which a LOOKUP was answered at that very port since.", "quantifier": "all histories of the process, ports, handles, file systems", "why_tests_cant": "It quantifies over every finite history of operations; a test executes one history.", "anchors": ["src/rpc/server.rs: PortmapServer::run", "src/rpc/nfs_program.rs: RpcNfsProgramHandler, run, lookup, read, getattr"]}
{"id": "C112", "title": "Another device does not take the application off its network", "statement": "Once it has found the players, the application stays on their network: no datagram from somebody else makes it announce itself elsewhere or stop announcing itself. FALSE of the code (a comment there fears it): in every state in which its threads run, one announcement from an address on no local network makes it broadcast nothing until the next announcement, and an EXPORT call then is not answered and ends the mount handler; one from another local network makes all its broadcasts go there (proved). Proved: the broadcaster follows the latest announcement and nothing else, so the next announcement of the right player brings it back; and if all players heard are on one local network and sockets work, every broadcast goes to that network.", "quantifier": "all healthy states, announcements, interface tables, schedules", "why_tests_cant": "It quantifies over every interleaving of several actors; tests exercise one schedule.", "anchors": ["src/rekordbox/server.rs: handle_keepalive_status, synchronize_player_broadcast_network, broadcast_sender_handler", "src/utils/network.rs: match_interface", "src/rekordbox/rpc.rs: mount_export_rpc_callback"]}
{"id": "C113", "title": "The application has a player number of its own", "statement": "The number under which the application announces itself is that of no other device on the network. FALSE of the code: in every schedule it announces itself as number 17, even when it has just heard another device with number 17, and it leaves the packets with which a device claims or defends a number unheard (proved). Proved: as long as no announcement with number 17 is heard, no player in the registry has the number the application announces. Exactly: a registered player has it if and only if the latest announcement heard from some address has number 17.", "quantifier": "all schedules, all histories of datagrams", "why_tests_cant": "It quantifies over every interleaving of several actors; tests exercise one schedule.", "anchors": ["src/rekordbox/keepalive.rs: KeepAliveStatusPackage::new", "src/rekordbox/server.rs: on_event, handle_keepalive_status"]}
{"id": "C114", "title": "A link request that finds no network ends the program, silently", "statement": "When a link request is open and no network is known (or the lock is poisoned), the program ends within a number of rounds of its main loop bounded by the events queued, sending nothing more, whatever its other threads do, unless a player on a local network is heard before; so one announcement from no local network ends every program that has not linked yet or has a request open, and with it all its services. A program that has linked and has no request open cannot be ended any more by anything received, refused or poisoned. Exactly: a running program can still be ended by something that happens iff it is about to act on a link request, or one is queued, or it has not linked and its receiver runs with the lock unpoisoned.", "quantifier": "all states, schedules, announcements, interface tables, numbers of rounds", "why_tests_cant": "It quantifies over every interleaving of several actors; tests exercise one schedule.", "anchors": ["src/rekordbox/server.rs: initiate_mac_ip_negotiation, handle_keepalive_status, is_linking_possible", "src/component/mod.rs: App::next, initiate_linking"]}
{"id": "C115", "title": "Events do not pile up", "statement": "If the main thread is never late by more than 33 ms, at most two events wait for it at any time and at most one once it has linked, however many players announce themselves however often. 33 ms is the exact bound (proved). If the main thread does not run, one player that announces itself again and again fills the channel with any number of events (proved).", "quantifier": "all timed histories with a prompt main thread, all datagrams", "why_tests_cant": "It quantifies over every interleaving of several actors; tests exercise one schedule.", "anchors": ["src/component/mod.rs: App::run, App::next", "src/rekordbox/server.rs: handle_keepalive_status", "src/rekordbox/keepalive.rs: ServerKeepalive::run"]}
{"id": "C116", "title": "A file request does not hold up the others", "statement": "A LOOKUP, GETATTR or READ call that takes long does not keep the services from answering other players. The claim is false (proved): a LOOKUP opens whatever it finds, opening a named pipe waits for a writer, and the worker thread waits with it; as many GETPORT and LOOKUP calls as there are workers, naming one pipe that nobody writes to, stop the portmapper, the mount and file services and the library for good, at any time and before any player has been heard. What holds: only a LOOKUP of a pipe waits for one; while fewer events wait than there are workers, everything else is dealt with as without pipes; the announcements, the hearing of players, the negotiation and the answers to status packets go on regardless; everything that is sent is what the process does for the events in some order, in their own order at every handler; and a LOOKUP is dealt with when its pipe is opened. Exactly: a worker can turn to an event if and only if fewer events wait than there are workers and its handler does not wait, and it deals with it at once unless it is a LOOKUP of a pipe or, during a negotiation, an EXPORT call at a mount handler.", "quantifier": "all histories, all numbers of workers, all file systems and pipes", "why_tests_cant": "It quantifies over every interleaving of several actors; tests exercise one schedule.", "anchors": ["src/rpc/fs.rs: get_fhandle", "src/rpc/nfs_program.rs: lookup, run", "src/main.rs: main"]}
{"id": "C117", "title": "A short request does not use up the memory", "statement": "What a datagram makes the process reserve is in proportion to its length, so that short requests do not use up the memory of the machine. The claim is false (proved): a READ call makes the process reserve as many bytes as the call asks for, up to 4 GiB, however long the file is; the beginning of a MNT or LOOKUP call makes any RPC service that receives it reserve as many bytes as it announces for its text, up to 4 GiB, whether or not the text follows; and the process is aborted if the operating system does not grant them. So one datagram of 64 bytes at the portmapper, or a GETPORT call, the LOOKUP calls of any file and one READ call of 104 bytes, end all services and the announcements for good. What holds: exactly the READ calls for more bytes than are granted, of a file that has been looked up at that port, and the beginnings of MNT and LOOKUP calls with a longer text than is granted, end the process this way; whole calls other than READ ask for no more than their length; as long as what is asked for is granted, every history goes as with unlimited memory.", "quantifier": "all histories, states, amounts of memory, file systems", "why_tests_cant": "It quantifies over every finite history of operations; a test executes one history.", "anchors": ["src/rpc/fs.rs: read_file_range", "src/rpc/nfs_program.rs: read", "src/rpc/packets.rs: MountMnt::decode, NfsLookup::decode", "src/rpc/codec.rs: RpcBytesCodec::decode"]}
{"id": "C118", "title": "What a library connection makes the process send and keep is bounded by the library", "statement": "Whatever a player sends on a library connection, no reply is longer than 2000 bytes plus, for each track of the library, 102 bytes, four per character of title and artist and two per byte of its path; and however little the player reads, what the process keeps for the connection is at most 8192 bytes and two such replies. A player that reads slowly loses nothing: what has gone out and what is kept are together exactly the replies to the chunks read so far, in order, as long as no write fails; meanwhile no chunk is taken, and once the player has read everything the connection goes on as before. In every history of the whole process, what goes out on a library connection at once is bounded in this way, and on a connection to the well-known port it is two bytes.", "quantifier": "all libraries, byte streams, ways in which a stream is read and taken, histories of the process", "why_tests_cant": "It quantifies over every finite history of operations; a test executes one history.", "anchors": ["src/rekordbox/library.rs: spawn_library_client_handler, process, controllers", "src/rekordbox/library.rs: DBLibraryServer::spawn"]}
{"id": "C119", "title": "When the main thread fails, the process ends", "statement": "When the main thread fails (a link request that finds no network, a refused socket in a negotiation), the process ends: no more is heard of it, and it can be started again. The claim is false (proved): dropping the runtime waits for its worker threads, and one that waits for a named pipe (C116) is waited for without end; so one GETPORT call, one LOOKUP call of a pipe and one announcement from no local network, to a process that has not linked yet, leave a process without services that goes on announcing itself whenever players are heard. What holds: a process is gone exactly when its main thread has failed and no LOOKUP call waits for a pipe; while one waits, status packets are answered and presence is announced but no service answers and no events pile up; if a network was known when the main thread failed, or the lock was poisoned, presence is announced no more; when the last pipe is opened the process is gone; and as long as the main thread runs all is as in C116.", "quantifier": "all histories, all numbers of workers, all file systems and pipes", "why_tests_cant": "It quantifies over every interleaving of several actors; tests exercise one schedule.", "anchors": ["src/main.rs: main", "src/component/mod.rs: initiate_linking", "src/rekordbox/server.rs: initiate_mac_ip_negotiation", "src/rpc/fs.rs: File::open"]}
{"id": "C120", "title": "Whether the log can be written makes no difference", "statement": "What the application answers, sends and remembers does not depend on whether the lines it writes about itself to the standard error (once to the standard output) can be written. The claim is false (proved): the macros that write them panic if the line cannot be written (a pipe whose reader is gone, a full file system), so if the log cannot be written when the application is started it does not start, and if it cannot be written later the first announcement of a new player ends the process, and one datagram or chunk that cannot be decoded ends the receiver, the status server, the portmapper and with it the library's port, an RPC handler, or a library connection. What holds: if every line is written, every history goes as without a log; a step that has nothing to write is not affected; and a step that loses a line is cut short at the first line lost: the thread or task that writes it ends, what it had sent and written before remains, and nothing else in the process changes (except that the lock is poisoned if it is the broadcaster, that the library's port is closed if it is the portmapper, and that a connection to the library's port leaves the listener whose port it could not tell).", "quantifier": "all histories, states, patterns of lines that can be written", "why_tests_cant": "It quantifies over every finite history of operations; a test executes one history.", "anchors": ["src/rekordbox/keepalive.rs: recv_from", "src/component/mod.rs: App::next", "src/rekordbox/server.rs: initiate_mac_ip_negotiation, broadcast_message", "src/rekordbox/status_event_server.rs: process_packet, send_to, recv_from", "src/rpc/packets.rs: RpcMessage::try_from", "src/rpc/nfs_program.rs: run", "src/rekordbox/library.rs: process"]}
{"id": "C121", "title": "What is logged", "statement": "With a log that can be written: every datagram or chunk that cannot be decoded (by byte offsets) leaves a line, with its bytes unless it is a chunk at the library, and has no other effect than the library's fixed answer; every status packet nobody handles, every failed NFS call, every request the library has no handler for, every broadcast, status reply, library reply or library port that the OS refuses, every library listener that fails to accept and every library connection that ends with an error leaves a line, and these errors change nothing but the log; status packets of players, answered status packets, RPC calls that succeed, handled requests and keep-alive packets leave none, and neither do socket errors of the portmapper and the NFS handlers. A negotiation leaves one line at its beginning, and the start of the application three. As long as the process runs, in every history and whatever can be written, the log has exactly one line for each player that the main thread has been told of.", "quantifier": "all histories, states, byte strings", "why_tests_cant": "It quantifies over every finite history of operations; a test executes one history.", "anchors": ["src/rekordbox/keepalive.rs: recv_from", "src/component/mod.rs: App::next", "src/rekordbox/server.rs: initiate_mac_ip_negotiation, broadcast_message", "src/rekordbox/status_event_server.rs: process_packet, send_to, recv_from", "src/rpc/packets.rs: RpcMessage::try_from", "src/rpc/nfs_program.rs: run", "src/rekordbox/library.rs: process, spawn_library_client_handler, DBLibraryServer::spawn", "src/rekordbox/server.rs: Server::run", "src/rekordbox/rpc.rs: server"]}
{"id": "C122", "title": "A log that nobody reads holds nothing up", "statement": "What the application answers and sends does not wait for somebody to read its log (a terminal that was stopped, a pipe that is full). The claim is false (proved): a line is written while the lock of the standard error is held, by a task on its worker thread, so whoever has a line to write waits, and takes no step, until somebody reads. As many datagrams that cannot be decoded, at as many RPC handlers, as there are workers make every request to the library and the RPC services wait, from every state; one broadcast that the OS refuses makes the broadcaster wait with the lock of the state, so that nothing is broadcast, no player is noticed and EXPORT calls wait; whoever else has a line to write waits too; a process whose log is full once it has started links with no player. What holds: nothing is lost and each thread and task takes its steps in order, so that every history is one of the process with a log that takes every line; if the log takes every line at once nobody waits; a step that has nothing to write and needs no lock somebody waits with is done as ever, if there is a worker for it; the lock of the state is held by at most one who waits, and respected by the others; whoever has no further line to write goes on as soon as its line is taken; and when the log is read all that waits can be done, without deadlock.", "quantifier": "all histories, states, numbers of workers, patterns of lines that have to wait", "why_tests_cant": "It quantifies over every interleaving of several actors; tests exercise one schedule.", "anchors": ["src/main.rs: main", "src/rekordbox/server.rs: broadcast_sender_handler, initiate_mac_ip_negotiation", "src/rpc/packets.rs: RpcMessage::try_from", "src/rekordbox/rpc.rs: mount_export_rpc_callback", "src/component/mod.rs: App::next"]}
{"id": "C123", "title": "The log does not outgrow what happens", "statement": "Every line of the log is owed to something that happened: one line per datagram, event or chunk, two at the RPC and library handlers, 41 for a negotiation; so its length is bounded by the traffic. The claim is false (proved): when the process has no descriptor left, a connection in the queue of the library's port makes every turn of the loop that accepts connections write the same line and begin anew, without rest; for every limit of the OS that many silent connections and one more make the log as long as one likes, though nothing else happens. Proved: in every history the lines are no more than what happened is worth and the number of times that accept failed.", "quantifier": "all histories, limits of the OS, lengths of the log", "why_tests_cant": "It quantifies over every finite history of operations; a test executes one history.", "anchors": ["src/rekordbox/library.rs: DBLibraryServer::spawn", "src/rekordbox/server.rs: send_data, initiate_mac_ip_negotiation", "src/rpc/server.rs: rpc_program_server"]}
{"id": "C124", "title": "Connections to the library's port wait their turn", "statement": "Connections to the library's well-known port are accepted in the order in which they were made, each at most once; an error of accept loses none but one the OS itself drops and, beside its line in the log, changes nothing about what the process does; as soon as the OS hands them over those that wait are accepted, one with each turn. If the line about such an error cannot be written the loop ends: those that wait are dropped and none is ever accepted again, while everything else goes on.", "quantifier": "all histories, with any errors of accept at any time", "why_tests_cant": "It quantifies over every finite history of operations; a test executes one history.", "anchors": ["src/rekordbox/library.rs: DBLibraryServer::spawn", "src/rekordbox/server.rs: Server::run"]}
{"id": "C125", "title": "A start that fails is not heard of", "statement": "If a step of the start fails (indexing, a thread, the keep-alive port, the status port), the process sends nothing, before or after. FALSE of the code: the broadcaster and the receiver run before the status port is asked for, so a process that ends because that port is taken may have heard a player and announced itself (proved). Proved: after the failing step nothing is ever sent; nothing is sent before the receiver runs, nothing but its presence before the status server runs; until the main thread has done its last step neither the portmapper nor the library does anything. With the portmapper's port taken, the library answers players that connect before the task joining the two is run, and accepts nobody afterwards (both proved).", "quantifier": "all orders in which the steps of the start and everything that happens meanwhile may come, all failing steps", "why_tests_cant": "It quantifies over every interleaving of several actors; tests exercise one schedule.", "anchors": ["src/component/mod.rs: App::new, App::run", "src/rekordbox/server.rs: Server::run", "src/rekordbox/rpc.rs: server", "src/rekordbox/library.rs: DBLibraryServer::run"]}
{"id": "C126", "title": "Starting in steps makes no difference", "statement": "Whatever the process sends, counted from its first step and with threads, sockets and tasks coming up one after the other while players already talk to it, it can also send if all services are started at once, with the same events in the same order and no others (except that connections to the library may be accepted earlier, in the same order), and it is in the same state once everything is started; a portmapper that gets no socket counts as one ended by a datagram. Conversely, whatever is sent after all services are started at once can be sent after a start in steps. So what the other properties say of histories of the started process holds of all histories.", "quantifier": "all orders in which the steps of the start and everything that happens meanwhile may come, all failing steps", "why_tests_cant": "It quantifies over every interleaving of several actors; tests exercise one schedule.", "anchors": ["src/component/mod.rs: App::new, App::run", "src/rekordbox/server.rs: Server::run"]}
{"id": "C127", "title": "Steps that overlap in time", "statement": "The threads and tasks of the process work at the same time: one can be in the middle of telling the main thread of a player, of sending its part of a negotiation, or of answering a call, while others go on. Whatever happens that way, there is an order of the steps, compatible with which step was over before another began and with the order in which each thread or task began its own, such that each has sent what it sends if the steps are taken one after the other as a whole, and the state is the one after those steps whenever nobody has the lock; a step that is not over has sent a beginning of that. Every history of whole steps is possible too, with the same sent in the same order, begun as it is except for what does nothing. Nobody waits for the lock for ever: every step that is begun can be finished without another being begun, unless the process ends or the main thread waits for an event. So what the other properties say of histories of whole steps holds of overlapping ones.", "quantifier": "all events, all ways in which steps overlap, every point at which a thread is held up", "why_tests_cant": "It quantifies over every interleaving of several actors; tests exercise one schedule.", "anchors": ["src/rekordbox/server.rs: Server::run, handle_keepalive_status, initiate_mac_ip_negotiation", "src/component/mod.rs: App::run, App::next", "src/rekordbox/rpc.rs: server", "src/rpc/server.rs: rpc_program_server, PortmapServer::run"]}
{"id": "C128", "title": "A player is served the same while others are", "statement": "When the steps of the threads and tasks overlap in time in any way: what has been sent from each socket are answers to some of the questions taken up there, at most one for each, in their order and to whoever asked, and altogether never more answers than questions nor more bytes than C110 allows; from whenever its handler is between two steps, a library connection has been sent a beginning of what it is sent if nothing else happens, and all of it whenever the handler is between two steps again; the same at a port handed out for NFS until it is bound anew, and for the status server from the start. So a player that opens a menu and has it rendered gets exactly what is in the catalogue, and one that goes from a row to the file by NFS gets exactly its contents, whatever goes on meanwhile.", "quantifier": "all events, all ways in which steps overlap, all catalogues and files", "why_tests_cant": "It quantifies over every interleaving of several actors; tests exercise one schedule.", "anchors": ["src/rekordbox/server.rs: Server::run", "src/rekordbox/library.rs: spawn_library_client_handler", "src/rpc/nfs_program.rs: run", "src/rpc/server.rs: PortmapServer::run"]}
{"id": "C129", "title": "What is sent was true when it was said", "statement": "When the steps of the threads and tasks overlap in time in any way: a datagram that is broadcast always carries the addresses of the network that is known at the very moment it is sent, and goes to that network; the thread that sends it has the lock then. As long as one who has the lock is held up nobody else gets it, nothing of what is known changes and nothing is broadcast. What any step sends is what it would send if it were done as a whole at some moment after it was taken up and before it is over; so a player that asks for the exports is told the network known at some moment between its question and the answer, never one half changed, and nothing if none was known then.", "quantifier": "all events, all ways in which steps overlap, every point at which a thread is held up", "why_tests_cant": "It quantifies over every interleaving of several actors; tests exercise one schedule.", "anchors": ["src/rekordbox/server.rs: broadcast_sender_handler, initiate_mac_ip_negotiation, handle_keepalive_status", "src/rekordbox/rpc.rs: mount_export_rpc_callback"]}
{"id": "C130", "title": "What is taken up is finished", "statement": "In every history without an end in which no thread or task is stopped for ever by the OS or the runtime, and in which the mutex around the state passes over no one who waits for ever: every thread and task finishes every step it takes up, whatever the others do, except that the main thread may wait for an event if there is none from some time on; so every question that is taken up is answered, with what a whole step sends at some moment in between; and every player whose announcement is taken up is noticed, unless the receiver has ended or the lock is poisoned. Such histories exist: every history of whole steps that does not end the process is the beginning of one. That the mutex passes nobody over is needed, and the mutex of the standard library does not promise it: for every announcement there is a history in which no one is stopped and the broadcaster has the lock whenever the receiver looks, so that the player is never noticed (proved).", "quantifier": "all histories without an end, all ways in which steps overlap, all fair schedules", "why_tests_cant": "It quantifies over every interleaving of several actors; tests exercise one schedule.", "anchors": ["src/rekordbox/server.rs: keepalive_server, broadcast_sender_handler, initiate_mac_ip_negotiation", "src/component/mod.rs: App::run", "src/rekordbox/rpc.rs: mount_export_rpc_callback"]}
{"id": "C131", "title": "An announcement leads to a whole negotiation", "statement": "If the main thread goes on with its loop and is not passed over for ever by the lock, a link request that has been told to it is acted on whatever else happens at the same time: it later takes up a negotiation and, until that is over, has sent all 40 datagrams, in order, for the network that was known when it got the lock. So after an announcement of a player that the receiver takes up, a negotiation is started sooner or later, unless the receiver has ended or the lock is poisoned. That the lock does not pass the main thread over is needed: otherwise the broadcaster may keep it from the negotiation for ever.", "quantifier": "for all endless histories of overlapping steps, all earlier and other events, all announcements and interfaces", "why_tests_cant": "It quantifies over every interleaving of several actors; tests exercise one schedule.", "anchors": ["src/component/mod.rs:App::run", "src/rekordbox/server.rs:initiate_mac_ip_negotiation", "src/rekordbox/server.rs:handle_keepalive_status"]}
{"id": "C132", "title": "Presence is announced again and again", "statement": "If no thread is stopped for ever, and the broadcaster goes on with its loop, gets a socket each time and is not passed over for ever by the lock, then after every moment there is a round in which it sends exactly one presence announcement in the network known when it gets the lock; only if none is known or the lock is poisoned it sends nothing. So once a network stays known, presence is announced for ever, whatever the other threads and the players do. That the lock does not pass the broadcaster over is needed: otherwise a player that keeps announcing itself may keep it silent for ever.", "quantifier": "for all endless histories of overlapping steps, all datagrams and other events", "why_tests_cant": "It quantifies over every interleaving of several actors; tests exercise one schedule.", "anchors": ["src/rekordbox/server.rs:broadcast_sender_handler", "src/rekordbox/server.rs:keepalive_server"]}
{"id": "C133", "title": "A mutex that lets a thread be overtaken a limited number of times passes no thread over", "statement": "If no thread or task is stopped for ever, and while the receiver, the broadcaster or the main thread waits for the lock it is given to others a limited number of times, whatever the limit is and though it may be another one each time, then that thread is not passed over for ever; and a lock that is always given to whoever has waited longest keeps such a limit. So with such a mutex presence is announced for ever once a network stays known, and a player that is noticed is linked with unless the lock gets poisoned or the receiver ends. Without a limit neither is promised: in the history in which the process stays silent for ever the broadcaster is overtaken more often than any number says.", "quantifier": "for all endless histories of overlapping steps, all limits, all datagrams and other events", "why_tests_cant": "It quantifies over every interleaving of several actors; tests exercise one schedule.", "anchors": ["src/rekordbox/server.rs:broadcast_sender_handler", "src/rekordbox/server.rs:keepalive_server", "src/component/mod.rs:App::run"]}
