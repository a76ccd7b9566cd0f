import Verif.Model.Rpc
import Verif.Model.Library
import Verif.Model.Codec
import Verif.Model.Keepalive
import Verif.Model.Status
import Verif.Model.Players

/-!
# The test suite of the repository, run on the model

Every `#[test]` of `/repo/src` that asserts something about code in the model, transcribed byte for
byte: what the test passes to the code is passed to the model, what it expects of the code is
expected of the model.  These are checks of the model against the expectations its authors wrote
down; they are not proofs of any property and no property rests on them.

Not transcribed: `test_controller_trait` (a controller defined by the test itself),
`it_can_insert_artists` (asserts nothing), `build_discovery_sequence` (ignored, asserts nothing),
`export_mount_service` (not a test any more: the attribute is a comment), and the three dialogues of
library.rs 848-899: they expect the artist number 0 to be remembered although their request says 1,
so they fail on the code whatever files there are, and they fail on the model, as shown below.

The fixtures also hold dialogues that no test uses.  They were recorded from the original
application, and where the code means to answer the same, the model does.
-/

namespace PDJ

set_option maxRecDepth 100000

/-! ## rpc/packets.rs -/

/-- `test_decoding_portmap_nfs_call` (rpc/packets.rs 1046). -/
example : RpcRequest.decode
    [0x00, 0x00, 0x01, 0x03, 0x00, 0x00, 0x00, 0x00, 0x00, 0x00, 0x00, 0x02, 0x00, 0x01, 0x86,
    0xa0, 0x00, 0x00, 0x00, 0x02, 0x00, 0x00, 0x00, 0x03, 0x00, 0x00, 0x00, 0x01, 0x00, 0x00,
    0x00, 0x14, 0x25, 0x37, 0x91, 0x2c, 0x00, 0x00, 0x00, 0x00, 0x00, 0x00, 0x00, 0x00, 0x00,
    0x00, 0x00, 0x00, 0x00, 0x00, 0x00, 0x00, 0x00, 0x00, 0x00, 0x00, 0x00, 0x00, 0x00, 0x00,
    0x00, 0x01, 0x86, 0xa3, 0x00, 0x00, 0x00, 0x02, 0x00, 0x00, 0x00, 0x11, 0x00, 0x00, 0x00,
    0x00] = .ok [] ⟨259, ⟨2, .portmap, 2, .portmapGetport ⟨2, .nfs, .udp, 0⟩, ⟨1, 20, 624398636, 0, 0, 0, 0⟩, .null⟩⟩ := by decide

/-- `test_decoding_portmap_getport_call` (rpc/packets.rs 1090). -/
example : RpcRequest.decode
    [0x00, 0x00, 0x00, 0x15, 0x00, 0x00, 0x00, 0x00, 0x00, 0x00, 0x00, 0x02, 0x00, 0x01, 0x86,
    0xa0, 0x00, 0x00, 0x00, 0x02, 0x00, 0x00, 0x00, 0x03, 0x00, 0x00, 0x00, 0x01, 0x00, 0x00,
    0x00, 0x14, 0xfe, 0xc9, 0x98, 0x11, 0x00, 0x00, 0x00, 0x00, 0x00, 0x00, 0x00, 0x00, 0x00,
    0x00, 0x00, 0x00, 0x00, 0x00, 0x00, 0x00, 0x00, 0x00, 0x00, 0x00, 0x00, 0x00, 0x00, 0x00,
    0x00, 0x01, 0x86, 0xa5, 0x00, 0x00, 0x00, 0x01, 0x00, 0x00, 0x00, 0x11, 0x00, 0x00, 0x00,
    0x00] = .ok [] ⟨21, ⟨2, .portmap, 2, .portmapGetport ⟨1, .mount, .udp, 0⟩, ⟨1, 20, 4274624529, 0, 0, 0, 0⟩, .null⟩⟩ := by decide

/-- `test_encoding_portmap_getport_reply` (rpc/packets.rs 1134). -/
example : (RpcOutgoing.reply 21 ⟨.null, .portmapGetport 36251⟩).encode =
    [0x00, 0x00, 0x00, 0x15, 0x00, 0x00, 0x00, 0x01, 0x00, 0x00, 0x00, 0x00, 0x00, 0x00, 0x00,
    0x00, 0x00, 0x00, 0x00, 0x00, 0x00, 0x00, 0x00, 0x00, 0x00, 0x00, 0x8d, 0x9b] := by decide

/-- `test_decoding_mount_export_call` (rpc/packets.rs 1158). -/
example : RpcRequest.decode
    [0x00, 0x00, 0x00, 0x0c, 0x00, 0x00, 0x00, 0x00, 0x00, 0x00, 0x00, 0x02, 0x00, 0x01, 0x86,
    0xa5, 0x00, 0x00, 0x00, 0x01, 0x00, 0x00, 0x00, 0x05, 0x00, 0x00, 0x00, 0x01, 0x00, 0x00,
    0x00, 0x14, 0xb0, 0xb6, 0x31, 0x14, 0x00, 0x00, 0x00, 0x00, 0x00, 0x00, 0x00, 0x00, 0x00,
    0x00, 0x00, 0x00, 0x00, 0x00, 0x00, 0x00, 0x00, 0x00, 0x00, 0x00, 0x00, 0x00, 0x00, 0x00] = .ok [] ⟨12, ⟨2, .mount, 1, .mountExport, ⟨1, 20, 2964730132, 0, 0, 0, 0⟩, .null⟩⟩ := by decide

/-- `test_encoding_mount_export_reply` (rpc/packets.rs 1187). -/
example : (RpcOutgoing.reply 22 ⟨.null, .mountExport [⟨['/', 'C', '/'],
    [['1', '9', '2', '.', '1', '6', '8', '.', '1', '0', '.', '5', '/', '2', '5', '5', '.', '2', '5', '5', '.', '2', '5', '5', '.', '0']]⟩]⟩).encode =
    [0x00, 0x00, 0x00, 0x16, 0x00, 0x00, 0x00, 0x01, 0x00, 0x00, 0x00, 0x00, 0x00, 0x00, 0x00,
    0x00, 0x00, 0x00, 0x00, 0x00, 0x00, 0x00, 0x00, 0x00, 0x00, 0x00, 0x00, 0x01, 0x00, 0x00,
    0x00, 0x06, 0x2f, 0x00, 0x43, 0x00, 0x2f, 0x00, 0x00, 0x00, 0x00, 0x00, 0x00, 0x01, 0x00,
    0x00, 0x00, 0x1a, 0x31, 0x39, 0x32, 0x2e, 0x31, 0x36, 0x38, 0x2e, 0x31, 0x30, 0x2e, 0x35,
    0x2f, 0x32, 0x35, 0x35, 0x2e, 0x32, 0x35, 0x35, 0x2e, 0x32, 0x35, 0x35, 0x2e, 0x30, 0x00,
    0x00, 0x00, 0x00, 0x00, 0x00, 0x00, 0x00, 0x00, 0x00] := by decide

/-- `test_decoding_mount_mnt_call` (rpc/packets.rs 1225). -/
example : RpcRequest.decode
    [0x00, 0x00, 0x00, 0x16, 0x00, 0x00, 0x00, 0x00, 0x00, 0x00, 0x00, 0x02, 0x00, 0x01, 0x86,
    0xa5, 0x00, 0x00, 0x00, 0x01, 0x00, 0x00, 0x00, 0x01, 0x00, 0x00, 0x00, 0x01, 0x00, 0x00,
    0x00, 0x14, 0xb0, 0x8c, 0xe1, 0x04, 0x00, 0x00, 0x00, 0x00, 0x00, 0x00, 0x00, 0x00, 0x00,
    0x00, 0x00, 0x00, 0x00, 0x00, 0x00, 0x00, 0x00, 0x00, 0x00, 0x00, 0x00, 0x00, 0x00, 0x00,
    0x00, 0x00, 0x00, 0x06, 0x2f, 0x00, 0x43, 0x00, 0x2f, 0x00, 0x00, 0x11] = .ok [] ⟨22, ⟨2, .mount, 1, .mountMnt ⟨[['/', 'C', '/']]⟩, ⟨1, 20, 2962022660, 0, 0, 0, 0⟩, .null⟩⟩ := by decide

/-- `test_encoding_mount_mnt_reply` (rpc/packets.rs 1257). -/
example : (RpcOutgoing.reply 25 ⟨.null, .mountMnt 0 ⟨List.replicate 32 0x00⟩⟩).encode =
    [0x00, 0x00, 0x00, 0x19, 0x00, 0x00, 0x00, 0x01, 0x00, 0x00, 0x00, 0x00, 0x00, 0x00, 0x00,
    0x00, 0x00, 0x00, 0x00, 0x00, 0x00, 0x00, 0x00, 0x00, 0x00, 0x00, 0x00, 0x00, 0x00, 0x00,
    0x00, 0x00, 0x00, 0x00, 0x00, 0x00, 0x00, 0x00, 0x00, 0x00, 0x00, 0x00, 0x00, 0x00, 0x00,
    0x00, 0x00, 0x00, 0x00, 0x00, 0x00, 0x00, 0x00, 0x00, 0x00, 0x00, 0x00, 0x00, 0x00, 0x00] := by decide

/-- `it_can_decode_lookup_call` (rpc/packets.rs 1286): the test only asks for success; this is the call. -/
example : RpcRequest.decode
    [0x00, 0x00, 0x00, 0x22, 0x00, 0x00, 0x00, 0x00, 0x00, 0x00, 0x00, 0x02, 0x00, 0x01, 0x86,
    0xa3, 0x00, 0x00, 0x00, 0x02, 0x00, 0x00, 0x00, 0x04, 0x00, 0x00, 0x00, 0x01, 0x00, 0x00,
    0x00, 0x14, 0xf0, 0xbc, 0x71, 0x07, 0x00, 0x00, 0x00, 0x00, 0x00, 0x00, 0x00, 0x00, 0x00,
    0x00, 0x00, 0x00, 0x00, 0x00, 0x00, 0x00, 0x00, 0x00, 0x00, 0x00, 0x00, 0x00, 0x00, 0x00,
    0x00, 0x00, 0x00, 0x00, 0x00, 0x00, 0x00, 0x00, 0x00, 0x00, 0x00, 0x00, 0x03, 0x01, 0x00,
    0x00, 0x00, 0x00, 0x1b, 0x58, 0x00, 0x00, 0x00, 0x00, 0x11, 0x04, 0x01, 0x00, 0x00, 0x00,
    0x00, 0x05, 0x00, 0x00, 0x00, 0x0a, 0x55, 0x00, 0x73, 0x00, 0x65, 0x00, 0x72, 0x00, 0x73,
    0x00, 0x00, 0x00] = .ok [0x00, 0x00] ⟨34, ⟨2, .nfs, 2, .nfsLookup ⟨['U', 's', 'e', 'r', 's'], ⟨[0x00, 0x00, 0x00, 0x00, 0x00, 0x00, 0x00, 0x00, 0x00, 0x00, 0x00, 0x00, 0x03, 0x01, 0x00,
    0x00, 0x00, 0x00, 0x1b, 0x58, 0x00, 0x00, 0x00, 0x00, 0x11, 0x04, 0x01, 0x00, 0x00, 0x00,
    0x00, 0x05]⟩⟩, ⟨1, 20, 4038881543, 0, 0, 0, 0⟩, .null⟩⟩ := by decide

/-- `it_can_encode_nfs_lookup_reply` (rpc/packets.rs 1293): the length does not depend on the values. -/
example : (RpcReplyMessage.nfsLookup .ok ⟨List.replicate 32 0x00⟩
    ⟨.file, ⟨0, 0, 0, 0⟩, 0, 0, 0, 0, 0, 0, 0, 0, 0, ⟨0, 0⟩, ⟨0, 0⟩, ⟨0, 0⟩⟩).encode.length = 104 := by decide

/-! ## rekordbox/db_message_argument.rs -/

/-- `test_decoding_string_argument` (rekordbox/db_message_argument.rs 233). -/
example : argDecode .debug .string
    [0x26, 0x00, 0x00, 0x00, 0x08, 0x00, 0x55, 0x00, 0x6e, 0x00, 0x6b, 0x00, 0x6e, 0x00, 0x6f,
    0x00, 0x77, 0x00, 0x6e, 0x00, 0x00] =
    .ok [] ⟨.string, [0x00, 0x55, 0x00, 0x6e, 0x00, 0x6b, 0x00, 0x6e, 0x00, 0x6f, 0x00, 0x77, 0x00, 0x6e]⟩ := by decide

/-- `test_decoding_from_raw_data_to_argument_collection` (rekordbox/db_message_argument.rs 250). -/
example : argsDecode .debug
    [0x0f, 0x07, 0x14, 0x00, 0x00, 0x00, 0x0c, 0x06, 0x05, 0x04, 0x06, 0x06, 0x06, 0x02, 0x00,
    0x00, 0x00, 0x00, 0x00, 0x11, 0x02, 0x02, 0x04, 0x01, 0x10, 0x00, 0x00, 0x0f, 0x00, 0x11,
    0x00, 0x00, 0x00, 0x01, 0x11, 0x00, 0x00, 0x00, 0x02, 0x11, 0x00, 0x00, 0x00, 0x03, 0x26,
    0x00, 0x00, 0x00, 0x08, 0x00, 0x55, 0x00, 0x6e, 0x00, 0x6b, 0x00, 0x6e, 0x00, 0x6f, 0x00,
    0x77, 0x00, 0x6e, 0x00, 0x00] =
    .ok [] [⟨.u32, [2, 2, 4, 1]⟩, ⟨.u16, [0, 0]⟩, ⟨.u8, [0]⟩, ⟨.u32, [0, 0, 0, 1]⟩,
    ⟨.u32, [0, 0, 0, 2]⟩, ⟨.u32, [0, 0, 0, 3]⟩, ⟨.string, [0x00, 0x55, 0x00, 0x6e, 0x00, 0x6b, 0x00, 0x6e, 0x00, 0x6f, 0x00, 0x77, 0x00, 0x6e]⟩] := by decide

/-- `test_encode_from_argument_collection_to_raw_bytes` (rekordbox/db_message_argument.rs 272). -/
example : argsEncode [⟨.u32, [2, 2, 4, 1]⟩, ⟨.u16, [0, 0]⟩, ⟨.u8, [0]⟩, ⟨.u32, [0, 0, 0, 1]⟩,
    ⟨.u32, [0, 0, 0, 2]⟩, ⟨.u32, [0, 0, 0, 3]⟩, ⟨.string, [0x00, 0x55, 0x00, 0x6e, 0x00, 0x6b, 0x00, 0x6e, 0x00, 0x6f, 0x00, 0x77, 0x00, 0x6e]⟩] =
    [0x0f, 0x07, 0x14, 0x00, 0x00, 0x00, 0x0c, 0x06, 0x05, 0x04, 0x06, 0x06, 0x06, 0x02, 0x00,
    0x00, 0x00, 0x00, 0x00, 0x11, 0x02, 0x02, 0x04, 0x01, 0x10, 0x00, 0x00, 0x0f, 0x00, 0x11,
    0x00, 0x00, 0x00, 0x01, 0x11, 0x00, 0x00, 0x00, 0x02, 0x11, 0x00, 0x00, 0x00, 0x03, 0x26,
    0x00, 0x00, 0x00, 0x08, 0x00, 0x55, 0x00, 0x6e, 0x00, 0x6b, 0x00, 0x6e, 0x00, 0x6f, 0x00,
    0x77, 0x00, 0x6e, 0x00, 0x00] := by decide

/-! ## rekordbox/packets.rs -/

/-- `extract_magic_from_db_message` (rekordbox/packets.rs 746). -/
example : DBMessage.magic [0x11, 0x87, 0x23, 0x49, 0xae, 0x11] = .ok [0x11] [135, 35, 73, 174] := by decide

/-- `parse_transaction_id` (rekordbox/packets.rs 754). -/
example : DBMessage.transactionId [0x11, 0x00, 0x00, 0x00, 0x01, 0x20] =
      .ok [0x20] (.ofArr4 0x00 0x00 0x00 0x01) ∧
    DBMessage.transactionId [0x11, 0x00, 0x00, 0x01, 0x00, 0x20] =
      .ok [0x20] ⟨.u32, [0x00, 0x00, 0x01, 0x00]⟩ ∧
    DBMessage.transactionId [0x11, 0x05, 0x80, 0x00, 0x32, 0x20, 0x21] =
      .ok [0x20, 0x21] ⟨.u32, [0x05, 0x80, 0x00, 0x32]⟩ := by decide

/-- `parse_request_types` (rekordbox/packets.rs 770). -/
example : DBMessage.requestType [0x10, 0x00, 0x00] = .ok [] .setup ∧
    DBMessage.requestType [0x10, 0x00, 0x00, 0x00] = .ok [0x00] .setup ∧
    DBMessage.requestType [0x10, 0x00, 0xff] = .ok [] (.unknown 255) := by decide

/-- `verify_title_request_parsing` (rekordbox/packets.rs 790). -/
example : DBMessage.requestType [0x10, 0x10, 0x04] = .ok [] .title := by decide

/-- `verify_album_by_artist_request` (rekordbox/packets.rs 798). -/
example : DBMessage.requestType [0x10, 0x11, 0x02] = .ok [] .albumByArtist := by decide

/-- `dbmessage_setup_request_and_response` (rekordbox/packets.rs 806). -/
example : DBMessage.parse .debug
    [0x11, 0x87, 0x23, 0x49, 0xae, 0x11, 0xff, 0xff, 0xff, 0xfe, 0x10, 0x00, 0x00, 0x0f, 0x01,
    0x14, 0x00, 0x00, 0x00, 0x0c, 0x06, 0x00, 0x00, 0x00, 0x00, 0x00, 0x00, 0x00, 0x00, 0x00,
    0x00, 0x00, 0x11, 0x00, 0x00, 0x00, 0x02] =
    .ok [] ⟨.ofArr4 0xff 0xff 0xff 0xfe, .setup, [.ofArr4 0 0 0 2]⟩ := by decide

/-- `parse_test_library_handler` (rekordbox/packets.rs 812): the kind of error is not in the model. -/
example : DBMessage.parse .debug [0x11, 0x00, 0x00, 0x00, 0x01] = .err := by decide

/-- `parse_dbmessage` (rekordbox/packets.rs 820) on the first packet of `root_menu_dialog` (rekordbox/fixtures.rs 272). -/
example : (let d : DBMessage := ⟨.ofArr4 0x05 0x80 0x00 0x32, .rootMenu,
      [.ofArr4 0x02 0x01 0x04 0x01, .ofArr4 0 0 0 0, .ofArr4 0x00 0xff 0xff 0xff]⟩
    DBMessage.parse .debug d.encode = .ok [] d) := by decide

/-- `try_parse_dbmessage_with_broken_magic` (rekordbox/packets.rs 836). -/
example : DBMessage.parse .debug [0x49, 0xae, 0x11, 0x05, 0x80] = .err := by decide

/-- `encode_db_field_to_bytes` (rekordbox/packets.rs 847). -/
example : (DBField.ofU8 0x32).asBytes = [0x0f, 0x32] ∧
    (DBField.ofArr2 0x12 0x13).asBytes = [0x10, 0x12, 0x13] ∧
    (DBField.ofArr4 0 0 0 1).asBytes = [0x11, 0x00, 0x00, 0x00, 0x01] := by decide

/-- `test_binary_parsing` (rekordbox/packets.rs 857). -/
example : DBMessage.parse .debug
    [0x11, 0x87, 0x23, 0x49, 0xae, 0x11, 0x05, 0x80, 0x00, 0x1e, 0x10, 0x20, 0x04, 0x0f, 0x01,
    0x14, 0x00, 0x00, 0x00, 0x0c, 0x03, 0x00, 0x00, 0x00, 0x00, 0x00, 0x00, 0x00, 0x00, 0x00,
    0x00, 0x00, 0x00, 0x00, 0x00, 0x38, 0x38, 0x00, 0x00, 0x00, 0x00, 0x00, 0x01, 0x00, 0x00,
    0x00, 0xe8, 0x03, 0x9b, 0x2a, 0x01, 0x00, 0xff, 0xff, 0xff, 0xff, 0x00, 0x00, 0x00, 0x00,
    0x00, 0x00, 0x00, 0x00, 0x00, 0x00, 0x00, 0x00, 0xff, 0xff, 0xff, 0xff, 0x00, 0x00, 0x00,
    0x00, 0x00, 0x00, 0x00, 0x00, 0x00, 0x00, 0x00, 0x00, 0x00, 0x00, 0x00, 0x00, 0x00, 0x00,
    0x00, 0x00] =
    .ok [] ⟨.ofArr4 0x05 0x80 0x00 0x1e, .previewWaveform, [⟨.binary,
    [0x38, 0x00, 0x00, 0x00, 0x00, 0x00, 0x01, 0x00, 0x00, 0x00, 0xe8, 0x03, 0x9b, 0x2a, 0x01,
    0x00, 0xff, 0xff, 0xff, 0xff, 0x00, 0x00, 0x00, 0x00, 0x00, 0x00, 0x00, 0x00, 0x00, 0x00,
    0x00, 0x00, 0xff, 0xff, 0xff, 0xff, 0x00, 0x00, 0x00, 0x00, 0x00, 0x00, 0x00, 0x00, 0x00,
    0x00, 0x00, 0x00, 0x00, 0x00, 0x00, 0x00, 0x00, 0x00, 0x00, 0x00]⟩]⟩ := by decide

/-- `parse_packet_with_missing_binary_argument` (rekordbox/packets.rs 887). -/
example : DBMessage.parse .debug
    [0x11, 0x87, 0x23, 0x49, 0xae, 0x11, 0x05, 0x80, 0x00, 0x51, 0x10, 0x20, 0x04, 0x0f, 0x05,
    0x14, 0x00, 0x00, 0x00, 0x0c, 0x06, 0x06, 0x06, 0x06, 0x03, 0x00, 0x00, 0x00, 0x00, 0x00,
    0x00, 0x00, 0x11, 0x01, 0x08, 0x04, 0x01, 0x11, 0x00, 0x00, 0x00, 0x04, 0x11, 0x00, 0x00,
    0x00, 0x05, 0x11, 0x00, 0x00, 0x00, 0x00] =
    .ok [] ⟨.ofArr4 0x05 0x80 0x00 0x51, .previewWaveform, [.ofArr4 1 8 4 1, .ofArr4 0 0 0 4,
    .ofArr4 0 0 0 5, .ofArr4 0 0 0 0, ⟨.binary, []⟩]⟩ := by decide

/-- `decode_link_query` (rekordbox/packets.rs 914). -/
example : StatusPacket.decode
    [0x51, 0x73, 0x70, 0x74, 0x31, 0x57, 0x6d, 0x4a, 0x4f, 0x4c, 0x05, 0x58, 0x44, 0x4a, 0x2d,
    0x37, 0x30, 0x30, 0x00, 0x00, 0x00, 0x00, 0x00, 0x00, 0x00, 0x00, 0x00, 0x00, 0x00, 0x00,
    0x00, 0x01, 0x00, 0x01, 0x00, 0x0c, 0xc0, 0xa8, 0x0a, 0x3a, 0x00, 0x00, 0x00, 0x11, 0x00,
    0x00, 0x00, 0x04] =
    .ok [] ⟨.linkQuery, ['X', 'D', 'J', '-', '7', '0', '0'], 0, 1, .linkQuery ⟨ofBe32 192 168 10 58, 17, .rekordbox⟩⟩ := by decide

/-- `decode_rekordbox_hello` (rekordbox/packets.rs 929). -/
example : StatusPacket.decode
    [0x51, 0x73, 0x70, 0x74, 0x31, 0x57, 0x6d, 0x4a, 0x4f, 0x4c, 0x10, 0x58, 0x44, 0x4a, 0x2d,
    0x37, 0x30, 0x30, 0x00, 0x00, 0x00, 0x00, 0x00, 0x00, 0x00, 0x00, 0x00, 0x00, 0x00, 0x00,
    0x00, 0x01, 0x00, 0x01] =
    .ok [] ⟨.rekordboxHello, ['X', 'D', 'J', '-', '7', '0', '0'], 0, 1, .rekordboxHello⟩ := by decide

/-- `encode_rekordbox_reply` (rekordbox/packets.rs 940). -/
example : (StatusPacket.mk .rekordboxReply ['L', 'i', 'n', 'u', 'x'] 1 1 (.rekordboxReply ['T', 'e', 'r', 'm', ' ', 'D', 'J'])).encode =
    .ok [0x51, 0x73, 0x70, 0x74, 0x31, 0x57, 0x6d, 0x4a, 0x4f, 0x4c, 0x11, 0x4c, 0x69, 0x6e, 0x75,
    0x78, 0x00, 0x00, 0x00, 0x00, 0x00, 0x00, 0x00, 0x00, 0x00, 0x00, 0x00, 0x00, 0x00, 0x00,
    0x00, 0x01, 0x01, 0x11, 0x01, 0x04, 0x11, 0x01, 0x00, 0x00, 0x00, 0x54, 0x00, 0x65, 0x00,
    0x72, 0x00, 0x6d, 0x00, 0x20, 0x00, 0x44, 0x00, 0x4a, 0x00, 0x00, 0x00, 0x00, 0x00, 0x00,
    0x00, 0x00, 0x00, 0x00, 0x00, 0x00, 0x00, 0x00, 0x00, 0x00, 0x00, 0x00, 0x00, 0x00, 0x00,
    0x00, 0x00, 0x00, 0x00, 0x00, 0x00, 0x00, 0x00, 0x00, 0x00, 0x00, 0x00, 0x00, 0x00, 0x00,
    0x00, 0x00, 0x00, 0x00, 0x00, 0x00, 0x00, 0x00, 0x00, 0x00, 0x00, 0x00, 0x00, 0x00, 0x00,
    0x00, 0x00, 0x00, 0x00, 0x00, 0x00, 0x00, 0x00, 0x00, 0x00, 0x00, 0x00, 0x00, 0x00, 0x00,
    0x00, 0x00, 0x00, 0x00, 0x00, 0x00, 0x00, 0x00, 0x00, 0x00, 0x00, 0x00, 0x00, 0x00, 0x00,
    0x00, 0x00, 0x00, 0x00, 0x00, 0x00, 0x00, 0x00, 0x00, 0x00, 0x00, 0x00, 0x00, 0x00, 0x00,
    0x00, 0x00, 0x00, 0x00, 0x00, 0x00, 0x00, 0x00, 0x00, 0x00, 0x00, 0x00, 0x00, 0x00, 0x00,
    0x00, 0x00, 0x00, 0x00, 0x00, 0x00, 0x00, 0x00, 0x00, 0x00, 0x00, 0x00, 0x00, 0x00, 0x00,
    0x00, 0x00, 0x00, 0x00, 0x00, 0x00, 0x00, 0x00, 0x00, 0x00, 0x00, 0x00, 0x00, 0x00, 0x00,
    0x00, 0x00, 0x00, 0x00, 0x00, 0x00, 0x00, 0x00, 0x00, 0x00, 0x00, 0x00, 0x00, 0x00, 0x00,
    0x00, 0x00, 0x00, 0x00, 0x00, 0x00, 0x00, 0x00, 0x00, 0x00, 0x00, 0x00, 0x00, 0x00, 0x00,
    0x00, 0x00, 0x00, 0x00, 0x00, 0x00, 0x00, 0x00, 0x00, 0x00, 0x00, 0x00, 0x00, 0x00, 0x00,
    0x00, 0x00, 0x00, 0x00, 0x00, 0x00, 0x00, 0x00, 0x00, 0x00, 0x00, 0x00, 0x00, 0x00, 0x00,
    0x00, 0x00, 0x00, 0x00, 0x00, 0x00, 0x00, 0x00, 0x00, 0x00, 0x00, 0x00, 0x00, 0x00, 0x00,
    0x00, 0x00, 0x00, 0x00, 0x00, 0x00, 0x00, 0x00, 0x00, 0x00, 0x00, 0x00, 0x00, 0x00, 0x00,
    0x00, 0x00, 0x00, 0x00, 0x00, 0x00, 0x00, 0x00, 0x00, 0x00, 0x00] := by decide

/-- `encode_linking_reply` (rekordbox/packets.rs 1008). -/
example : (StatusPacket.mk .linkReply ['r', 'e', 'k', 'o', 'r', 'd', 'b', 'o', 'x'] 1 1 (.linkReply
    ⟨0x11, .rekordbox, ⟨64, ['r', 'e', 'k', 'o', 'r', 'd', 'b', 'o', 'x']⟩, ⟨24, []⟩, ⟨32, []⟩, 1051, 0, 257, 94, 0, 0⟩)).encode =
    .ok [0x51, 0x73, 0x70, 0x74, 0x31, 0x57, 0x6d, 0x4a, 0x4f, 0x4c, 0x06, 0x72, 0x65, 0x6b, 0x6f,
    0x72, 0x64, 0x62, 0x6f, 0x78, 0x00, 0x00, 0x00, 0x00, 0x00, 0x00, 0x00, 0x00, 0x00, 0x00,
    0x00, 0x01, 0x01, 0x11, 0x00, 0x9c, 0x00, 0x00, 0x00, 0x11, 0x00, 0x00, 0x00, 0x04, 0x00,
    0x72, 0x00, 0x65, 0x00, 0x6b, 0x00, 0x6f, 0x00, 0x72, 0x00, 0x64, 0x00, 0x62, 0x00, 0x6f,
    0x00, 0x78, 0x00, 0x00, 0x00, 0x00, 0x00, 0x00, 0x00, 0x00, 0x00, 0x00, 0x00, 0x00, 0x00,
    0x00, 0x00, 0x00, 0x00, 0x00, 0x00, 0x00, 0x00, 0x00, 0x00, 0x00, 0x00, 0x00, 0x00, 0x00,
    0x00, 0x00, 0x00, 0x00, 0x00, 0x00, 0x00, 0x00, 0x00, 0x00, 0x00, 0x00, 0x00, 0x00, 0x00,
    0x00, 0x00, 0x00, 0x00, 0x00, 0x00, 0x00, 0x00, 0x00, 0x00, 0x00, 0x00, 0x00, 0x00, 0x00,
    0x00, 0x00, 0x00, 0x00, 0x00, 0x00, 0x00, 0x00, 0x00, 0x00, 0x00, 0x00, 0x00, 0x00, 0x00,
    0x00, 0x00, 0x00, 0x00, 0x00, 0x00, 0x00, 0x00, 0x00, 0x00, 0x00, 0x00, 0x00, 0x00, 0x00,
    0x00, 0x00, 0x00, 0x00, 0x00, 0x00, 0x00, 0x00, 0x00, 0x00, 0x00, 0x00, 0x00, 0x00, 0x00,
    0x00, 0x04, 0x1b, 0x00, 0x00, 0x01, 0x01, 0x00, 0x00, 0x00, 0x5e, 0x00, 0x00, 0x00, 0x00,
    0x00, 0x00, 0x00, 0x00, 0x00, 0x00, 0x00, 0x00, 0x00, 0x00, 0x00, 0x00] := by decide

/-- `build_term_dj_status_message` (rekordbox/packets.rs 1056): the test only asks for success; this is the packet. -/
example : StatusPacket.decode
    [0x51, 0x73, 0x70, 0x74, 0x31, 0x57, 0x6d, 0x4a, 0x4f, 0x4c, 0x29, 0x72, 0x65, 0x6b, 0x6f,
    0x72, 0x64, 0x62, 0x6f, 0x78, 0x00, 0x00, 0x00, 0x00, 0x00, 0x00, 0x00, 0x00, 0x00, 0x00,
    0x00, 0x01, 0x01, 0x11, 0x00, 0x38, 0x11, 0x00, 0x00, 0xc0, 0x00, 0x10, 0x00, 0x00, 0x00,
    0x00, 0x00, 0x00, 0x00, 0x10, 0x00, 0x00, 0x00, 0x09, 0xff, 0x00] =
    .ok [0x00, 0x38, 0x11, 0x00, 0x00, 0xc0, 0x00, 0x10, 0x00, 0x00, 0x00, 0x00, 0x00, 0x00, 0x00,
    0x10, 0x00, 0x00, 0x00, 0x09, 0xff, 0x00] ⟨.djm, ['r', 'e', 'k', 'o', 'r', 'd', 'b', 'o', 'x'], 1, 17, .djm⟩ := by decide

/-- `it_can_decode_arguments_into_argument_collection` (rekordbox/packets.rs 1072). -/
example : (ItemArgs.mk 1 2 3 0 ['L', 'o', 'o', 'p', 'm', 'a', 's', 't', 'e', 'r', 's'] [] MT.artist).toArgs =
    [.ofU32 1, .ofU32 2, .ofU32 0x18, .ofStr ['L', 'o', 'o', 'p', 'm', 'a', 's', 't', 'e', 'r', 's'],
     .ofU32 2, .ofStr [], .ofU32 MT.artist, .ofU32 0, .ofU32 3, .ofU32 0, .ofU32 0, .ofU32 0] := by decide

/-- `it_can_build_mount_info_package` (rekordbox/packets.rs 1100): the test only asks for success; this is the message. -/
example : DBMessage.parse .debug
    [0x11, 0x87, 0x23, 0x49, 0xae, 0x11, 0x05, 0x80, 0x04, 0x52, 0x10, 0x41, 0x01, 0x0f, 0x0c,
    0x14, 0x00, 0x00, 0x00, 0x0c, 0x06, 0x06, 0x06, 0x02, 0x06, 0x02, 0x06, 0x06, 0x06, 0x06,
    0x06, 0x06, 0x11, 0x00, 0x56, 0xd8, 0xd3, 0x11, 0x00, 0x00, 0x00, 0x6b, 0x11, 0x00, 0x00,
    0x00, 0xfa, 0x26, 0x00, 0x00, 0x00, 0x7d, 0x00, 0x2f, 0x00, 0x56, 0x00, 0x6f, 0x00, 0x6c,
    0x00, 0x75, 0x00, 0x6d, 0x00, 0x65, 0x00, 0x73, 0x00, 0x2f, 0x00, 0x6d, 0x00, 0x75, 0x00,
    0x7a, 0x00, 0x69, 0x00, 0x6b, 0x00, 0x61, 0x00, 0x2f, 0x00, 0x69, 0x00, 0x54, 0x00, 0x75,
    0x00, 0x6e, 0x00, 0x65, 0x00, 0x73, 0x00, 0x2f, 0x00, 0x69, 0x00, 0x54, 0x00, 0x75, 0x00,
    0x6e, 0x00, 0x65, 0x00, 0x73, 0x00, 0x20, 0x00, 0x4d, 0x00, 0x65, 0x00, 0x64, 0x00, 0x69,
    0x00, 0x61, 0x00, 0x2f, 0x00, 0x4d, 0x00, 0x75, 0x00, 0x73, 0x00, 0x69, 0x00, 0x63, 0x00,
    0x2f, 0x00, 0x53, 0x00, 0x77, 0x00, 0x65, 0x00, 0x64, 0x00, 0x69, 0x00, 0x73, 0x00, 0x68,
    0x00, 0x20, 0x00, 0x48, 0x00, 0x6f, 0x00, 0x75, 0x00, 0x73, 0x00, 0x65, 0x00, 0x20, 0x00,
    0x4d, 0x00, 0x61, 0x00, 0x66, 0x00, 0x69, 0x00, 0x61, 0x00, 0x20, 0x00, 0x76, 0x00, 0x73,
    0x00, 0x20, 0x00, 0x4b, 0x00, 0x6e, 0x00, 0x69, 0x00, 0x66, 0x00, 0x65, 0x00, 0x20, 0x00,
    0x50, 0x00, 0x61, 0x00, 0x72, 0x00, 0x74, 0x00, 0x79, 0x00, 0x2f, 0x00, 0x4e, 0x00, 0x6f,
    0x00, 0x77, 0x00, 0x20, 0x00, 0x54, 0x00, 0x68, 0x00, 0x61, 0x00, 0x74, 0x00, 0x27, 0x00,
    0x73, 0x00, 0x20, 0x00, 0x57, 0x00, 0x68, 0x00, 0x61, 0x00, 0x74, 0x00, 0x20, 0x00, 0x49,
    0x00, 0x20, 0x00, 0x43, 0x00, 0x61, 0x00, 0x6c, 0x00, 0x6c, 0x00, 0x20, 0x00, 0x4d, 0x00,
    0x75, 0x00, 0x73, 0x00, 0x69, 0x00, 0x63, 0x00, 0x20, 0x00, 0x38, 0x00, 0x31, 0x00, 0x2f,
    0x00, 0x33, 0x00, 0x31, 0x00, 0x20, 0x00, 0x41, 0x00, 0x6e, 0x00, 0x74, 0x00, 0x69, 0x00,
    0x64, 0x00, 0x6f, 0x00, 0x74, 0x00, 0x65, 0x00, 0x2e, 0x00, 0x6d, 0x00, 0x70, 0x00, 0x33,
    0x00, 0x00, 0x11, 0x00, 0x00, 0x00, 0x02, 0x26, 0x00, 0x00, 0x00, 0x01, 0x00, 0x00, 0x11,
    0x00, 0x00, 0x00, 0x00, 0x11, 0x00, 0x00, 0x00, 0x00, 0x11, 0x00, 0x00, 0x00, 0x00, 0x11,
    0x00, 0x00, 0x00, 0x00, 0x11, 0x00, 0x00, 0x00, 0x00, 0x11, 0x00, 0x00, 0x00, 0x00] =
    .ok [] ⟨.ofArr4 0x05 0x80 0x04 0x52, .menuItem,
    [.ofArr4 0x00 0x56 0xd8 0xd3, .ofU32 0x6b, .ofU32 0xfa,
     .ofStr ['/', 'V', 'o', 'l', 'u', 'm', 'e', 's', '/', 'm', 'u', 'z', 'i', 'k', 'a', '/', 'i',
      'T', 'u', 'n', 'e', 's', '/', 'i', 'T', 'u', 'n', 'e', 's', ' ', 'M', 'e', 'd', 'i',
      'a', '/', 'M', 'u', 's', 'i', 'c', '/', 'S', 'w', 'e', 'd', 'i', 's', 'h', ' ', 'H',
      'o', 'u', 's', 'e', ' ', 'M', 'a', 'f', 'i', 'a', ' ', 'v', 's', ' ', 'K', 'n', 'i',
      'f', 'e', ' ', 'P', 'a', 'r', 't', 'y', '/', 'N', 'o', 'w', ' ', 'T', 'h', 'a', 't',
      '\'', 's', ' ', 'W', 'h', 'a', 't', ' ', 'I', ' ', 'C', 'a', 'l', 'l', ' ', 'M', 'u',
      's', 'i', 'c', ' ', '8', '1', '/', '3', '1', ' ', 'A', 'n', 't', 'i', 'd', 'o', 't',
      'e', '.', 'm', 'p', '3'],
     .ofU32 2, .ofStr [], .ofU32 0, .ofU32 0, .ofU32 0, .ofU32 0, .ofU32 0, .ofU32 0]⟩ := by decide

/-! ## rekordbox/db_field.rs -/

/-- `string_decode_and_encode` (rekordbox/db_field.rs 155). -/
example : DBField.ofStr ['L', 'o', 'o', 'p', 'm', 'a', 's', 't', 'e', 'r', 's'] =
      ⟨.string, [0x00, 0x4c, 0x00, 0x6f, 0x00, 0x6f, 0x00, 0x70, 0x00, 0x6d, 0x00, 0x61, 0x00, 0x73, 0x00,
      0x74, 0x00, 0x65, 0x00, 0x72, 0x00, 0x73]⟩ ∧
    (DBField.ofStr ['L', 'o', 'o', 'p', 'm', 'a', 's', 't', 'e', 'r', 's']).asBytes =
      [0x26, 0x00, 0x00, 0x00, 0x0c, 0x00, 0x4c, 0x00, 0x6f, 0x00, 0x6f, 0x00, 0x70, 0x00, 0x6d,
      0x00, 0x61, 0x00, 0x73, 0x00, 0x74, 0x00, 0x65, 0x00, 0x72, 0x00, 0x73, 0x00, 0x00] := by decide

/-- `string_artist_argument` (rekordbox/db_field.rs 170). -/
example : DBField.ofStr (menuName ['A', 'R', 'T', 'I', 'S', 'T']) =
      ⟨.string, [0xff, 0xfa, 0x00, 0x41, 0x00, 0x52, 0x00, 0x54, 0x00, 0x49, 0x00, 0x53, 0x00, 0x54, 0xff,
      0xfb]⟩ ∧
    (DBField.ofStr (menuName ['A', 'R', 'T', 'I', 'S', 'T'])).asBytes =
      [0x26, 0x00, 0x00, 0x00, 0x09, 0xff, 0xfa, 0x00, 0x41, 0x00, 0x52, 0x00, 0x54, 0x00, 0x49,
      0x00, 0x53, 0x00, 0x54, 0xff, 0xfb, 0x00, 0x00] := by decide

/-- `string_history_argument` (rekordbox/db_field.rs 185). -/
example : DBField.ofStr (menuName ['H', 'I', 'S', 'T', 'O', 'R', 'Y']) =
      ⟨.string, [0xff, 0xfa, 0x00, 0x48, 0x00, 0x49, 0x00, 0x53, 0x00, 0x54, 0x00, 0x4f, 0x00, 0x52, 0x00,
      0x59, 0xff, 0xfb]⟩ ∧
    (DBField.ofStr (menuName ['H', 'I', 'S', 'T', 'O', 'R', 'Y'])).asBytes =
      [0x26, 0x00, 0x00, 0x00, 0x0a, 0xff, 0xfa, 0x00, 0x48, 0x00, 0x49, 0x00, 0x53, 0x00, 0x54,
      0x00, 0x4f, 0x00, 0x52, 0x00, 0x59, 0xff, 0xfb, 0x00, 0x00] := by decide

/-- `empty_string_argument` (rekordbox/db_field.rs 200). -/
example : DBField.ofStr [] =
      ⟨.string, []⟩ ∧
    (DBField.ofStr []).asBytes =
      [0x26, 0x00, 0x00, 0x00, 0x01, 0x00, 0x00] := by decide

/-- `binary_to_dbfield` (rekordbox/db_field.rs 207). -/
example : (DBField.mk .binary
    [0x38, 0x00, 0x00, 0x00, 0x00, 0x00, 0x01, 0x00, 0x00, 0x00, 0xe8, 0x03, 0x9b, 0x2a, 0x01,
    0x00, 0xff, 0xff, 0xff, 0xff, 0x00, 0x00, 0x00, 0x00, 0x00, 0x00, 0x00, 0x00, 0x00, 0x00,
    0x00, 0x00, 0xff, 0xff, 0xff, 0xff, 0x00, 0x00, 0x00, 0x00, 0x00, 0x00, 0x00, 0x00, 0x00,
    0x00, 0x00, 0x00, 0x00, 0x00, 0x00, 0x00, 0x00, 0x00, 0x00, 0x00]).asBytes =
    [0x14, 0x00, 0x00, 0x00, 0x38] ++
    [0x38, 0x00, 0x00, 0x00, 0x00, 0x00, 0x01, 0x00, 0x00, 0x00, 0xe8, 0x03, 0x9b, 0x2a, 0x01,
    0x00, 0xff, 0xff, 0xff, 0xff, 0x00, 0x00, 0x00, 0x00, 0x00, 0x00, 0x00, 0x00, 0x00, 0x00,
    0x00, 0x00, 0xff, 0xff, 0xff, 0xff, 0x00, 0x00, 0x00, 0x00, 0x00, 0x00, 0x00, 0x00, 0x00,
    0x00, 0x00, 0x00, 0x00, 0x00, 0x00, 0x00, 0x00, 0x00, 0x00, 0x00] := by decide

/-! ## rekordbox/library.rs -/

/-- `test_setup_request_handling` (rekordbox/library.rs 837): the reply does not depend on the library. -/
example (io : IterOrder) (db : Db) (ctx : Ctx) :
    respond io db .setup ⟨.ofArr4 0xff 0xff 0xff 0xfe, .setup, [.ofArr4 0 0 0 2]⟩ ctx =
    .ok ([0x11, 0x87, 0x23, 0x49, 0xae, 0x11, 0xff, 0xff, 0xff, 0xfe, 0x10, 0x40, 0x00, 0x0f, 0x02,
    0x14, 0x00, 0x00, 0x00, 0x0c, 0x06, 0x06, 0x00, 0x00, 0x00, 0x00, 0x00, 0x00, 0x00, 0x00,
    0x00, 0x00, 0x11, 0x00, 0x00, 0x00, 0x00, 0x11, 0x00, 0x00, 0x00, 0x11], ctx) := by
  rfl

/-- The request of `album_by_artist_dialog` (rekordbox/fixtures.rs 179-191) is remembered with the artist
number 1, not with 0 as `test_album_by_artist_dialog` (library.rs 848) expects: the test fails on every
library. -/
example (io : IterOrder) (db : Db) (ctx : Ctx) : ∃ reply, process .debug io db
    (⟨.ofArr4 0x05 0x80 0x00 0x14, .albumByArtist,
      [.ofArr4 0x02 0x02 0x04 0x01, .ofU32 0, .ofU32 1]⟩ : DBMessage).encode ctx =
    .ok (reply, some (.albumByArtist 1)) := ⟨_, rfl⟩

/-- The same for `title_by_artist_album_dialog` (rekordbox/fixtures.rs 92-101) and
`test_title_by_artist_dialog` (library.rs 862). -/
example (io : IterOrder) (db : Db) (ctx : Ctx) : ∃ reply, process .debug io db
    (⟨.ofArr4 0x05 0x80 0x00 0x16, .titleByArtistAlbum,
      [.ofArr4 0x02 0x02 0x04 0x01, .ofU32 0, .ofU32 1, .ofU32 0]⟩ : DBMessage).encode ctx =
    .ok (reply, some (.titleByArtistAlbum 1)) := ⟨_, rfl⟩

/-- The same for `title_by_artist_album_single_track_dialog` (rekordbox/fixtures.rs 18-27) and
`test_title_by_artist_dialog_single_track` (library.rs 876). -/
example (io : IterOrder) (db : Db) (ctx : Ctx) : ∃ reply, process .debug io db
    (⟨.ofArr4 0x05 0x80 0x00 0x1a, .titleByArtistAlbum,
      [.ofArr4 0x02 0x03 0x04 0x01, .ofU32 0, .ofU32 1, .ofU32 0]⟩ : DBMessage).encode ctx =
    .ok (reply, some (.titleByArtistAlbum 1)) := ⟨_, rfl⟩

/-- A library like the one the dialogues were recorded with: one artist with the number 1 and two
tracks with the numbers 5 and 6 (the code itself numbers from 2). -/
def recordedDb : Db :=
  ⟨⟨[(1, ⟨1, ['L', 'o', 'o', 'p', 'm', 'a', 's', 't', 'e', 'r', 's']⟩)], 1⟩,
   ⟨[(5, ⟨5, 1, ['D', 'e', 'm', 'o', ' ', 'T', 'r', 'a', 'c', 'k', ' ', '1'], [], 6899624, some 12800⟩),
     (6, ⟨6, 1, ['D', 'e', 'm', 'o', ' ', 'T', 'r', 'a', 'c', 'k', ' ', '2'], [], 0, none⟩)], 6⟩⟩

/-- A menu item as the fixtures write it (e.g. rekordbox/fixtures.rs 136-153). -/
def recordedItem (t : DBField) (id len : UInt32) (s : Str) (ty : UInt32) : DBMessage :=
  ⟨t, .menuItem, [.ofU32 0, .ofU32 id, .ofU32 len, .ofStr s, .ofU32 2, .ofStr [], .ofU32 ty,
    .ofU32 0, .ofU32 0, .ofU32 0, .ofU32 0, .ofU32 0]⟩

/-- The request to render as the fixtures write it (e.g. rekordbox/fixtures.rs 110-121). -/
def recordedRender (t : DBField) (player n m : UInt32) : Bytes :=
  (⟨t, .render, [.ofU32 player, .ofU32 0, .ofU32 n, .ofU32 0, .ofU32 m, .ofU32 0]⟩ :
    DBMessage).encode

/-- `root_menu_dialog` (rekordbox/fixtures.rs 272-452), the first exchange: the library and what was
asked before do not matter. -/
example (io : IterOrder) (db : Db) (ctx : Ctx) : process .debug io db
    (⟨.ofArr4 0x05 0x80 0x00 0x32, .rootMenu,
      [.ofArr4 0x02 0x01 0x04 0x01, .ofU32 0, .ofArr4 0x00 0xff 0xff 0xff]⟩ : DBMessage).encode ctx =
    .ok ((⟨.ofArr4 0x05 0x80 0x00 0x32, .success,
      [.ofArr4 0x00 0x00 0x10 0x00, .ofArr4 0x00 0x00 0x00 0x08]⟩ : DBMessage).encode,
      some .rootMenu) := rfl

/-- `root_menu_dialog` (rekordbox/fixtures.rs 272-452), the second exchange. -/
example (io : IterOrder) (db : Db) : process .debug io db
    (recordedRender (.ofArr4 0x05 0x80 0x00 0x0f) 0x02010401 7 8) (some .rootMenu) =
    (let t := DBField.ofArr4 0x05 0x80 0x00 0x0f
     .ok (DBMessage.encodeMany [⟨t, .menuHeader, [.ofU32 1, .ofU32 0]⟩,
      recordedItem t 2 18 (menuName ['A', 'R', 'T', 'I', 'S', 'T']) 0x81,
      recordedItem t 3 16 (menuName ['A', 'L', 'B', 'U', 'M']) 0x82,
      recordedItem t 4 16 (menuName ['T', 'R', 'A', 'C', 'K']) 0x83,
      recordedItem t 12 12 (menuName ['K', 'E', 'Y']) 0x8b,
      recordedItem t 5 22 (menuName ['P', 'L', 'A', 'Y', 'L', 'I', 'S', 'T']) 0x84,
      recordedItem t 22 20 (menuName ['H', 'I', 'S', 'T', 'O', 'R', 'Y']) 0x95,
      recordedItem t 18 18 (menuName ['S', 'E', 'A', 'R', 'C', 'H']) 0x91,
      ⟨t, .menuFooter, [.ofU32 1, .ofU32 1]⟩], some .rootMenu)) := rfl

/-- `artist_dialog` (rekordbox/fixtures.rs 462-528). -/
example : process .debug .id recordedDb
    (⟨.ofArr4 0x05 0x80 0x00 0x10, .artist, [.ofArr4 0x02 0x02 0x04 0x01, .ofU32 0]⟩ :
      DBMessage).encode none =
    .ok ((⟨.ofArr4 0x05 0x80 0x00 0x10, .success, [.ofArr4 0x00 0x00 0x10 0x02, .ofU32 1]⟩ :
      DBMessage).encode, some .artist) ∧
    process .debug .id recordedDb (recordedRender (.ofArr4 0x05 0x80 0x00 0x11) 0x02020401 1 1)
      (some .artist) =
    (let t := DBField.ofArr4 0x05 0x80 0x00 0x11
     .ok (DBMessage.encodeMany [⟨t, .menuHeader, [.ofU32 1, .ofU32 0]⟩,
      recordedItem t 1 24 ['L', 'o', 'o', 'p', 'm', 'a', 's', 't', 'e', 'r', 's'] 7,
      ⟨t, .menuFooter, []⟩], some .artist)) := ⟨rfl, rfl⟩

/-- The page of `album_by_artist_dialog` (rekordbox/fixtures.rs 213-248). -/
example (io : IterOrder) (db : Db) (a : UInt32) :
    process .debug io db (recordedRender (.ofArr4 0x05 0x80 0x00 0x15) 0x02020401 1 1)
      (some (.albumByArtist a)) =
    (let t := DBField.ofArr4 0x05 0x80 0x00 0x15
     .ok (DBMessage.encodeMany [⟨t, .menuHeader, [.ofU32 1, .ofU32 0]⟩,
      recordedItem t 0 16 ['U', 'n', 'k', 'n', 'o', 'w', 'n'] 2,
      ⟨t, .menuFooter, []⟩], some (.albumByArtist a))) := rfl

/-- `title_by_artist_album_dialog` (rekordbox/fixtures.rs 90-175). -/
example : process .debug .id recordedDb
    (⟨.ofArr4 0x05 0x80 0x00 0x16, .titleByArtistAlbum,
      [.ofArr4 0x02 0x02 0x04 0x01, .ofU32 0, .ofU32 1, .ofU32 0]⟩ : DBMessage).encode none =
    .ok ((⟨.ofArr4 0x05 0x80 0x00 0x16, .success, [.ofArr4 0x00 0x00 0x12 0x02, .ofU32 2]⟩ :
      DBMessage).encode, some (.titleByArtistAlbum 1)) ∧
    process .debug .id recordedDb (recordedRender (.ofArr4 0x05 0x80 0x00 0x17) 0x02020401 2 2)
      (some (.titleByArtistAlbum 1)) =
    (let t := DBField.ofArr4 0x05 0x80 0x00 0x17
     .ok (DBMessage.encodeMany [⟨t, .menuHeader, [.ofU32 1, .ofU32 0]⟩,
      recordedItem t 5 26 ['D', 'e', 'm', 'o', ' ', 'T', 'r', 'a', 'c', 'k', ' ', '1'] 4,
      recordedItem t 6 26 ['D', 'e', 'm', 'o', ' ', 'T', 'r', 'a', 'c', 'k', ' ', '2'] 4,
      ⟨t, .menuFooter, []⟩], some (.titleByArtistAlbum 1))) := ⟨rfl, rfl⟩

/-- `metadata_dialog` (rekordbox/fixtures.rs 530-704), the first exchange. -/
example (io : IterOrder) (db : Db) (ctx : Ctx) : process .debug io db
    [0x11, 0x87, 0x23, 0x49, 0xae, 0x11, 0x05, 0x80, 0x00, 0x1f, 0x10, 0x20, 0x02, 0x0f, 0x02,
    0x14, 0x00, 0x00, 0x00, 0x0c, 0x06, 0x06, 0x00, 0x00, 0x00, 0x00, 0x00, 0x00, 0x00, 0x00,
    0x00, 0x00, 0x11, 0x02, 0x01, 0x04, 0x01, 0x11, 0x00, 0x00, 0x00, 0x05] ctx =
    .ok ((⟨.ofArr4 0x05 0x80 0x00 0x1f, .success, [.ofArr4 0 0 0x20 0x02, .ofArr4 0 0 0 0x0a]⟩ :
      DBMessage).encode, some (.metadata 5)) := rfl

/-- `mount_info_request_dialog` (rekordbox/fixtures.rs 706-841), the first exchange. -/
example (io : IterOrder) (db : Db) (ctx : Ctx) : process .debug io db
    [0x11, 0x87, 0x23, 0x49, 0xae, 0x11, 0x05, 0x80, 0x00, 0x22, 0x10, 0x21, 0x02, 0x0f, 0x02,
    0x14, 0x00, 0x00, 0x00, 0x0c, 0x06, 0x06, 0x00, 0x00, 0x00, 0x00, 0x00, 0x00, 0x00, 0x00,
    0x00, 0x00, 0x11, 0x02, 0x08, 0x04, 0x01, 0x11, 0x00, 0x00, 0x00, 0x05] ctx =
    .ok ([0x11, 0x87, 0x23, 0x49, 0xae, 0x11, 0x05, 0x80, 0x00, 0x22, 0x10, 0x40, 0x00, 0x0f, 0x02,
    0x14, 0x00, 0x00, 0x00, 0x0c, 0x06, 0x06, 0x00, 0x00, 0x00, 0x00, 0x00, 0x00, 0x00, 0x00,
    0x00, 0x00, 0x11, 0x00, 0x00, 0x21, 0x02, 0x11, 0x00, 0x00, 0x00, 0x06], some (.mountInfo 5)) := rfl

/-- `load_track_request` (rekordbox/fixtures.rs 843-863). -/
example (io : IterOrder) (db : Db) (ctx : Ctx) : process .debug io db
    [0x11, 0x87, 0x23, 0x49, 0xae, 0x11, 0x05, 0x80, 0x00, 0x21, 0x10, 0x2b, 0x04, 0x0f, 0x03,
    0x14, 0x00, 0x00, 0x00, 0x0c, 0x06, 0x06, 0x06, 0x00, 0x00, 0x00, 0x00, 0x00, 0x00, 0x00,
    0x00, 0x00, 0x11, 0x02, 0x08, 0x04, 0x01, 0x11, 0x00, 0x00, 0x00, 0x05, 0x11, 0x00, 0x00,
    0x00, 0x00] ctx =
    .ok ([0x11, 0x87, 0x23, 0x49, 0xae, 0x11, 0x05, 0x80, 0x00, 0x21, 0x10, 0x4e, 0x02, 0x0f, 0x05,
    0x14, 0x00, 0x00, 0x00, 0x0c, 0x06, 0x06, 0x06, 0x03, 0x06, 0x00, 0x00, 0x00, 0x00, 0x00,
    0x00, 0x00, 0x11, 0x00, 0x00, 0x2b, 0x04, 0x11, 0x00, 0x00, 0x00, 0x01, 0x11, 0x00, 0x00,
    0x00, 0x00, 0x11, 0x00, 0x00, 0x00, 0x00], ctx) := rfl

/-- `preview_waveform_request` (rekordbox/fixtures.rs 865-999). -/
example (io : IterOrder) (db : Db) (ctx : Ctx) : process .debug io db
    [0x11, 0x87, 0x23, 0x49, 0xae, 0x11, 0x05, 0x80, 0x00, 0x1e, 0x10, 0x20, 0x04, 0x0f, 0x05,
    0x14, 0x00, 0x00, 0x00, 0x0c, 0x06, 0x06, 0x06, 0x06, 0x03, 0x00, 0x00, 0x00, 0x00, 0x00,
    0x00, 0x00, 0x11, 0x02, 0x08, 0x04, 0x01, 0x11, 0x00, 0x00, 0x00, 0x04, 0x11, 0x00, 0x00,
    0x00, 0x05, 0x11, 0x00, 0x00, 0x00, 0x00] ctx =
    .ok ([0x11, 0x87, 0x23, 0x49, 0xae, 0x11, 0x05, 0x80, 0x00, 0x1e, 0x10, 0x44, 0x02, 0x0f, 0x04,
    0x14, 0x00, 0x00, 0x00, 0x0c, 0x06, 0x06, 0x06, 0x03, 0x00, 0x00, 0x00, 0x00, 0x00, 0x00,
    0x00, 0x00, 0x11, 0x00, 0x00, 0x20, 0x04, 0x11, 0x00, 0x00, 0x00, 0x00, 0x11, 0x00, 0x00,
    0x03, 0x88, 0x14, 0x00, 0x00, 0x03, 0x88, 0x18, 0x00, 0x15, 0x00, 0x16, 0x00, 0x18, 0x00,
    0x14, 0x00, 0x0d, 0x00, 0x18, 0x00, 0x15, 0x00, 0x17, 0x00, 0x17, 0x00, 0x15, 0x00, 0x17,
    0x00, 0x18, 0x00, 0x17, 0x00, 0x18, 0x00, 0x17, 0x00, 0x15, 0x01, 0x0d, 0x01, 0x17, 0x00,
    0x17, 0x00, 0x17, 0x00, 0x17, 0x00, 0x17, 0x00, 0x15, 0x00, 0x18, 0x00, 0x15, 0x00, 0x16,
    0x00, 0x18, 0x00, 0x11, 0x01, 0x11, 0x01, 0x17, 0x00, 0x17, 0x00, 0x15, 0x00, 0x17, 0x00,
    0x18, 0x00, 0x16, 0x00, 0x15, 0x00, 0x15, 0x00, 0x16, 0x03, 0x15, 0x03, 0x12, 0x03, 0x13,
    0x03, 0x0b, 0x05, 0x0f, 0x05, 0x14, 0x03, 0x12, 0x03, 0x12, 0x03, 0x12, 0x03, 0x13, 0x02,
    0x13, 0x02, 0x13, 0x03, 0x15, 0x03, 0x16, 0x03, 0x12, 0x03, 0x0f, 0x05, 0x08, 0x05, 0x15,
    0x03, 0x14, 0x03, 0x12, 0x03, 0x12, 0x03, 0x13, 0x00, 0x16, 0x00, 0x12, 0x03, 0x13, 0x03,
    0x15, 0x03, 0x13, 0x03, 0x12, 0x03, 0x13, 0x03, 0x08, 0x05, 0x0e, 0x05, 0x16, 0x03, 0x12,
    0x03, 0x12, 0x02, 0x13, 0x02, 0x16, 0x03, 0x0d, 0x03, 0x13, 0x03, 0x15, 0x03, 0x0e, 0x05,
    0x10, 0x05, 0x12, 0x03, 0x13, 0x03, 0x13, 0x03, 0x13, 0x03, 0x12, 0x03, 0x12, 0x03, 0x13,
    0x00, 0x16, 0x00, 0x12, 0x03, 0x13, 0x03, 0x12, 0x05, 0x08, 0x05, 0x13, 0x03, 0x12, 0x03,
    0x13, 0x03, 0x14, 0x03, 0x16, 0x03, 0x0d, 0x03, 0x13, 0x02, 0x15, 0x02, 0x10, 0x03, 0x15,
    0x03, 0x13, 0x03, 0x15, 0x03, 0x09, 0x05, 0x12, 0x05, 0x12, 0x03, 0x13, 0x03, 0x13, 0x03,
    0x13, 0x03, 0x0d, 0x02, 0x13, 0x02, 0x15, 0x03, 0x14, 0x03, 0x13, 0x03, 0x13, 0x03, 0x0b,
    0x05, 0x0f, 0x05, 0x13, 0x03, 0x0f, 0x03, 0x12, 0x03, 0x16, 0x03, 0x13, 0x02, 0x12, 0x02,
    0x13, 0x03, 0x15, 0x03, 0x10, 0x03, 0x14, 0x03, 0x0f, 0x05, 0x0b, 0x05, 0x15, 0x03, 0x13,
    0x03, 0x0f, 0x03, 0x12, 0x03, 0x16, 0x03, 0x13, 0x03, 0x0e, 0x02, 0x13, 0x02, 0x15, 0x03,
    0x16, 0x03, 0x0d, 0x02, 0x11, 0x02, 0x05, 0x05, 0x0f, 0x05, 0x11, 0x03, 0x0f, 0x03, 0x12,
    0x03, 0x0f, 0x03, 0x13, 0x02, 0x0e, 0x02, 0x12, 0x03, 0x12, 0x03, 0x0e, 0x03, 0x12, 0x03,
    0x0e, 0x05, 0x09, 0x05, 0x11, 0x03, 0x14, 0x03, 0x12, 0x03, 0x12, 0x03, 0x0e, 0x02, 0x14,
    0x02, 0x0d, 0x03, 0x11, 0x03, 0x13, 0x03, 0x13, 0x03, 0x04, 0x05, 0x0c, 0x05, 0x10, 0x03,
    0x12, 0x03, 0x11, 0x03, 0x0f, 0x03, 0x14, 0x02, 0x15, 0x02, 0x12, 0x02, 0x0a, 0x02, 0x11,
    0x03, 0x12, 0x03, 0x06, 0x05, 0x0e, 0x05, 0x10, 0x03, 0x10, 0x03, 0x12, 0x03, 0x12, 0x03,
    0x0e, 0x02, 0x11, 0x02, 0x10, 0x03, 0x14, 0x03, 0x0a, 0x03, 0x13, 0x03, 0x0a, 0x03, 0x11,
    0x03, 0x10, 0x03, 0x13, 0x03, 0x10, 0x03, 0x11, 0x03, 0x12, 0x03, 0x0d, 0x03, 0x12, 0x02,
    0x12, 0x02, 0x13, 0x03, 0x0e, 0x03, 0x0d, 0x05, 0x06, 0x05, 0x12, 0x03, 0x0f, 0x03, 0x0d,
    0x03, 0x15, 0x03, 0x10, 0x03, 0x0a, 0x03, 0x03, 0x05, 0x04, 0x05, 0x02, 0x05, 0x03, 0x05,
    0x02, 0x05, 0x02, 0x05, 0x02, 0x05, 0x0e, 0x05, 0x02, 0x05, 0x02, 0x05, 0x02, 0x05, 0x05,
    0x05, 0x02, 0x05, 0x02, 0x05, 0x02, 0x05, 0x02, 0x05, 0x0b, 0x05, 0x04, 0x05, 0x04, 0x05,
    0x03, 0x05, 0x03, 0x05, 0x02, 0x05, 0x02, 0x05, 0x02, 0x05, 0x06, 0x05, 0x09, 0x05, 0x02,
    0x05, 0x02, 0x05, 0x02, 0x05, 0x05, 0x05, 0x02, 0x05, 0x02, 0x05, 0x02, 0x05, 0x0a, 0x05,
    0x04, 0x05, 0x04, 0x05, 0x03, 0x05, 0x03, 0x05, 0x02, 0x05, 0x02, 0x05, 0x02, 0x05, 0x04,
    0x05, 0x08, 0x05, 0x02, 0x05, 0x02, 0x05, 0x02, 0x05, 0x05, 0x05, 0x02, 0x05, 0x02, 0x05,
    0x02, 0x05, 0x05, 0x05, 0x06, 0x05, 0x02, 0x05, 0x02, 0x05, 0x02, 0x05, 0x04, 0x05, 0x02,
    0x05, 0x02, 0x05, 0x02, 0x05, 0x0a, 0x05, 0x02, 0x05, 0x02, 0x05, 0x02, 0x05, 0x05, 0x05,
    0x02, 0x05, 0x02, 0x05, 0x02, 0x05, 0x02, 0x05, 0x15, 0x02, 0x13, 0x02, 0x14, 0x03, 0x15,
    0x03, 0x13, 0x03, 0x15, 0x03, 0x14, 0x02, 0x12, 0x02, 0x10, 0x05, 0x0f, 0x05, 0x17, 0x02,
    0x17, 0x02, 0x0b, 0x05, 0x11, 0x05, 0x15, 0x03, 0x11, 0x03, 0x17, 0x03, 0x13, 0x03, 0x16,
    0x03, 0x14, 0x03, 0x16, 0x00, 0x15, 0x00, 0x14, 0x05, 0x0c, 0x05, 0x15, 0x03, 0x15, 0x03,
    0x15, 0x03, 0x15, 0x03, 0x0f, 0x03, 0x15, 0x03, 0x16, 0x03, 0x15, 0x03, 0x11, 0x02, 0x16,
    0x02, 0x12, 0x05, 0x10, 0x05, 0x17, 0x02, 0x17, 0x02, 0x09, 0x05, 0x13, 0x05, 0x12, 0x03,
    0x16, 0x03, 0x15, 0x03, 0x14, 0x03, 0x16, 0x02, 0x14, 0x02, 0x15, 0x03, 0x15, 0x03, 0x11,
    0x05, 0x0c, 0x05, 0x12, 0x03, 0x16, 0x03, 0x14, 0x03, 0x13, 0x03, 0x14, 0x03, 0x15, 0x03,
    0x0f, 0x00, 0x16, 0x00, 0x0c, 0x03, 0x12, 0x03, 0x17, 0x02, 0x17, 0x02, 0x0a, 0x03, 0x11,
    0x03, 0x15, 0x03, 0x10, 0x03, 0x16, 0x03, 0x14, 0x03, 0x15, 0x02, 0x13, 0x02, 0x15, 0x05,
    0x08, 0x05, 0x17, 0x02, 0x17, 0x02, 0x0a, 0x05, 0x10, 0x05, 0x14, 0x03, 0x17, 0x03, 0x11,
    0x03, 0x15, 0x03, 0x14, 0x03, 0x15, 0x03, 0x14, 0x00, 0x17, 0x00, 0x11, 0x03, 0x16, 0x03,
    0x12, 0x05, 0x0a, 0x05, 0x16, 0x03, 0x14, 0x03, 0x11, 0x03, 0x14, 0x03, 0x15, 0x03, 0x16,
    0x03, 0x14, 0x02, 0x10, 0x02, 0x16, 0x03, 0x14, 0x03, 0x15, 0x03, 0x14, 0x03, 0x0a, 0x05,
    0x11, 0x05, 0x0f, 0x03, 0x17, 0x03, 0x0d, 0x04, 0x05, 0x04, 0x02, 0x05, 0x02, 0x05, 0x02,
    0x05, 0x02, 0x05, 0x02, 0x05, 0x02, 0x05, 0x02, 0x05, 0x02, 0x05, 0x02, 0x05, 0x02, 0x05,
    0x02, 0x05, 0x02, 0x05, 0x02, 0x05, 0x02, 0x05, 0x02, 0x03, 0x02, 0x05, 0x0e, 0x0e, 0x0f,
    0x0f, 0x0e, 0x0f, 0x0f, 0x0e, 0x0f, 0x0e, 0x0c, 0x0e, 0x0e, 0x0c, 0x0e, 0x0e, 0x0c, 0x0e,
    0x0e, 0x0c, 0x0e, 0x0e, 0x0c, 0x0e, 0x0e, 0x0c, 0x0e, 0x0e, 0x0c, 0x0e, 0x0e, 0x0c, 0x0e,
    0x0c, 0x0e, 0x0d, 0x0d, 0x0c, 0x0e, 0x0e, 0x0c, 0x0d, 0x0e, 0x0d, 0x0d, 0x0d, 0x0c, 0x0e,
    0x0d, 0x0c, 0x0d, 0x0e, 0x08, 0x02, 0x07, 0x04, 0x05, 0x02, 0x07, 0x04, 0x02, 0x05, 0x02,
    0x07, 0x04, 0x05, 0x04, 0x05, 0x05, 0x05, 0x0e, 0x0e, 0x0e, 0x0d, 0x0e, 0x0d, 0x0e, 0x0e,
    0x0e, 0x0c, 0x0e, 0x0e, 0x0c, 0x0e, 0x0e, 0x0d, 0x0e, 0x0d, 0x0e, 0x0e, 0x0e, 0x0c, 0x0e,
    0x0e, 0x0d, 0x0e, 0x02, 0x01, 0x01, 0x01, 0x9e, 0xeb, 0x78, 0x10], ctx) := rfl

/-! ## rekordbox/keepalive.rs -/

/-- `test_mac_iteration` (rekordbox/keepalive.rs 703). -/
example : (KaPacket.mk .mac .mac ['r', 'e', 'k', 'o', 'r', 'd', 'b', 'o', 'x'] 1 .rekordbox
    (.mac 1 4 ⟨0xac, 0x87, 0xa3, 0x35, 0xbc, 0x4d⟩)).encode =
    .ok [0x51, 0x73, 0x70, 0x74, 0x31, 0x57, 0x6d, 0x4a, 0x4f, 0x4c, 0x00, 0x00, 0x72, 0x65, 0x6b,
    0x6f, 0x72, 0x64, 0x62, 0x6f, 0x78, 0x00, 0x00, 0x00, 0x00, 0x00, 0x00, 0x00, 0x00, 0x00,
    0x00, 0x00, 0x01, 0x03, 0x00, 0x2c, 0x01, 0x04, 0xac, 0x87, 0xa3, 0x35, 0xbc, 0x4d] := by decide

/-- `test_keepalive_status_packet` (rekordbox/keepalive.rs 729). -/
example : ∃ b, (KaPacket.mk .status .status ['L', 'i', 'n', 'u', 'x'] 1 .rekordbox (.status ⟨17, 1,
    ⟨0xff, 0xff, 0xff, 0xff, 0xff, 0xff⟩, ofBe32 192 168 10 50, 1, 4, 1⟩)).encode = .ok b ∧
    b.length = 54 := ⟨_, rfl, rfl⟩

/-- `test_decode_keepalive_ip_package` (rekordbox/keepalive.rs 753). -/
example : KaPacket.decode
    [0x51, 0x73, 0x70, 0x74, 0x31, 0x57, 0x6d, 0x4a, 0x4f, 0x4c, 0x02, 0x00, 0x72, 0x65, 0x6b,
    0x6f, 0x72, 0x64, 0x62, 0x6f, 0x78, 0x00, 0x00, 0x00, 0x00, 0x00, 0x00, 0x00, 0x00, 0x00,
    0x00, 0x00, 0x01, 0x03, 0x00, 0x32, 0xc0, 0xa8, 0x0a, 0x2f, 0x9c, 0xb6, 0xd0, 0xee, 0xff,
    0x09, 0x2c, 0x06, 0x04, 0x01] =
    .ok [] ⟨.ip, .ip, ['r', 'e', 'k', 'o', 'r', 'd', 'b', 'o', 'x'], 1, .rekordbox,
    .ip (ofBe32 192 168 10 47) ⟨0x9c, 0xb6, 0xd0, 0xee, 0xff, 0x09⟩ 44 6 .auto⟩ := by decide

/-! ## rekordbox/player.rs -/

/-- `it_support_pushing` (rekordbox/player.rs 115). -/
example : (pushPlayer ⟨['X', 'D', 'J', '-', '7', '0', '0'], ofBe32 1 0 0 1, 1, false⟩ []).length = 1 := by decide

/-- `it_can_update_matching_players` (rekordbox/player.rs 128). -/
example : (let pl (n : UInt8) (a : UInt8) (l : Bool) : Player := ⟨['X', 'D', 'J', '-', '7', '0', '0'], ofBe32 1 0 0 a, n, l⟩
    let p0 := pushPlayer (pl 1 1 false) []
    let p1 := addOrUpdate (pl 2 1 false) p0
    let p2 := addOrUpdate (pl 2 1 true) p1
    let p3 := addOrUpdate (pl 3 5 false) p2
    p0.map (·.number) = [1] ∧ p1.map (·.number) = [2] ∧ p2.map (·.linking) = [true] ∧
      p3.map (·.number) = [2, 3]) := by decide

/-! ## utils/network.rs -/

/-- `it_finds_local_address_based_on_remote_address` (utils/network.rs 128). -/
example : matchInterface (ofBe32 192 168 10 52)
     [⟨some ⟨0x00, 0x45, 0xcb, 0x9a, 0xa5, 0x0b⟩, [.v4 ⟨ofBe32 0xc0 0xa8 0x0a 0x32, 24⟩, .v6]⟩,
      ⟨some ⟨0x00, 0x45, 0xcb, 0x9a, 0xa5, 0x0c⟩, [.v4 ⟨ofBe32 0xc0 0xa8 0x0b 0x32, 24⟩]⟩,
      ⟨some ⟨0x00, 0x45, 0xcb, 0x9a, 0xa5, 0x0c⟩, [.v4 ⟨ofBe32 0xc0 0xa8 0x0c 0x32, 25⟩]⟩,
      ⟨some ⟨0x00, 0x45, 0xcb, 0x9a, 0xa5, 0x0c⟩, [.v4 ⟨ofBe32 0xc0 0xa8 0x0c 0xc8, 25⟩]⟩,
      ⟨some ⟨0x00, 0x45, 0xcb, 0x9a, 0xa5, 0x10⟩, [.v4 ⟨ofBe32 169 254 21 48, 16⟩]⟩] =
    .ok (some ⟨⟨ofBe32 192 168 10 50, 24⟩, ⟨0x00, 0x45, 0xcb, 0x9a, 0xa5, 0x0b⟩⟩) := by decide

/-- `it_find_network_in_a_smaller_cidr` (utils/network.rs 145). -/
example : (let ifs : List Interface :=
     [⟨some ⟨0x00, 0x45, 0xcb, 0x9a, 0xa5, 0x0b⟩, [.v4 ⟨ofBe32 0xc0 0xa8 0x0a 0x32, 24⟩, .v6]⟩,
      ⟨some ⟨0x00, 0x45, 0xcb, 0x9a, 0xa5, 0x0c⟩, [.v4 ⟨ofBe32 0xc0 0xa8 0x0b 0x32, 24⟩]⟩,
      ⟨some ⟨0x00, 0x45, 0xcb, 0x9a, 0xa5, 0x0c⟩, [.v4 ⟨ofBe32 0xc0 0xa8 0x0c 0x32, 25⟩]⟩,
      ⟨some ⟨0x00, 0x45, 0xcb, 0x9a, 0xa5, 0x0c⟩, [.v4 ⟨ofBe32 0xc0 0xa8 0x0c 0xc8, 25⟩]⟩,
      ⟨some ⟨0x00, 0x45, 0xcb, 0x9a, 0xa5, 0x10⟩, [.v4 ⟨ofBe32 169 254 21 48, 16⟩]⟩]
    (matchInterface (ofBe32 192 168 12 230) ifs).bind (fun n => .ok (n.map (·.ip))) =
      .ok (some (ofBe32 192 168 12 200)) ∧
    (matchInterface (ofBe32 192 168 12 24) ifs).bind (fun n => .ok (n.map (·.ip))) =
      .ok (some (ofBe32 192 168 12 50))) := by decide

end PDJ
