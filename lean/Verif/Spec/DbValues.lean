import Verif.Model.DbMessage
import Verif.Spec.DbWire

/-!
# Specification: values, request types and their codes

How a value handed to the API becomes a field, which values fit the one-byte text length, and the
protocol's code table (written down independently of the code's byte literals).
-/

namespace PDJ

open Spec (Val Msg)

/-- The field the application builds for a value. -/
def fieldOf : Val → DBField
  | .u8 v => .ofU8 v
  | .u16 v => .ofU16 v
  | .u32 v => .ofU32 v
  | .text s => .ofStr s
  | .blob b => ⟨.binary, b⟩

/-- Values whose encoding is not truncated. -/
def ShortVal : Val → Prop
  | .text s => (utf16 s).length ≤ 127
  | .blob b => b.length < 4294967296
  | _ => True

/-- Values that are not blobs. -/
def NotBlob : Val → Prop
  | .blob _ => False
  | _ => True

/-- The request types with a wire code of their own that the decoder recognises. -/
def HasOwnCode : ReqType → Prop
  | .albumByArtist | .artist | .loadTrack | .menuFooter | .menuHeader | .menuItem | .metadata
  | .mountInfo | .previewWaveform | .rootMenu | .render | .setup | .success
  | .titleByArtistAlbum => True
  | _ => False

/-- The two-byte code of each request type, as a number. -/
def wireCode : ReqType → UInt16
  | .albumByArtist => 0x1102
  | .artist => 0x1002
  | .loadTrack => 0x2b04
  | .menuFooter => 0x4201
  | .menuHeader => 0x4001
  | .menuItem => 0x4101
  | .loadTrackSuccess => 0x4e02
  | .metadata => 0x2002
  | .mountInfo => 0x2102
  | .previewWaveform => 0x2004
  | .rootMenu => 0x1000
  | .render => 0x3000
  | .success => 0x4000
  | .titleByArtistAlbum => 0x1202
  | _ => 0

/-- The codes the decoder knows. -/
def knownCodes : List UInt16 :=
  [0x0000, 0x1000, 0x1001, 0x1002, 0x1003, 0x1004, 0x1012, 0x1014, 0x1102, 0x1105, 0x1202, 0x1300,
   0x2002, 0x2004, 0x2102, 0x2b04, 0x3000, 0x4000, 0x4001, 0x4101, 0x4201]

end PDJ
