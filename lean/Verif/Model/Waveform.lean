import Verif.Base.Bytes

/-!
# The constant preview waveform

`PREVIEW_WAVEFORM_RESPONSE`, `/repo/src/rekordbox/library/fixtures.rs` 1-115 (904 bytes).
-/

namespace PDJ

/-- `PREVIEW_WAVEFORM_RESPONSE` (library/fixtures.rs 1-115). -/
def previewWaveform : Bytes :=
  [
   0x18, 0x00, 0x15, 0x00, 0x16, 0x00, 0x18, 0x00, 0x14, 0x00, 0x0d, 0x00, 0x18, 0x00, 0x15, 0x00,
   0x17, 0x00, 0x17, 0x00, 0x15, 0x00, 0x17, 0x00, 0x18, 0x00, 0x17, 0x00, 0x18, 0x00, 0x17, 0x00,
   0x15, 0x01, 0x0d, 0x01, 0x17, 0x00, 0x17, 0x00, 0x17, 0x00, 0x17, 0x00, 0x17, 0x00, 0x15, 0x00,
   0x18, 0x00, 0x15, 0x00, 0x16, 0x00, 0x18, 0x00, 0x11, 0x01, 0x11, 0x01, 0x17, 0x00, 0x17, 0x00,
   0x15, 0x00, 0x17, 0x00, 0x18, 0x00, 0x16, 0x00, 0x15, 0x00, 0x15, 0x00, 0x16, 0x03, 0x15, 0x03,
   0x12, 0x03, 0x13, 0x03, 0x0b, 0x05, 0x0f, 0x05, 0x14, 0x03, 0x12, 0x03, 0x12, 0x03, 0x12, 0x03,
   0x13, 0x02, 0x13, 0x02, 0x13, 0x03, 0x15, 0x03, 0x16, 0x03, 0x12, 0x03, 0x0f, 0x05, 0x08, 0x05,
   0x15, 0x03, 0x14, 0x03, 0x12, 0x03, 0x12, 0x03, 0x13, 0x00, 0x16, 0x00, 0x12, 0x03, 0x13, 0x03,
   0x15, 0x03, 0x13, 0x03, 0x12, 0x03, 0x13, 0x03, 0x08, 0x05, 0x0e, 0x05, 0x16, 0x03, 0x12, 0x03,
   0x12, 0x02, 0x13, 0x02, 0x16, 0x03, 0x0d, 0x03, 0x13, 0x03, 0x15, 0x03, 0x0e, 0x05, 0x10, 0x05,
   0x12, 0x03, 0x13, 0x03, 0x13, 0x03, 0x13, 0x03, 0x12, 0x03, 0x12, 0x03, 0x13, 0x00, 0x16, 0x00,
   0x12, 0x03, 0x13, 0x03, 0x12, 0x05, 0x08, 0x05, 0x13, 0x03, 0x12, 0x03, 0x13, 0x03, 0x14, 0x03,
   0x16, 0x03, 0x0d, 0x03, 0x13, 0x02, 0x15, 0x02, 0x10, 0x03, 0x15, 0x03, 0x13, 0x03, 0x15, 0x03,
   0x09, 0x05, 0x12, 0x05, 0x12, 0x03, 0x13, 0x03, 0x13, 0x03, 0x13, 0x03, 0x0d, 0x02, 0x13, 0x02,
   0x15, 0x03, 0x14, 0x03, 0x13, 0x03, 0x13, 0x03, 0x0b, 0x05, 0x0f, 0x05, 0x13, 0x03, 0x0f, 0x03,
   0x12, 0x03, 0x16, 0x03, 0x13, 0x02, 0x12, 0x02, 0x13, 0x03, 0x15, 0x03, 0x10, 0x03, 0x14, 0x03,
   0x0f, 0x05, 0x0b, 0x05, 0x15, 0x03, 0x13, 0x03, 0x0f, 0x03, 0x12, 0x03, 0x16, 0x03, 0x13, 0x03,
   0x0e, 0x02, 0x13, 0x02, 0x15, 0x03, 0x16, 0x03, 0x0d, 0x02, 0x11, 0x02, 0x05, 0x05, 0x0f, 0x05,
   0x11, 0x03, 0x0f, 0x03, 0x12, 0x03, 0x0f, 0x03, 0x13, 0x02, 0x0e, 0x02, 0x12, 0x03, 0x12, 0x03,
   0x0e, 0x03, 0x12, 0x03, 0x0e, 0x05, 0x09, 0x05, 0x11, 0x03, 0x14, 0x03, 0x12, 0x03, 0x12, 0x03,
   0x0e, 0x02, 0x14, 0x02, 0x0d, 0x03, 0x11, 0x03, 0x13, 0x03, 0x13, 0x03, 0x04, 0x05, 0x0c, 0x05,
   0x10, 0x03, 0x12, 0x03, 0x11, 0x03, 0x0f, 0x03, 0x14, 0x02, 0x15, 0x02, 0x12, 0x02, 0x0a, 0x02,
   0x11, 0x03, 0x12, 0x03, 0x06, 0x05, 0x0e, 0x05, 0x10, 0x03, 0x10, 0x03, 0x12, 0x03, 0x12, 0x03,
   0x0e, 0x02, 0x11, 0x02, 0x10, 0x03, 0x14, 0x03, 0x0a, 0x03, 0x13, 0x03, 0x0a, 0x03, 0x11, 0x03,
   0x10, 0x03, 0x13, 0x03, 0x10, 0x03, 0x11, 0x03, 0x12, 0x03, 0x0d, 0x03, 0x12, 0x02, 0x12, 0x02,
   0x13, 0x03, 0x0e, 0x03, 0x0d, 0x05, 0x06, 0x05, 0x12, 0x03, 0x0f, 0x03, 0x0d, 0x03, 0x15, 0x03,
   0x10, 0x03, 0x0a, 0x03, 0x03, 0x05, 0x04, 0x05, 0x02, 0x05, 0x03, 0x05, 0x02, 0x05, 0x02, 0x05,
   0x02, 0x05, 0x0e, 0x05, 0x02, 0x05, 0x02, 0x05, 0x02, 0x05, 0x05, 0x05, 0x02, 0x05, 0x02, 0x05,
   0x02, 0x05, 0x02, 0x05, 0x0b, 0x05, 0x04, 0x05, 0x04, 0x05, 0x03, 0x05, 0x03, 0x05, 0x02, 0x05,
   0x02, 0x05, 0x02, 0x05, 0x06, 0x05, 0x09, 0x05, 0x02, 0x05, 0x02, 0x05, 0x02, 0x05, 0x05, 0x05,
   0x02, 0x05, 0x02, 0x05, 0x02, 0x05, 0x0a, 0x05, 0x04, 0x05, 0x04, 0x05, 0x03, 0x05, 0x03, 0x05,
   0x02, 0x05, 0x02, 0x05, 0x02, 0x05, 0x04, 0x05, 0x08, 0x05, 0x02, 0x05, 0x02, 0x05, 0x02, 0x05,
   0x05, 0x05, 0x02, 0x05, 0x02, 0x05, 0x02, 0x05, 0x05, 0x05, 0x06, 0x05, 0x02, 0x05, 0x02, 0x05,
   0x02, 0x05, 0x04, 0x05, 0x02, 0x05, 0x02, 0x05, 0x02, 0x05, 0x0a, 0x05, 0x02, 0x05, 0x02, 0x05,
   0x02, 0x05, 0x05, 0x05, 0x02, 0x05, 0x02, 0x05, 0x02, 0x05, 0x02, 0x05, 0x15, 0x02, 0x13, 0x02,
   0x14, 0x03, 0x15, 0x03, 0x13, 0x03, 0x15, 0x03, 0x14, 0x02, 0x12, 0x02, 0x10, 0x05, 0x0f, 0x05,
   0x17, 0x02, 0x17, 0x02, 0x0b, 0x05, 0x11, 0x05, 0x15, 0x03, 0x11, 0x03, 0x17, 0x03, 0x13, 0x03,
   0x16, 0x03, 0x14, 0x03, 0x16, 0x00, 0x15, 0x00, 0x14, 0x05, 0x0c, 0x05, 0x15, 0x03, 0x15, 0x03,
   0x15, 0x03, 0x15, 0x03, 0x0f, 0x03, 0x15, 0x03, 0x16, 0x03, 0x15, 0x03, 0x11, 0x02, 0x16, 0x02,
   0x12, 0x05, 0x10, 0x05, 0x17, 0x02, 0x17, 0x02, 0x09, 0x05, 0x13, 0x05, 0x12, 0x03, 0x16, 0x03,
   0x15, 0x03, 0x14, 0x03, 0x16, 0x02, 0x14, 0x02, 0x15, 0x03, 0x15, 0x03, 0x11, 0x05, 0x0c, 0x05,
   0x12, 0x03, 0x16, 0x03, 0x14, 0x03, 0x13, 0x03, 0x14, 0x03, 0x15, 0x03, 0x0f, 0x00, 0x16, 0x00,
   0x0c, 0x03, 0x12, 0x03, 0x17, 0x02, 0x17, 0x02, 0x0a, 0x03, 0x11, 0x03, 0x15, 0x03, 0x10, 0x03,
   0x16, 0x03, 0x14, 0x03, 0x15, 0x02, 0x13, 0x02, 0x15, 0x05, 0x08, 0x05, 0x17, 0x02, 0x17, 0x02,
   0x0a, 0x05, 0x10, 0x05, 0x14, 0x03, 0x17, 0x03, 0x11, 0x03, 0x15, 0x03, 0x14, 0x03, 0x15, 0x03,
   0x14, 0x00, 0x17, 0x00, 0x11, 0x03, 0x16, 0x03, 0x12, 0x05, 0x0a, 0x05, 0x16, 0x03, 0x14, 0x03,
   0x11, 0x03, 0x14, 0x03, 0x15, 0x03, 0x16, 0x03, 0x14, 0x02, 0x10, 0x02, 0x16, 0x03, 0x14, 0x03,
   0x15, 0x03, 0x14, 0x03, 0x0a, 0x05, 0x11, 0x05, 0x0f, 0x03, 0x17, 0x03, 0x0d, 0x04, 0x05, 0x04,
   0x02, 0x05, 0x02, 0x05, 0x02, 0x05, 0x02, 0x05, 0x02, 0x05, 0x02, 0x05, 0x02, 0x05, 0x02, 0x05,
   0x02, 0x05, 0x02, 0x05, 0x02, 0x05, 0x02, 0x05, 0x02, 0x05, 0x02, 0x05, 0x02, 0x03, 0x02, 0x05,
   0x0e, 0x0e, 0x0f, 0x0f, 0x0e, 0x0f, 0x0f, 0x0e, 0x0f, 0x0e, 0x0c, 0x0e, 0x0e, 0x0c, 0x0e, 0x0e,
   0x0c, 0x0e, 0x0e, 0x0c, 0x0e, 0x0e, 0x0c, 0x0e, 0x0e, 0x0c, 0x0e, 0x0e, 0x0c, 0x0e, 0x0e, 0x0c,
   0x0e, 0x0c, 0x0e, 0x0d, 0x0d, 0x0c, 0x0e, 0x0e, 0x0c, 0x0d, 0x0e, 0x0d, 0x0d, 0x0d, 0x0c, 0x0e,
   0x0d, 0x0c, 0x0d, 0x0e, 0x08, 0x02, 0x07, 0x04, 0x05, 0x02, 0x07, 0x04, 0x02, 0x05, 0x02, 0x07,
   0x04, 0x05, 0x04, 0x05, 0x05, 0x05, 0x0e, 0x0e, 0x0e, 0x0d, 0x0e, 0x0d, 0x0e, 0x0e, 0x0e, 0x0c,
   0x0e, 0x0e, 0x0c, 0x0e, 0x0e, 0x0d, 0x0e, 0x0d, 0x0e, 0x0e, 0x0e, 0x0c, 0x0e, 0x0e, 0x0d, 0x0e,
   0x02, 0x01, 0x01, 0x01, 0x9e, 0xeb, 0x78, 0x10 ]

end PDJ
