import Verif.Conformance.Numeric

/-!
`/repo/tests/full_examples` on the model.

`test_image.bmp` is cut after its header and three pixels, and the WAV file is the header the `wave` module writes with eight bytes of
audio; sizes in the assertions are adapted to that.
-/

namespace Verif.Conformance

/-! ### bmp_test.py -/

def bmp : Except Err Classes := program [{
  name := "SimpleBMPFileHeader"
  body := [("magic", .of (mkBytes { const := .bytes b!"BM", discard := true })), ("file_size", .of (int 32 false)),
    ("_reserved", .of (mkBytes { const := .bytes b!"\x00\x00\x00\x00", discard := true })), ("pixels_offset", .of (int 32 false)),
    ("header_size", .of (int 32 false none { const := .int 40, discard := true })), ("image_width", .of (int 32 true)),
    ("image_height", .of (int 32 true)), ("n_color_planes", .of (int 16 false none { const := .int 1 })),
    ("n_bits_per_pixel", .of (int 16 false)), ("compression_method", .of (int 32 false)), ("bitmap_size", .of (int 32 false)),
    ("v_resolution", .of (int 32 true)), ("h_resolution", .of (int 32 true)), ("n_palette_colors", .of (int 32 false)),
    ("n_important_colors", .of (int 32 false))] }]

/-- The first 54 bytes of `test_image.bmp`. -/
def bmpHeader : Bytes :=
  b!"BM\x76\x38\x00\x00\x00\x00\x00\x00\x36\x00\x00\x00\x28\x00\x00\x00\x50\x00\x00\x00\x3c\x00\x00\x00\x01\x00\x18\x00\x00\x00\x00\x00\x40\x38\x00\x00\x13\x0b\x00\x00\x13\x0b\x00\x00\x00\x00\x00\x00\x00\x00\x00\x00"

def bmpValues : Dict :=
  [("file_size", .int 14454), ("pixels_offset", .int 54), ("image_width", .int 80), ("image_height", .int 60),
    ("n_color_planes", .int 1), ("n_bits_per_pixel", .int 24), ("compression_method", .int 0), ("bitmap_size", .int 14400),
    ("v_resolution", .int 2835), ("h_resolution", .int 2835), ("n_palette_colors", .int 0), ("n_important_colors", .int 0)]

-- test_basic_bmp__loads
example : load bmp "SimpleBMPFileHeader" (bmpHeader ++ b!"\x01\x02\x03\x04\x05\x06\x07\x08\x09") (exact := false) = .ok bmpValues := by
  decide +kernel

-- test_basic_bmp__load
example : loadStream bmp "SimpleBMPFileHeader" (bmpHeader ++ b!"\x01\x02\x03\x04\x05\x06\x07\x08\x09") = .ok (bmpValues, 54) := by
  decide +kernel

-- test_basic_bmp__dumps
example : dump bmp "SimpleBMPFileHeader" bmpValues = .ok bmpHeader := by decide +kernel

/-! ### cpio_test.py -/

/-- `all_fields[name]` as an integer -/
def intField (v : View) (name : String) : Except Err Int :=
  (v.get name).bind fun x => match x with
    | .int i => .ok i
    | _ => .error .typeErr

/-- `len((all_fields["filename"] + "\0").encode("utf-8"))` -/
def nameSize (v : View) : Except Err Value :=
  (v.get "filename").bind fun x => match x with
    | .str s => (utf8Codec.encode (s ++ [0])).map fun b => .int b.length
    | _ => .error .typeErr

def cpio (now : Value) : Except Err Classes :=
  let u16 (a : FieldArgs := {}) := Item.of (int 16 false none a)
  program [{
    name := "CPIOFileHeader", metaOpts := some [("endian", .little)]
    body := [("magic", u16 { const := .int 0o070707, discard := true }), ("device_id", u16 { dflt := .int 0 }),
      ("inumber", u16 { dflt := .int 0 }), ("mode", u16 { dflt := .int 0o644 }), ("owner_uid", u16 { dflt := .int 0 }),
      ("owner_gid", u16 { dflt := .int 0 }), ("n_links", u16 { dflt := .int 0 }), ("device_version", u16 { dflt := .int 0 }),
      ("modified_time", .of (mkTimestamp .little "Timestamp32" (.fixed 4) .s true true none { factory := some (.ok now) })),
      ("name_size", computed (int 16 false) nameSize), ("file_size", computed (int 32 false) (lengthOf "data")),
      ("filename", .of stringZ),
      ("_filename_padding", .of (mkBytes
        { const := .bytes b!"\x00", discard := true, present := fun f _ _ => (intField f "name_size").map fun i => i % 2 ≠ 0 })),
      ("data", .of (mkBytes { size := .ref "file_size" }))] }]

-- test_dump__padding_null_behaves: an odd and an even number of bytes in the name
example : dump (cpio .none) "CPIOFileHeader" [("filename", .str u!"evenlength.txt"), ("data", .bytes b!"0123456789"),
      ("modified_time", .datetime (0xC0FFEE * 1000000) true)] =
    .ok b!"\xc7\x71\x00\x00\x00\x00\xa4\x01\x00\x00\x00\x00\x00\x00\x00\x00\xee\xff\xc0\x00\x0f\x00\x0a\x00\x00\x00evenlength.txt\x00\x000123456789" := by
  decide +kernel
example : dump (cpio .none) "CPIOFileHeader" [("filename", .str u!"oddlength.txt"), ("data", .bytes b!"0123456789"),
      ("modified_time", .datetime (0xC0FFEE * 1000000) true)] =
    .ok b!"\xc7\x71\x00\x00\x00\x00\xa4\x01\x00\x00\x00\x00\x00\x00\x00\x00\xee\xff\xc0\x00\x0e\x00\x0a\x00\x00\x00oddlength.txt\x000123456789" := by
  decide +kernel

-- test_load__padding_null_behaves
example : (load (cpio .none) "CPIOFileHeader"
      b!"\xc7\x71\x80\x00\xff\x7f\xa4\x01\x00\x00\x00\x00\x01\x00\x00\x00\x0d\xf0\xad\x0b\x0f\x00\x0a\x00\x00\x00evenlength.txt\x00\x000123456789").bind
      (toDict (cpio .none) "CPIOFileHeader") =
    .ok [("device_id", .int 0x80), ("inumber", .int 0x7FFF), ("mode", .int 0o644), ("owner_uid", .int 0), ("owner_gid", .int 0),
      ("n_links", .int 1), ("device_version", .int 0), ("modified_time", .datetime (0xBADF00D * 1000000) true),
      ("name_size", .int 15), ("file_size", .int 10), ("filename", .str u!"evenlength.txt"), ("data", .bytes b!"0123456789")] := by
  decide +kernel
example : (load (cpio .none) "CPIOFileHeader"
      b!"\xc7\x71\x80\x00\xff\x7f\xa4\x01\x00\x00\x00\x00\x01\x00\x00\x00\x0d\xf0\xad\x0b\x0e\x00\x0a\x00\x00\x00oddlength.txt\x000123456789").bind
      (toDict (cpio .none) "CPIOFileHeader") =
    .ok [("device_id", .int 0x80), ("inumber", .int 0x7FFF), ("mode", .int 0o644), ("owner_uid", .int 0), ("owner_gid", .int 0),
      ("n_links", .int 1), ("device_version", .int 0), ("modified_time", .datetime (0xBADF00D * 1000000) true),
      ("name_size", .int 14), ("file_size", .int 10), ("filename", .str u!"oddlength.txt"), ("data", .bytes b!"0123456789")] := by
  decide +kernel

/-! ### fat_test.py -/

def fat12 : Except Err Classes :=
  let u (bits : Nat) (a : FieldArgs := {}) := Item.of (int bits false none a)
  program [{
    name := "FAT12BootSector"
    body := [("jump", .of (mkBytes { const := .bytes b!"\xeb\x3c\x90" })),
      ("oem_name", .of (mkString asciiCodec (some b!" ") { size := .fixed 8, dflt := .str u!"mkdosfs" })),
      ("bytes_per_sector", u 16 { dflt := .int 512 }), ("sectors_per_cluster", u 8), ("reserved_sectors", u 16 { dflt := .int 1 }),
      ("num_fats", u 8 { dflt := .int 2 }), ("max_root_entries", u 16 { dflt := .int 240 }), ("total_logical_sectors_16", u 16),
      ("media_descriptor", u 8), ("sectors_per_fat", u 16), ("sectors_per_track", u 16), ("num_heads", u 16),
      ("num_hidden_sectors", u 32 { dflt := .int 0 }), ("total_logical_sectors_32", u 32), ("drive_number", u 8),
      ("_reserved", .of (mkBytes { const := .bytes b!"\x00", discard := true })),
      ("_ex_boot_signature", .of (mkBytes { const := .bytes b!"\x29", discard := true })),
      ("volume_id", u 32 { factory := some (.ok (.int 4)) }), ("volume_label", .of (mkString latin1Codec none { size := .fixed 11 })),
      ("fs_type", .of (mkString asciiCodec (some b!" ") { size := .fixed 8, dflt := .str u!"FAT12" })),
      ("boot_code", .of (mkBytes { size := .fixed 448, dflt := .bytes (List.replicate 448 0xCC) })),
      ("boot_signature", .of (mkBytes { const := .bytes b!"\x55\xaa" }))] }]

-- test_fat12__basic
example : dump fat12 "FAT12BootSector" [("sectors_per_cluster", .int 1), ("total_logical_sectors_16", .int 1440),
      ("media_descriptor", .int 0xF0), ("sectors_per_fat", .int 4), ("sectors_per_track", .int 36), ("num_heads", .int 2),
      ("total_logical_sectors_32", .int 0), ("drive_number", .int 0), ("volume_id", .int 0xDEADBEEF),
      ("volume_label", .str u!"abcdefghijk")] =
    .ok (b!"\xeb\x3c\x90mkdosfs \x00\x02\x01\x01\x00\x02\xf0\x00\xa0\x05\xf0\x04\x00\x24\x00\x02\x00\x00\x00\x00\x00\x00\x00\x00\x00\x00\x00\x29\xef\xbe\xad\xdeabcdefghijkFAT12   "
      ++ List.replicate 448 0xCC ++ b!"\x55\xaa") := by decide +kernel

/-! ### wav_test.py -/

/-- `_byte_rate` -/
def byteRate (v : View) : Except Err Value :=
  (intField v "sample_rate").bind fun r => (intField v "n_channels").bind fun c => (intField v "bits_per_sample").map fun b =>
    .int (r * c * b / 8)

/-- `_block_alignment` -/
def blockAlignment (v : View) : Except Err Value :=
  (intField v "n_channels").bind fun c => (intField v "bits_per_sample").map fun b => .int (c * b / 8)

def wav : Except Err Classes := program [
  { name := "WAVFileHeader"
    body := [("riff_header", .of (mkBytes { const := .bytes b!"RIFF" })), ("size", .of (int 32 false (some .little))),
      ("file_format", .of (mkBytes { const := .bytes b!"WAVE" }))] },
  { name := "WAVFormatChunk", metaOpts := some [("endian", .little)]
    body := [("chunk_id", .of (mkBytes { const := .bytes b!"fmt " })), ("size", .of (int 32 false none { const := .int 16 })),
      ("audio_format", .of (int 16 false)), ("n_channels", .of (int 16 false)), ("sample_rate", .of (int 32 false)),
      ("byte_rate", computed (int 32 false) byteRate), ("block_alignment", computed (int 16 false) blockAlignment),
      ("bits_per_sample", .of (int 16 false))] },
  { name := "WAVDataChunk"
    body := [("chunk_id", .of (mkBytes { const := .bytes b!"data" })),
      ("size", computed (int 32 false (some .little)) (lengthOf "audio_data")), ("audio_data", .of (mkBytes { size := .ref "size" }))] }]

/-- 16-bit mono audio sampled at 8 kHz, four frames. -/
def wavFile : Bytes :=
  b!"RIFF\x2c\x00\x00\x00WAVEfmt \x10\x00\x00\x00\x01\x00\x01\x00\x40\x1f\x00\x00\x80\x3e\x00\x00\x02\x00\x10\x00data\x08\x00\x00\x00\x00\x40\x00\x40\x00\x40\x00\x40"

-- test_wav__basic_read: three structs one after the other from the same stream
example : loadStream wav "WAVFileHeader" wavFile =
    .ok ([("riff_header", .bytes b!"RIFF"), ("size", .int 44), ("file_format", .bytes b!"WAVE")], 12) := by decide +kernel
example : loadStream wav "WAVFormatChunk" (wavFile.drop 12) =
    .ok ([("chunk_id", .bytes b!"fmt "), ("size", .int 16), ("audio_format", .int 1), ("n_channels", .int 1),
      ("sample_rate", .int 8000), ("byte_rate", .int 16000), ("block_alignment", .int 2), ("bits_per_sample", .int 16)], 24) := by
  decide +kernel
example : loadStream wav "WAVDataChunk" (wavFile.drop 36) =
    .ok ([("chunk_id", .bytes b!"data"), ("size", .int 8), ("audio_data", .bytes b!"\x00\x40\x00\x40\x00\x40\x00\x40")], 16) := by
  decide +kernel

-- test_wav__basic_write
example : len wav "WAVFormatChunk" [("audio_format", .int 1), ("n_channels", .int 1), ("sample_rate", .int 24000),
    ("bits_per_sample", .int 16)] = .ok 24 := by decide +kernel
example : dump wav "WAVFormatChunk" [("audio_format", .int 1), ("n_channels", .int 1), ("sample_rate", .int 24000),
      ("bits_per_sample", .int 16)] =
    .ok b!"fmt \x10\x00\x00\x00\x01\x00\x01\x00\xc0\x5d\x00\x00\x80\xbb\x00\x00\x02\x00\x10\x00" := by decide +kernel
example : dump wav "WAVDataChunk" [("audio_data", .bytes b!"\xaa\x55\xaa\x55")] = .ok b!"data\x04\x00\x00\x00\xaa\x55\xaa\x55" := by
  decide +kernel
example : len wav "WAVDataChunk" [("audio_data", .bytes b!"\xaa\x55\xaa\x55")] = .ok 12 := by decide +kernel
example : dump wav "WAVFileHeader" [("size", .int 36)] = .ok b!"RIFF\x24\x00\x00\x00WAVE" := by decide +kernel

end Verif.Conformance
