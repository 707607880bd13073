import Verif.Conformance.Examples

/-!
# File formats

The classes of `/repo/tests/full_examples` as the metaclass leaves them: `Props/Formats.lean` shows that they are what the class statements
in `Conformance/Examples.lean` make.
-/

namespace Verif.Formats

/-- The little-endian encoding of a number in `k` bytes, two's complement if it is negative. -/
def le : (k : Nat) → Int → Bytes
  | 0, _ => []
  | k + 1, i => UInt8.ofNat (i % 256).toNat :: le k (i / 256)

/-- `WAVDataChunk`, `/repo/tests/full_examples/wav_test.py:56-63` -/
def wavData : StructDesc where
  name := "WAVDataChunk"
  components := [
    .leaf { name := "chunk_id", typeName := "Bytes", size := .fixed 4, offset := some 0, const := .bytes [100, 97, 116, 97],
            dflt := .bytes [100, 97, 116, 97] } .bytes,
    .leaf { name := "size", typeName := "UInt32", size := .fixed 4, index := 1, offset := some 4, explicit := ["endian"],
            computeFn := some (Conformance.lengthOf "audio_data") } (.integer false .little),
    .leaf { name := "audio_data", typeName := "Bytes", size := .ref "size", index := 2, offset := some 8 } .bytes]
  fieldValidators := [("chunk_id", []), ("size", []), ("audio_data", [])]
  numOwnFields := 3
  argumentDefaults := []
  metaOpts := none

/-- `WAVFormatChunk`, `/repo/tests/full_examples/wav_test.py:27-53` -/
def wavFormat : StructDesc where
  name := "WAVFormatChunk"
  components := [
    .leaf { name := "chunk_id", typeName := "Bytes", size := .fixed 4, offset := some 0, const := .bytes [102, 109, 116, 32],
            dflt := .bytes [102, 109, 116, 32] } .bytes,
    .leaf { name := "size", typeName := "UInt32", size := .fixed 4, index := 1, offset := some 4, const := .int 16,
            dflt := .int 16 } (.integer false .little),
    .leaf { name := "audio_format", typeName := "UInt16", size := .fixed 2, index := 2, offset := some 8 } (.integer false .little),
    .leaf { name := "n_channels", typeName := "UInt16", size := .fixed 2, index := 3, offset := some 10 } (.integer false .little),
    .leaf { name := "sample_rate", typeName := "UInt32", size := .fixed 4, index := 4, offset := some 12 } (.integer false .little),
    .leaf { name := "byte_rate", typeName := "UInt32", size := .fixed 4, index := 5, offset := some 16,
            computeFn := some Conformance.byteRate } (.integer false .little),
    .leaf { name := "block_alignment", typeName := "UInt16", size := .fixed 2, index := 6, offset := some 20,
            computeFn := some Conformance.blockAlignment } (.integer false .little),
    .leaf { name := "bits_per_sample", typeName := "UInt16", size := .fixed 2, index := 7, offset := some 22 } (.integer false .little)]
  fieldValidators := [("chunk_id", []), ("size", []), ("audio_format", []), ("n_channels", []), ("sample_rate", []), ("byte_rate", []),
            ("block_alignment", []), ("bits_per_sample", [])]
  numOwnFields := 8
  argumentDefaults := [("endian", .little)]
  metaOpts := some [("endian", .little)]

/-- `WAVFileHeader`, `/repo/tests/full_examples/wav_test.py:19-22` -/
def wavFile : StructDesc where
  name := "WAVFileHeader"
  components := [
    .leaf { name := "riff_header", typeName := "Bytes", size := .fixed 4, offset := some 0, const := .bytes [82, 73, 70, 70],
            dflt := .bytes [82, 73, 70, 70] } .bytes,
    .leaf { name := "size", typeName := "UInt32", size := .fixed 4, index := 1, offset := some 4,
            explicit := ["endian"] } (.integer false .little),
    .leaf { name := "file_format", typeName := "Bytes", size := .fixed 4, index := 2, offset := some 8, const := .bytes [87, 65, 86, 69],
            dflt := .bytes [87, 65, 86, 69] } .bytes]
  fieldValidators := [("riff_header", []), ("size", []), ("file_format", [])]
  numOwnFields := 3
  argumentDefaults := []
  metaOpts := none

/-- The null byte after the name, `/repo/tests/full_examples/cpio_test.py:32-34`. -/
def cpioPadding : FieldBase where
  name := "_filename_padding"
  typeName := "Bytes"
  size := .fixed 1
  index := 12
  const := .bytes [0]
  dflt := .bytes [0]
  discard := true
  present := fun f _ _ => (Conformance.intField f "name_size").map fun i => i % 2 ≠ 0

/-- `CPIOFileHeader`, `/repo/tests/full_examples/cpio_test.py:16-45`; `now` is what the factory of `modified_time` returns. -/
def cpio (now : Value) : StructDesc where
  name := "CPIOFileHeader"
  components := [
    .leaf { name := "magic", typeName := "UInt16", size := .fixed 2, offset := some 0, const := .int 29127, dflt := .int 29127,
            discard := true } (.integer false .little),
    .leaf { name := "device_id", typeName := "UInt16", size := .fixed 2, index := 1, offset := some 2, dflt := .int 0 } (.integer false .little),
    .leaf { name := "inumber", typeName := "UInt16", size := .fixed 2, index := 2, offset := some 4, dflt := .int 0 } (.integer false .little),
    .leaf { name := "mode", typeName := "UInt16", size := .fixed 2, index := 3, offset := some 6, dflt := .int 420 } (.integer false .little),
    .leaf { name := "owner_uid", typeName := "UInt16", size := .fixed 2, index := 4, offset := some 8, dflt := .int 0 } (.integer false .little),
    .leaf { name := "owner_gid", typeName := "UInt16", size := .fixed 2, index := 5, offset := some 10,
            dflt := .int 0 } (.integer false .little),
    .leaf { name := "n_links", typeName := "UInt16", size := .fixed 2, index := 6, offset := some 12, dflt := .int 0 } (.integer false .little),
    .leaf { name := "device_version", typeName := "UInt16", size := .fixed 2, index := 7, offset := some 14,
            dflt := .int 0 } (.integer false .little),
    .leaf { name := "modified_time", typeName := "Timestamp32", size := .fixed 4, index := 8, offset := some 16,
            factory := some (.ok now) } (.timestamp .s true true .little),
    .leaf { name := "name_size", typeName := "UInt16", size := .fixed 2, index := 9, offset := some 20,
            computeFn := some Conformance.nameSize } (.integer false .little),
    .leaf { name := "file_size", typeName := "UInt32", size := .fixed 4, index := 10, offset := some 22,
            computeFn := some (Conformance.lengthOf "data") } (.integer false .little),
    .leaf { name := "filename", typeName := "StringZ", size := .none, index := 11, offset := some 26 } (.stringz utf8Codec none),
    .leaf cpioPadding .bytes,
    .leaf { name := "data", typeName := "Bytes", size := .ref "file_size", index := 13 } .bytes]
  fieldValidators := [("magic", []), ("device_id", []), ("inumber", []), ("mode", []), ("owner_uid", []), ("owner_gid", []), ("n_links",
            []), ("device_version", []), ("modified_time", []), ("name_size", []), ("file_size", []), ("filename", []), ("_filename_padding",
            []), ("data", [])]
  numOwnFields := 14
  argumentDefaults := [("endian", .little)]
  metaOpts := some [("endian", .little)]

/-- `SimpleBMPFileHeader`, `/repo/tests/full_examples/bmp_test.py:17-41` -/
def bmp : StructDesc where
  name := "SimpleBMPFileHeader"
  components := [
    .leaf { name := "magic", typeName := "Bytes", size := .fixed 2, offset := some 0, const := .bytes [66, 77], dflt := .bytes [66, 77],
            discard := true } .bytes,
    .leaf { name := "file_size", typeName := "UInt32", size := .fixed 4, index := 1, offset := some 2 } (.integer false .little),
    .leaf { name := "_reserved", typeName := "Bytes", size := .fixed 4, index := 2, offset := some 6, const := .bytes [0, 0, 0, 0],
            dflt := .bytes [0, 0, 0, 0], discard := true } .bytes,
    .leaf { name := "pixels_offset", typeName := "UInt32", size := .fixed 4, index := 3, offset := some 10 } (.integer false .little),
    .leaf { name := "header_size", typeName := "UInt32", size := .fixed 4, index := 4, offset := some 14, const := .int 40,
            dflt := .int 40, discard := true } (.integer false .little),
    .leaf { name := "image_width", typeName := "Int32", size := .fixed 4, index := 5, offset := some 18 } (.integer true .little),
    .leaf { name := "image_height", typeName := "Int32", size := .fixed 4, index := 6, offset := some 22 } (.integer true .little),
    .leaf { name := "n_color_planes", typeName := "UInt16", size := .fixed 2, index := 7, offset := some 26, const := .int 1,
            dflt := .int 1 } (.integer false .little),
    .leaf { name := "n_bits_per_pixel", typeName := "UInt16", size := .fixed 2, index := 8, offset := some 28 } (.integer false .little),
    .leaf { name := "compression_method", typeName := "UInt32", size := .fixed 4, index := 9, offset := some 30 } (.integer false .little),
    .leaf { name := "bitmap_size", typeName := "UInt32", size := .fixed 4, index := 10, offset := some 34 } (.integer false .little),
    .leaf { name := "v_resolution", typeName := "Int32", size := .fixed 4, index := 11, offset := some 38 } (.integer true .little),
    .leaf { name := "h_resolution", typeName := "Int32", size := .fixed 4, index := 12, offset := some 42 } (.integer true .little),
    .leaf { name := "n_palette_colors", typeName := "UInt32", size := .fixed 4, index := 13, offset := some 46 } (.integer false .little),
    .leaf { name := "n_important_colors", typeName := "UInt32", size := .fixed 4, index := 14, offset := some 50 } (.integer false .little)]
  fieldValidators := [("magic", []), ("file_size", []), ("_reserved", []), ("pixels_offset", []), ("header_size", []), ("image_width", []),
            ("image_height", []), ("n_color_planes", []), ("n_bits_per_pixel", []), ("compression_method", []), ("bitmap_size", []),
            ("v_resolution", []), ("h_resolution", []), ("n_palette_colors", []), ("n_important_colors", [])]
  numOwnFields := 15
  argumentDefaults := []
  metaOpts := none

/-- `FAT12BootSector`, `/repo/tests/full_examples/fat_test.py:11-33` -/
def fat12 : StructDesc where
  name := "FAT12BootSector"
  components := [
    .leaf { name := "jump", typeName := "Bytes", size := .fixed 3, offset := some 0, const := .bytes [235, 60, 144], dflt := .bytes [235,
            60, 144] } .bytes,
    .leaf { name := "oem_name", typeName := "String", size := .fixed 8, index := 1, offset := some 3, dflt := .str [109, 107, 100, 111,
            115, 102, 115] } (.string asciiCodec (some 32)),
    .leaf { name := "bytes_per_sector", typeName := "UInt16", size := .fixed 2, index := 2, offset := some 11,
            dflt := .int 512 } (.integer false .little),
    .leaf { name := "sectors_per_cluster", typeName := "UInt8", size := .fixed 1, index := 3, offset := some 13 } (.integer false .little),
    .leaf { name := "reserved_sectors", typeName := "UInt16", size := .fixed 2, index := 4, offset := some 14,
            dflt := .int 1 } (.integer false .little),
    .leaf { name := "num_fats", typeName := "UInt8", size := .fixed 1, index := 5, offset := some 16, dflt := .int 2 } (.integer false .little),
    .leaf { name := "max_root_entries", typeName := "UInt16", size := .fixed 2, index := 6, offset := some 17,
            dflt := .int 240 } (.integer false .little),
    .leaf { name := "total_logical_sectors_16", typeName := "UInt16", size := .fixed 2, index := 7, offset := some 19 } (.integer false .little),
    .leaf { name := "media_descriptor", typeName := "UInt8", size := .fixed 1, index := 8, offset := some 21 } (.integer false .little),
    .leaf { name := "sectors_per_fat", typeName := "UInt16", size := .fixed 2, index := 9, offset := some 22 } (.integer false .little),
    .leaf { name := "sectors_per_track", typeName := "UInt16", size := .fixed 2, index := 10, offset := some 24 } (.integer false .little),
    .leaf { name := "num_heads", typeName := "UInt16", size := .fixed 2, index := 11, offset := some 26 } (.integer false .little),
    .leaf { name := "num_hidden_sectors", typeName := "UInt32", size := .fixed 4, index := 12, offset := some 28,
            dflt := .int 0 } (.integer false .little),
    .leaf { name := "total_logical_sectors_32", typeName := "UInt32", size := .fixed 4, index := 13,
            offset := some 32 } (.integer false .little),
    .leaf { name := "drive_number", typeName := "UInt8", size := .fixed 1, index := 14, offset := some 36 } (.integer false .little),
    .leaf { name := "_reserved", typeName := "Bytes", size := .fixed 1, index := 15, offset := some 37, const := .bytes [0],
            dflt := .bytes [0], discard := true } .bytes,
    .leaf { name := "_ex_boot_signature", typeName := "Bytes", size := .fixed 1, index := 16, offset := some 38, const := .bytes [41],
            dflt := .bytes [41], discard := true } .bytes,
    .leaf { name := "volume_id", typeName := "UInt32", size := .fixed 4, index := 17, offset := some 39,
            factory := some (.ok (.int 4)) } (.integer false .little),
    .leaf { name := "volume_label", typeName := "String", size := .fixed 11, index := 18, offset := some 43 } (.string latin1Codec none),
    .leaf { name := "fs_type", typeName := "String", size := .fixed 8, index := 19, offset := some 54, dflt := .str [70, 65, 84, 49,
            50] } (.string asciiCodec (some 32)),
    .leaf { name := "boot_code", typeName := "Bytes", size := .fixed 448, index := 20, offset := some 62,
            dflt := .bytes (List.replicate 448 0xCC) } .bytes,
    .leaf { name := "boot_signature", typeName := "Bytes", size := .fixed 2, index := 21, offset := some 510, const := .bytes [85, 170],
            dflt := .bytes [85, 170] } .bytes]
  fieldValidators := [("jump", []), ("oem_name", []), ("bytes_per_sector", []), ("sectors_per_cluster", []), ("reserved_sectors", []),
            ("num_fats", []), ("max_root_entries", []), ("total_logical_sectors_16", []), ("media_descriptor", []), ("sectors_per_fat", []),
            ("sectors_per_track", []), ("num_heads", []), ("num_hidden_sectors", []), ("total_logical_sectors_32", []), ("drive_number", []),
            ("_reserved", []), ("_ex_boot_signature", []), ("volume_id", []), ("volume_label", []), ("fs_type", []), ("boot_code", []),
            ("boot_signature", [])]
  numOwnFields := 22
  argumentDefaults := []
  metaOpts := none

/-! ### Arguments and bytes -/

/-- The format chunk of a WAV file. -/
def formatChunk (a c r b : Int) : Bytes :=
  List.flatten [b!"fmt ", le 4 16, le 2 a, le 2 c, le 4 r, le 4 (r * c * b / 8), le 2 (c * b / 8), le 2 b]

/-- The keyword arguments of `FAT12BootSector`. -/
def fatArgs (oem : List Nat) (bps spc res nf mre tls md spf spt nh hid tll dn vid : Int) (label fs : List Nat) (boot : Bytes) : Dict :=
  [("oem_name", .str oem), ("bytes_per_sector", .int bps), ("sectors_per_cluster", .int spc), ("reserved_sectors", .int res),
    ("num_fats", .int nf), ("max_root_entries", .int mre), ("total_logical_sectors_16", .int tls), ("media_descriptor", .int md),
    ("sectors_per_fat", .int spf), ("sectors_per_track", .int spt), ("num_heads", .int nh), ("num_hidden_sectors", .int hid),
    ("total_logical_sectors_32", .int tll), ("drive_number", .int dn), ("volume_id", .int vid), ("volume_label", .str label),
    ("fs_type", .str fs), ("boot_code", .bytes boot)]

/-- A boot sector. -/
def fatBytes (oemCode : Bytes) (bps spc res nf mre tls md spf spt nh hid tll dn vid : Int) (labelCode fsCode boot : Bytes) : List Bytes :=
  [b!"\xeb\x3c\x90", oemCode ++ List.replicate (8 - oemCode.length) 32, le 2 bps, le 1 spc, le 2 res, le 1 nf, le 2 mre, le 2 tls,
    le 1 md, le 2 spf, le 2 spt, le 2 nh, le 4 hid, le 4 tll, le 1 dn, b!"\x00", b!"\x29", le 4 vid, labelCode,
    fsCode ++ List.replicate (8 - fsCode.length) 32, boot, b!"\x55\xaa"]

/-- The keyword arguments of `CPIOFileHeader`; the time in seconds since 1970. -/
def cpioArgs (dev ino mode uid gid links ver time : Int) (name : List Nat) (data : Bytes) : Dict :=
  [("device_id", .int dev), ("inumber", .int ino), ("mode", .int mode), ("owner_uid", .int uid), ("owner_gid", .int gid), ("n_links", .int links),
    ("device_version", .int ver), ("modified_time", .datetime (time * 1000000) true), ("filename", .str name), ("data", .bytes data)]

/-- The byte that follows the name and its null byte, if they are an odd number of bytes. -/
def cpioPad (code : Bytes) : Bytes := if (code.length + 1) % 2 = 0 then [] else [0]

/-- A file in a CPIO archive. -/
def cpioBytes (dev ino mode uid gid links ver time : Int) (code data : Bytes) : List Bytes :=
  [le 2 0o070707, le 2 dev, le 2 ino, le 2 mode, le 2 uid, le 2 gid, le 2 links, le 2 ver, le 4 time, le 2 (code.length + 1 : Nat), le 4 data.length,
    code ++ [0], cpioPad code, data]

/-- The classes of the examples in one program. -/
def classes (now : Value) : Classes := fun c =>
  [wavFile, wavFormat, wavData, cpio now, bmp, fat12].find? fun d => d.name = c

end Verif.Formats
