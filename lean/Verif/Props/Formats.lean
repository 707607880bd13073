import Verif.Proofs.FormatClasses

/-!
# C97: the file formats of the library's examples

The class statements of `/repo/tests/full_examples` (as transcribed in `Conformance/Examples.lean`) describe the formats they are meant to describe:
for all values, not only those in the tests, the bytes are what the format prescribes, and are read back as these values.
-/

namespace Verif
open Spec Conformance
open Formats (le)

/-! ### The classes -/

theorem C97_wav_classes :
    (getClass wav "WAVFileHeader").map (·.2) = .ok Formats.wavFile ∧ (getClass wav "WAVFormatChunk").map (·.2) = .ok Formats.wavFormat ∧
      (getClass wav "WAVDataChunk").map (·.2) = .ok Formats.wavData := ⟨rfl, rfl, rfl⟩

theorem C97_bmp_class : (getClass Conformance.bmp "SimpleBMPFileHeader").map (·.2) = .ok Formats.bmp := rfl

theorem C97_cpio_class (now : Value) : (getClass (Conformance.cpio now) "CPIOFileHeader").map (·.2) = .ok (Formats.cpio now) := rfl

theorem C97_fat_class : (getClass Conformance.fat12 "FAT12BootSector").map (·.2) = .ok Formats.fat12 := rfl

/-! ### WAV -/

/-- **C97** (WAV, data chunk) `WAVDataChunk(audio_data=audio).to_bytes()` is `b"data"`, the number of bytes of audio, and the audio; and that
is read back, wherever it is in a stream. -/
theorem C97_wav_data (Γ : Classes) (n : Nat) (audio : Bytes) (ctx : Value) (h : audio.length < 2 ^ 32) :
    structToStream Γ (n + 4) Formats.wavData [("audio_data", .bytes audio)] ctx = (b!"data" ++ le 4 audio.length ++ audio, .ok ()) ∧
      ∀ pre rest, structFromStream Γ (n + 4) Formats.wavData ⟨pre ++ (b!"data" ++ le 4 audio.length ++ audio) ++ rest, pre.length⟩ ctx [] =
        (.ok [("chunk_id", .bytes b!"data"), ("size", .int audio.length), ("audio_data", .bytes audio)],
          ⟨pre ++ (b!"data" ++ le 4 audio.length ++ audio) ++ rest, pre.length + (audio.length + 8)⟩) := by
  have hi : InRange 4 false (audio.length : Int) := by unfold InRange; simp; omega
  have hle : (le 4 audio.length).length = 4 := rfl
  have e : ([b!"data", le 4 audio.length, audio] : List Bytes).flatten = b!"data" ++ le 4 audio.length ++ audio := by simp
  constructor
  · refine (structToStream_parts (ps := [b!"data", le 4 audio.length, audio]) rfl rfl (.cons ?_ (.cons ?_ (.cons ?_ .nil)))).trans (by rw [e])
    · exact part_bytes _ rfl (Or.inl rfl) rfl
    · exact part_int 4 _ rfl rfl (by decide) rfl hi
    · exact part_bytes _ rfl (Or.inr ⟨"size", rfl, rfl⟩) rfl
  · intro pre rest
    have := structFromStream_reads (Γ := Γ) (n := n + 3) (ctx := ctx) (d := Formats.wavData) (ps := [b!"data", le 4 audio.length, audio])
      (.cons (.bytes b!"data") rfl (read_bytes _ (fun _ _ => rfl) rfl rfl (Or.inr fun _ _ => rfl) (Or.inl rfl))
        (.cons (.int audio.length) rfl (read_int 4 _ (fun _ _ _ => rfl) rfl rfl (Or.inl rfl) rfl (by decide) hi)
          (.cons (.bytes audio) rfl (read_bytes _ (fun _ _ => rfl) rfl rfl (Or.inl rfl) (Or.inr ⟨"size", rfl, rfl⟩)) (.nil _))))
      rfl rfl rfl pre rest
    rw [e] at this
    have e2 : (b!"data" ++ le 4 audio.length ++ audio).length = audio.length + 8 := by simp [hle]; omega
    rw [e2] at this
    exact this

/-- **C97** (WAV, format chunk) `WAVFormatChunk(audio_format=a, n_channels=c, sample_rate=r, bits_per_sample=b)`: the byte rate
and the block alignment are computed. -/
theorem C97_wav_format (Γ : Classes) (n : Nat) (ctx : Value) (a c r b : Int)
    (ha : InRange 2 false a) (hc : InRange 2 false c) (hr : InRange 4 false r) (hb : InRange 2 false b)
    (h1 : InRange 4 false (r * c * b / 8)) (h2 : InRange 2 false (c * b / 8)) :
    structToStream Γ (n + 4) Formats.wavFormat
        [("audio_format", .int a), ("n_channels", .int c), ("sample_rate", .int r), ("bits_per_sample", .int b)] ctx =
      (List.flatten [b!"fmt ", le 4 16, le 2 a, le 2 c, le 4 r, le 4 (r * c * b / 8), le 2 (c * b / 8), le 2 b], .ok ()) ∧
    ∀ pre rest, structFromStream Γ (n + 4) Formats.wavFormat ⟨pre ++ List.flatten [b!"fmt ", le 4 16, le 2 a, le 2 c, le 4 r, le 4 (r * c * b / 8), le 2 (c * b / 8), le 2 b] ++ rest, pre.length⟩ ctx [] =
      (.ok [("chunk_id", .bytes b!"fmt "), ("size", .int 16), ("audio_format", .int a), ("n_channels", .int c), ("sample_rate", .int r),
        ("byte_rate", .int (r * c * b / 8)), ("block_alignment", .int (c * b / 8)), ("bits_per_sample", .int b)],
        ⟨pre ++ List.flatten [b!"fmt ", le 4 16, le 2 a, le 2 c, le 4 r, le 4 (r * c * b / 8), le 2 (c * b / 8), le 2 b] ++ rest, pre.length + 24⟩) := by
  constructor
  · refine structToStream_parts (all := [("audio_format", .int a), ("n_channels", .int c), ("sample_rate", .int r), ("bits_per_sample", .int b),
        ("chunk_id", .bytes b!"fmt "), ("size", .int 16), ("byte_rate", .int (r * c * b / 8)), ("block_alignment", .int (c * b / 8))]) (by kernel_rfl) (by kernel_rfl) (.cons ?_ (.cons ?_ (.cons ?_ (.cons ?_ (.cons ?_ (.cons ?_ (.cons ?_ (.cons ?_ (.nil)))))))))
    · exact part_bytes _ rfl (Or.inl rfl) rfl
    · exact part_int 4 _ rfl rfl (by decide) rfl (by unfold InRange; decide)
    · exact part_int 2 _ rfl rfl (by decide) rfl ha
    · exact part_int 2 _ rfl rfl (by decide) rfl hc
    · exact part_int 4 _ rfl rfl (by decide) rfl hr
    · exact part_int 4 _ rfl rfl (by decide) rfl h1
    · exact part_int 2 _ rfl rfl (by decide) rfl h2
    · exact part_int 2 _ rfl rfl (by decide) rfl hb
  · intro pre rest
    exact structFromStream_reads (Γ := Γ) (n := n + 3) (ctx := ctx) (d := Formats.wavFormat)
      (.cons (.bytes b!"fmt ") (by kernel_rfl) (read_bytes _ (fun _ _ => rfl) rfl rfl (Or.inr fun _ _ => rfl) (Or.inl rfl))
        (.cons (.int 16) (by kernel_rfl) (read_int 4 _ (fun _ _ _ => rfl) rfl rfl (Or.inr fun _ _ => rfl) rfl (by decide) (by unfold InRange; decide))
        (.cons (.int a) (by kernel_rfl) (read_int 2 _ (fun _ _ _ => rfl) rfl rfl (Or.inl rfl) rfl (by decide) ha)
        (.cons (.int c) (by kernel_rfl) (read_int 2 _ (fun _ _ _ => rfl) rfl rfl (Or.inl rfl) rfl (by decide) hc)
        (.cons (.int r) (by kernel_rfl) (read_int 4 _ (fun _ _ _ => rfl) rfl rfl (Or.inl rfl) rfl (by decide) hr)
        (.cons (.int (r * c * b / 8)) (by kernel_rfl) (read_int 4 _ (fun _ _ _ => rfl) rfl rfl (Or.inl rfl) rfl (by decide) h1)
        (.cons (.int (c * b / 8)) (by kernel_rfl) (read_int 2 _ (fun _ _ _ => rfl) rfl rfl (Or.inl rfl) rfl (by decide) h2)
        (.cons (.int b) (by kernel_rfl) (read_int 2 _ (fun _ _ _ => rfl) rfl rfl (Or.inl rfl) rfl (by decide) hb)
        (.nil _)))))))))
      (by kernel_rfl) (by kernel_rfl) (by kernel_rfl) pre rest

/-- **C97** (WAV, file header) `WAVFileHeader(size=size)`. -/
theorem C97_wav_header (Γ : Classes) (n : Nat) (ctx : Value) (size : Int)
    (hsize : InRange 4 false size) :
    structToStream Γ (n + 4) Formats.wavFile
        [("size", .int size)] ctx =
      (List.flatten [b!"RIFF", le 4 size, b!"WAVE"], .ok ()) ∧
    ∀ pre rest, structFromStream Γ (n + 4) Formats.wavFile ⟨pre ++ List.flatten [b!"RIFF", le 4 size, b!"WAVE"] ++ rest, pre.length⟩ ctx [] =
      (.ok [("riff_header", .bytes b!"RIFF"), ("size", .int size), ("file_format", .bytes b!"WAVE")],
        ⟨pre ++ List.flatten [b!"RIFF", le 4 size, b!"WAVE"] ++ rest, pre.length + 12⟩) := by
  constructor
  · refine structToStream_parts (all := [("size", .int size), ("riff_header", .bytes b!"RIFF"), ("file_format", .bytes b!"WAVE")]) (by kernel_rfl) (by kernel_rfl) (.cons ?_ (.cons ?_ (.cons ?_ (.nil))))
    · exact part_bytes _ rfl (Or.inl rfl) rfl
    · exact part_int 4 _ rfl rfl (by decide) rfl hsize
    · exact part_bytes _ rfl (Or.inl rfl) rfl
  · intro pre rest
    exact structFromStream_reads (Γ := Γ) (n := n + 3) (ctx := ctx) (d := Formats.wavFile)
      (.cons (.bytes b!"RIFF") (by kernel_rfl) (read_bytes _ (fun _ _ => rfl) rfl rfl (Or.inr fun _ _ => rfl) (Or.inl rfl))
        (.cons (.int size) (by kernel_rfl) (read_int 4 _ (fun _ _ _ => rfl) rfl rfl (Or.inl rfl) rfl (by decide) hsize)
        (.cons (.bytes b!"WAVE") (by kernel_rfl) (read_bytes _ (fun _ _ => rfl) rfl rfl (Or.inr fun _ _ => rfl) (Or.inl rfl))
        (.nil _))))
      (by kernel_rfl) (by kernel_rfl) (by kernel_rfl) pre rest

/-- **C97** (BMP) The file header of an image. -/
theorem C97_bmp (Γ : Classes) (n : Nat) (ctx : Value) (fsize off w h bpp comp bsize vres hres pal imp : Int)
    (hfsize : InRange 4 false fsize) (hoff : InRange 4 false off) (hw : InRange 4 true w) (hh : InRange 4 true h)
    (hbpp : InRange 2 false bpp) (hcomp : InRange 4 false comp) (hbsize : InRange 4 false bsize) (hvres : InRange 4 true vres)
    (hhres : InRange 4 true hres) (hpal : InRange 4 false pal) (himp : InRange 4 false imp) :
    structToStream Γ (n + 4) Formats.bmp
        [("file_size", .int fsize), ("pixels_offset", .int off), ("image_width", .int w), ("image_height", .int h),
        ("n_bits_per_pixel", .int bpp), ("compression_method", .int comp), ("bitmap_size", .int bsize), ("v_resolution", .int vres),
        ("h_resolution", .int hres), ("n_palette_colors", .int pal), ("n_important_colors", .int imp)] ctx =
      (List.flatten [b!"BM", le 4 fsize, b!"\x00\x00\x00\x00", le 4 off, le 4 40, le 4 w, le 4 h, le 2 1, le 2 bpp, le 4 comp, le 4 bsize, le 4 vres,
        le 4 hres, le 4 pal, le 4 imp], .ok ()) ∧
    ∀ pre rest, structFromStream Γ (n + 4) Formats.bmp ⟨pre ++ List.flatten [b!"BM", le 4 fsize, b!"\x00\x00\x00\x00", le 4 off, le 4 40, le 4 w, le 4 h, le 2 1, le 2 bpp, le 4 comp, le 4 bsize, le 4 vres,
        le 4 hres, le 4 pal, le 4 imp] ++ rest, pre.length⟩ ctx [] =
      (.ok [("file_size", .int fsize), ("pixels_offset", .int off), ("image_width", .int w), ("image_height", .int h),
        ("n_color_planes", .int 1), ("n_bits_per_pixel", .int bpp), ("compression_method", .int comp), ("bitmap_size", .int bsize),
        ("v_resolution", .int vres), ("h_resolution", .int hres), ("n_palette_colors", .int pal), ("n_important_colors", .int imp)],
        ⟨pre ++ List.flatten [b!"BM", le 4 fsize, b!"\x00\x00\x00\x00", le 4 off, le 4 40, le 4 w, le 4 h, le 2 1, le 2 bpp, le 4 comp, le 4 bsize, le 4 vres,
        le 4 hres, le 4 pal, le 4 imp] ++ rest, pre.length + 54⟩) := by
  constructor
  · refine structToStream_parts (all := [("file_size", .int fsize), ("pixels_offset", .int off), ("image_width", .int w), ("image_height", .int h),
        ("n_bits_per_pixel", .int bpp), ("compression_method", .int comp), ("bitmap_size", .int bsize), ("v_resolution", .int vres),
        ("h_resolution", .int hres), ("n_palette_colors", .int pal), ("n_important_colors", .int imp), ("n_color_planes", .int 1)]) (by kernel_rfl) (by kernel_rfl) (.cons ?_ (.cons ?_ (.cons ?_ (.cons ?_ (.cons ?_ (.cons ?_ (.cons ?_ (.cons ?_ (.cons ?_ (.cons ?_ (.cons ?_ (.cons ?_ (.cons ?_ (.cons ?_ (.cons ?_ (.nil))))))))))))))))
    · exact part_bytes _ rfl (Or.inl rfl) rfl
    · exact part_int 4 _ rfl rfl (by decide) rfl hfsize
    · exact part_bytes _ rfl (Or.inl rfl) rfl
    · exact part_int 4 _ rfl rfl (by decide) rfl hoff
    · exact part_int 4 _ rfl rfl (by decide) rfl (by unfold InRange; decide)
    · exact part_int 4 _ rfl rfl (by decide) rfl hw
    · exact part_int 4 _ rfl rfl (by decide) rfl hh
    · exact part_int 2 _ rfl rfl (by decide) rfl (by unfold InRange; decide)
    · exact part_int 2 _ rfl rfl (by decide) rfl hbpp
    · exact part_int 4 _ rfl rfl (by decide) rfl hcomp
    · exact part_int 4 _ rfl rfl (by decide) rfl hbsize
    · exact part_int 4 _ rfl rfl (by decide) rfl hvres
    · exact part_int 4 _ rfl rfl (by decide) rfl hhres
    · exact part_int 4 _ rfl rfl (by decide) rfl hpal
    · exact part_int 4 _ rfl rfl (by decide) rfl himp
  · intro pre rest
    exact structFromStream_reads (Γ := Γ) (n := n + 3) (ctx := ctx) (d := Formats.bmp)
      (.cons (.bytes b!"BM") (by kernel_rfl) (read_bytes _ (fun _ _ => rfl) rfl rfl (Or.inr fun _ _ => rfl) (Or.inl rfl))
        (.cons (.int fsize) (by kernel_rfl) (read_int 4 _ (fun _ _ _ => rfl) rfl rfl (Or.inl rfl) rfl (by decide) hfsize)
        (.cons (.bytes b!"\x00\x00\x00\x00") (by kernel_rfl) (read_bytes _ (fun _ _ => rfl) rfl rfl (Or.inr fun _ _ => rfl) (Or.inl rfl))
        (.cons (.int off) (by kernel_rfl) (read_int 4 _ (fun _ _ _ => rfl) rfl rfl (Or.inl rfl) rfl (by decide) hoff)
        (.cons (.int 40) (by kernel_rfl) (read_int 4 _ (fun _ _ _ => rfl) rfl rfl (Or.inr fun _ _ => rfl) rfl (by decide) (by unfold InRange; decide))
        (.cons (.int w) (by kernel_rfl) (read_int 4 _ (fun _ _ _ => rfl) rfl rfl (Or.inl rfl) rfl (by decide) hw)
        (.cons (.int h) (by kernel_rfl) (read_int 4 _ (fun _ _ _ => rfl) rfl rfl (Or.inl rfl) rfl (by decide) hh)
        (.cons (.int 1) (by kernel_rfl) (read_int 2 _ (fun _ _ _ => rfl) rfl rfl (Or.inr fun _ _ => rfl) rfl (by decide) (by unfold InRange; decide))
        (.cons (.int bpp) (by kernel_rfl) (read_int 2 _ (fun _ _ _ => rfl) rfl rfl (Or.inl rfl) rfl (by decide) hbpp)
        (.cons (.int comp) (by kernel_rfl) (read_int 4 _ (fun _ _ _ => rfl) rfl rfl (Or.inl rfl) rfl (by decide) hcomp)
        (.cons (.int bsize) (by kernel_rfl) (read_int 4 _ (fun _ _ _ => rfl) rfl rfl (Or.inl rfl) rfl (by decide) hbsize)
        (.cons (.int vres) (by kernel_rfl) (read_int 4 _ (fun _ _ _ => rfl) rfl rfl (Or.inl rfl) rfl (by decide) hvres)
        (.cons (.int hres) (by kernel_rfl) (read_int 4 _ (fun _ _ _ => rfl) rfl rfl (Or.inl rfl) rfl (by decide) hhres)
        (.cons (.int pal) (by kernel_rfl) (read_int 4 _ (fun _ _ _ => rfl) rfl rfl (Or.inl rfl) rfl (by decide) hpal)
        (.cons (.int imp) (by kernel_rfl) (read_int 4 _ (fun _ _ _ => rfl) rfl rfl (Or.inl rfl) rfl (by decide) himp)
        (.nil _))))))))))))))))
      (by kernel_rfl) (by kernel_rfl) (by kernel_rfl) pre rest

/-- **C97** (FAT12 boot sector) The name of the formatting program and the file system type are filled up with spaces, which is how they
are read back. -/
theorem C97_fat (Γ : Classes) (n : Nat) (ctx : Value) (oem label fs : List Nat) (oemCode labelCode fsCode boot : Bytes)
    (bps spc res nf mre tls md spf spt nh hid tll dn vid : Int)
    (hbps : InRange 2 false bps) (hspc : InRange 1 false spc) (hres : InRange 2 false res) (hnf : InRange 1 false nf) (hmre : InRange 2 false mre)
    (htls : InRange 2 false tls) (hmd : InRange 1 false md) (hspf : InRange 2 false spf) (hspt : InRange 2 false spt) (hnh : InRange 2 false nh)
    (hhid : InRange 4 false hid) (htll : InRange 4 false tll) (hdn : InRange 1 false dn) (hvid : InRange 4 false vid)
    (hoem : asciiCodec.encode oem = .ok oemCode) (hoemLen : oemCode.length ≤ 8) (hlabel : latin1Codec.encode label = .ok labelCode)
    (hlabelLen : labelCode.length = 11) (hfs : asciiCodec.encode fs = .ok fsCode) (hfsLen : fsCode.length ≤ 8) (hboot : boot.length = 448) :
    structToStream Γ (n + 4) Formats.fat12 (Formats.fatArgs oem bps spc res nf mre tls md spf spt nh hid tll dn vid label fs boot) ctx =
      ((Formats.fatBytes oemCode bps spc res nf mre tls md spf spt nh hid tll dn vid labelCode fsCode boot).flatten, .ok ()) ∧
    ∀ pre rest, structFromStream Γ (n + 4) Formats.fat12
        ⟨pre ++ (Formats.fatBytes oemCode bps spc res nf mre tls md spf spt nh hid tll dn vid labelCode fsCode boot).flatten ++ rest, pre.length⟩ ctx [] =
      (.ok [("jump", .bytes b!"\xeb\x3c\x90"), ("oem_name", .str (oem ++ List.replicate (8 - oemCode.length) 32)),
    ("bytes_per_sector", .int bps), ("sectors_per_cluster", .int spc), ("reserved_sectors", .int res), ("num_fats", .int nf),
    ("max_root_entries", .int mre), ("total_logical_sectors_16", .int tls), ("media_descriptor", .int md), ("sectors_per_fat", .int spf),
    ("sectors_per_track", .int spt), ("num_heads", .int nh), ("num_hidden_sectors", .int hid), ("total_logical_sectors_32", .int tll),
    ("drive_number", .int dn), ("volume_id", .int vid), ("volume_label", .str label),
    ("fs_type", .str (fs ++ List.replicate (8 - fsCode.length) 32)), ("boot_code", .bytes boot), ("boot_signature", .bytes b!"\x55\xaa")],
        ⟨pre ++ (Formats.fatBytes oemCode bps spc res nf mre tls md spf spt nh hid tll dn vid labelCode fsCode boot).flatten ++ rest, pre.length + 512⟩) := by
  constructor
  · refine structToStream_parts (all := [("oem_name", .str oem), ("bytes_per_sector", .int bps), ("sectors_per_cluster", .int spc), ("reserved_sectors", .int res),
        ("num_fats", .int nf), ("max_root_entries", .int mre), ("total_logical_sectors_16", .int tls), ("media_descriptor", .int md),
        ("sectors_per_fat", .int spf), ("sectors_per_track", .int spt), ("num_heads", .int nh), ("num_hidden_sectors", .int hid),
        ("total_logical_sectors_32", .int tll), ("drive_number", .int dn), ("volume_id", .int vid), ("volume_label", .str label),
        ("fs_type", .str fs), ("boot_code", .bytes boot), ("jump", .bytes b!"\xeb\x3c\x90"), ("boot_signature", .bytes b!"\x55\xaa")]) (by kernel_rfl) (by kernel_rfl) (.cons ?_ (.cons ?_ (.cons ?_ (.cons ?_ (.cons ?_ (.cons ?_ (.cons ?_ (.cons ?_ (.cons ?_ (.cons ?_ (.cons ?_ (.cons ?_ (.cons ?_ (.cons ?_ (.cons ?_ (.cons ?_ (.cons ?_ (.cons ?_ (.cons ?_ (.cons ?_ (.cons ?_ (.cons ?_ (.nil)))))))))))))))))))))))
    · exact part_bytes _ rfl (Or.inl rfl) rfl
    · exact part_padded 8 oem _ (by kernel_rfl) rfl (text_plain (fun _ _ _ => rfl) rfl rfl rfl) hoem hoemLen
    · exact part_int 2 _ (by kernel_rfl) rfl (by decide) rfl hbps
    · exact part_int 1 _ (by kernel_rfl) rfl (by decide) rfl hspc
    · exact part_int 2 _ (by kernel_rfl) rfl (by decide) rfl hres
    · exact part_int 1 _ (by kernel_rfl) rfl (by decide) rfl hnf
    · exact part_int 2 _ (by kernel_rfl) rfl (by decide) rfl hmre
    · exact part_int 2 _ (by kernel_rfl) rfl (by decide) rfl htls
    · exact part_int 1 _ (by kernel_rfl) rfl (by decide) rfl hmd
    · exact part_int 2 _ (by kernel_rfl) rfl (by decide) rfl hspf
    · exact part_int 2 _ (by kernel_rfl) rfl (by decide) rfl hspt
    · exact part_int 2 _ (by kernel_rfl) rfl (by decide) rfl hnh
    · exact part_int 4 _ (by kernel_rfl) rfl (by decide) rfl hhid
    · exact part_int 4 _ (by kernel_rfl) rfl (by decide) rfl htll
    · exact part_int 1 _ (by kernel_rfl) rfl (by decide) rfl hdn
    · exact part_bytes _ rfl (Or.inl rfl) rfl
    · exact part_bytes _ rfl (Or.inl rfl) rfl
    · exact part_int 4 _ (by kernel_rfl) rfl (by decide) rfl hvid
    · exact part_text 11 label _ (by kernel_rfl) rfl rfl hlabel hlabelLen
    · exact part_padded 8 fs _ (by kernel_rfl) rfl (text_plain (fun _ _ _ => rfl) rfl rfl rfl) hfs hfsLen
    · exact part_bytes _ (by kernel_rfl) (Or.inl (by rw [hboot]; rfl)) rfl
    · exact part_bytes _ rfl (Or.inl rfl) rfl
  · intro pre rest
    have h := structFromStream_reads (Γ := Γ) (n := n + 3) (ctx := ctx) (d := Formats.fat12)
      (r := [("jump", .bytes b!"\xeb\x3c\x90"), ("oem_name", .str (oem ++ List.replicate (8 - oemCode.length) 32)),
    ("bytes_per_sector", .int bps), ("sectors_per_cluster", .int spc), ("reserved_sectors", .int res), ("num_fats", .int nf),
    ("max_root_entries", .int mre), ("total_logical_sectors_16", .int tls), ("media_descriptor", .int md), ("sectors_per_fat", .int spf),
    ("sectors_per_track", .int spt), ("num_heads", .int nh), ("num_hidden_sectors", .int hid), ("total_logical_sectors_32", .int tll),
    ("drive_number", .int dn), ("volume_id", .int vid), ("volume_label", .str label),
    ("fs_type", .str (fs ++ List.replicate (8 - fsCode.length) 32)), ("boot_code", .bytes boot), ("boot_signature", .bytes b!"\x55\xaa")])
      (.cons (.bytes b!"\xeb\x3c\x90") (by kernel_rfl) (read_bytes _ (fun _ _ => rfl) rfl rfl (Or.inr fun _ _ => rfl) (Or.inl rfl))
        (.cons (.str (oem ++ List.replicate (8 - oemCode.length) 32)) (by kernel_rfl) (read_padded 8 oem _ rfl (text_plain (fun _ _ _ => rfl) rfl rfl rfl) hoem hoemLen)
        (.cons (.int bps) (by kernel_rfl) (read_int 2 _ (fun _ _ _ => rfl) rfl rfl (Or.inl rfl) rfl (by decide) hbps)
        (.cons (.int spc) (by kernel_rfl) (read_int 1 _ (fun _ _ _ => rfl) rfl rfl (Or.inl rfl) rfl (by decide) hspc)
        (.cons (.int res) (by kernel_rfl) (read_int 2 _ (fun _ _ _ => rfl) rfl rfl (Or.inl rfl) rfl (by decide) hres)
        (.cons (.int nf) (by kernel_rfl) (read_int 1 _ (fun _ _ _ => rfl) rfl rfl (Or.inl rfl) rfl (by decide) hnf)
        (.cons (.int mre) (by kernel_rfl) (read_int 2 _ (fun _ _ _ => rfl) rfl rfl (Or.inl rfl) rfl (by decide) hmre)
        (.cons (.int tls) (by kernel_rfl) (read_int 2 _ (fun _ _ _ => rfl) rfl rfl (Or.inl rfl) rfl (by decide) htls)
        (.cons (.int md) (by kernel_rfl) (read_int 1 _ (fun _ _ _ => rfl) rfl rfl (Or.inl rfl) rfl (by decide) hmd)
        (.cons (.int spf) (by kernel_rfl) (read_int 2 _ (fun _ _ _ => rfl) rfl rfl (Or.inl rfl) rfl (by decide) hspf)
        (.cons (.int spt) (by kernel_rfl) (read_int 2 _ (fun _ _ _ => rfl) rfl rfl (Or.inl rfl) rfl (by decide) hspt)
        (.cons (.int nh) (by kernel_rfl) (read_int 2 _ (fun _ _ _ => rfl) rfl rfl (Or.inl rfl) rfl (by decide) hnh)
        (.cons (.int hid) (by kernel_rfl) (read_int 4 _ (fun _ _ _ => rfl) rfl rfl (Or.inl rfl) rfl (by decide) hhid)
        (.cons (.int tll) (by kernel_rfl) (read_int 4 _ (fun _ _ _ => rfl) rfl rfl (Or.inl rfl) rfl (by decide) htll)
        (.cons (.int dn) (by kernel_rfl) (read_int 1 _ (fun _ _ _ => rfl) rfl rfl (Or.inl rfl) rfl (by decide) hdn)
        (.cons (.bytes b!"\x00") (by kernel_rfl) (read_bytes _ (fun _ _ => rfl) rfl rfl (Or.inr fun _ _ => rfl) (Or.inl rfl))
        (.cons (.bytes b!"\x29") (by kernel_rfl) (read_bytes _ (fun _ _ => rfl) rfl rfl (Or.inr fun _ _ => rfl) (Or.inl rfl))
        (.cons (.int vid) (by kernel_rfl) (read_int 4 _ (fun _ _ _ => rfl) rfl rfl (Or.inl rfl) rfl (by decide) hvid)
        (.cons (.str label) (by kernel_rfl) (read_text .latin1 11 label _ rfl (text_plain (fun _ _ _ => rfl) rfl rfl rfl) hlabel hlabelLen)
        (.cons (.str (fs ++ List.replicate (8 - fsCode.length) 32)) (by kernel_rfl) (read_padded 8 fs _ rfl (text_plain (fun _ _ _ => rfl) rfl rfl rfl) hfs hfsLen)
        (.cons (.bytes boot) (by kernel_rfl) (read_bytes _ (fun _ _ => rfl) rfl rfl (Or.inl rfl) (Or.inl (by rw [hboot]; rfl)))
        (.cons (.bytes b!"\x55\xaa") (by kernel_rfl) (read_bytes _ (fun _ _ => rfl) rfl rfl (Or.inr fun _ _ => rfl) (Or.inl rfl))
        (.nil _)))))))))))))))))))))))
      (by kernel_rfl) (by kernel_rfl) (by kernel_rfl) pre rest
    have hlen := Formats.fatBytes_length (bps := bps) (spc := spc) (res := res) (nf := nf) (mre := mre) (tls := tls) (md := md) (spf := spf)
      (spt := spt) (nh := nh) (hid := hid) (tll := tll) (dn := dn) (vid := vid) hoemLen hlabelLen hfsLen hboot
    unfold Formats.fatBytes at hlen ⊢
    rw [hlen] at h
    exact h

/-! ### CPIO -/

/-- **C97** (CPIO) The size of the name counts the null byte after it, and if that is odd, another null byte follows.  It is left out of what
is loaded, like the magic number. -/
theorem C97_cpio (Γ : Classes) (n : Nat) (ctx now : Value) (dev ino mode uid gid links ver time : Int) (name : List Nat) (code data : Bytes)
    (hdev : InRange 2 false dev) (hino : InRange 2 false ino) (hmode : InRange 2 false mode) (huid : InRange 2 false uid)
    (hgid : InRange 2 false gid) (hlinks : InRange 2 false links) (hver : InRange 2 false ver) (htime : InRange 4 true time)
    (hname : utf8Codec.encode name = .ok code) (hnul : 0 ∉ name) (hcode : code.length + 1 < 2 ^ 16) (hdata : data.length < 2 ^ 32) :
    structToStream Γ (n + 4) (Formats.cpio now) (Formats.cpioArgs dev ino mode uid gid links ver time name data) ctx =
      ((Formats.cpioBytes dev ino mode uid gid links ver time code data).flatten, .ok ()) ∧
    ∀ pre rest, structFromStream Γ (n + 4) (Formats.cpio now)
        ⟨pre ++ (Formats.cpioBytes dev ino mode uid gid links ver time code data).flatten ++ rest, pre.length⟩ ctx [] =
      (.ok [("device_id", .int dev), ("inumber", .int ino), ("mode", .int mode), ("owner_uid", .int uid), ("owner_gid", .int gid),
          ("n_links", .int links), ("device_version", .int ver), ("modified_time", .datetime (time * 1000000) true),
          ("name_size", .int (code.length + 1 : Nat)), ("file_size", .int data.length), ("filename", .str name), ("data", .bytes data)],
        ⟨pre ++ (Formats.cpioBytes dev ino mode uid gid links ver time code data).flatten ++ rest,
          pre.length + (Formats.cpioBytes dev ino mode uid gid links ver time code data).flatten.length⟩) := by
  have hi : InRange 2 false (code.length + 1 : Nat) := by unfold InRange; simp; omega
  have hj : InRange 4 false (data.length : Int) := by unfold InRange; simp; omega
  have hm : InRange 2 false (29127 : Int) := by unfold InRange; decide
  constructor
  · refine structToStream_parts ?_ (Formats.cpio_toDict Γ _ now dev ino mode uid gid links ver time name code data hname)
      (.cons ?_ (.cons ?_ (.cons ?_ (.cons ?_ (.cons ?_ (.cons ?_ (.cons ?_ (.cons ?_ (.cons ?_ (.cons ?_ (.cons ?_ (.cons ?_ (.cons ?_
        (.cons ?_ .nil))))))))))))))
    · exact Formats.cpio_accepts now dev ino mode uid gid links ver time data hname
    · exact part_int 2 _ rfl rfl (by decide) rfl hm
    · exact part_int 2 _ (by kernel_rfl) rfl (by decide) rfl hdev
    · exact part_int 2 _ (by kernel_rfl) rfl (by decide) rfl hino
    · exact part_int 2 _ (by kernel_rfl) rfl (by decide) rfl hmode
    · exact part_int 2 _ (by kernel_rfl) rfl (by decide) rfl huid
    · exact part_int 2 _ (by kernel_rfl) rfl (by decide) rfl hgid
    · exact part_int 2 _ (by kernel_rfl) rfl (by decide) rfl hlinks
    · exact part_int 2 _ (by kernel_rfl) rfl (by decide) rfl hver
    · exact part_of (v := .datetime (time * 1000000) true) (by kernel_rfl) (by simp)
        (timestamp_le (acc := []) time rfl (text_plain (fun _ _ _ => rfl) rfl rfl rfl) htime).1
    · exact part_int 2 _ (by kernel_rfl) rfl (by decide) rfl hi
    · exact part_int 4 _ (by kernel_rfl) rfl (by decide) rfl hj
    · exact part_of (v := .str name) (by kernel_rfl) (by simp)
        (stringz_utf8 (acc := []) name code rfl (text_plain (fun _ _ _ => rfl) rfl rfl rfl) rfl rfl hnul hname).1
    · have hv := Formats.cpioPadding_value (v := (Formats.cpioArgs dev ino mode uid gid links ver time name data ++
        [("name_size", .int (code.length + 1 : Nat)), ("file_size", .int data.length)] : Dict).view) (ctx := ctx) (k := code.length + 1)
        (by kernel_rfl) (by kernel_rfl)
      unfold Formats.cpioPad
      by_cases hk : (code.length + 1) % 2 = 0
      · rw [if_pos hk] at hv ⊢; exact part_absent hv
      · rw [if_neg hk] at hv ⊢; exact part_bytes _ hv (Or.inl rfl) rfl
    · exact part_bytes _ (by kernel_rfl) (Or.inr ⟨"file_size", rfl, rfl⟩) rfl
  · intro pre rest
    have hpad : ∀ acc : Dict, acc.view.get "name_size" = .ok (.int (code.length + 1 : Nat)) → ∀ pre rest,
        fieldFromStream Γ (n + 3) (.leaf Formats.cpioPadding .bytes) ⟨pre ++ Formats.cpioPad code ++ rest, pre.length⟩ ctx acc =
          (.ok (if (code.length + 1) % 2 = 0 then .notPresent else .bytes [0]),
            ⟨pre ++ Formats.cpioPad code ++ rest, pre.length + (Formats.cpioPad code).length⟩) := by
      intro acc hacc
      have hp := fun c s => Formats.cpioPadding_present (ctx := c) (s := s) hacc
      unfold Formats.cpioPad
      by_cases hk : (code.length + 1) % 2 = 0
      · rw [if_pos hk, if_pos hk]
        exact read_absent (fun c s => by rw [hp]; simp [hk])
      · rw [if_neg hk, if_neg hk]
        exact read_bytes _ (fun c s => by rw [hp]; simp [hk]) rfl rfl (Or.inr fun _ _ => rfl) (Or.inl rfl)
    refine structFromStream_reads (Γ := Γ) (n := n + 3) (ctx := ctx) (d := Formats.cpio now)
      (.cons (.int 29127) (by kernel_rfl) (read_int 2 _ (fun _ _ _ => rfl) rfl rfl (Or.inr fun _ _ => rfl) rfl (by decide) hm)
      (.cons (.int dev) (by kernel_rfl) (read_int 2 _ (fun _ _ _ => rfl) rfl rfl (Or.inl rfl) rfl (by decide) hdev)
      (.cons (.int ino) (by kernel_rfl) (read_int 2 _ (fun _ _ _ => rfl) rfl rfl (Or.inl rfl) rfl (by decide) hino)
      (.cons (.int mode) (by kernel_rfl) (read_int 2 _ (fun _ _ _ => rfl) rfl rfl (Or.inl rfl) rfl (by decide) hmode)
      (.cons (.int uid) (by kernel_rfl) (read_int 2 _ (fun _ _ _ => rfl) rfl rfl (Or.inl rfl) rfl (by decide) huid)
      (.cons (.int gid) (by kernel_rfl) (read_int 2 _ (fun _ _ _ => rfl) rfl rfl (Or.inl rfl) rfl (by decide) hgid)
      (.cons (.int links) (by kernel_rfl) (read_int 2 _ (fun _ _ _ => rfl) rfl rfl (Or.inl rfl) rfl (by decide) hlinks)
      (.cons (.int ver) (by kernel_rfl) (read_int 2 _ (fun _ _ _ => rfl) rfl rfl (Or.inl rfl) rfl (by decide) hver)
      (.cons (.datetime (time * 1000000) true) (by kernel_rfl)
        (timestamp_le (all := []) time rfl (text_plain (fun _ _ _ => rfl) rfl rfl rfl) htime).2
      (.cons (.int (code.length + 1 : Nat)) (by kernel_rfl) (read_int 2 _ (fun _ _ _ => rfl) rfl rfl (Or.inl rfl) rfl (by decide) hi)
      (.cons (.int data.length) (by kernel_rfl) (read_int 4 _ (fun _ _ _ => rfl) rfl rfl (Or.inl rfl) rfl (by decide) hj)
      (.cons (.str name) (by kernel_rfl)
        (stringz_utf8 (all := []) name code rfl (text_plain (fun _ _ _ => rfl) rfl rfl rfl) rfl (by kernel_rfl) hnul hname).2
      (.cons (if (code.length + 1) % 2 = 0 then .notPresent else .bytes [0]) (by kernel_rfl) (hpad _ (by kernel_rfl))
      (.cons (.bytes data) (by kernel_rfl) (read_bytes _ (fun _ _ => rfl) rfl rfl (Or.inl rfl) (Or.inr ⟨"file_size", by kernel_rfl, by kernel_rfl⟩))
      (.nil _))))))))))))))) (by kernel_rfl) (by kernel_rfl) (by kernel_rfl) pre rest

/-! ### Loading and saving -/

/-- **C97** A WAV, CPIO, BMP or FAT12 header that could be loaded, whatever its content, is saved as the bytes it was loaded from. -/
theorem C97_reload (now : Value) (n : Nat) (c : String) (d : StructDesc) (hd : Formats.classes now c = some d) (s s' : Stream) (ctx : Value)
    (r : Dict) (h : structFromStream (Formats.classes now) n d s ctx [] = (.ok r, s')) :
    ∃ bs m, Consumed s s' bs ∧ structToStream (Formats.classes now) m d r ctx = (bs, .ok ()) :=
  C27_load_dump_partial _ (Formats.classes_canonical now) n d s s' ctx r (Formats.classes_canonical now c d hd) h

/-! ### Values that do not fit -/

/-- **C97** (WAV) A chunk of 4 GiB or more cannot be written: nothing follows its name. -/
theorem C97_wav_too_long (Γ : Classes) (n : Nat) (audio : Bytes) (ctx : Value) (h : 2 ^ 32 ≤ audio.length) :
    structToStream Γ (n + 4) Formats.wavData [("audio_data", .bytes audio)] ctx = (b!"data", .error (.unserializable "size")) := by
  have hi : ¬ InRange 4 false (audio.length : Int) := by unfold InRange; simp; omega
  refine structToStream_fails (n := n + 3) (ps := [b!"data"]) (v := .int audio.length) (pre := Formats.wavData.components.take 1)
    (all := [("audio_data", .bytes audio), ("chunk_id", .bytes b!"data"), ("size", .int audio.length)]) rfl rfl rfl
    (.cons (part_bytes _ rfl (Or.inl rfl) rfl) .nil) rfl (by simp) ?_
  exact int_overflow 4 _ rfl (by decide) rfl hi

/-- **C97** (CPIO) Nor a name of 65535 bytes or more. -/
theorem C97_cpio_name_too_long (Γ : Classes) (n : Nat) (ctx now : Value) (dev ino mode uid gid links ver time : Int) (name : List Nat)
    (code data : Bytes) (hdev : InRange 2 false dev) (hino : InRange 2 false ino) (hmode : InRange 2 false mode) (huid : InRange 2 false uid)
    (hgid : InRange 2 false gid) (hlinks : InRange 2 false links) (hver : InRange 2 false ver) (htime : InRange 4 true time)
    (hname : utf8Codec.encode name = .ok code) (hcode : 2 ^ 16 ≤ code.length + 1) :
    structToStream Γ (n + 4) (Formats.cpio now) (Formats.cpioArgs dev ino mode uid gid links ver time name data) ctx =
      (((Formats.cpioBytes dev ino mode uid gid links ver time code data).take 9).flatten, .error (.unserializable "name_size")) := by
  have hi : ¬ InRange 2 false (code.length + 1 : Nat) := by unfold InRange; simp; omega
  have hm : InRange 2 false (29127 : Int) := by unfold InRange; decide
  refine structToStream_fails (n := n + 3) (v := .int (code.length + 1 : Nat)) (pre := (Formats.cpio now).components.take 9)
    (Formats.cpio_accepts now dev ino mode uid gid links ver time data hname)
    (Formats.cpio_toDict Γ _ now dev ino mode uid gid links ver time name code data hname) rfl
    (.cons ?_ (.cons ?_ (.cons ?_ (.cons ?_ (.cons ?_ (.cons ?_ (.cons ?_ (.cons ?_ (.cons ?_ .nil))))))))) (by kernel_rfl) (by simp)
    (int_overflow 2 _ rfl (by decide) rfl hi)
  · exact part_int 2 _ rfl rfl (by decide) rfl hm
  · exact part_int 2 _ (by kernel_rfl) rfl (by decide) rfl hdev
  · exact part_int 2 _ (by kernel_rfl) rfl (by decide) rfl hino
  · exact part_int 2 _ (by kernel_rfl) rfl (by decide) rfl hmode
  · exact part_int 2 _ (by kernel_rfl) rfl (by decide) rfl huid
  · exact part_int 2 _ (by kernel_rfl) rfl (by decide) rfl hgid
  · exact part_int 2 _ (by kernel_rfl) rfl (by decide) rfl hlinks
  · exact part_int 2 _ (by kernel_rfl) rfl (by decide) rfl hver
  · exact part_of (v := .datetime (time * 1000000) true) (by kernel_rfl) (by simp)
      (timestamp_le (acc := []) time rfl (text_plain (fun _ _ _ => rfl) rfl rfl rfl) htime).1

/-! ### Some headers -/

example : structToStream Sample.noClasses 5 Formats.wavFormat
      [("audio_format", .int 1), ("n_channels", .int 2), ("sample_rate", .int 44100), ("bits_per_sample", .int 16)] .none =
    (List.flatten [b!"fmt ", le 4 16, le 2 1, le 2 2, le 4 44100, le 4 176400, le 2 4, le 2 16], .ok ()) :=
  (C97_wav_format Sample.noClasses 1 .none 1 2 44100 16 (by unfold InRange; decide) (by unfold InRange; decide) (by unfold InRange; decide)
    (by unfold InRange; decide) (by unfold InRange; decide) (by unfold InRange; decide)).1

-- a name of three characters and four bytes, and its null byte: a fifth, so there is padding
example (ctx now : Value) : structToStream Sample.noClasses 5 (Formats.cpio now)
      (Formats.cpioArgs 0 1 0o644 1000 1000 1 0 (-1) u!"a\u00e9b" b!"xyz") ctx =
    (List.flatten [le 2 0o070707, le 2 0, le 2 1, le 2 0o644, le 2 1000, le 2 1000, le 2 1, le 2 0, le 4 (-1), le 2 5, le 4 3,
      b!"a\xc3\xa9b\x00", b!"\x00", b!"xyz"], .ok ()) := by
  refine (C97_cpio Sample.noClasses 1 ctx now 0 1 0o644 1000 1000 1 0 (-1) u!"a\u00e9b" b!"a\xc3\xa9b" b!"xyz" ?_ ?_ ?_ ?_ ?_ ?_ ?_ ?_ ?_ ?_ ?_ ?_).1
  all_goals first | decide | (unfold InRange; decide)

example (ctx : Value) : structToStream Sample.noClasses 5 Formats.fat12 (Formats.fatArgs u!"mkdosfs" 512 1 1 2 240 2880 240 9 18 2 0 0 0 4
      u!"LABEL      " u!"FAT12" (List.replicate 448 0xCC)) ctx =
    ((Formats.fatBytes b!"mkdosfs" 512 1 1 2 240 2880 240 9 18 2 0 0 0 4 b!"LABEL      " b!"FAT12" (List.replicate 448 0xCC)).flatten, .ok ()) := by
  refine (C97_fat Sample.noClasses 1 ctx u!"mkdosfs" u!"LABEL      " u!"FAT12" b!"mkdosfs" b!"LABEL      " b!"FAT12" (List.replicate 448 0xCC)
    512 1 1 2 240 2880 240 9 18 2 0 0 0 4 ?_ ?_ ?_ ?_ ?_ ?_ ?_ ?_ ?_ ?_ ?_ ?_ ?_ ?_ ?_ ?_ ?_ ?_ ?_ ?_ ?_).1
  all_goals first | exact List.length_replicate | (unfold InRange; decide) | decide

-- loading and saving the header of a WAV file, in the middle of a stream
example : ∃ bs m, Consumed ⟨b!"xRIFF\x01\x02\x03\x04WAVEy", 1⟩ ⟨b!"xRIFF\x01\x02\x03\x04WAVEy", 13⟩ bs ∧
    structToStream (Formats.classes .none) m Formats.wavFile
      [("riff_header", .bytes b!"RIFF"), ("size", .int 67305985), ("file_format", .bytes b!"WAVE")] .none = (bs, .ok ()) :=
  C97_reload .none 5 "WAVFileHeader" Formats.wavFile rfl _ _ .none _ (by decide +kernel)

-- four gigabytes
example : structToStream Sample.noClasses 5 Formats.wavData [("audio_data", .bytes (List.replicate (2 ^ 32) 0))] .none =
    (b!"data", .error (.unserializable "size")) :=
  C97_wav_too_long Sample.noClasses 1 _ .none (by rw [List.length_replicate])

end Verif
