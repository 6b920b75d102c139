import Verif.Model.CompactBinary
import Verif.Model.StaticString
import Verif.Model.Version
import Verif.Model.Strings
import Verif.Model.Color
/-!
# The project's own unit tests of the binary format, strings, versions and colours, run on the model

Each `example` is a test case of /repo/tests (or a `static_assert` in it), with the same calls and the same expected values,
evaluated on the model by the kernel.  These are tests of the model's fidelity, not proofs of a property.
-/
namespace Conform.Bytes

/-! ## tests/compact_binary_{parser,serializer,writer}_tests.cc -/
section
open CompactBinary

/-- `enum class Keys : uint16_t`, `DataSizeT = uint16_t`: compact_binary_parser_tests.cc:4-10. -/
def u16 : Fmt := ⟨2, 2, false, by decide, by decide⟩
/-- `KeyT = const char[3]`, `DataSizeT = uint8_t`: compact_binary_parser_tests.cc:50. -/
def c3 : Fmt := ⟨3, 1, true, by decide, by decide⟩
/-- `KeyT = uint8_t`, `DataSizeT = uint8_t`: compact_binary_parser_tests.cc:189. -/
def u8 : Fmt := ⟨1, 1, false, by decide, by decide⟩

/-- Two bytes, least significant first. -/
def le2 (n : Nat) : List Byte := leBytes 2 n
/-- Four bytes, least significant first. -/
def le4 (n : Nat) : List Byte := leBytes 4 n

/-- The keys of compact_binary_writer_tests.cc:5-10. -/
def BPM : List Byte := le2 0x55
/-- See `BPM`. -/
def Track : List Byte := le2 0xA0
/-- See `BPM`. -/
def Mode : List Byte := le2 0xA2
/-- See `BPM`. -/
def Length : List Byte := le2 0xA3
/-- See compact_binary_parser_tests.cc:6. -/
def NotFound : List Byte := le2 0x66

/-- `"bpm"`, `"t1"`, `"x"` as the test's string literals (with their terminators). -/
def bpm : List Byte := [98, 112, 109, 0]
/-- See `bpm`. -/
def t1 : List Byte := [116, 49, 0]
/-- See `bpm`. -/
def x : List Byte := [120, 0]

/-- compact_binary_parser_tests.cc:13. -/
def blob : List Byte := [0x55, 0x00, 0x04, 0x00, 120, 0x00, 0x00, 0x00]
/-- compact_binary_parser_tests.cc:19-20. -/
def blob2 : List Byte := [0x55, 0x00, 0x04, 0x00, 120, 0x00, 0x00, 0x00, 0xA2, 0x00, 0x02, 0x00, 45, 0x00]
/-- compact_binary_parser_tests.cc:27-43. -/
def blob3 : List Byte := [0x55, 0x00, 0x04, 0x00, 120, 0x00, 0x00, 0x00, 0xA0, 0x00, 0x0C, 0x00,
  0x55, 0x00, 0x02, 0x00, 180, 0x00, 0xA2, 0x00, 0x02, 0x00, 4, 0x00]
/-- compact_binary_parser_tests.cc:173-174. -/
def blobStr : List Byte := [98, 112, 109, 0x1, 120, 116, 49, 0, 0x1, 5, 120, 0, 0, 0x1, 55]

/-- compact_binary_parser_tests.cc:15-17. -/
example : get u16 32 blob 4 BPM = .ok (some (le4 120)) ∧ get u16 32 blob 2 BPM = .ok none ∧
    get u16 32 blob 4 NotFound = .ok none := by decide +kernel

/-- compact_binary_parser_tests.cc:22-25. -/
example : get u16 32 blob2 4 BPM = .ok (some (le4 120)) ∧ get u16 32 blob2 2 BPM = .ok none ∧
    get u16 32 blob2 4 NotFound = .ok none ∧ get u16 32 blob2 2 Mode = .ok (some (le2 45)) := by decide +kernel

/-- compact_binary_parser_tests.cc:45-47, 119-145: a copied sub-object and one parsed in place. -/
example : ((get u16 32 blob3 12 Track).bind fun t => match t with
      | some t => (get u16 32 t 2 BPM).bind fun b => (get u16 32 t 2 Mode).bind fun m => .ok (b, m)
      | none => .ub) = .ok (some (le2 180), some (le2 4)) ∧
    ((getNode u16 32 blob3 Track).bind fun t =>
      (get u16 32 t 2 BPM).bind fun b => (get u16 32 t 2 Mode).bind fun m => .ok (t.length, b, m)) =
      .ok (12, some (le2 180), some (le2 4)) ∧
    getSize u16 blob3 Track = .ok 12 ∧ getNode u16 32 blob3 Mode = .ok [] := by decide +kernel

/-- compact_binary_parser_tests.cc:147-169: a bad size, a header that is too small, missing data. -/
example : get u16 32 [0x55, 0x00, 0xFF, 0x00] 4 BPM = .ok none ∧ get u16 32 [0x55, 0x00, 0x04] 4 BPM = .ok none ∧
    get u16 32 [0x55, 0x00, 0x04, 0x00, 0x01] 4 BPM = .ok none := by decide +kernel

/-- compact_binary_parser_tests.cc:49-50, 171-197. -/
example : get c3 32 [98, 112, 109, 0x1, 120] 1 bpm = .ok (some [120]) ∧ get c3 32 blobStr 1 bpm = .ok (some [120]) ∧
    get c3 32 blobStr 1 t1 = .ok (some [5]) ∧ get c3 32 blobStr 1 x = .ok (some [55]) := by decide +kernel

/-- compact_binary_parser_tests.cc:199-222: no data, an empty blob, twice the same key. -/
example : get u8 32 [1, 0] 1 [1] = .ok none ∧ get u8 32 [] 1 [0] = .ok none ∧
    get u16 32 [0x55, 0x00, 0x04, 0x00, 50, 0x00, 0x00, 0x00, 0x55, 0x00, 0x04, 0x00, 100, 0x00, 0x00, 0x00] 4 BPM =
      .ok (some (le4 50)) := by decide +kernel

/-- The descriptions of compact_binary_serializer_tests.cc. -/
def dSingle : Desc := .field BPM (le4 120) .done
/-- See `dSingle`. -/
def dTwo : Desc := .field BPM (le4 120) (.field Mode (le2 45) .done)
/-- See `dSingle`. -/
def dSub : Desc := .field BPM (le4 120) (.object Track (.field BPM (le2 180) (.field Mode (le2 4) .done)) .done)
/-- See `dSingle`. -/
def dDeep : Desc := .object Track (.field Length (le2 8) (.object Mode (.field BPM [99] .done) .done)) .done
/-- See `dSingle`. -/
def dChars : Desc := .field bpm [120] (.field t1 [5] (.field x [55] .done))

/-- The buffer and the size after `serialize` into `n` zero bytes (compact_binary_serializer_tests.cc:14). -/
def ser (f : Fmt) (n : Nat) (d : Desc) : R (List Byte × Nat) :=
  (serialize f (List.replicate n 0) d).bind fun s => .ok (s.buf, s.pos)

/-- compact_binary_serializer_tests.cc:13-24, 64-69, 116-144: sizes; and the exact bytes of 184-214. -/
example : ser u16 8 dSingle = .ok (blob, 8) ∧ ser u16 14 dTwo = .ok (blob2, 14) ∧ ser u16 24 dSub = .ok (blob3, 24) ∧
    measure u16 dSingle = 8 ∧ measure u16 dTwo = 14 ∧ measure u16 dSub = 24 ∧
    (ser u16 4 dSingle).bind (fun r => .ok r.2) = .ok 8 ∧ ser c3 15 dChars = .ok (blobStr, 15) := by decide +kernel

/-- compact_binary_serializer_tests.cc:101-114: deeply nested sub-objects. -/
example : ((ser u16 128 dDeep).bind fun r => (getNode u16 32 (r.1.take r.2) Track).bind fun t =>
      (get u16 32 t 2 Length).bind fun l => (getNode u16 32 t Mode).bind fun m =>
      (get u16 32 m 1 BPM).bind fun b => .ok (l, b)) = .ok (some (le2 8), some [99]) := by decide +kernel

/-- compact_binary_serializer_tests.cc:152-171: `stream`. -/
example : ((stream u16 dTwo).bind fun s => .ok (s.chunks.flatten, s.count)) = .ok (blob2, 14) := by decide +kernel

/-- compact_binary_serializer_tests.cc:173-182: `raw`. -/
example : ((ser u16 64 (.raw BPM [10, 20, 30] .done)).bind fun r => (getNode u16 32 (r.1.take r.2) BPM).bind fun n =>
    .ok (r.2, n)) = .ok (7, [10, 20, 30]) := by decide +kernel

/-- compact_binary_serializer_tests.cc:217-245: char keys. -/
example : ((ser c3 16 (.field bpm [120] .done)).bind fun r => (get c3 32 (r.1.take r.2) 1 bpm).bind fun v => .ok (r.2, v)) =
      .ok (5, some [120]) ∧
    ((ser c3 16 (.field x [55] .done)).bind fun r => (get c3 32 (r.1.take r.2) 1 x).bind fun v => .ok (r.2, v)) =
      .ok (5, some [55]) := by decide +kernel

/-- compact_binary_serializer_tests.cc:262-272: minimal header. -/
example : ((ser u8 4 (.field [1] (le2 0x1234) .done)).bind fun r => (get u8 32 r.1 2 [1]).bind fun v => .ok (r.2, v)) =
    .ok (4, some (le2 0x1234)) := by decide +kernel

/-- The buffer and `size()` after calls on a `CompactBinaryWriter` over `n` zero bytes (compact_binary_writer_tests.cc:14-17);
the default nesting depth is 8 (compact_binary_writer.hh:26). -/
def wr (f : Fmt) (n : Nat) (ops : List Op) : R (List Byte × Nat) :=
  (Writer.ops f 8 (Writer.make 8 (List.replicate n 0)) ops).bind fun c => .ok (c.w.buf, c.w.pos)

/-- compact_binary_writer_tests.cc:12-29, 53-71, 129-135, 148-178. -/
example : wr u16 8 [.field BPM (le4 120)] = .ok (blob, 8) ∧
    wr u16 14 [.field BPM (le4 120), .field Mode (le2 45)] = .ok (blob2, 14) ∧
    wr u16 24 [.field BPM (le4 120), .beginObject Track, .field BPM (le2 180), .field Mode (le2 4), .endObject] =
      .ok (blob3, 24) ∧
    (wr u16 4 [.field BPM (le4 120)]).bind (fun r => .ok r.2) = .ok 8 ∧
    wr u16 8 [.endObject, .field BPM (le4 120)] = .ok (blob, 8) ∧
    wr c3 15 [.field bpm [120], .field t1 [5], .field x [55]] = .ok (blobStr, 15) := by decide +kernel

/-- compact_binary_writer_tests.cc:91-105: deeply nested sub-objects. -/
example : ((wr u16 128 [.beginObject Track, .field Length (le2 8), .beginObject Mode, .field BPM [99], .endObject,
      .endObject]).bind fun r => (getNode u16 32 (r.1.take r.2) Track).bind fun t =>
      (get u16 32 t 2 Length).bind fun l => (getNode u16 32 t Mode).bind fun m =>
      (get u16 32 m 1 BPM).bind fun b => .ok (l, b)) = .ok (some (le2 8), some [99]) := by decide +kernel

/-- compact_binary_writer_tests.cc:107-118: fields after a sub-object. -/
example : ((wr u16 64 [.beginObject Track, .field BPM (le2 180), .endObject, .field Mode (le2 45)]).bind fun r =>
      (getNode u16 32 (r.1.take r.2) Track).bind fun t => (get u16 32 t 2 BPM).bind fun b =>
      (get u16 32 (r.1.take r.2) 2 Mode).bind fun m => .ok (b, m)) = .ok (some (le2 180), some (le2 45)) := by decide +kernel

/-- compact_binary_writer_tests.cc:128-139: `raw`. -/
example : ((wr u16 64 [.raw BPM [10, 20, 30]]).bind fun r => (getNode u16 32 (r.1.take r.2) BPM).bind fun n => .ok (r.2, n)) =
    .ok (7, [10, 20, 30]) := by decide +kernel
end

/-! ## tests/static_string_tests.cc -/
section
open StaticString

/-- The bytes of a string literal with its terminator. -/
def lit (s : String) : List Byte := s.toList.map (fun ch => BitVec.ofNat 8 ch.toNat) ++ [0]
/-- The characters of a `string_view`. -/
def sv (s : String) : List Byte := s.toList.map (fun ch => BitVec.ofNat 8 ch.toNat)
/-- A `StaticString<cap>` before its constructor runs: indeterminate bytes (here `0x7F`). -/
def raw (cap : Nat) : List Byte := List.replicate (cap + 1) 0x7F

/-- static_string_tests.cc:6-36. -/
example : (clear (raw 3)).bind (fun d => arrGet d 0) = .ok 0 ∧ copy 3 (raw 3) (lit "ABC") = .ok (lit "ABC") ∧
    copy 3 (raw 3) (lit "DEF") = .ok (lit "DEF") ∧
    (copy 40 (raw 40) (lit "DEF")).bind (fun d => .ok (d.take 4)) = .ok (lit "DEF") := by decide +kernel

/-- static_string_tests.cc:38-77: construction from a `string_view` of the same, a larger and a smaller size, and of a part. -/
example : (copySv 10 (raw 10) (sv "1234567890")).bind (fun d => (length d).bind fun n => .ok (n, d[0]?, d[9]?)) =
      .ok (10, some 49, some 48) ∧
    (copySv 8 (raw 8) (sv "0123456789")).bind (fun d => (length d).bind fun n => .ok (n, d)) = .ok (8, lit "01234567") ∧
    (copySv 12 (raw 12) (sv "0123456789")).bind (fun d => (length d).bind fun n => .ok (n, d.take 11)) =
      .ok (10, lit "0123456789") ∧
    (copySv 12 (raw 12) (((sv "ABCDEFGHIJKLMNOPQRSTUVWXYZ").drop 2).take 5)).bind
      (fun d => (length d).bind fun n => .ok (n, d.take 6)) = .ok (5, lit "CDEFG") := by decide +kernel

/-- static_string_tests.cc:79-101. -/
example : copy 3 (raw 3) (lit "123") = .ok (lit "123") ∧
    (copy 5 (raw 5) (lit "123")).bind (fun d => .ok (d.take 4)) = .ok (lit "123") ∧
    (copy 5 (raw 5) (lit "123")).bind (fun d => cstr d) = .ok (sv "123") := by decide +kernel

/-- static_string_tests.cc:103-123. -/
example : equal (lit "123") (lit "123") = .ok true ∧ equal (lit "123") (lit "abc") = .ok false ∧
    equal (lit "123") (lit "12") = .ok false ∧ equal (lit "12") (lit "123") = .ok false ∧
    (copy 5 (raw 5) (lit "abc")).bind (fun d => equal (lit "abc") d) = .ok true ∧
    (copy 5 (raw 5) (lit "abc")).bind (fun d => equal d (lit "abc")) = .ok true := by decide +kernel
end

/-! ## tests/version_tools_tests.cc -/
section
open Version

/-- `Version{"..."}`: the literal with its terminator; `long` has 64 bits. -/
def ver (s : String) : R Version := parse 64 (s.toList.map Char.toNat ++ [0]) s.length

/-- version_tools_tests.cc:4-73. -/
example : [ver "1.2.16", ver "9.1", ver "2.0.99", ver "209", ver "garbage", ver "67.BAD.123", ver "77.-22.33"] =
    [.ok ⟨1, 2, 16, true⟩, .ok ⟨9, 1, 0, true⟩, .ok ⟨2, 0, 99, true⟩, .ok ⟨209, 0, 0, true⟩, .ok ⟨0, 0, 0, true⟩,
      .ok ⟨67, 0, 123, true⟩, .ok ⟨77, 0, 33, true⟩] ∧
    [ver "1.2.3-dev", ver "1.2.3", ver "1.2.3-"] = [.ok ⟨1, 2, 3, false⟩, .ok ⟨1, 2, 3, true⟩, .ok ⟨1, 2, 3, false⟩] := by
  decide +kernel

/-- version_tools_tests.cc:75-78. -/
example : (ver "1.2.3").bind (fun v => .ok (eq ⟨1, 2, 3, true⟩ v)) = .ok true ∧
    (ver "001.02.00000003").bind (fun a => (ver "1.2.3").bind fun b => .ok (eq a b)) = .ok true := by decide +kernel

/-- Compare two version texts (version_tools_tests.cc:102-121). -/
def cmpS (a b : String) : R Ordering := (ver a).bind fun a => (ver b).bind fun b => .ok (cmp a b)
/-- `Version{a}.can_host_version(Version{b})` (version_tools_tests.cc:80-100). -/
def hostS (a b : String) : R Bool := (ver a).bind fun a => (ver b).bind fun b => .ok (canHost a b)

/-- version_tools_tests.cc:80-100. -/
example : ["1.2.2", "1.2.3", "1.2.4", "1.3.2", "1.3.3", "1.3.4"].map (hostS · "1.2.3") =
      [.ok true, .ok true, .ok true, .ok true, .ok true, .ok true] ∧
    ["0.9.9", "0.2.3", "0.1.1", "2.2.3", "2.0.0", "2.9.9"].map (hostS · "1.2.3") =
      [.ok false, .ok false, .ok false, .ok false, .ok false, .ok false] := by decide +kernel

/-- version_tools_tests.cc:102-121. -/
example : ["1.2.2", "1.2.3", "1.2.4", "1.3.2", "1.3.3", "1.3.4"].map (cmpS · "1.2.3") =
      [.ok .lt, .ok .eq, .ok .gt, .ok .gt, .ok .gt, .ok .gt] ∧
    ["0.9.9", "0.2.3", "0.1.1", "2.0.0", "2.2.3", "2.9.9"].map (cmpS · "1.2.3") =
      [.ok .lt, .ok .lt, .ok .lt, .ok .gt, .ok .gt, .ok .gt] := by decide +kernel
end

/-! ## tests/contains_word_tests.cc -/
section
/-- The characters of a string. -/
def str (s : String) : List Nat := s.toList.map Char.toNat

/-- contains_word_tests.cc:5-13. -/
example : ["In", "Play IN", "PlaIN", "iN 1", "inner gain", "Ch2 In L", "ChaIn L"].map
    (fun s => Strings.containsWord (str s) (str "in")) = [true, true, false, true, false, true, false] := by decide +kernel
end

/-! ## tests/color_tests.cpp, rgb565_tests.cc, hsv_tests.cc -/

/-- color_tests.cpp:26-34. -/
example : [Color.mk8 255 0 0, Color.mk8 0 255 0, Color.mk8 0 0 255, Color.mk8 0xef 0xce 0x31, Color.mk8 0x7b 0x7d 0x7b,
    Color.mk8 0 0 0, Color.mk8 255 255 255].map Color.rgb565 = [0xf800, 0x07e0, 0x1f, 0xee66, 0x7bef, 0x0000, 0xffff] := by
  decide +kernel

/-- color_tests.cpp:36-46. -/
example : Color.of565 0xee66 = ⟨29 <<< 3, 51 <<< 2, 6 <<< 3⟩ ∧ Color.rgb565 (Color.of565 0xee66) = 0xee66 := by decide +kernel

/-- color_tests.cpp:48-55: blending packed colours; black and white at one half is the grey of the test, and so on. -/
example : Color.blendPackedF 0x0000 0xffff (1 / 2) = .ok 0x7bef ∧ Color.blendPackedF 0xf800 0x07e0 (1 / 4) = .ok 0xb9e0 ∧
    Color.blendPackedF 0xf800 0x07e0 0 = .ok 0xf800 ∧ Color.blendPackedF 0xf800 0x07e0 1 = .ok 0x07e0 ∧
    Color.blendPackedF 0x07e0 0xf800 1 = .ok 0xf800 ∧ Color.blendPackedF 0x07e0 0xf800 0 = .ok 0x07e0 := by decide +kernel

/-- rgb565_tests.cc:4-26. -/
example : RGB565.raw (RGB565.of8 0x80 0x40 0x20) = 0x8204 ∧
    (RGB565.ofF (1 / 2) (1 / 4) (1 / 8)).bind (fun c => .ok (RGB565.raw c)) = .ok 0x8204 ∧
    RGB565.raw (RGB565.of888 0x804020) = 0x8204 ∧
    (RGB565.red (RGB565.of888 0x804020), RGB565.green (RGB565.of888 0x804020), RGB565.blue (RGB565.of888 0x804020)) =
      (0x80, 0x40, 0x20) ∧ RGB565.raw (RGB565.ofRaw 0x2334) = 0x2334 := by decide +kernel

/-- hsv_tests.cc:4-19. -/
example : HSV.toColor 0 255 255 = ⟨255, 0, 0⟩ ∧ HSV.toColor 86 255 255 = ⟨0, 255, 0⟩ ∧ HSV.toColor 172 255 255 = ⟨0, 0, 255⟩ ∧
    HSV.toColor 172 0 255 = ⟨255, 255, 255⟩ ∧ HSV.toColor 0 255 0 = ⟨0, 0, 0⟩ := by decide +kernel

end Conform.Bytes
