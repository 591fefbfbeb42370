import Verif.Conformance.Mock
/-!
# The unit tests of `src/byte` and `src/drain/scatter.rs`

Long contents are shorter here, so that the kernel can run the tests.  Random contents come from the generator of `Mock.lean`.
-/
namespace Nd.Conformance

/-- The tests here have a smaller `BLOCK_SIZE`. -/
def byteBlock : Nat := 29

/-- The test of a byte stream. -/
def streams (S : ByteSrc σ) (make : Nat → Except Err σ) (expected : Bytes) : Bool := streamTests S byteBlock 600 make expected

/-- A file that is read in pieces of random lengths (`impl Read for MockSource`, `src/byte/mock.rs` 50-70). -/
def randomFile (content : Bytes) (seed : Nat) : Reader :=
  Reader.open content fun i => some (genRange ((List.range i).foldl (fun r _ => rngNext r) (rngNext seed)) 1 (2 * byteBlock))

/-- Random contents. -/
def randomBytes (n seed : Nat) : Bytes :=
  ((List.range n).foldl (fun (acc : Nat × Bytes) _ => (rngNext acc.1, (acc.1 / 1024).toUInt8 :: acc.2)) (rngNext seed, [])).2

/-- `rep!` -/
def rep (x : List α) (n : Nat) : List α := (List.replicate n x).flatten

/-- `test_impl!` of `src/byte/cat.rs` -/
def catTest (inputs : List Bytes) : Bytes → Bool :=
  streams (CatStream.byteSrc (mockSrc byteBlock) byteBlock 600) fun seed => .ok (CatStream.new byteBlock (inputs.mapIdx fun i x => MockSource.new x (seed + 7 * i)))

/-- `test_impl!` of `src/byte/zip.rs` -/
def zipTest (word : Nat) (inputs : List Bytes) : Bytes → Bool :=
  streams (ZipStream.byteSrc (RawStream.byteSrc byteBlock 600) byteBlock 600) fun seed =>
    .ok (ZipStream.new byteBlock (inputs.mapIdx fun i x => RawStream.new byteBlock (randomFile x (seed + 7 * i)) word 0) word)

/-- `test_clamped_impl!` of `src/byte/zip.rs` -/
def zipClamped (word : Nat) (inputs : List Bytes) : Bytes → Bool :=
  streams (ZipStream.byteSrc (mockSrc byteBlock) byteBlock 600) fun seed => .ok (ZipStream.new byteBlock (inputs.mapIdx fun i x => MockSource.new x (seed + 7 * i)) word)

/-- `test_impl!` of `src/byte/clip.rs` -/
def clipTest (input : Bytes) (pad clip : Nat × Nat) (len : Nat) : Bytes → Bool :=
  streams (ClipStream.byteSrc (ClipStream.paddedSrc (mockSrc byteBlock) byteBlock 600) byteBlock 600) fun seed =>
    .ok (ClipStream.new byteBlock (MockSource.new input seed) { pad := pad, clip := clip, len := len } 0)

/-- `test!` of `test_stream_params` -/
def clipParams (pad : Option (Nat × Nat)) (seek : Option Nat) (range : Option (Nat × Nat)) (epad eclip : Nat × Nat) (elen : Nat) : Bool :=
  (ClipperParams.fromRaw pad seek range).toOption = some { pad := epad, clip := eclip, len := elen }

/-- `test_impl!` of `src/byte/cut.rs`; the tests check overflow of the arithmetic. -/
def cutTest (exprs : List Char) (input : Bytes) : Bytes → Bool :=
  streams (CutStream.byteSrc (mockSrc byteBlock) byteBlock 600) fun seed => do CutStream.new byteBlock true (MockSource.new input seed) (← parseRanges exprs)

/-- The records of a text -/
abbrev mockRecs (I : Impl) (fo fs : Field) : RecSrc MockSource := TextParser.recSrc I (mockSrc testBlock) testBlock 600 fo fs

/-- `test_impl!` of `src/byte/patch.rs`, in the three builds -/
def patchTest (input patch expected : Bytes) : Bool :=
  [Impl.portable, Impl.avx2, Impl.neon].all fun I =>
    streams (PatchStream.byteSrc (mockSrc byteBlock) (mockRecs I .hex .hex) testBlock 600)
      (fun seed => PatchStream.new (mockRecs I .hex .hex) testBlock (MockSource.new input seed) (MockSource.new patch (seed + 7))) expected

/-- `test_gapless_impl!` of `src/byte/text.rs`, in the three builds -/
def gaplessTest (input expected : Bytes) : Bool :=
  [Impl.portable, Impl.avx2, Impl.neon].all fun I =>
    streams (GaplessTextStream.byteSrc (mockRecs I .hex .hex) testBlock 600) (fun seed => .ok (GaplessTextStream.new testBlock (MockSource.new input seed) 1 0)) expected

/-- `test_text_impl!` of `src/byte/text.rs`, in the three builds -/
def textTest (input expected : Bytes) : Bool :=
  [Impl.portable, Impl.avx2, Impl.neon].all fun I =>
    streams (TextStream.byteSrc (mockRecs I .hex .hex) testBlock 600 0) (fun seed => TextStream.new (mockRecs I .hex .hex) testBlock (MockSource.new input seed) 1 0) expected

/-- `assert!(src.fill_buf(1).is_err())` -/
def fillFails (S : ByteSrc σ) : Except Err σ → Bool
  | .error _ => false
  | .ok s => (S.fill s 1).toOption.isNone

/-- `test_impl!` of `src/drain/scatter.rs` with the standard output -/
def scatterTest (input : Bytes) : Bytes → Bool :=
  streams (ScatterDrain.byteSrc (ConstSlicer.segSrc (mockSrc testBlock)) { style := .binary, minWidth := 0 } testBlock 600) fun seed => do
    return ScatterDrain.through testBlock (← ConstSlicer.new (MockSource.new input seed) { head := 0, tail := -3, pitch := 4, span := 6 })

/-- `test_impl!` of `src/drain/scatter.rs` with a file: nothing is printed -/
def scatterFileTest (file : List Char) (input : Bytes) : Bytes → Bool :=
  streams (ScatterDrain.scatterSrc (ConstSlicer.segSrc (mockSrc testBlock)) { style := .binary, minWidth := 0 } 600) fun seed => do
    return (ScatterDrain.new (← ConstSlicer.new (MockSource.new input seed) { head := 0, tail := -3, pitch := 4, span := 6 }), ← ScatterContext.new numFmts (fun _ => none) file)

/-- `TeeStream` passes its source on (`src/byte/tee.rs`). -/
def teeTest (input : Bytes) : Bool := streams (TeeStream.byteSrc (mockSrc byteBlock)) (fun seed => .ok (TeeStream.new (MockSource.new input seed))) input

/-- `test_impl!` of `src/byte/raw.rs` -/
def rawTest (input : Bytes) : Bool := streams (RawStream.byteSrc byteBlock 600) (fun seed => .ok (RawStream.new byteBlock (randomFile input seed) 1 0)) input

/-- `test_impl!` of `src/byte/zero.rs` -/
def zeroTest (n : Nat) : Bool := streams (ZeroStream.byteSrc byteBlock) (fun _ => .ok (ZeroStream.new byteBlock n 0)) (List.replicate n 0)

/-- `gen_pattern` of `src/byte/zip.rs` -/
def zipped (word len : Nat) (clamp : Bool) (srcs : List Bytes) : Bytes :=
  let chunks := len / word
  (List.range chunks).flatMap (fun i => srcs.flatMap fun s => (s.drop (i * word)).take word) ++
    if !clamp && len % word != 0 then srcs.flatMap (fun s => resize (s.drop (chunks * word)) word 0) else []

/-- `test_long_impl!` of `src/byte/zip.rs` -/
def zipLong (word len count : Nat) : Bool :=
  let srcs := (List.range count).map fun i => randomBytes len (100 + i)
  zipTest word srcs (zipped word len false srcs) && zipClamped word srcs (zipped word len true srcs)

/-- `test_cache_all!` of `src/byte/tee.rs`: everything is read through, then the cache is read. -/
def teeCache (input : Bytes) : Bool :=
  let drain : Nat → TeeStream MockSource → Option (TeeStream MockSource) := fun n s =>
    (List.range n).foldlM (fun (s : TeeStream MockSource) i =>
      match (TeeStream.byteSrc (mockSrc byteBlock)).fill s 1 with
      | .error _ => none
      | .ok ((_, len), s) => ((TeeStream.byteSrc (mockSrc byteBlock)).consume s (if len = 0 then 0 else genRange (rngNext i) 1 len)).toOption) s
  streams (TeeReader.byteSrc byteBlock 600)
    (fun seed => match drain 40 (TeeStream.new (MockSource.new input seed)) with
      | none => .error .panic
      | some s => .ok (TeeReader.new byteBlock s.cache fun i => some (genRange (rngNext (seed + i)) 1 (2 * byteBlock)))) input


/-! ## `src/byte/cat.rs` -/

example : catTest [[]] [] = true := by decide +kernel
example : catTest [[], [], []] [] = true := by decide +kernel
example : catTest [[0], [], []] [0] = true := by decide +kernel
example : catTest [[0, 1, 2, 3, 4, 5, 6, 7], [16, 17, 18, 19, 20, 21, 22, 23], [32, 33, 34, 35, 36, 37, 38, 39]] [0, 1, 2, 3, 4, 5, 6, 7, 16, 17, 18, 19, 20, 21, 22, 23, 32, 33, 34, 35, 36, 37, 38, 39] = true := by decide +kernel
example : catTest [[0, 1, 2, 3, 4, 5, 6, 7, 8], [16, 17, 18, 19, 20, 21], [32, 33, 34, 35, 36, 37, 38, 39, 32, 41, 42, 43], [48, 49, 50, 51, 52, 53, 54, 55, 48, 57, 58, 59, 60, 61, 62, 63], [], [80, 81, 82, 83, 84, 85, 86, 87, 80, 89], [96, 97, 98, 99, 100]] [0, 1, 2, 3, 4, 5, 6, 7, 8, 16, 17, 18, 19, 20, 21, 32, 33, 34, 35, 36, 37, 38, 39, 32, 41, 42, 43, 48, 49, 50, 51, 52, 53, 54, 55, 48, 57, 58, 59, 60, 61, 62, 63, 80, 81, 82, 83, 84, 85, 86, 87, 80, 89, 96, 97, 98, 99, 100] = true := by decide +kernel
example : (let srcs := [randomBytes 41 1, randomBytes 63 2, randomBytes 30 3]; catTest srcs srcs.flatten) = true := by decide +kernel

/-! ## `src/byte/zip.rs` -/

example : zipTest 1 [[]] [] = true := by decide +kernel
example : zipTest 2 [[]] [] = true := by decide +kernel
example : zipTest 3 [[]] [] = true := by decide +kernel
example : zipTest 4 [[]] [] = true := by decide +kernel
example : zipTest 5 [[]] [] = true := by decide +kernel
example : zipTest 6 [[]] [] = true := by decide +kernel
example : zipTest 7 [[]] [] = true := by decide +kernel
example : zipTest 8 [[]] [] = true := by decide +kernel
example : zipTest 9 [[]] [] = true := by decide +kernel
example : zipTest 10 [[]] [] = true := by decide +kernel
example : zipTest 11 [[]] [] = true := by decide +kernel
example : zipTest 12 [[]] [] = true := by decide +kernel
example : zipTest 13 [[]] [] = true := by decide +kernel
example : zipTest 14 [[]] [] = true := by decide +kernel
example : zipTest 15 [[]] [] = true := by decide +kernel
example : zipTest 16 [[]] [] = true := by decide +kernel
example : zipTest 33 [[]] [] = true := by decide +kernel
example : zipTest 1 [[], [], []] [] = true := by decide +kernel
example : zipTest 2 [[], [], []] [] = true := by decide +kernel
example : zipTest 3 [[], [], []] [] = true := by decide +kernel
example : zipTest 4 [[], [], []] [] = true := by decide +kernel
example : zipTest 7 [[], [], []] [] = true := by decide +kernel
example : zipTest 8 [[], [], []] [] = true := by decide +kernel
example : zipTest 9 [[], [], []] [] = true := by decide +kernel
example : zipTest 16 [[], [], []] [] = true := by decide +kernel
example : zipTest 33 [[], [], []] [] = true := by decide +kernel
example : zipTest 1 [[0], [], []] [] = true := by decide +kernel
example : zipTest 2 [[0], [], []] [] = true := by decide +kernel
example : zipTest 3 [[0], [], []] [] = true := by decide +kernel
example : zipTest 4 [[0], [], []] [] = true := by decide +kernel
example : zipTest 7 [[0], [], []] [] = true := by decide +kernel
example : zipTest 8 [[0], [], []] [] = true := by decide +kernel
example : zipTest 9 [[0], [], []] [] = true := by decide +kernel
example : zipTest 16 [[0], [], []] [] = true := by decide +kernel
example : zipTest 33 [[0], [], []] [] = true := by decide +kernel
example : zipTest 1 [[0, 1, 2, 3, 4, 5, 6, 7], [16, 17, 18, 19, 20, 21, 22, 23], [32, 33, 34, 35, 36, 37, 38, 39]] [0, 16, 32, 1, 17, 33, 2, 18, 34, 3, 19, 35, 4, 20, 36, 5, 21, 37, 6, 22, 38, 7, 23, 39] = true := by decide +kernel
example : zipTest 2 [[0, 1, 2, 3, 4, 5, 6, 7], [16, 17, 18, 19, 20, 21, 22, 23], [32, 33, 34, 35, 36, 37, 38, 39]] [0, 1, 16, 17, 32, 33, 2, 3, 18, 19, 34, 35, 4, 5, 20, 21, 36, 37, 6, 7, 22, 23, 38, 39] = true := by decide +kernel
example : zipTest 3 [[0, 1, 2, 3, 4, 5, 6, 7], [16, 17, 18, 19, 20, 21, 22, 23], [32, 33, 34, 35, 36, 37, 38, 39]] [0, 1, 2, 16, 17, 18, 32, 33, 34, 3, 4, 5, 19, 20, 21, 35, 36, 37, 6, 7, 0, 22, 23, 0, 38, 39, 0] = true := by decide +kernel
example : zipTest 4 [[0, 1, 2, 3, 4, 5, 6, 7], [16, 17, 18, 19, 20, 21, 22, 23], [32, 33, 34, 35, 36, 37, 38, 39]] [0, 1, 2, 3, 16, 17, 18, 19, 32, 33, 34, 35, 4, 5, 6, 7, 20, 21, 22, 23, 36, 37, 38, 39] = true := by decide +kernel
example : zipTest 5 [[0, 1, 2, 3, 4, 5, 6, 7], [16, 17, 18, 19, 20, 21, 22, 23], [32, 33, 34, 35, 36, 37, 38, 39]] [0, 1, 2, 3, 4, 16, 17, 18, 19, 20, 32, 33, 34, 35, 36, 5, 6, 7, 0, 0, 21, 22, 23, 0, 0, 37, 38, 39, 0, 0] = true := by decide +kernel
example : zipTest 8 [[0, 1, 2, 3, 4, 5, 6, 7], [16, 17, 18, 19, 20, 21, 22, 23], [32, 33, 34, 35, 36, 37, 38, 39]] [0, 1, 2, 3, 4, 5, 6, 7, 16, 17, 18, 19, 20, 21, 22, 23, 32, 33, 34, 35, 36, 37, 38, 39] = true := by decide +kernel
example : zipTest 1 [[0, 1, 2, 3, 4, 5, 6, 7, 8], [16, 17, 18, 19, 20, 21, 22, 23], [32, 33, 34, 35, 36, 37, 38, 39]] [0, 16, 32, 1, 17, 33, 2, 18, 34, 3, 19, 35, 4, 20, 36, 5, 21, 37, 6, 22, 38, 7, 23, 39] = true := by decide +kernel
example : zipClamped 1 [[], [], []] [] = true := by decide +kernel
example : zipClamped 3 [[], [], []] [] = true := by decide +kernel
example : zipClamped 8 [[], [], []] [] = true := by decide +kernel
example : zipClamped 9 [[], [], []] [] = true := by decide +kernel
example : zipClamped 33 [[], [], []] [] = true := by decide +kernel
example : zipClamped 2 [[0], [], []] [] = true := by decide +kernel
example : zipClamped 4 [[0], [], []] [] = true := by decide +kernel
example : zipClamped 7 [[0], [], []] [] = true := by decide +kernel
example : zipClamped 16 [[0], [], []] [] = true := by decide +kernel
example : zipClamped 33 [[0], [], []] [] = true := by decide +kernel
example : zipClamped 2 [[0, 1, 2, 3, 4, 5, 6, 7, 8], [16, 17, 18, 19, 20, 21, 22, 23, 24], [32, 33, 34, 35, 36, 37, 38, 39, 40]] [0, 1, 16, 17, 32, 33, 2, 3, 18, 19, 34, 35, 4, 5, 20, 21, 36, 37, 6, 7, 22, 23, 38, 39] = true := by decide +kernel
example : zipClamped 3 [[0, 1, 2, 3, 4, 5, 6, 7], [16, 17, 18, 19, 20, 21, 22, 23], [32, 33, 34, 35, 36, 37, 38, 39]] [0, 1, 2, 16, 17, 18, 32, 33, 34, 3, 4, 5, 19, 20, 21, 35, 36, 37] = true := by decide +kernel
example : zipClamped 4 [[0, 1, 2, 3, 4, 5, 6], [16, 17, 18, 19, 20, 21, 22], [32, 33, 34, 35, 36, 37, 38]] [0, 1, 2, 3, 16, 17, 18, 19, 32, 33, 34, 35] = true := by decide +kernel
example : zipClamped 5 [[0, 1, 2, 3, 4, 5, 6, 7], [16, 17, 18, 19, 20, 21, 22, 23], [32, 33, 34, 35, 36, 37, 38, 39]] [0, 1, 2, 3, 4, 16, 17, 18, 19, 20, 32, 33, 34, 35, 36] = true := by decide +kernel
example : zipLong 1 0 3 = true := by decide +kernel
example : zipLong 3 0 3 = true := by decide +kernel
example : zipLong 9 0 3 = true := by decide +kernel
example : zipLong 1 10 3 = true := by decide +kernel
example : zipLong 3 10 3 = true := by decide +kernel
example : zipLong 9 10 3 = true := by decide +kernel
example : zipLong 1 35 3 = true := by decide +kernel
example : zipLong 3 35 3 = true := by decide +kernel
example : zipLong 4 35 3 = true := by decide +kernel
example : zipLong 9 35 3 = true := by decide +kernel
example : zipLong 33 35 3 = true := by decide +kernel

/-! ## `src/byte/clip.rs` -/

/-- `p`, with 99 instead of 32768 bytes; the lengths below are smaller accordingly. -/
def clipInput : Bytes := randomBytes 99 5

example : clipParams none none none (0, 0) (0, 0) usizeMax = true := by decide +kernel
example : clipParams (some (10, 20)) none none (10, 20) (0, 0) usizeMax = true := by decide +kernel
example : clipParams none (some 15) none (0, 0) (15, 0) usizeMax = true := by decide +kernel
example : clipParams (some (10, 20)) (some 15) none (0, 20) (5, 0) usizeMax = true := by decide +kernel
example : clipParams (some (10, 20)) (some 5) none (5, 20) (0, 0) usizeMax = true := by decide +kernel
example : clipParams none none (some (100, 200)) (0, 0) (100, 0) 100 = true := by decide +kernel
example : clipParams (some (40, 0)) none (some (100, 200)) (0, 0) (60, 0) 100 = true := by decide +kernel
example : clipParams (some (40, 0)) (some 30) (some (100, 200)) (0, 0) (90, 0) 100 = true := by decide +kernel
example : clipParams (some (40, 0)) (some 50) (some (100, 200)) (0, 0) (110, 0) 100 = true := by decide +kernel
example : clipParams (some (40, 0)) none (some (20, 100)) (20, 0) (0, 0) 60 = true := by decide +kernel
example : clipParams (some (40, 0)) (some 10) (some (20, 100)) (10, 0) (0, 0) 70 = true := by decide +kernel
example : clipParams (some (40, 0)) (some 30) (some (20, 100)) (0, 0) (10, 0) 80 = true := by decide +kernel
example : clipParams (some (40, 0)) (some 50) (some (20, 100)) (0, 0) (30, 0) 80 = true := by decide +kernel
example : clipParams (some (100, 0)) (some 0) (some (20, 100)) (80, 0) (0, 0) 0 = true := by decide +kernel
example : clipParams (some (140, 0)) (some 0) (some (20, 100)) (80, 0) (0, 0) 0 = true := by decide +kernel
example : clipParams (some (240, 0)) (some 50) (some (20, 100)) (80, 0) (0, 0) 0 = true := by decide +kernel
example : clipTest clipInput (0, 0) (0, 0) (usizeMax) clipInput = true := by decide +kernel
example : clipTest clipInput (0, 0) (1, 0) (usizeMax) ((clipInput.drop 1).take 98) = true := by decide +kernel
example : clipTest clipInput (0, 0) (10, 0) (usizeMax) ((clipInput.drop 10).take 89) = true := by decide +kernel
example : clipTest clipInput (0, 0) (0, 1) (usizeMax) ((clipInput.drop 0).take 98) = true := by decide +kernel
example : clipTest clipInput (0, 0) (0, 10) (usizeMax) ((clipInput.drop 0).take 89) = true := by decide +kernel
example : clipTest clipInput (0, 0) (0, 0) (1) ((clipInput.drop 0).take 1) = true := by decide +kernel
example : clipTest clipInput (0, 0) (0, 0) (10) ((clipInput.drop 0).take 10) = true := by decide +kernel
example : clipTest clipInput (0, 0) (1, 10) (1) ((clipInput.drop 1).take 1) = true := by decide +kernel
example : clipTest clipInput (0, 0) (10, 10) (3) ((clipInput.drop 10).take 3) = true := by decide +kernel
example : clipTest clipInput (0, 0) (20, 10) (99 - 3) ((clipInput.drop 20).take 69) = true := by decide +kernel
example : clipTest clipInput (0, 0) (20, 40) (99 - 20) ((clipInput.drop 20).take 39) = true := by decide +kernel
example : clipTest clipInput (0, 0) (0, 0) (0) [] = true := by decide +kernel
example : clipTest clipInput (0, 0) (10, 0) (0) [] = true := by decide +kernel
example : clipTest clipInput (0, 0) (99, 0) (0) [] = true := by decide +kernel
example : clipTest clipInput (0, 0) (0, 99) (0) [] = true := by decide +kernel
example : clipTest clipInput (0, 0) (99, 99) (0) [] = true := by decide +kernel
example : clipTest clipInput (0, 0) (99 + 1, 0) (99) [] = true := by decide +kernel
example : clipTest clipInput (0, 0) (99 + 1, 0) (usizeMax) [] = true := by decide +kernel
example : clipTest clipInput (0, 0) (0, 99 + 1) (99) [] = true := by decide +kernel
example : clipTest clipInput (0, 0) (0, 99 + 1) (usizeMax) [] = true := by decide +kernel
example : clipTest clipInput (0, 3) (0, 0) (usizeMax) (((List.replicate 3 0 ++ clipInput ++ List.replicate 3 0).drop 3).take 102) = true := by decide +kernel
example : clipTest clipInput (3, 0) (0, 0) (usizeMax) (((List.replicate 3 0 ++ clipInput ++ List.replicate 3 0).drop 0).take 102) = true := by decide +kernel
example : clipTest clipInput (0, 3) (1, 0) (usizeMax) (((List.replicate 3 0 ++ clipInput ++ List.replicate 3 0).drop 4).take 101) = true := by decide +kernel
example : clipTest clipInput (0, 3) (10, 0) (usizeMax) (((List.replicate 3 0 ++ clipInput ++ List.replicate 3 0).drop 13).take 92) = true := by decide +kernel
example : clipTest clipInput (3, 0) (1, 0) (usizeMax) (((List.replicate 3 0 ++ clipInput ++ List.replicate 3 0).drop 1).take 101) = true := by decide +kernel
example : clipTest clipInput (3, 0) (10, 0) (usizeMax) (((List.replicate 3 0 ++ clipInput ++ List.replicate 3 0).drop 10).take 92) = true := by decide +kernel
example : clipTest clipInput (0, 3) (0, 1) (usizeMax) (((List.replicate 3 0 ++ clipInput ++ List.replicate 3 0).drop 3).take 101) = true := by decide +kernel
example : clipTest clipInput (0, 3) (0, 10) (usizeMax) (((List.replicate 3 0 ++ clipInput ++ List.replicate 3 0).drop 3).take 92) = true := by decide +kernel
example : clipTest clipInput (3, 0) (0, 1) (usizeMax) (((List.replicate 3 0 ++ clipInput ++ List.replicate 3 0).drop 0).take 101) = true := by decide +kernel
example : clipTest clipInput (3, 0) (0, 10) (usizeMax) (((List.replicate 3 0 ++ clipInput ++ List.replicate 3 0).drop 0).take 92) = true := by decide +kernel

/-! ## `src/byte/cut.rs` -/

example : cutTest (chars! "..") [] [] = true := by decide +kernel
example : cutTest (chars! "..") (bytes! "abcdefghijklmnopqrstu") (bytes! "abcdefghijklmnopqrstu") = true := by decide +kernel
example : cutTest (chars! "..,") (bytes! "abcdefghijklmnopqrstu") (bytes! "abcdefghijklmnopqrstu") = true := by decide +kernel
example : cutTest (chars! "s..s") (bytes! "abcdefghijklmnopqrstu") [] = true := by decide +kernel
example : cutTest (chars! "e..e") (bytes! "abcdefghijklmnopqrstu") [] = true := by decide +kernel
example : cutTest (chars! "s - 1..s") (bytes! "abcdefghijklmnopqrstu") [] = true := by decide +kernel
example : cutTest (chars! "s + 1..s") (bytes! "abcdefghijklmnopqrstu") [] = true := by decide +kernel
example : cutTest (chars! "e..e - 1") (bytes! "abcdefghijklmnopqrstu") [] = true := by decide +kernel
example : cutTest (chars! "e..e + 1") (bytes! "abcdefghijklmnopqrstu") [] = true := by decide +kernel
example : cutTest (chars! "s..s + 3") (bytes! "abcdefghijklmnopqrstu") (bytes! "abc") = true := by decide +kernel
example : cutTest (chars! "s + 10..s + 13") (bytes! "abcdefghijklmnopqrstu") (bytes! "klm") = true := by decide +kernel
example : cutTest (chars! "s..s + 3,s + 5..s + 10,s + 10..s + 13") (bytes! "abcdefghijklmnopqrstu") (bytes! "abcfghijklm") = true := by decide +kernel
example : cutTest (chars! "s..s + 3,s + 1..s + 5,s + 10..s + 13,s + 12..s + 15") (bytes! "abcdefghijklmnopqrstu") (bytes! "abcdeklmno") = true := by decide +kernel
example : cutTest (chars! "s + 10..s + 20,s + 12..s + 15") (bytes! "abcdefghijklmnopqrstu") (bytes! "klmnopqrst") = true := by decide +kernel
example : cutTest (chars! "s + 10..s + 20,s + 12..s + 15,s + 17..s + 21") (bytes! "abcdefghijklmnopqrstu") (bytes! "klmnopqrstu") = true := by decide +kernel
example : cutTest (chars! "s..e - 11") (bytes! "abcdefghijklmnopqrstu") (bytes! "abcdefghij") = true := by decide +kernel
example : cutTest (chars! "e - 11..s + 13") (bytes! "abcdefghijklmnopqrstu") (bytes! "klm") = true := by decide +kernel
example : cutTest (chars! "e - 11..e - 8") (bytes! "abcdefghijklmnopqrstu") (bytes! "klm") = true := by decide +kernel
example : cutTest (chars! "s..s + 3,e - 16..s + 10,e - 11..e - 8") (bytes! "abcdefghijklmnopqrstu") (bytes! "abcfghijklm") = true := by decide +kernel

/-! ## `src/byte/patch.rs` -/

example : fillFails (PatchStream.byteSrc (mockSrc testBlock) (mockRecs .portable .hex .hex) testBlock 600) (PatchStream.new (mockRecs .portable .hex .hex) testBlock (MockSource.new (List.replicate 256 0) 1) (MockSource.new (bytes! "0000 03 | 01 02 03 \n0001 03 | 01 02 03") 2)) = true := by decide +kernel
example : patchTest [] (bytes! "0000 00 | \n") [] = true := by decide +kernel
example : patchTest [] (bytes! "0000 01 | \n") [] = true := by decide +kernel
example : patchTest [128] (bytes! "0000 01 | 00\n") [0] = true := by decide +kernel
example : patchTest [128] (bytes! "0000 01 | \n") [] = true := by decide +kernel
example : patchTest [128, 129, 130, 131] (bytes! "0000 01 | 00\n") [0, 129, 130, 131] = true := by decide +kernel
example : patchTest [128, 129, 130, 131] (bytes! "0001 01 | 00\n") [128, 0, 130, 131] = true := by decide +kernel
example : patchTest [128, 129, 130, 131] (bytes! "0002 00 | 00\n") [128, 129, 0, 130, 131] = true := by decide +kernel
example : patchTest [128, 129, 130, 131] (bytes! "0000 03 | 00\n") [0, 131] = true := by decide +kernel
example : patchTest [128, 129, 130, 131] (bytes! "0002 04 | 00\n") [128, 129, 0] = true := by decide +kernel
example : patchTest [128, 129, 130, 131] (bytes! "0002 00 | 00 01 02\n") [128, 129, 0, 1, 2, 130, 131] = true := by decide +kernel
example : patchTest [128, 129, 130, 131] (bytes! "0000 03 | 00 01 02\n") [0, 1, 2, 131] = true := by decide +kernel
example : patchTest [128, 129, 130, 131] (bytes! "0002 04 | 00 01 02\n") [128, 129, 0, 1, 2] = true := by decide +kernel
example : patchTest [128, 129, 130, 131] (bytes! "0002 00 | \n") [128, 129, 130, 131] = true := by decide +kernel
example : patchTest [128, 129, 130, 131] (bytes! "0000 03 | \n") [131] = true := by decide +kernel
example : patchTest [128, 129, 130, 131] (bytes! "0002 04 | \n") [128, 129] = true := by decide +kernel
example : patchTest ((List.range 48).map fun i => (i + 0xc0).toUInt8) (bytes! "000 05 | 00 01 02 03 04\n005 07 | 10 11 12 13 14 15 16\n010 03 | 20 21 22 23 24\n013 00 | 30 31 32 33 34 35 36 37 38 39\n014 06 | 50 51 52 53 54\n01b 01 | 60 61 62 63 64 \n01c 03\n020 08 | 80 81 82 83 84\n02a 01 | \n") [0, 1, 2, 3, 4, 16, 17, 18, 19, 20, 21, 22, 204, 205, 206, 207, 32, 33, 34, 35, 36, 48, 49, 50, 51, 52, 53, 54, 55, 56, 57, 211, 80, 81, 82, 83, 84, 218, 96, 97, 98, 99, 100, 223, 128, 129, 130, 131, 132, 232, 233, 235, 236, 237, 238, 239] = true := by decide +kernel
example : patchTest (List.replicate 100 0) (bytes! "000000 0a | 01 02 03 04 05 06 07 08 09 0a ") ([1, 2, 3, 4, 5, 6, 7, 8, 9, 10] ++ List.replicate 90 0) = true := by decide +kernel
example : patchTest (List.replicate 100 0) (bytes! "000032 0a | 01 02 03 04 05 06 07 08 09 0a ") (List.replicate 50 0 ++ [1, 2, 3, 4, 5, 6, 7, 8, 9, 10] ++ List.replicate 40 0) = true := by decide +kernel
example : patchTest (List.replicate 100 0) ((bytes! "000032 000019 | ") ++ rep (bytes! "01 02 03 04 05 06 07 08 09 0a ") 3) (List.replicate 50 0 ++ rep [1, 2, 3, 4, 5, 6, 7, 8, 9, 10] 3 ++ List.replicate 25 0) = true := by decide +kernel

/-! ## `src/byte/text.rs` -/

example : fillFails (TextStream.byteSrc (mockRecs .portable .hex .hex) testBlock 600 0) (TextStream.new (mockRecs .portable .hex .hex) testBlock (MockSource.new (bytes! "0000 03 | 01 02 03 \n0001 03 | 01 02 03") 1) 1 0) = true := by decide +kernel
example : gaplessTest (bytes! "0000 00 | \n") [] = true := by decide +kernel
example : gaplessTest (bytes! "0000 01 | \n") [] = true := by decide +kernel
example : gaplessTest (bytes! "0000 01 | 00\n") [0] = true := by decide +kernel
example : gaplessTest (bytes! "0000 02 | 00 01 \n") [0, 1] = true := by decide +kernel
example : gaplessTest (bytes! "0002 04 | 03 04 \n") [3, 4] = true := by decide +kernel
example : gaplessTest (bytes! "0002 00 | 03 04 \n") [3, 4] = true := by decide +kernel
example : textTest (bytes! "0000 00 | \n") [] = true := by decide +kernel
example : textTest (bytes! "0000 01 | \n") [] = true := by decide +kernel
example : textTest (bytes! "0000 01 | 00\n") [0] = true := by decide +kernel
example : textTest (bytes! "0000 02 | 00 01 \n") [0, 1] = true := by decide +kernel
example : textTest (bytes! "0002 04 | 03 04 \n") [0, 0, 3, 4] = true := by decide +kernel
example : textTest (bytes! "0002 00 | 03 04 \n") [0, 0, 3, 4] = true := by decide +kernel
example : textTest (bytes! "000 05 | 00 01 02 03 04\n005 07 | 10 11 12 13 14 15 16\n010 03 | 20 21 22 23 24\n013 00 | 30 31 32 33 34 35 36 37 38 39\n014 06 | 50 51 52 53 54\n01b 01 | 60 61 62 63 64 \n01c 03\n020 08 | 80 81 82 83 84\n02a 01 | \n") [0, 1, 2, 3, 4, 16, 17, 18, 19, 20, 21, 22, 0, 0, 0, 0, 32, 33, 34, 35, 36, 48, 49, 50, 51, 52, 53, 54, 55, 56, 57, 0, 80, 81, 82, 83, 84, 0, 96, 97, 98, 99, 100, 0, 128, 129, 130, 131, 132, 0, 0] = true := by decide +kernel
example : gaplessTest (rep (bytes! "0010 ff | 00\n") 8) (List.replicate 8 0) = true := by decide +kernel
example : gaplessTest (rep (bytes! "000 00 | 01 02 03 04 05\nfff 10 | 11 12 13 14 15 16 17\n010 10 | 21 22 23 24 25\n020 80 | 31 32 33 34 35 36 37 38 39 3a\n100 30 | 51 52 53 54 55\n") 1)
    (rep [0x01, 0x02, 0x03, 0x04, 0x05, 0x11, 0x12, 0x13, 0x14, 0x15, 0x16, 0x17, 0x21, 0x22, 0x23, 0x24, 0x25, 0x31, 0x32, 0x33, 0x34, 0x35, 0x36, 0x37, 0x38, 0x39, 0x3a,
      0x51, 0x52, 0x53, 0x54, 0x55] 1) = true := by decide +kernel

/-! ## `src/byte/zero.rs, src/byte/raw.rs, src/byte/tee.rs` -/

example : zeroTest 0 = true := by decide +kernel
example : zeroTest 31 = true := by decide +kernel
example : zeroTest 100 = true := by decide +kernel
example : rawTest (rep (bytes! "a") 100) = true := by decide +kernel
example : rawTest (rep (bytes! "abc") 30) = true := by decide +kernel
example : rawTest (rep (bytes! "abcbc") 20) = true := by decide +kernel
example : rawTest (rep (bytes! "abcbcdefghijklmno") 7) = true := by decide +kernel
example : teeTest (randomBytes 99 9) = true := by decide +kernel
example : teeCache (randomBytes 99 9) = true := by decide +kernel

/-! ## `src/drain/scatter.rs` -/

example : scatterTest [] [] = true := by decide +kernel
example : scatterTest (bytes! "0123456789a") (bytes! "01234545678989a") = true := by decide +kernel
example : scatterFileTest (chars! "/dev/null") [] [] = true := by decide +kernel
example : scatterFileTest (chars! "/dev/null") (bytes! "0123456789a") [] = true := by decide +kernel
example : scatterFileTest (chars! "file") (bytes! "0123456789a") [] = true := by decide +kernel

end Nd.Conformance
