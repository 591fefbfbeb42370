import Verif.Conformance.Mock
/-!
# The unit tests of `src/segment`

Every test with a fixed pattern.  Left out: slicers with open ends (`open_ended`, which the program does not use) and tests of random contents.
-/
namespace Nd.Conformance

/-- `ConstSlicer::from_raw(src, margin, (false, false), pitch, span)` -/
def stride (head tail : Int) (pitch span : Nat) (pattern : Bytes) (seed : Nat) : Except Err (ConstSlicer MockSource) :=
  ConstSlicer.new (MockSource.new pattern seed) { head := head, tail := tail, pitch := pitch, span := span }

/-- Slices of `ConstSlicer` -/
abbrev strideSrc : SegSrc (ConstSlicer MockSource) := ConstSlicer.segSrc (mockSrc testBlock)

/-- The test of a slice stream. -/
def sliced (S : SegSrc σ) (make : Bytes → Nat → Except Err σ) (pattern : Bytes) (expected : List Seg) : Bool := segmentTests S 200 make pattern expected

/-- `bind_closed!` of `src/segment/stride.rs` 445-452 -/
def strideTest (head tail : Int) (pitch span : Nat) : Bytes → List Seg → Bool := sliced strideSrc (stride head tail pitch span)

/-- `bind!` of `src/segment/range.rs` -/
def rangeTest (exprs : List Char) : Bytes → List Seg → Bool :=
  sliced (RangeSlicer.segSrc (mockSrc testBlock) testBlock) fun p seed => do RangeSlicer.new true (MockSource.new p seed) (← parseRanges exprs)

/-- `bind!` of `src/segment/exact.rs`, in the three builds -/
def exactTest (text : Bytes) (p : Bytes) (e : List Seg) : Bool :=
  [Impl.portable, Impl.avx2, Impl.neon].all fun I =>
    sliced (ExactMatchSlicer.segSrc (mockSrc testBlock) testBlock) (fun p seed => ExactMatchSlicer.new I (MockSource.new p seed) text) p e

/-- `bind_closed!` of `src/segment/bridge.rs` -/
def bridgeTest (pitch span : Nat) (exprs : List Char) (p : Bytes) (e : List Seg) : Bool :=
  match parseMappers exprs with
  | .error _ => false
  | .ok ms => sliced (MapStream.segSrc strideSrc (Bridge.ops ms)) (fun p seed => do return Bridge.new (← stride 3 3 pitch span p seed)) p e

/-- `bind_closed!` of `src/segment/extend.rs` -/
def extendTest (pitch span : Nat) (exprs : List Char) (p : Bytes) (e : List Seg) : Bool :=
  match parseMappers exprs with
  | .error _ => false
  | .ok ms => sliced (MapStream.segSrc strideSrc (Extend.ops ms)) (fun p seed => do return Extend.new (← stride 3 3 pitch span p seed)) p e

/-- `bind!` of `src/segment/filter.rs` -/
def filterTest (exprs : List Char) : Bytes → List Seg → Bool :=
  sliced (FilterStream.segSrc strideSrc) fun p seed => do FilterStream.new true (← stride 3 3 4 2 p seed) (← parseRanges exprs)

/-- `bind_closed!` of `src/segment/merge.rs` -/
def mergeTest (pitch span thresh : Nat) : Bytes → List Seg → Bool :=
  sliced (MergeStream.segSrc strideSrc) fun p seed => do return MergeStream.new (← stride 3 3 pitch span p seed) thresh

/-- `bind!` of `src/segment/walk.rs` -/
def walkTest (exprs : List Char) : Bytes → List Seg → Bool :=
  sliced (WalkSlicer.segSrc (mockSrc testBlock) testBlock 100) fun p seed => WalkSlicer.new (MockSource.new p seed) exprs


/-! ## `src/segment/stride.rs` -/

/-- src/segment/stride.rs 468 -/
example : strideTest (0) (0) (1) (1) (bytes! "a") [seg 0 1] = true := by decide +kernel
/-- src/segment/stride.rs 469 -/
example : strideTest (0) (0) (1) (1) (bytes! "abc") [seg 0 1, seg 1 2, seg 2 3] = true := by decide +kernel
/-- src/segment/stride.rs 476 -/
example : strideTest (0) (0) (1) (1) (bytes! "") [] = true := by decide +kernel
/-- src/segment/stride.rs 477 -/
example : strideTest (0) (0) (1) (10) (bytes! "abc") [] = true := by decide +kernel
/-- src/segment/stride.rs 478 -/
example : strideTest (0) (0) (10) (10) (bytes! "abc") [] = true := by decide +kernel
/-- src/segment/stride.rs 481 -/
example : strideTest (0) (0) (3) (1) (bytes! "abcdefghij") [seg 0 1, seg 3 4, seg 6 7, seg 9 10] = true := by decide +kernel
/-- src/segment/stride.rs 486 -/
example : strideTest (0) (0) (3) (3) (bytes! "abcdefghij") [seg 0 3, seg 3 6, seg 6 9] = true := by decide +kernel
/-- src/segment/stride.rs 491 -/
example : strideTest (0) (0) (3) (4) (bytes! "abcdefghij") [seg 0 4, seg 3 7, seg 6 10] = true := by decide +kernel
/-- src/segment/stride.rs 498 -/
example : strideTest (2) (0) (3) (2) (bytes! "abcdefghij") [seg 2 4, seg 5 7, seg 8 10] = true := by decide +kernel
/-- src/segment/stride.rs 503 -/
example : strideTest (0) (2) (3) (2) (bytes! "abcdefghij") [seg 0 2, seg 3 5, seg 6 8] = true := by decide +kernel
/-- src/segment/stride.rs 508 -/
example : strideTest (3) (0) (3) (2) (bytes! "abcdefghij") [seg 3 5, seg 6 8] = true := by decide +kernel
/-- src/segment/stride.rs 509 -/
example : strideTest (0) (3) (3) (2) (bytes! "abcdefghij") [seg 0 2, seg 3 5] = true := by decide +kernel
/-- src/segment/stride.rs 510 -/
example : strideTest (2) (0) (3) (4) (bytes! "abcdefghij") [seg 2 6, seg 5 9] = true := by decide +kernel
/-- src/segment/stride.rs 511 -/
example : strideTest (0) (2) (3) (4) (bytes! "abcdefghij") [seg 0 4, seg 3 7] = true := by decide +kernel
/-- src/segment/stride.rs 514 -/
example : strideTest (-1) (0) (3) (2) (bytes! "abcdefghij") [seg 0 1, seg 2 4, seg 5 7, seg 8 10] = true := by decide +kernel
/-- src/segment/stride.rs 519 -/
example : strideTest (0) (-1) (3) (2) (bytes! "abcdefghij") [seg 0 2, seg 3 5, seg 6 8, seg 9 10] = true := by decide +kernel
/-- src/segment/stride.rs 524 -/
example : strideTest (-2) (0) (3) (4) (bytes! "abcdefghij") [seg 0 2, seg 1 5, seg 4 8] = true := by decide +kernel
/-- src/segment/stride.rs 529 -/
example : strideTest (-3) (0) (3) (4) (bytes! "abcdefghij") [seg 0 1, seg 0 4, seg 3 7, seg 6 10] = true := by decide +kernel
/-- src/segment/stride.rs 534 -/
example : strideTest (-2) (-1) (3) (4) (bytes! "abcdefghij") [seg 0 2, seg 1 5, seg 4 8, seg 7 10] = true := by decide +kernel
/-- src/segment/stride.rs 539 -/
example : strideTest (-2) (-2) (3) (5) (bytes! "abcdefghij") [seg 0 3, seg 1 6, seg 4 9, seg 7 10] = true := by decide +kernel
/-- src/segment/stride.rs 544 -/
example : strideTest (-2) (-2) (5) (3) (bytes! "abcdefghij") [seg 0 1, seg 3 6, seg 8 10] = true := by decide +kernel
/-- src/segment/stride.rs 551 -/
example : strideTest (2) (-2) (3) (4) (bytes! "abcdefghij") [seg 2 6, seg 5 9, seg 8 10] = true := by decide +kernel
/-- src/segment/stride.rs 556 -/
example : strideTest (-2) (2) (3) (4) (bytes! "abcdefghij") [seg 0 2, seg 1 5, seg 4 8] = true := by decide +kernel
/-- src/segment/stride.rs 563 -/
example : strideTest (10) (0) (3) (4) (bytes! "abcdefghij") [] = true := by decide +kernel
/-- src/segment/stride.rs 564 -/
example : strideTest (10) (-2) (3) (4) (bytes! "abcdefghij") [] = true := by decide +kernel
/-- src/segment/stride.rs 565 -/
example : strideTest (100) (0) (3) (4) (bytes! "abcdefghij") [] = true := by decide +kernel
/-- src/segment/stride.rs 566 -/
example : strideTest (100) (-2) (3) (4) (bytes! "abcdefghij") [] = true := by decide +kernel
/-- src/segment/stride.rs 567 -/
example : strideTest (0) (10) (3) (4) (bytes! "abcdefghij") [] = true := by decide +kernel
/-- src/segment/stride.rs 568 -/
example : strideTest (-2) (12) (3) (4) (bytes! "abcdefghij") [] = true := by decide +kernel
/-- src/segment/stride.rs 569 -/
example : strideTest (0) (100) (3) (4) (bytes! "abcdefghij") [] = true := by decide +kernel
/-- src/segment/stride.rs 570 -/
example : strideTest (-2) (100) (3) (4) (bytes! "abcdefghij") [] = true := by decide +kernel

/-! ## `src/segment/range.rs` -/

/-- src/segment/range.rs 183 -/
example : rangeTest (chars! "..") (bytes! "") [] = true := by decide +kernel
/-- src/segment/range.rs 184 -/
example : rangeTest (chars! "..") (bytes! "abcdefghijklmnopqrstu") [seg 0 21] = true := by decide +kernel
/-- src/segment/range.rs 185 -/
example : rangeTest (chars! "s - 4..e + 4") (bytes! "abcdefghijklmnopqrstu") [seg 0 21] = true := by decide +kernel
/-- src/segment/range.rs 187 -/
example : rangeTest (chars! "..,") (bytes! "") [] = true := by decide +kernel
/-- src/segment/range.rs 188 -/
example : rangeTest (chars! "..,") (bytes! "abcdefghijklmnopqrstu") [seg 0 21] = true := by decide +kernel
/-- src/segment/range.rs 189 -/
example : rangeTest (chars! "s - 4..e + 4,") (bytes! "abcdefghijklmnopqrstu") [seg 0 21] = true := by decide +kernel
/-- src/segment/range.rs 192 -/
example : rangeTest (chars! "") (bytes! "") [] = true := by decide +kernel
/-- src/segment/range.rs 193 -/
example : rangeTest (chars! "") (bytes! "abcdefghijklmnopqrstu") [] = true := by decide +kernel
/-- src/segment/range.rs 194 -/
example : rangeTest (chars! "s..s") (bytes! "abcdefghijklmnopqrstu") [] = true := by decide +kernel
/-- src/segment/range.rs 195 -/
example : rangeTest (chars! "e..e") (bytes! "abcdefghijklmnopqrstu") [] = true := by decide +kernel
/-- src/segment/range.rs 198 -/
example : rangeTest (chars! "s + 3..s + 5") (bytes! "abcdefghijklmnopqrstu") [seg 3 5] = true := by decide +kernel
/-- src/segment/range.rs 199 -/
example : rangeTest (chars! "s..s + 1, s + 5..s + 8, s + 10..s + 16") (bytes! "abcdefghijklmnopqrstu") [seg 0 1, seg 5 8, seg 10 16] = true := by decide +kernel
/-- src/segment/range.rs 206 -/
example : rangeTest (chars! "s..s + 10, s + 5..s + 18, s + 10..s + 16") (bytes! "abcdefghijklmnopqrstu") [seg 0 10, seg 5 18, seg 10 16] = true := by decide +kernel
/-- src/segment/range.rs 211 -/
example : rangeTest (chars! "s..s + 30, s + 5..s + 8, s + 10..s + 20, s + 15..s + 21") (bytes! "abcdefghijklmnopqrstu") [seg 0 21, seg 5 8, seg 10 20, seg 15 21] = true := by decide +kernel
/-- src/segment/range.rs 218 -/
example : rangeTest (chars! "s..s + 10, s + 5..e") (bytes! "abcdefghijklmnopqrstu") [seg 0 10, seg 5 21] = true := by decide +kernel
/-- src/segment/range.rs 223 -/
example : rangeTest (chars! "s..s + 10, e - 10..e") (bytes! "abcdefghijklmnopqrstu") [seg 0 10, seg 11 21] = true := by decide +kernel
/-- src/segment/range.rs 228 -/
example : rangeTest (chars! "e - 18..s + 10, e - 10..e") (bytes! "abcdefghijklmnopqrstu") [seg 3 10, seg 11 21] = true := by decide +kernel
/-- src/segment/range.rs 233 -/
example : rangeTest (chars! "e - 18..e - 10, s + 10..e") (bytes! "abcdefghijklmnopqrstu") [seg 3 11, seg 10 21] = true := by decide +kernel
/-- src/segment/range.rs 238 -/
example : rangeTest (chars! "e - 18..e - 10, e - 11..s + 16") (bytes! "abcdefghijklmnopqrstu") [seg 3 11, seg 10 16] = true := by decide +kernel
/-- src/segment/range.rs 243 -/
example : rangeTest (chars! "s..s + 23, e - 28..e") (bytes! "abcdefghijklmnopqrstu") [seg 0 21] = true := by decide +kernel

/-! ## `src/segment/exact.rs` -/

/-- src/segment/exact.rs 108 -/
example : exactTest (bytes! "") (bytes! "") [] = true := by decide +kernel
/-- src/segment/exact.rs 109 -/
example : exactTest (bytes! "") (bytes! "abcdefghijklmnopqrstu") [] = true := by decide +kernel
/-- src/segment/exact.rs 112 -/
example : exactTest (bytes! "61") (bytes! "abcdefghijklmnopqrstu") [seg 0 1] = true := by decide +kernel
/-- src/segment/exact.rs 113 -/
example : exactTest (bytes! "70") (bytes! "abcdefghijklmnopqrstu") [seg 15 16] = true := by decide +kernel
/-- src/segment/exact.rs 116 -/
example : exactTest (bytes! "61 62 63 64 65") (bytes! "abcdefghijklmnopqrstu") [seg 0 5] = true := by decide +kernel
/-- src/segment/exact.rs 117 -/
example : exactTest (bytes! "70 71 72") (bytes! "abcdefghijklmnopqrstu") [seg 15 18] = true := by decide +kernel
/-- src/segment/exact.rs 120 -/
example : exactTest (bytes! "61 62 63 65 64") (bytes! "abcdefghijklmnopqrstu") [] = true := by decide +kernel
/-- src/segment/exact.rs 121 -/
example : exactTest (bytes! "70 71 52") (bytes! "abcdefghijklmnopqrstu") [] = true := by decide +kernel
/-- src/segment/exact.rs 124 -/
example : exactTest (bytes! "70 70 69") (bytes! "mississippi, mississippi, and mississippi") [seg 8 11, seg 21 24, seg 38 41] = true := by decide +kernel
/-- src/segment/exact.rs 129 -/
example : exactTest (bytes! "73 73 69") (bytes! "mississippi, mississippi, and mississippi") [seg 2 5, seg 5 8, seg 15 18, seg 18 21, seg 32 35, seg 35 38] = true := by decide +kernel

/-! ## `src/segment/bridge.rs` -/

/-- src/segment/bridge.rs 197 -/
example : bridgeTest 4 2 (chars! "s..e") (bytes! "abcdefghijklmnopqrstu") [seg 0 3, seg 5 7, seg 9 11, seg 13 15, seg 17 21] = true := by decide +kernel
/-- src/segment/bridge.rs 209 -/
example : bridgeTest 4 2 (chars! "s - 1..e") (bytes! "abcdefghijklmnopqrstu") [seg 0 3, seg 4 7, seg 8 11, seg 12 15, seg 16 21] = true := by decide +kernel
/-- src/segment/bridge.rs 221 -/
example : bridgeTest 4 2 (chars! "s..e + 1") (bytes! "abcdefghijklmnopqrstu") [seg 0 4, seg 5 8, seg 9 12, seg 13 16, seg 17 21] = true := by decide +kernel
/-- src/segment/bridge.rs 233 -/
example : bridgeTest 4 2 (chars! "s - 2..e + 2") (bytes! "abcdefghijklmnopqrstu") [seg 0 5, seg 3 9, seg 7 13, seg 11 17, seg 15 21] = true := by decide +kernel
/-- src/segment/bridge.rs 245 -/
example : bridgeTest 4 4 (chars! "s..e") (bytes! "abcdefghijklmnopqrstu") [seg 0 3, seg 15 21] = true := by decide +kernel
/-- src/segment/bridge.rs 250 -/
example : bridgeTest 4 6 (chars! "s..e") (bytes! "abcdefghijklmnopqrstu") [seg 0 3, seg 17 21] = true := by decide +kernel
/-- src/segment/bridge.rs 260 -/
example : bridgeTest 4 2 (chars! "e..s") (bytes! "abcdefghijklmnopqrstu") [] = true := by decide +kernel
/-- src/segment/bridge.rs 263 -/
example : bridgeTest 4 2 (chars! "e - 2..s + 2") (bytes! "abcdefghijklmnopqrstu") [seg 1 2, seg 5 7, seg 9 11, seg 13 15] = true := by decide +kernel
/-- src/segment/bridge.rs 268 -/
example : bridgeTest 4 2 (chars! "e - 2..s + 3") (bytes! "abcdefghijklmnopqrstu") [seg 1 3, seg 5 8, seg 9 12, seg 13 16, seg 19 20] = true := by decide +kernel
/-- src/segment/bridge.rs 273 -/
example : bridgeTest 4 2 (chars! "e - 4..s + 2") (bytes! "abcdefghijklmnopqrstu") [seg 0 2, seg 3 7, seg 7 11, seg 11 15, seg 17 19] = true := by decide +kernel
/-- src/segment/bridge.rs 286 -/
example : bridgeTest 4 2 (chars! "..1") (bytes! "abcdefghijklmnopqrstu") [seg 0 1, seg 5 6, seg 9 10, seg 13 14, seg 17 18] = true := by decide +kernel
/-- src/segment/bridge.rs 291 -/
example : bridgeTest 4 2 (chars! "s..1") (bytes! "abcdefghijklmnopqrstu") [seg 0 1, seg 5 6, seg 9 10, seg 13 14, seg 17 18] = true := by decide +kernel
/-- src/segment/bridge.rs 296 -/
example : bridgeTest 4 2 (chars! "s..s + 1") (bytes! "abcdefghijklmnopqrstu") [seg 0 1, seg 5 6, seg 9 10, seg 13 14, seg 17 18] = true := by decide +kernel
/-- src/segment/bridge.rs 301 -/
example : bridgeTest 4 2 (chars! "..11") (bytes! "abcdefghijklmnopqrstu") [seg 0 11, seg 5 16, seg 9 20, seg 13 21, seg 17 21] = true := by decide +kernel
/-- src/segment/bridge.rs 313 -/
example : bridgeTest 4 2 (chars! "e - 1..") (bytes! "abcdefghijklmnopqrstu") [seg 2 3, seg 6 7, seg 10 11, seg 14 15, seg 20 21] = true := by decide +kernel
/-- src/segment/bridge.rs 324 -/
example : bridgeTest 4 2 (chars! "e - 1..e") (bytes! "abcdefghijklmnopqrstu") [seg 2 3, seg 6 7, seg 10 11, seg 14 15, seg 20 21] = true := by decide +kernel
/-- src/segment/bridge.rs 335 -/
example : bridgeTest 4 2 (chars! "e - 11..e") (bytes! "abcdefghijklmnopqrstu") [seg 0 3, seg 0 7, seg 0 11, seg 4 15, seg 10 21] = true := by decide +kernel
/-- src/segment/bridge.rs 342 -/
example : bridgeTest 4 2 (chars! "s - 1..e, s..e + 1") (bytes! "abcdefghijklmnopqrstu") [seg 0 3, seg 0 4, seg 4 7, seg 5 8, seg 8 11, seg 9 12, seg 12 15, seg 13 16, seg 16 21, seg 17 21] = true := by decide +kernel

/-! ## `src/segment/extend.rs` -/

/-- src/segment/extend.rs 202 -/
example : extendTest 4 2 (chars! "..") (bytes! "abcdefghijklmnopqrstu") [seg 3 5, seg 7 9, seg 11 13, seg 15 17] = true := by decide +kernel
/-- src/segment/extend.rs 214 -/
example : extendTest 4 2 (chars! "s..e") (bytes! "abcdefghijklmnopqrstu") [seg 3 5, seg 7 9, seg 11 13, seg 15 17] = true := by decide +kernel
/-- src/segment/extend.rs 225 -/
example : extendTest 4 2 (chars! "s+0..e+0") (bytes! "abcdefghijklmnopqrstu") [seg 3 5, seg 7 9, seg 11 13, seg 15 17] = true := by decide +kernel
/-- src/segment/extend.rs 237 -/
example : extendTest 4 2 (chars! "s + 1..e") (bytes! "abcdefghijklmnopqrstu") [seg 4 5, seg 8 9, seg 12 13, seg 16 17] = true := by decide +kernel
/-- src/segment/extend.rs 248 -/
example : extendTest 4 2 (chars! "s..e - 1") (bytes! "abcdefghijklmnopqrstu") [seg 3 4, seg 7 8, seg 11 12, seg 15 16] = true := by decide +kernel
/-- src/segment/extend.rs 260 -/
example : extendTest 4 2 (chars! "s + 1..e - 1") (bytes! "abcdefghijklmnopqrstu") [] = true := by decide +kernel
/-- src/segment/extend.rs 268 -/
example : extendTest 4 2 (chars! "e..s") (bytes! "abcdefghijklmnopqrstu") [] = true := by decide +kernel
/-- src/segment/extend.rs 271 -/
example : extendTest 4 2 (chars! "e - 2..s + 2") (bytes! "abcdefghijklmnopqrstu") [seg 3 5, seg 7 9, seg 11 13, seg 15 17] = true := by decide +kernel
/-- src/segment/extend.rs 282 -/
example : extendTest 4 2 (chars! "e - 4..s + 4") (bytes! "abcdefghijklmnopqrstu") [seg 1 7, seg 5 11, seg 9 15, seg 13 19] = true := by decide +kernel
/-- src/segment/extend.rs 294 -/
example : extendTest 4 2 (chars! "..5") (bytes! "abcdefghijklmnopqrstu") [seg 3 8, seg 7 12, seg 11 16, seg 15 20] = true := by decide +kernel
/-- src/segment/extend.rs 299 -/
example : extendTest 4 2 (chars! "-5..0") (bytes! "abcdefghijklmnopqrstu") [seg 0 3, seg 2 7, seg 6 11, seg 10 15] = true := by decide +kernel
/-- src/segment/extend.rs 305 -/
example : extendTest 4 2 (chars! "s..s + 5") (bytes! "abcdefghijklmnopqrstu") [seg 3 8, seg 7 12, seg 11 16, seg 15 20] = true := by decide +kernel
/-- src/segment/extend.rs 310 -/
example : extendTest 4 2 (chars! "s - 5..s") (bytes! "abcdefghijklmnopqrstu") [seg 0 3, seg 2 7, seg 6 11, seg 10 15] = true := by decide +kernel
/-- src/segment/extend.rs 327 -/
example : extendTest 4 2 (chars! "e..e + 5") (bytes! "abcdefghijklmnopqrstu") [seg 5 10, seg 9 14, seg 13 18, seg 17 21] = true := by decide +kernel
/-- src/segment/extend.rs 332 -/
example : extendTest 4 2 (chars! "e - 5..e") (bytes! "abcdefghijklmnopqrstu") [seg 0 5, seg 4 9, seg 8 13, seg 12 17] = true := by decide +kernel
/-- src/segment/extend.rs 350 -/
example : extendTest 4 2 (chars! "s..e - 1, s + 1..e") (bytes! "abcdefghijklmnopqrstu") [seg 3 4, seg 4 5, seg 7 8, seg 8 9, seg 11 12, seg 12 13, seg 15 16, seg 16 17] = true := by decide +kernel

/-! ## `src/segment/filter.rs` -/

/-- src/segment/filter.rs 215 -/
example : filterTest (chars! "..") (bytes! "") [] = true := by decide +kernel
/-- src/segment/filter.rs 216 -/
example : filterTest (chars! "..") (bytes! "abcdefghijklmnopqrstu") [seg 3 5, seg 7 9, seg 11 13, seg 15 17] = true := by decide +kernel
/-- src/segment/filter.rs 221 -/
example : filterTest (chars! "s - 4..e + 4") (bytes! "abcdefghijklmnopqrstu") [seg 3 5, seg 7 9, seg 11 13, seg 15 17] = true := by decide +kernel
/-- src/segment/filter.rs 228 -/
example : filterTest (chars! "..,") (bytes! "abcdefghijklmnopqrstu") [seg 3 5, seg 7 9, seg 11 13, seg 15 17] = true := by decide +kernel
/-- src/segment/filter.rs 235 -/
example : filterTest (chars! "") (bytes! "") [] = true := by decide +kernel
/-- src/segment/filter.rs 236 -/
example : filterTest (chars! "") (bytes! "abcdefghijklmnopqrstu") [] = true := by decide +kernel
/-- src/segment/filter.rs 237 -/
example : filterTest (chars! "s..s") (bytes! "abcdefghijklmnopqrstu") [] = true := by decide +kernel
/-- src/segment/filter.rs 238 -/
example : filterTest (chars! "e..e") (bytes! "abcdefghijklmnopqrstu") [] = true := by decide +kernel
/-- src/segment/filter.rs 239 -/
example : filterTest (chars! "s..s,") (bytes! "abcdefghijklmnopqrstu") [] = true := by decide +kernel
/-- src/segment/filter.rs 240 -/
example : filterTest (chars! "e..e,") (bytes! "abcdefghijklmnopqrstu") [] = true := by decide +kernel
/-- src/segment/filter.rs 243 -/
example : filterTest (chars! "s..s + 1") (bytes! "abcdefghijklmnopqrstu") [seg 3 5] = true := by decide +kernel
/-- src/segment/filter.rs 244 -/
example : filterTest (chars! "s..s + 1, s + 2..s + 3, s + 3..s + 4") (bytes! "abcdefghijklmnopqrstu") [seg 3 5, seg 11 13, seg 15 17] = true := by decide +kernel
/-- src/segment/filter.rs 251 -/
example : filterTest (chars! "s..s + 3, s + 1..s + 3, s + 2..s + 4, s + 3..s + 5") (bytes! "abcdefghijklmnopqrstu") [seg 3 5, seg 7 9, seg 11 13, seg 15 17] = true := by decide +kernel
/-- src/segment/filter.rs 256 -/
example : filterTest (chars! "s + 2..s + 4, s + 3..s + 5, s..s + 3, s + 1..s + 3") (bytes! "abcdefghijklmnopqrstu") [seg 3 5, seg 7 9, seg 11 13, seg 15 17] = true := by decide +kernel
/-- src/segment/filter.rs 263 -/
example : filterTest (chars! "s..s + 1, s + 3..e") (bytes! "abcdefghijklmnopqrstu") [seg 3 5, seg 15 17] = true := by decide +kernel
/-- src/segment/filter.rs 268 -/
example : filterTest (chars! "s..s + 1, e - 1..e") (bytes! "abcdefghijklmnopqrstu") [seg 3 5, seg 15 17] = true := by decide +kernel
/-- src/segment/filter.rs 273 -/
example : filterTest (chars! "e - 4..s + 1, e - 1..e") (bytes! "abcdefghijklmnopqrstu") [seg 3 5, seg 15 17] = true := by decide +kernel
/-- src/segment/filter.rs 278 -/
example : filterTest (chars! "e - 4..e - 3, s + 3..e") (bytes! "abcdefghijklmnopqrstu") [seg 3 5, seg 15 17] = true := by decide +kernel
/-- src/segment/filter.rs 283 -/
example : filterTest (chars! "e - 4..e - 3, e - 1..s + 4") (bytes! "abcdefghijklmnopqrstu") [seg 3 5, seg 15 17] = true := by decide +kernel
/-- src/segment/filter.rs 288 -/
example : filterTest (chars! "s..s + 3, e - 2..e") (bytes! "abcdefghijklmnopqrstu") [seg 3 5, seg 7 9, seg 11 13, seg 15 17] = true := by decide +kernel

/-! ## `src/segment/merge.rs` -/

/-- src/segment/merge.rs 238 -/
example : mergeTest 4 2 0 (bytes! "abcdefghijklmnopqrstu") [seg 3 5, seg 7 9, seg 11 13, seg 15 17] = true := by decide +kernel
/-- src/segment/merge.rs 249 -/
example : mergeTest 4 4 0 (bytes! "abcdefghijklmnopqrstu") [seg 3 15] = true := by decide +kernel
/-- src/segment/merge.rs 252 -/
example : mergeTest 4 6 0 (bytes! "abcdefghijklmnopqrstu") [seg 3 17] = true := by decide +kernel
/-- src/segment/merge.rs 256 -/
example : mergeTest 4 2 2 (bytes! "abcdefghijklmnopqrstu") [seg 3 17] = true := by decide +kernel
/-- src/segment/merge.rs 259 -/
example : mergeTest 4 4 2 (bytes! "abcdefghijklmnopqrstu") [seg 3 15] = true := by decide +kernel
/-- src/segment/merge.rs 262 -/
example : mergeTest 4 6 2 (bytes! "abcdefghijklmnopqrstu") [seg 3 17] = true := by decide +kernel
/-- src/segment/merge.rs 266 -/
example : mergeTest 4 2 usizeMax (bytes! "abcdefghijklmnopqrstu") [seg 3 17] = true := by decide +kernel
/-- src/segment/merge.rs 269 -/
example : mergeTest 4 4 usizeMax (bytes! "abcdefghijklmnopqrstu") [seg 3 15] = true := by decide +kernel
/-- src/segment/merge.rs 272 -/
example : mergeTest 4 6 usizeMax (bytes! "abcdefghijklmnopqrstu") [seg 3 17] = true := by decide +kernel

/-! ## `src/segment/walk.rs` -/

/-- src/segment/walk.rs 215 -/
example : walkTest (chars! "b[0]") (bytes! "") [] = true := by decide +kernel
/-- src/segment/walk.rs 216 -/
example : walkTest (chars! "b[0]") ([1]) [seg 0 1] = true := by decide +kernel
/-- src/segment/walk.rs 217 -/
example : walkTest (chars! "b[0] + 1") ([0]) [seg 0 1] = true := by decide +kernel
/-- src/segment/walk.rs 220 -/
example : walkTest (chars! "b[0]") ([1, 2, 10, 1, 1]) [seg 0 1, seg 1 3, seg 3 4, seg 4 5] = true := by decide +kernel
/-- src/segment/walk.rs 227 -/
example : walkTest (chars! "h[0]") ([2, 0, 4, 0, 0, 0]) [seg 0 2, seg 2 6] = true := by decide +kernel
/-- src/segment/walk.rs 228 -/
example : walkTest (chars! "i[0]") ([4, 0, 0, 0, 4, 0, 0, 0]) [seg 0 4, seg 4 8] = true := by decide +kernel
/-- src/segment/walk.rs 229 -/
example : walkTest (chars! "l[0]") ([8, 0, 0, 0, 0, 0, 0, 0]) [seg 0 8] = true := by decide +kernel
/-- src/segment/walk.rs 232 -/
example : walkTest (chars! "l[0] & 0xff") ([8, 0, 1, 2, 3, 4, 5, 6]) [seg 0 8] = true := by decide +kernel
/-- src/segment/walk.rs 233 -/
example : walkTest (chars! "b[0] + 1") ([0, 3, 0, 0, 0]) [seg 0 1, seg 1 5] = true := by decide +kernel
/-- src/segment/walk.rs 234 -/
example : walkTest (chars! "2 * b[0]") ([2, 0, 0, 0, 1, 1]) [seg 0 4, seg 4 6] = true := by decide +kernel
/-- src/segment/walk.rs 237 -/
example : walkTest (chars! "b[0], b[1]") ([1, 1]) [seg 0 1, seg 1 2] = true := by decide +kernel
/-- src/segment/walk.rs 238 -/
example : walkTest (chars! "b[0], b[1]") ([1, 3, 0, 0, 2, 1, 0]) [seg 0 1, seg 1 4, seg 4 6, seg 6 7] = true := by decide +kernel

end Nd.Conformance
