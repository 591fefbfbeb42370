import Verif.Conformance.UnitSegment
/-!
# The unit tests of `src/segment` on guided slices, and those of `regex.rs`

The long tests of `extend.rs`, `bridge.rs` and `merge.rs`, and those of `guided.rs`.  Contents longer than 2000 bytes are left out.
-/
namespace Nd.Conformance

/-- `repeat_pattern` (`src/segment/extend.rs`, `src/segment/bridge.rs`, `src/segment/merge.rs`); `fuse` joins the last and the first slice if they touch. -/
def repeatPattern (fuse : Bool) (pattern : List Seg) (pitch rep : Nat) : List Seg :=
  (List.range rep).foldl (fun v i =>
    let ps := pattern.map fun p => (⟨p.pos + i * pitch, p.len⟩ : Seg)
    match fuse, v.getLast?, ps with
    | true, some last, p :: rest => if last.tail = p.pos then v.dropLast ++ [⟨last.pos, p.tail - last.pos⟩] ++ rest else v ++ ps
    | _, _, _ => v ++ ps) []

/-- `gen_guide`: `{:x} {:x} | \n` -/
def guideText (v : List Seg) : Bytes :=
  v.flatMap fun x => (Nat.toDigits 16 x.pos ++ [' '] ++ Nat.toDigits 16 x.len ++ (chars! " | \n")).map fun c => c.toNat.toUInt8

/-- Guided slices of a random source. -/
abbrev guidedSrc : SegSrc (GuidedSlicer MockSource MockSource) :=
  GuidedSlicer.segSrc (mockSrc testBlock) (TextParser.recSrc .portable (mockSrc testBlock) testBlock 3000 .hex .hex) testBlock 3000

/-- Random contents. -/
def randomContent (n : Nat) : Bytes :=
  ((List.range n).foldl (fun (acc : Nat × List UInt8) _ => (rngNext acc.1, (acc.1 / 1024).toUInt8 :: acc.2)) (77, [])).2

/-- The three tests of a stream of slices made from guided slices. -/
def guidedTest (S : SegSrc σ) (make : GuidedSlicer MockSource MockSource → σ) (v : Bytes) (guide expected : List Seg) : Bool :=
  [1].all fun seed =>
    let s := make (GuidedSlicer.new (MockSource.new v seed) (MockSource.new (guideText guide) (seed + 1000)))
    segmentAllAtOnce S v expected 200 s && segmentRandomLen S v expected 2000 (rngNext (seed + 10)) s {} && segmentOccasional S v expected 2000 (rngNext (seed + 20)) s {}

/-- `test_long_impl!` -/
def longTest (S : SegSrc σ) (make : GuidedSlicer MockSource MockSource → σ) (fuse : Bool) (pattern expected : List Seg) : Bool :=
  guidedTest S make (randomContent 2000) (repeatPattern fuse pattern 1000 2) (repeatPattern fuse expected 1000 2)

/-- The long tests of `src/segment/extend.rs` -/
def extendLong (exprs : List Char) (pattern expected : List Seg) : Bool :=
  match parseMappers exprs with
  | .error _ => false
  | .ok ms => longTest (MapStream.segSrc guidedSrc (Extend.ops ms)) Extend.new true pattern expected

/-- The long tests of `src/segment/bridge.rs` -/
def bridgeLong (exprs : List Char) (pattern expected : List Seg) : Bool :=
  match parseMappers exprs with
  | .error _ => false
  | .ok ms => longTest (MapStream.segSrc guidedSrc (Bridge.ops ms)) Bridge.new true pattern expected

/-- The long tests of `src/segment/merge.rs` -/
def mergeLong (thresh : Nat) (pattern expected : List Seg) : Bool := longTest (MergeStream.segSrc guidedSrc) (fun s => MergeStream.new s thresh) false pattern expected

/-- The pattern of the long tests -/
def pattern1 : List Seg := [seg 100 220, seg 200 300, seg 300 450, seg 400 410, seg 500 600, seg 700 810, seg 800 900]

/-- The second pattern of `extend.rs` -/
def pattern2 : List Seg := [seg 100 700, seg 200 600, seg 300 550, seg 400 510, seg 500 550, seg 600 810, seg 700 800, seg 800 900]

/-! ## `src/segment/extend.rs` -/

example : extendLong (chars! "s..e") pattern1 pattern1 = true := by decide +kernel
example : extendLong (chars! "s - 10..e + 10") pattern1 [seg 90 230, seg 190 310, seg 290 460, seg 390 420, seg 490 610, seg 690 820, seg 790 910] = true := by decide +kernel
example : extendLong (chars! "s + 10..e - 10") pattern1 [seg 110 210, seg 210 290, seg 310 440, seg 510 590, seg 710 800, seg 810 890] = true := by decide +kernel
example : extendLong (chars! "e..s") pattern1 [] = true := by decide +kernel
example : extendLong (chars! "e - 50..s + 50") pattern1 [seg 360 450] = true := by decide +kernel
example : extendLong (chars! "e - 300..s + 150") pattern2 [seg 210 550, seg 250 450, seg 250 650, seg 300 350, seg 500 850, seg 510 750, seg 600 950] = true := by decide +kernel

/-! ## `src/segment/bridge.rs` -/

example : bridgeLong (chars! "s..e") pattern1 [seg 0 100, seg 450 500, seg 600 700, seg 900 1000] = true := by decide +kernel
example : bridgeLong (chars! "s - 10..e + 10") pattern1 [seg 0 110, seg 440 510, seg 590 710, seg 890 1000] = true := by decide +kernel
example : bridgeLong (chars! "e..s") pattern1 [] = true := by decide +kernel
example : bridgeLong (chars! "e - 50..s + 50") pattern1 [seg 450 500] = true := by decide +kernel

/-! ## `src/segment/merge.rs` -/

example : mergeLong 0 pattern1 [seg 100 450, seg 500 600, seg 700 900] = true := by decide +kernel
example : mergeLong 49 pattern1 [seg 100 450, seg 500 600, seg 700 900] = true := by decide +kernel
example : mergeLong 50 pattern1 [seg 100 600, seg 700 900] = true := by decide +kernel
example : mergeLong 99 pattern1 [seg 100 600, seg 700 900] = true := by decide +kernel
example : mergeLong 100 pattern1 [seg 100 900] = true := by decide +kernel

/-! ## `src/segment/guided.rs` -/

/-- `gen_guide` (`src/segment/guided.rs` 118-147) -/
def randomGuide (maxLen maxCount : Nat) : List Seg :=
  let bound := min 1024 ((maxLen + 1) / 2)
  ((List.range maxCount).foldl (fun (acc : Nat × Nat × List Seg × Bool) _ =>
    let (rng, offset, v, done) := acc
    let offset' := offset + genRange rng 0 (bound - 1)
    if done ∨ offset' ≥ maxLen then (rng, offset, v, true)
    else (rngNext (rngNext rng), offset', v ++ [⟨offset', min (genRange (rngNext rng) 0 (bound - 1)) (maxLen - offset')⟩], false)) (rngNext 3, 0, [], false)).2.2.1

example : guidedTest guidedSrc id [] (randomGuide 0 0) (randomGuide 0 0) = true := by decide +kernel
example : guidedTest guidedSrc id (randomContent 10) (randomGuide 10 0) (randomGuide 10 0) = true := by decide +kernel
example : guidedTest guidedSrc id (randomContent 10) (randomGuide 10 1) (randomGuide 10 1) = true := by decide +kernel
example : guidedTest guidedSrc id (randomContent 1000) (randomGuide 1000 0) (randomGuide 1000 0) = true := by decide +kernel
example : guidedTest guidedSrc id (randomContent 1000) (randomGuide 1000 1000) (randomGuide 1000 1000) = true := by decide +kernel

/-! ## `src/segment/regex.rs`

The matches of the crate `regex` are given by hand for the expressions of the tests. -/

/-- A literal: the matches from left to right that do not overlap. -/
def literal (t : Bytes) : Nat → Nat → Bytes → List Seg
  | 0, _, _ => []
  | fuel + 1, i, b =>
    match b with
    | [] => []
    | c :: cs => if t.isPrefixOf (c :: cs) then ⟨i, t.length⟩ :: literal t fuel (i + t.length) ((c :: cs).drop t.length) else literal t fuel (i + 1) cs

/-- `^` and a literal. -/
def anchored (t b : Bytes) : List Seg := if t.isPrefixOf b then [⟨0, t.length⟩] else []

/-- `a+` -/
def runs : Nat → Nat → Bytes → List Seg
  | 0, _, _ => []
  | fuel + 1, i, b =>
    let n := (b.takeWhile (· == 97)).length
    if b = [] then [] else if n = 0 then runs fuel (i + 1) (b.drop 1) else ⟨i, n⟩ :: runs fuel (i + n) (b.drop n)

/-- `a.+c`, greedy: from the first `a` to the last `c`. -/
def greedy (b : Bytes) : List Seg :=
  let i := (b.takeWhile (· != 97)).length
  let j := b.length - (b.reverse.takeWhile (· != 99)).length
  if i + 3 ≤ j then [⟨i, j - i⟩] else []

/-- `bind!` of `src/segment/regex.rs` -/
def regexTest (find : Bytes → List Seg) : Bytes → List Seg → Bool :=
  sliced (RegexSlicer.segSrc find strideSrc) fun p seed => do return RegexSlicer.new (← stride 0 (-3) 4 6 p seed)

example : regexTest (runs 20 0) (bytes! "aaaaaaaaaa") [seg 0 6, seg 4 10] = true := by decide +kernel
example : regexTest greedy (bytes! "abcabcabca") [seg 0 6, seg 6 9] = true := by decide +kernel
example : regexTest (literal (bytes! "abc") 20 0) (bytes! "abcabcabca") [seg 0 3, seg 3 6, seg 6 9] = true := by decide +kernel
example : regexTest (literal (bytes! "abcabc") 20 0) (bytes! "abcabcabca") [seg 0 6] = true := by decide +kernel
example : regexTest (literal (bytes! "abc") 20 0) (bytes! "abcdefabcd") [seg 0 3, seg 6 9] = true := by decide +kernel
example : regexTest (literal (bytes! "abcd") 20 0) (bytes! "abcdefabcd") [seg 0 4, seg 6 10] = true := by decide +kernel
example : regexTest (literal (bytes! "abcde") 20 0) (bytes! "abcdefabcd") [seg 0 5] = true := by decide +kernel
example : regexTest (anchored (bytes! "abc")) (bytes! "abcdefabcd") [seg 0 3] = true := by decide +kernel
example : regexTest (anchored (bytes! "abc")) (bytes! "abcdabcdab") [seg 0 3, seg 4 7] = true := by decide +kernel
example : regexTest (anchored (bytes! "abc")) (bytes! "cabcabcabc") [seg 4 7] = true := by decide +kernel

end Nd.Conformance
