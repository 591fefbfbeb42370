import Verif.Conformance.Mock
import Verif.Model.SimdFormat
import Verif.Model.Hexdump
/-!
# The unit tests of `src/text`, `src/template.rs`, `src/pipeline.rs`, and of the parameters of `src/segment/stride.rs`

Those of `src/text` are checked in the three builds.
-/
namespace Nd.Conformance

/-- The three builds. -/
def builds : List Impl := [.portable, .avx2, .neon]

/-- `test!` of `test_parse_hex_single_impl` (`src/text/parser/mod.rs` 42-48) -/
def singleTest (input : Bytes) (e : Option (Nat × Nat)) : Bool := builds.all fun I => I.single input == e

/-- `test!` of `test_parse_hex_body_impl` (`src/text/parser/mod.rs` 134-146, 208-220) -/
def bodyTest (tail : Bool) (input expected : Bytes) (counts : Option ((Nat × Nat) × Nat)) : Bool :=
  builds.all fun I =>
    let r := I.body tail (input ++ List.replicate 256 10)
    r.map (fun x => (x.1, x.2.length)) == counts && r.all fun x => x.2 == expected

/-- Reads lines until the end, at most so many (`src/text/parser/mod.rs` 793-796). -/
def readLines (P : RecSrc σ) : Nat → σ → Option (List (Nat × Nat) × Bytes)
  | 0, _ => some ([], [])
  | n + 1, s =>
    match P.read s with
    | .error _ => none
    | .ok (none, _) => some ([], [])
    | .ok (some r, s) => (readLines P n s).map fun x => ((r.offset, r.span) :: x.1, r.data ++ x.2)

/-- A parser of a text in pieces of random lengths, `from_str("xxx")` -/
def lineTest (n : Nat) (input : Bytes) (e : Option (List (Nat × Nat) × Bytes)) : Bool :=
  builds.all fun I => [1, 2].all fun seed => readLines (TextParser.recSrc I (mockSrc testBlock) testBlock 600 .hex .hex) n (MockSource.new input seed) == e

/-- The same in one build, for long lines -/
def longLineTest (I : Impl) (input : Bytes) (e : Option (List (Nat × Nat) × Bytes)) : Bool :=
  readLines (TextParser.recSrc I (mockSrc testBlock) testBlock 600 .hex .hex) 1 (MockSource.new input 1) == e

/-- `rep!` -/
def repeated (x : List α) (n : Nat) : List α := (List.replicate n x).flatten

/-- The first bytes of a memory -/
def front (n : Nat) (m : Option (Nat → Byte)) : Option Bytes := m.map fun v => (List.range n).map v

/-- `test!` of `test_format_hex_single` (`src/text/formatter/hex.rs` 104-115) -/
def formatHexSingle (val width : Nat) (e : Bytes) : Bool :=
  Format.hexSingle val width == e && builds.all fun I => front e.length (Format.single I 256 0 val width fun _ => 0) == some e

/-- `test!` of `test_format_hex_body` (`src/text/formatter/hex.rs` 229-240) -/
def formatHexBody (input e : Bytes) : Bool :=
  Format.hexBody input == e && builds.all fun I => front e.length (Format.body I 65536 0 (input ++ List.replicate 256 0) 0 input.length fun _ => 0) == some e

/-- `test!` of `test_format_mosaic` (`src/text/formatter/hex.rs` 324-335) -/
def formatMosaic (input e : Bytes) : Bool :=
  Format.mosaic input == e && builds.all fun I => front e.length (Format.mosaicAt I 256 0 (input ++ List.replicate 256 0) 0 input.length fun _ => 0) == some e

/-- The formats of the tests of `src/template.rs`, for values that are not negative: `num_runtime_fmt` is given by its values. -/
def testFmts : NumFmts (List Char) where
  parse f := if f ∈ [(chars! ""), (chars! "01d"), (chars! "06x"), (chars! "#"), (chars! "-01d"), (chars! "02x"), (chars! "08x"), (chars! "05d"), (chars! "x"), (chars! "?")] then .ok f else .error .invalid
  fmt f v :=
    let digits := Nat.toDigits (if f.getLast? = some 'x' then 16 else 10) v.toInt.toNat
    let width := if f = chars! "02x" then 2 else if f = chars! "08x" then 8 else if f = chars! "05d" then 5 else 1
    .ok (List.replicate (width - digits.length) '0' ++ digits)

/-- `vars` of the tests of `src/template.rs` -/
def templateVars : Vars := [(['a'], 0, false), (['b'], 1, false), (['c'], 2, false)]

/-- `Template::from_str(…, Some(&vars))` -/
def template (s : List Char) : Option (List (TemplateElement (List Char))) := (Template.fromStr testFmts templateVars s).toOption

/-- `test!` of `test_template_render` (`src/template.rs` 172-179) -/
def renders (s e : List Char) : Bool := (template s).any fun t => (Template.render testFmts (fun id _ => Int64.ofNat id) t).toOption == some e

/-- `test!` of `test_const_slicer_params` (`src/segment/stride.rs` 67-77) -/
def strideParams (pitch : Nat) (mapper : List Char) (margin : Int × Int) (epitch espan : Nat) : Bool :=
  ((SegmentMapper.fromStr mapper).bind (ConstSlicerParams.fromRaw 100 pitch)).toOption == some { head := margin.1, tail := margin.2, pitch := epitch, span := espan }

/-- The inputs of `test_pipeline` (`src/pipeline.rs` 453-459), read in pieces of random lengths -/
def pipelineHost (inputs : List Bytes) (seed : Nat) : Host :=
  { (host none) with
    block := testBlock
    files := fun n => ((["0", "1"].zip inputs).lookup n).map (·, fun i => some (genRange ((List.range i).foldl (fun r _ => rngNext r) (rngNext seed)) 1 (2 * testBlock))) }

/-- `test!` of `test_pipeline` (`src/pipeline.rs` 447-477) -/
def pipelineTest (a : Args) (inputs : List Bytes) (e : Bytes) : Bool :=
  [1, 2].all fun seed => (pipelineHost inputs seed).run { a with inputs := ["0", "1"].take inputs.length } == (e, none)


/-! ## `src/text/parser/mod.rs` -/

example : singleTest (bytes! "                                ") (some (0, 0)) = true := by decide +kernel
example : singleTest (bytes! "4                               ") (some (0x4, 1)) = true := by decide +kernel
example : singleTest (bytes! "012                             ") (some (0x012, 3)) = true := by decide +kernel
example : singleTest (bytes! "abcdef01                        ") (some (0xabcdef01, 8)) = true := by decide +kernel
example : singleTest (bytes! "AbcDef01                        ") (some (0xabcdef01, 8)) = true := by decide +kernel
example : singleTest (bytes! " |                              ") (some (0, 0)) = true := by decide +kernel
example : singleTest (bytes! "f |                             ") (some (0xf, 1)) = true := by decide +kernel
example : singleTest (bytes! "012 |                           ") (some (0x012, 3)) = true := by decide +kernel
example : singleTest (bytes! "abcdef01 |                      ") (some (0xabcdef01, 8)) = true := by decide +kernel
example : singleTest (bytes! "aBcDEF01 |                      ") (some (0xabcdef01, 8)) = true := by decide +kernel
example : singleTest (bytes! "          |                     ") (some (0, 0)) = true := by decide +kernel
example : singleTest (bytes! "E         |                     ") (some (0xe, 1)) = true := by decide +kernel
example : singleTest (bytes! "012                |            ") (some (0x012, 3)) = true := by decide +kernel
example : singleTest (bytes! "abcdef01           |            ") (some (0xabcdef01, 8)) = true := by decide +kernel
example : singleTest (bytes! "\n                               ") (some (0, 0)) = true := by decide +kernel
example : singleTest (bytes! "4\n                              ") (some (4, 1)) = true := by decide +kernel
example : singleTest (bytes! "4\n|                             ") (some (4, 1)) = true := by decide +kernel
example : singleTest (bytes! "4\n |                            ") (some (4, 1)) = true := by decide +kernel
example : singleTest (bytes! "4\n  |                           ") (some (4, 1)) = true := by decide +kernel
example : singleTest (bytes! "abcdef01\n                       ") (some (0xabcdef01, 8)) = true := by decide +kernel
example : singleTest (bytes! "abcdef01 \n                      ") (some (0xabcdef01, 8)) = true := by decide +kernel
example : singleTest (bytes! ":                               ") (some (0, 0)) = true := by decide +kernel
example : singleTest (bytes! "4:                              ") (some (4, 1)) = true := by decide +kernel
example : singleTest (bytes! "4:|                             ") (some (4, 1)) = true := by decide +kernel
example : singleTest (bytes! "4: |                            ") (some (4, 1)) = true := by decide +kernel
example : singleTest (bytes! "4:  |                           ") (some (4, 1)) = true := by decide +kernel
example : singleTest (bytes! "abcdef01:                       ") (some (0xabcdef01, 8)) = true := by decide +kernel
example : singleTest (bytes! "abcdef01 :                      ") (some (0xabcdef01, 8)) = true := by decide +kernel
example : singleTest (bytes! "/bcdef01                        ") none = true := by decide +kernel
example : singleTest (bytes! "abcde;01                        ") none = true := by decide +kernel
example : singleTest (bytes! "abcde@01                        ") none = true := by decide +kernel
example : singleTest (bytes! "abcGef01                        ") none = true := by decide +kernel
example : singleTest (bytes! "abcde@01                        ") none = true := by decide +kernel
example : singleTest (bytes! "abcgef01                        ") none = true := by decide +kernel
example : singleTest (bytes! "abcqef01                        ") none = true := by decide +kernel
example : singleTest (bytes! "`bcdef01                        ") none = true := by decide +kernel
example : singleTest (bytes! "abcde`01                        ") none = true := by decide +kernel
example : singleTest (bytes! "abcde`01                        ") none = true := by decide +kernel
example : singleTest (bytes! "abcGef01                        ") none = true := by decide +kernel
example : singleTest (bytes! "abcde`01                        ") none = true := by decide +kernel
example : singleTest (bytes! "abcgef01                        ") none = true := by decide +kernel
example : singleTest (bytes! "abcqef01                        ") none = true := by decide +kernel
example : singleTest (bytes! "xbcdef01                        ") none = true := by decide +kernel
example : singleTest (bytes! "a-cdef01                        ") none = true := by decide +kernel
example : singleTest (bytes! "abc|ef01                        ") none = true := by decide +kernel
example : singleTest (bytes! "abcdef01|                       ") none = true := by decide +kernel
example : singleTest (bytes! "abcdef01abcdef01abcdef01abcdef01") none = true := by decide +kernel
example : singleTest (bytes! "abcdefxyabcdefxyabcdefxyabcdefxy") none = true := by decide +kernel
example : bodyTest false (bytes! "48 b1\n") [0x48, 0xb1] (some ((5, 5), 2)) = true := by decide +kernel
example : bodyTest false (bytes! "48 b1 \n") [0x48, 0xb1] (some ((6, 6), 2)) = true := by decide +kernel
example : bodyTest false (bytes! "48 b1  \n") [0x48, 0xb1] (some ((7, 7), 2)) = true := by decide +kernel
example : bodyTest false (bytes! "48 b1   \n") [0x48, 0xb1] (some ((8, 8), 2)) = true := by decide +kernel
example : bodyTest false (bytes! "48 b1    \n") [0x48, 0xb1] (some ((9, 9), 2)) = true := by decide +kernel
example : bodyTest false (bytes! "48 b1     \n") [0x48, 0xb1] (some ((10, 10), 2)) = true := by decide +kernel
example : bodyTest false (bytes! "48 b1| H.\n") [0x48, 0xb1] (some ((9, 5), 2)) = true := by decide +kernel
example : bodyTest false (bytes! "48 b1 | H.\n") [0x48, 0xb1] (some ((10, 6), 2)) = true := by decide +kernel
example : bodyTest false (bytes! "48 b1  | H.\n") [0x48, 0xb1] (some ((11, 7), 2)) = true := by decide +kernel
example : bodyTest false (bytes! "48 b1    | H.\n") [0x48, 0xb1] (some ((13, 9), 2)) = true := by decide +kernel
example : bodyTest false (bytes! "48 b1     | H.\n") [0x48, 0xb1] (some ((14, 10), 2)) = true := by decide +kernel
example : bodyTest false (bytes! "48 b1     |                                                                                                   \n") [0x48, 0xb1] (some ((110, 10), 2)) = true := by decide +kernel
example : bodyTest false (bytes! "48 g1 \n") [] none = true := by decide +kernel
example : bodyTest false (bytes! "48 g1    \n") [] none = true := by decide +kernel
example : bodyTest false (bytes! "48 bg | H.\n") [] none = true := by decide +kernel
example : bodyTest false (bytes! "48 bg    | H.\n") [] none = true := by decide +kernel
example : bodyTest false (bytes! "48 b1 e3 9c 98 ac a3 27 c9 65 48 50 2b b7 bb 6b\n") [0x48, 0xb1, 0xe3, 0x9c, 0x98, 0xac, 0xa3, 0x27, 0xc9, 0x65, 0x48, 0x50, 0x2b, 0xb7, 0xbb, 0x6b] (some ((47, 47), 16)) = true := by decide +kernel
example : bodyTest false (bytes! "48 b1 e3 9c 98 ac a3 27 c9 65 48 50 2b b7 bb 6b \n") [0x48, 0xb1, 0xe3, 0x9c, 0x98, 0xac, 0xa3, 0x27, 0xc9, 0x65, 0x48, 0x50, 0x2b, 0xb7, 0xbb, 0x6b] (some ((48, 48), 16)) = true := by decide +kernel
example : bodyTest false (bytes! "48 b1 e3 9c 98 ac a3 27 c9 65 48 50 2b b7 bb 6b  \n") [0x48, 0xb1, 0xe3, 0x9c, 0x98, 0xac, 0xa3, 0x27, 0xc9, 0x65, 0x48, 0x50, 0x2b, 0xb7, 0xbb, 0x6b] (some ((49, 49), 16)) = true := by decide +kernel
example : bodyTest false (bytes! "48 b1 e3 9c 98 ac a3 27 c9 65 48 50 2b b7 bb 6b   \n") [0x48, 0xb1, 0xe3, 0x9c, 0x98, 0xac, 0xa3, 0x27, 0xc9, 0x65, 0x48, 0x50, 0x2b, 0xb7, 0xbb, 0x6b] (some ((50, 50), 16)) = true := by decide +kernel
example : bodyTest false (bytes! "48 b1 e3 9c 98 ac a3 27 c9 65 48 50 2b b7 bb 6b    \n") [0x48, 0xb1, 0xe3, 0x9c, 0x98, 0xac, 0xa3, 0x27, 0xc9, 0x65, 0x48, 0x50, 0x2b, 0xb7, 0xbb, 0x6b] (some ((51, 51), 16)) = true := by decide +kernel
example : bodyTest false (bytes! "48 b1 e3 9c 98 ac a3 27 c9 65 48 50 2b b7 bb 6b     \n") [0x48, 0xb1, 0xe3, 0x9c, 0x98, 0xac, 0xa3, 0x27, 0xc9, 0x65, 0x48, 0x50, 0x2b, 0xb7, 0xbb, 0x6b] (some ((52, 52), 16)) = true := by decide +kernel
example : bodyTest false (bytes! "48 b1 e3 9c 98 ac a3 27 c9 65 48 50 2b b7 bb 6b 48 \n") [0x48, 0xb1, 0xe3, 0x9c, 0x98, 0xac, 0xa3, 0x27, 0xc9, 0x65, 0x48, 0x50, 0x2b, 0xb7, 0xbb, 0x6b, 0x48] (some ((51, 51), 17)) = true := by decide +kernel
example : bodyTest false (bytes! "48 b1 e3 9c 98 ac a3 27 c9 65 48 50 2b b7 bb 6b 48  \n") [0x48, 0xb1, 0xe3, 0x9c, 0x98, 0xac, 0xa3, 0x27, 0xc9, 0x65, 0x48, 0x50, 0x2b, 0xb7, 0xbb, 0x6b, 0x48] (some ((52, 52), 17)) = true := by decide +kernel
example : bodyTest false (bytes! "48 b1 e3 9c 98 ac a3 27 c9 65 48 50 2b b7 bb 6b 48   \n") [0x48, 0xb1, 0xe3, 0x9c, 0x98, 0xac, 0xa3, 0x27, 0xc9, 0x65, 0x48, 0x50, 0x2b, 0xb7, 0xbb, 0x6b, 0x48] (some ((53, 53), 17)) = true := by decide +kernel
example : bodyTest false (bytes! "48 b1 e3 9c 98 ac a3 27 c9 65 48 50 2b b7 bb 6b 48    \n") [0x48, 0xb1, 0xe3, 0x9c, 0x98, 0xac, 0xa3, 0x27, 0xc9, 0x65, 0x48, 0x50, 0x2b, 0xb7, 0xbb, 0x6b, 0x48] (some ((54, 54), 17)) = true := by decide +kernel
example : bodyTest false (bytes! "48 b1 e3 9c 98 ac a3 27 c9 65 48 50 2b b7 bb 6b|H......'.eHP+..k\n") [0x48, 0xb1, 0xe3, 0x9c, 0x98, 0xac, 0xa3, 0x27, 0xc9, 0x65, 0x48, 0x50, 0x2b, 0xb7, 0xbb, 0x6b] (some ((64, 47), 16)) = true := by decide +kernel
example : bodyTest false (bytes! "48 b1 e3 9c 98 ac a3 27 c9 65 48 50 2b b7 bb 6b |H......'.eHP+..k\n") [0x48, 0xb1, 0xe3, 0x9c, 0x98, 0xac, 0xa3, 0x27, 0xc9, 0x65, 0x48, 0x50, 0x2b, 0xb7, 0xbb, 0x6b] (some ((65, 48), 16)) = true := by decide +kernel
example : bodyTest false (bytes! "48 b1 e3 9c 98 ac a3 27 c9 65 48 50 2b b7 bb 6b  |H......'.eHP+..k\n") [0x48, 0xb1, 0xe3, 0x9c, 0x98, 0xac, 0xa3, 0x27, 0xc9, 0x65, 0x48, 0x50, 0x2b, 0xb7, 0xbb, 0x6b] (some ((66, 49), 16)) = true := by decide +kernel
example : bodyTest false (bytes! "48 b1 e3 9c 98 ac a3 27 c9 65 48 50 2b b7 bb 6b   |H......'.eHP+..k\n") [0x48, 0xb1, 0xe3, 0x9c, 0x98, 0xac, 0xa3, 0x27, 0xc9, 0x65, 0x48, 0x50, 0x2b, 0xb7, 0xbb, 0x6b] (some ((67, 50), 16)) = true := by decide +kernel
example : bodyTest false (bytes! "48 b1 e3 9c 98 ac a3 27 c9 65 48 50 2b b7 bb 6b    |H......'.eHP+..k\n") [0x48, 0xb1, 0xe3, 0x9c, 0x98, 0xac, 0xa3, 0x27, 0xc9, 0x65, 0x48, 0x50, 0x2b, 0xb7, 0xbb, 0x6b] (some ((68, 51), 16)) = true := by decide +kernel
example : bodyTest false (bytes! "48 b1 e3 9c 98 ac a3 27 c9 65 48 50 2b b7 bb 6b     |H......'.eHP+..k\n") [0x48, 0xb1, 0xe3, 0x9c, 0x98, 0xac, 0xa3, 0x27, 0xc9, 0x65, 0x48, 0x50, 0x2b, 0xb7, 0xbb, 0x6b] (some ((69, 52), 16)) = true := by decide +kernel
example : bodyTest false (bytes! "48 b1 e3 9c 98 ac a3 27 c9 65 48 50 2b b7 bb 6b|\n") [0x48, 0xb1, 0xe3, 0x9c, 0x98, 0xac, 0xa3, 0x27, 0xc9, 0x65, 0x48, 0x50, 0x2b, 0xb7, 0xbb, 0x6b] (some ((48, 47), 16)) = true := by decide +kernel
example : bodyTest false (bytes! "48 b1 e3 9c 98 ac a3 27 c9 65 48 50 2b b7 bb 6b |\n") [0x48, 0xb1, 0xe3, 0x9c, 0x98, 0xac, 0xa3, 0x27, 0xc9, 0x65, 0x48, 0x50, 0x2b, 0xb7, 0xbb, 0x6b] (some ((49, 48), 16)) = true := by decide +kernel
example : bodyTest false (bytes! "48 b1 e3 9c 98 ac a3 27 c9 65 48 50 2b b7 bb 6b  |\n") [0x48, 0xb1, 0xe3, 0x9c, 0x98, 0xac, 0xa3, 0x27, 0xc9, 0x65, 0x48, 0x50, 0x2b, 0xb7, 0xbb, 0x6b] (some ((50, 49), 16)) = true := by decide +kernel
example : bodyTest false (bytes! "48 b1 e3 9c 98 ac a3 27 c9 65 48 50 2b b7 bb 6b| \n") [0x48, 0xb1, 0xe3, 0x9c, 0x98, 0xac, 0xa3, 0x27, 0xc9, 0x65, 0x48, 0x50, 0x2b, 0xb7, 0xbb, 0x6b] (some ((49, 47), 16)) = true := by decide +kernel
example : bodyTest false (bytes! "48 b1 e3 9c 98 ac a3 27 c9 65 48 50 2b b7 bb 6b | \n") [0x48, 0xb1, 0xe3, 0x9c, 0x98, 0xac, 0xa3, 0x27, 0xc9, 0x65, 0x48, 0x50, 0x2b, 0xb7, 0xbb, 0x6b] (some ((50, 48), 16)) = true := by decide +kernel
example : bodyTest false (bytes! "48 b1 e3 9c 98 ac a3 27 c9 65 48 50 2b b7 bb 6b  | \n") [0x48, 0xb1, 0xe3, 0x9c, 0x98, 0xac, 0xa3, 0x27, 0xc9, 0x65, 0x48, 0x50, 0x2b, 0xb7, 0xbb, 0x6b] (some ((51, 49), 16)) = true := by decide +kernel
example : bodyTest false (bytes! "48 b1 e3 9c    ac a3 27 c9 65 48 50 2b b7 bb 6b|H......'.eHP+..k\n") [0x48, 0xb1, 0xe3, 0x9c] (some ((64, 47), 4)) = true := by decide +kernel
example : bodyTest false (bytes! "            98                48 50 2b b7 bb 6b     |H......'.eHP+..k\n") [] (some ((69, 52), 0)) = true := by decide +kernel
example : bodyTest true (bytes! "\n") [] (some ((0, 0), 0)) = true := by decide +kernel
example : bodyTest true (bytes! "48 b1 \n") [] (some ((6, 0), 0)) = true := by decide +kernel
example : bodyTest true (bytes! "abcdef01\n") [] (some ((8, 0), 0)) = true := by decide +kernel
example : bodyTest true (bytes! "||||||||\n\n\n\n") [] (some ((8, 0), 0)) = true := by decide +kernel
example : lineTest 1 (bytes! "0001 02 \n") none = true := by decide +kernel
example : lineTest 1 (bytes! "0001 02|\n") none = true := by decide +kernel
example : lineTest 1 (bytes! "0001 02  |\n") none = true := by decide +kernel
example : lineTest 1 (bytes! "0001 02| \n") none = true := by decide +kernel
example : lineTest 1 (bytes! "0001 02  | \n") none = true := by decide +kernel
example : lineTest 1 (bytes! "0001 02; 10 11 12\n") none = true := by decide +kernel
example : lineTest 1 (bytes! "0001 02; 10 11 12 |\n") none = true := by decide +kernel
example : lineTest 1 (bytes! "0001 02; 10 11 12 | \n") none = true := by decide +kernel
example : lineTest 1 (bytes! "0001 02 ; 10 11 12\n") none = true := by decide +kernel
example : lineTest 1 (bytes! "0001 02 ; 10 11 12 |\n") none = true := by decide +kernel
example : lineTest 1 (bytes! "0001 02 ; 10 11 12 | \n") none = true := by decide +kernel
example : lineTest 1 ((bytes! "0000 00\n")) (some ([(0, 0)], [])) = true := by decide +kernel
example : lineTest 1 ((bytes! "0010 00\n")) (some ([(0x10, 0)], [])) = true := by decide +kernel
example : lineTest 1 ((bytes! "0000 fe\n")) (some ([(0, 0xfe)], [])) = true := by decide +kernel
example : lineTest 1 ((bytes! "0000 00 | \n")) (some ([(0, 0)], [])) = true := by decide +kernel
example : lineTest 1 ((bytes! "0010 00 | \n")) (some ([(0x10, 0)], [])) = true := by decide +kernel
example : lineTest 1 ((bytes! "0000 fe | \n")) (some ([(0, 0xfe)], [])) = true := by decide +kernel
example : lineTest 1 ((bytes! "00001 fe | \n")) (some ([(1, 0xfe)], [])) = true := by decide +kernel
example : lineTest 1 ((bytes! "00000001 fe | \n")) (some ([(1, 0xfe)], [])) = true := by decide +kernel
example : lineTest 1 ((bytes! "00000000001 fe | \n")) (some ([(1, 0xfe)], [])) = true := by decide +kernel
example : lineTest 1 ((bytes! "00000000000001 fe | \n")) (some ([(1, 0xfe)], [])) = true := by decide +kernel
example : lineTest 1 ((bytes! "0001 000fe | \n")) (some ([(1, 0xfe)], [])) = true := by decide +kernel
example : lineTest 1 ((bytes! "0001 000000fe | \n")) (some ([(1, 0xfe)], [])) = true := by decide +kernel
example : lineTest 1 ((bytes! "0001 000000000fe | \n")) (some ([(1, 0xfe)], [])) = true := by decide +kernel
example : lineTest 1 ((bytes! "0001 000000000000fe | \n")) (some ([(1, 0xfe)], [])) = true := by decide +kernel
example : lineTest 1 ((bytes! "0001 02 | |\n")) (some ([(1, 2)], [])) = true := by decide +kernel
example : lineTest 1 ((bytes! "0001 02 | |  \n")) (some ([(1, 2)], [])) = true := by decide +kernel
example : lineTest 1 ((bytes! "0001 02 | |xx\n")) (some ([(1, 2)], [])) = true := by decide +kernel
example : lineTest 1 ((bytes! "0001 02 | | abcde\n")) (some ([(1, 2)], [])) = true := by decide +kernel
example : lineTest 1 ((bytes! "0001 02 | 10 11 12\n")) (some ([(1, 2)], [0x10, 0x11, 0x12])) = true := by decide +kernel
example : lineTest 1 ((bytes! "0001 02 | 10 11 12 |\n")) (some ([(1, 2)], [0x10, 0x11, 0x12])) = true := by decide +kernel
example : lineTest 1 ((bytes! "0001 02 | 10 11 12 |  \n")) (some ([(1, 2)], [0x10, 0x11, 0x12])) = true := by decide +kernel
example : longLineTest .avx2 ((bytes! "0001 02 | ") ++ repeated (bytes! "10 11 12 ") 64 ++ (bytes! "\n")) (some ([(1, 2)], repeated [0x10, 0x11, 0x12] 64)) = true := by decide +kernel
example : longLineTest .neon ((bytes! "0001 02 | ") ++ repeated (bytes! "10 11 12 ") 64 ++ (bytes! "| aaaaaa\n")) (some ([(1, 2)], repeated [0x10, 0x11, 0x12] 64)) = true := by decide +kernel
example : longLineTest .portable ((bytes! "0001 02 | ") ++ repeated (bytes! "10 11 12 ") 64 ++ (bytes! "| ") ++ List.replicate 280 98 ++ (bytes! "\n")) (some ([(1, 2)], repeated [0x10, 0x11, 0x12] 64)) = true := by decide +kernel
example : longLineTest .avx2 ((bytes! "0001 02 | ") ++ repeated (bytes! "10 11 12 ") 64) (some ([(1, 2)], repeated [0x10, 0x11, 0x12] 64)) = true := by decide +kernel
example : longLineTest .neon ((bytes! "0001 02 | ") ++ repeated (bytes! "10 11 12 ") 64 ++ (bytes! "| ") ++ List.replicate 280 98) (some ([(1, 2)], repeated [0x10, 0x11, 0x12] 64)) = true := by decide +kernel
/-! The text of `test_text_parser_hex_multiline` and `test_text_parser_multiline` -/
example : lineTest 10 (bytes! "0001 02 | 01 02 03\n0012 003\n0023 00004 | \n0034 5 | 11 12 13 |\n0045 000006 | 21 22 23    |\n0056 07")
    (some ([(0x01, 0x02), (0x12, 0x03), (0x23, 0x04), (0x34, 0x05), (0x45, 0x06), (0x56, 0x07)], [0x01, 0x02, 0x03, 0x11, 0x12, 0x13, 0x21, 0x22, 0x23])) = true := by decide +kernel
example : lineTest 10 (bytes! "0001 02 | 01 02 03\n0012 003\n0023 00004 | \n0034 5 | 11 12 13 |\n0045 000006 | 21 22 23    |\n0056 07")
    (some ([(0x01, 0x02), (0x12, 0x03), (0x23, 0x04), (0x34, 0x05), (0x45, 0x06), (0x56, 0x07)], [0x01, 0x02, 0x03, 0x11, 0x12, 0x13, 0x21, 0x22, 0x23])) = true := by decide +kernel

/-! ## `src/text/formatter` -/

example : (Format.decSingle 0 == (bytes! "0 ")) = true := by decide +kernel
example : (Format.decSingle 1 == (bytes! "1 ")) = true := by decide +kernel
example : (Format.decSingle 9 == (bytes! "9 ")) = true := by decide +kernel
example : (Format.decSingle 10 == (bytes! "10 ")) = true := by decide +kernel
example : (Format.decSingle 123 == (bytes! "123 ")) = true := by decide +kernel
example : (Format.decSingle 10000000000 == (bytes! "10000000000 ")) = true := by decide +kernel
example : (Format.decSingle 10000000000000000000 == (bytes! "10000000000000000000 ")) = true := by decide +kernel
example : formatHexSingle 0 1 (bytes! "00 ") = true := by decide +kernel
example : formatHexSingle 0xf 1 (bytes! "0f ") = true := by decide +kernel
example : formatHexSingle 0xff 1 (bytes! "ff ") = true := by decide +kernel
example : formatHexSingle 0xff 2 (bytes! "00ff ") = true := by decide +kernel
example : formatHexSingle 0xff 3 (bytes! "0000ff ") = true := by decide +kernel
example : formatHexSingle 0x0123456 4 (bytes! "00123456 ") = true := by decide +kernel
example : formatHexSingle 0x0123456789abcd 4 (bytes! "6789abcd ") = true := by decide +kernel
example : formatHexSingle 0x0123456789abcd 7 (bytes! "0123456789abcd ") = true := by decide +kernel
example : formatHexBody (List.replicate 16 0) (bytes! "00 00 00 00 00 00 00 00 00 00 00 00 00 00 00 00 ") = true := by decide +kernel
example : formatHexBody (List.replicate 16 0xff) (bytes! "ff ff ff ff ff ff ff ff ff ff ff ff ff ff ff ff ") = true := by decide +kernel
example : formatHexBody [32, 17, 2, 243, 228, 213, 198, 183, 168, 153, 138, 123, 108, 93, 78, 63] (bytes! "20 11 02 f3 e4 d5 c6 b7 a8 99 8a 7b 6c 5d 4e 3f ") = true := by decide +kernel
example : formatHexBody [192, 177, 162, 147, 132, 117, 102, 87, 72, 57, 42, 27, 12, 253, 238, 223] (bytes! "c0 b1 a2 93 84 75 66 57 48 39 2a 1b 0c fd ee df ") = true := by decide +kernel
example : formatMosaic (List.replicate 16 0) (bytes! "................") = true := by decide +kernel
example : formatMosaic (List.replicate 16 0x19) (bytes! "................") = true := by decide +kernel
example : formatMosaic (List.replicate 16 0x20) (bytes! "                ") = true := by decide +kernel
example : formatMosaic (List.replicate 16 0x2e) (bytes! "................") = true := by decide +kernel
example : formatMosaic (List.replicate 16 0x7e) (bytes! "~~~~~~~~~~~~~~~~") = true := by decide +kernel
example : formatMosaic (List.replicate 16 0x7f) (bytes! "................") = true := by decide +kernel
example : formatMosaic (List.replicate 16 0xff) (bytes! "................") = true := by decide +kernel
example : formatMosaic (bytes! "0123456789abcdef") (bytes! "0123456789abcdef") = true := by decide +kernel

/-! ## `src/template.rs` -/

example : (template (chars! "")).isSome = true := by decide +kernel
example : (template (chars! "name")).isSome = true := by decide +kernel
example : (template (chars! "prefix{a}")).isSome = true := by decide +kernel
example : (template (chars! "{a}suffix")).isSome = true := by decide +kernel
example : (template (chars! "prefix{a}suffix")).isSome = true := by decide +kernel
example : (template (chars! "{a:}")).isSome = true := by decide +kernel
example : (template (chars! "{a:01d}")).isSome = true := by decide +kernel
example : (template (chars! "{a:01d}_{a:06x}_{a:#}")).isSome = true := by decide +kernel
example : (template (chars! "prefix_{a:-01d}_mid1_{c:01d}_mid2_{b:01d}_suffix")).isSome = true := by decide +kernel
example : (template (chars! "{:}")).isNone = true := by decide +kernel
example : (template (chars! "{:x}")).isNone = true := by decide +kernel
example : (template (chars! "{:?}")).isNone = true := by decide +kernel
example : (template (chars! "{:?")).isSome = true := by decide +kernel
example : (template (chars! "{(a + 1)}")).isSome = true := by decide +kernel
example : (template (chars! "{(2 * a + 1)}")).isSome = true := by decide +kernel
example : (template (chars! "{(a + a - 1)}")).isSome = true := by decide +kernel
example : (template (chars! "{(a & 0x01)}")).isSome = true := by decide +kernel
example : (template (chars! "{(a + 1):}")).isSome = true := by decide +kernel
example : (template (chars! "{(2 * a + 1):}")).isSome = true := by decide +kernel
example : (template (chars! "{(a + a - 1):}")).isSome = true := by decide +kernel
example : (template (chars! "{(a & 0x01):}")).isSome = true := by decide +kernel
example : (template (chars! "{(a + 1):02x}")).isSome = true := by decide +kernel
example : (template (chars! "{(2 * a + 1):02x}")).isSome = true := by decide +kernel
example : (template (chars! "{(a + a - 1):02x}")).isSome = true := by decide +kernel
example : (template (chars! "{(a & 0x01):02x}")).isSome = true := by decide +kernel
example : (template (chars! "{a + 1:}")).isNone = true := by decide +kernel
example : ((template (chars! "")).map Template.hasVariable == some false) = true := by decide +kernel
example : ((template (chars! "name")).map Template.hasVariable == some false) = true := by decide +kernel
example : ((template (chars! "{a}")).map Template.hasVariable == some true) = true := by decide +kernel
example : ((template (chars! "prefix{a}")).map Template.hasVariable == some true) = true := by decide +kernel
example : ((template (chars! "{a}suffix")).map Template.hasVariable == some true) = true := by decide +kernel
example : ((template (chars! "prefix{a}suffix")).map Template.hasVariable == some true) = true := by decide +kernel
example : ((template (chars! "{a}")).map Template.hasVariable == some true) = true := by decide +kernel
example : ((template (chars! "{a:}")).map Template.hasVariable == some true) = true := by decide +kernel
example : ((template (chars! "{a:x}")).map Template.hasVariable == some true) = true := by decide +kernel
example : ((template (chars! "{(a + 1)}")).map Template.hasVariable == some true) = true := by decide +kernel
example : ((template (chars! "{(a + 1):}")).map Template.hasVariable == some true) = true := by decide +kernel
example : ((template (chars! "{(a + 1):x}")).map Template.hasVariable == some true) = true := by decide +kernel
example : renders (chars! "") (chars! "") = true := by decide +kernel
example : renders (chars! "aaa") (chars! "aaa") = true := by decide +kernel
example : renders (chars! "{a}") (chars! "0") = true := by decide +kernel
example : renders (chars! "{a:08x}") (chars! "00000000") = true := by decide +kernel
example : renders (chars! "{a:02x}-{b:02x}-{c:02x}") (chars! "00-01-02") = true := by decide +kernel
example : renders (chars! "prefix:{a:05d}:suffix") (chars! "prefix:00000:suffix") = true := by decide +kernel
example : renders (chars! "{(2 * a + 1):}") (chars! "1") = true := by decide +kernel
example : renders (chars! "{(2 * a + 1):} {(b | 0x02):} {(c @ c):}") (chars! "1 3 4") = true := by decide +kernel

/-! ## `src/segment/stride.rs` -/

example : strideParams 4 (chars! "s..e") (0, -3) 4 4 = true := by decide +kernel
example : strideParams 16 (chars! "s..e") (0, -15) 16 16 = true := by decide +kernel
example : strideParams 128 (chars! "s..e") (0, -127) 128 128 = true := by decide +kernel
example : strideParams 16 (chars! "s..e + 4") (0, -19) 16 20 = true := by decide +kernel
example : strideParams 16 (chars! "s..e + 32") (0, -47) 16 48 = true := by decide +kernel
example : strideParams 16 (chars! "s..e - 4") (0, -11) 16 12 = true := by decide +kernel
example : strideParams 16 (chars! "s + 4..e") (4, -11) 16 12 = true := by decide +kernel

/-! ## `src/pipeline.rs` -/

example : pipelineTest {} [[]] [] = true := by decide +kernel
example : pipelineTest { outFormat := some "b" } [[]] [] = true := by decide +kernel
example : pipelineTest { outFormat := some "b" } [(bytes! "0123456789")] (bytes! "0123456789") = true := by decide +kernel
example : pipelineTest { outFormat := some "b", pad := some "3,5" } [(bytes! "0123456789")] (bytes! "\x00\x00\x000123456789\x00\x00\x00\x00\x00") = true := by decide +kernel
example : pipelineTest { outFormat := some "b", pad := some "3,5", filler := some "0x0a" } [(bytes! "0123456789")] (bytes! "\n\n\n0123456789\n\n\n\n\n") = true := by decide +kernel
example : pipelineTest { outFormat := some "b", cat := some "4" } [(bytes! "0123456789"), (bytes! "0123456789")] (bytes! "0123456789\x00\x000123456789\x00\x00") = true := by decide +kernel
example : pipelineTest { outFormat := some "b", cat := some "4", filler := some "0x0a" } [(bytes! "0123456789"), (bytes! "0123456789")] (bytes! "0123456789\n\n0123456789\n\n") = true := by decide +kernel
example : pipelineTest { outFormat := some "b", zip := some "4" } [(bytes! "0123456789"), (bytes! "0123456789")] (bytes! "012301234567456789\x00\x0089\x00\x00") = true := by decide +kernel
example : pipelineTest { outFormat := some "b", zip := some "4", filler := some "0x0a" } [(bytes! "0123456789"), (bytes! "0123456789")] (bytes! "012301234567456789\n\n89\n\n") = true := by decide +kernel
example : pipelineTest { outFormat := some "b", inFormat := some "x" } [(bytes! "0004 0004 | 31 32 33 34\n000a 0000 | 61 62 63")] (bytes! "\x00\x00\x00\x001234\x00\x00abc") = true := by decide +kernel
example : pipelineTest { outFormat := some "b", inFormat := some "x", filler := some "0x0a" } [(bytes! "0004 0004 | 31 32 33 34\n000a 0000 | 61 62 63")] (bytes! "\n\n\n\n1234\n\nabc") = true := by decide +kernel

end Nd.Conformance
