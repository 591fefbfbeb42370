import Verif.Model.Record
import Verif.Model.Simd
/-!
# The text parser (src/text/parser/mod.rs, src/text/parser/naive.rs)

The functions that read numbers and arrays come in three versions (`naive.rs`, `x86_64.rs`, `aarch64.rs`), one of
which is chosen when the program is built.  The line cache (`LineCache`) only serves error messages and is not modelled.
-/
namespace Nd

/-- `is_valid_hex` (`src/text/parser/naive.rs` 5-7). -/
def isValidHex (x : Byte) : Bool :=
  (decide (48 ≤ x) && decide (x < 58)) || (decide (65 ≤ x) && decide (x < 71)) || (decide (97 ≤ x) && decide (x < 103))

/-- `to_hex` (`src/text/parser/naive.rs` 9-16). -/
def toHex (x : Byte) : Byte := if x < 58 then x - 48 else (x - 65 + 10) &&& 0x0f

/-- The loop of `parse_hex_single_naive` (`src/text/parser/naive.rs` 21-32); at most 16 digits, so the
accumulator does not overflow. -/
def parseHexGo : Nat → Nat → Bytes → Option (Nat × Nat)
  | _, _, [] => none
  | hex, i, x :: xs =>
    if x = 32 ∨ x = 10 ∨ x = 58 then some (hex, i)
    else if !isValidHex x then none
    else parseHexGo (hex * 16 + (toHex x).toNat) (i + 1) xs

/-- `parse_hex_single_naive` (`src/text/parser/naive.rs` 18-36). -/
def parseHexSingle (src : Bytes) : Option (Nat × Nat) := parseHexGo 0 0 (src.take 16)

/-- `parse_dec_single` (`src/text/parser/naive.rs` 78-94); `u64` arithmetic wraps as in release builds. -/
def parseDecGo : Nat → Nat → Bytes → Option (Nat × Nat)
  | _, _, [] => none
  | n, i, x :: xs =>
    if x = 32 then some (n, i)
    else if ¬ (48 ≤ x ∧ x < 58) then none
    else parseDecGo ((n * 10 + (x - 48).toNat) % 2 ^ 64) (i + 1) xs

def parseDecSingle (src : Bytes) : Option (Nat × Nat) := parseDecGo 0 0 src

/-- The loop over `chunks(3)` in `parse_hex_body_naive` (`src/text/parser/naive.rs` 59-73): the bytes
written to `dst[..n_elems]`. -/
def parseCols : Bytes → Option Bytes
  | [] => some []
  | [_] => some []
  | [a, b] =>
    if a = 32 ∧ b = 32 then some []
    else if isValidHex a && isValidHex b then some [(toHex a) <<< 4 ||| toHex b] else none
  | a :: b :: c :: rest =>
    if a = 32 ∧ b = 32 then some []
    else if (isValidHex a && isValidHex b) && decide (c = 32) then
      match parseCols rest with
      | none => none
      | some d => some (((toHex a) <<< 4 ||| toHex b) :: d)
    else none

/-- `4 * 48`: the window of one call of the array parser. -/
def WINDOW : Nat := 192

/-- `parse_hex_body_naive` (`src/text/parser/naive.rs` 38-76): `((scan_len, parse_len), dst[..n_elems])`. -/
def parseHexBody (isInTail : Bool) (src : Bytes) : Option ((Nat × Nat) × Bytes) :=
  let scanLen := (src.take WINDOW).findIdx (· == 10)
  if isInTail then some ((scanLen, 0), [])
  else
    let parseLen := min ((src.take WINDOW).findIdx (· == 124)) scanLen
    match parseCols (src.take parseLen) with
    | none => none
    | some d => some ((scanLen, parseLen), d)

/-- `ColumnFormat` of a header field as far as the parser distinguishes it (`src/text/parser/mod.rs` 352-363):
`None` and `Hexadecimal` both select the hexadecimal parser. -/
inductive Field where
  | hex
  | dec
  deriving DecidableEq, Repr

/-- How the program is built (`src/text/parser/mod.rs` 5-18): the portable version is used unless the build enables
AVX2 on x86_64, or NEON on aarch64 (which is the default there). -/
inductive Impl where
  | portable
  | avx2
  | neon
  deriving DecidableEq, Repr

/-- `parse_hex_single` (`src/text/parser/mod.rs` 29-39). -/
def Impl.single : Impl → Bytes → Option (Nat × Nat)
  | .portable => parseHexSingle
  | .avx2 => Avx2.parseSingle
  | .neon => Neon.parseSingle

/-- `parse_hex_body` (`src/text/parser/mod.rs` 119-129). -/
def Impl.body : Impl → Bool → Bytes → Option ((Nat × Nat) × Bytes)
  | .portable => parseHexBody
  | .avx2 => Avx2.parseBody
  | .neon => Neon.parseBody

/-- The function selected by `TextParser::new` (`src/text/parser/mod.rs` 352-363). -/
def Field.parse (I : Impl) : Field → Bytes → Option (Nat × Nat)
  | .hex => I.single
  | .dec => parseDecSingle

namespace TextParser

/-- `TextParser::read_head` (`src/text/parser/mod.rs` 381-390) with the two field parsers. -/
def readHead (po ps : Bytes → Option (Nat × Nat)) (stream : Bytes) : Option (Nat × Nat × Nat) :=
  match po stream with
  | none => none
  | some (offset, fwd1) =>
    if stream[fwd1]? ≠ some 32 then none
    else
      match ps (stream.drop (fwd1 + 1)) with
      | none => none
      | some (span, fwd2) => some (fwd1 + fwd2 + 1, offset, span)

/-- `body` is the array parser in what follows.

The loop over whole windows in `TextParser::read_body` (`src/text/parser/mod.rs` 399-415), ending with
`some (.inr ..)` if it returns early; otherwise the remaining stream, `rem_len`, `is_in_tail` and the bytes
appended. -/
def readBlocks (body : Bool → Bytes → Option ((Nat × Nat) × Bytes)) (len : Nat) : Nat → Bytes → Nat → Bool → Bytes → Option ((Bytes × Nat × Bool × Bytes) ⊕ (Nat × Bool × Bool × Bool × Bytes))
  | 0, stream, remLen, isInTail, buf => some (.inl (stream, remLen, isInTail, buf))
  | fuel + 1, stream, remLen, isInTail, buf =>
    if remLen ≥ WINDOW then
      match body isInTail stream with
      | none => none
      | some ((scanned, parsed), d) =>
        let remLen := remLen - scanned
        if scanned < WINDOW then some (.inr (len - remLen, isInTail, true, false, buf ++ d))
        else readBlocks body len fuel (stream.drop scanned) remLen (decide (parsed < WINDOW)) (buf ++ d)
    else some (.inl (stream, remLen, isInTail, buf))

/-- The part of `TextParser::read_body` after the loop (`src/text/parser/mod.rs` 417-439). -/
def readTail (body : Bool → Bytes → Option ((Nat × Nat) × Bytes)) (len : Nat) (stream : Bytes) (remLen : Nat) (isInTail : Bool) (buf : Bytes) : Option (Nat × Bool × Bool × Bool × Bytes) :=
  if remLen > 0 then
    match body isInTail stream with
    | none => none
    | some ((scanned, parsed), d) =>
      let buf := buf ++ d
      if parsed > remLen then
        let total := (len + parsed - remLen) / 3
        let keep := len / 3
        some (keep * 3, false, false, true, buf.take (buf.length + keep - total))
      else
        some (len - (remLen - scanned), decide (parsed < remLen), decide (remLen - scanned > 0), false, buf)
  else some (len - remLen, isInTail, decide (remLen > 0), false, buf)

/-- Continuation of `read_body` after its loop. -/
def afterBlocks (body : Bool → Bytes → Option ((Nat × Nat) × Bytes)) (len : Nat) : Option ((Bytes × Nat × Bool × Bytes) ⊕ (Nat × Bool × Bool × Bool × Bytes)) → Option (Nat × Bool × Bool × Bool × Bytes)
  | none => none
  | some (.inr r) => some r
  | some (.inl (stream, remLen, isInTail, buf)) => readTail body len stream remLen isInTail buf

/-- `TextParser::read_body` (`src/text/parser/mod.rs` 392-440): `(fwd, delim_found, eol_found, refeed)` and
the bytes appended to `buf`. -/
def readBody (body : Bool → Bytes → Option ((Nat × Nat) × Bytes)) (stream : Bytes) (len : Nat) (isInTail : Bool) : Option (Nat × Bool × Bool × Bool × Bytes) :=
  afterBlocks body len (readBlocks body len (len / WINDOW + 1) stream len isInTail [])

/-- The loop shared by `read_line_continued` (`src/text/parser/mod.rs` 451-467) and `read_line` (507-527):
the final `rem_len` and `is_in_tail`, whether the end of the line was found, and the bytes appended. -/
def bodyLoop (body : Bool → Bytes → Option ((Nat × Nat) × Bytes)) : Nat → Bytes → Nat → Bool → Bytes → Option (Nat × Bool × Bool × Bytes)
  | 0, _, remLen, isInTail, buf => some (remLen, isInTail, false, buf)
  | fuel + 1, stream, remLen, isInTail, buf =>
    if remLen > 0 then
      match readBody body stream remLen isInTail with
      | none => none
      | some (fwd, delimFound, eolFound, refeed, d) =>
        let remLen := remLen - fwd
        if refeed then some (remLen, delimFound, false, buf ++ d)
        else if eolFound then some (remLen - 1, delimFound, true, buf ++ d)
        else bodyLoop body fuel (stream.drop fwd) remLen delimFound (buf ++ d)
    else some (remLen, isInTail, false, buf)

/-- `TextParser::read_line_continued` (`src/text/parser/mod.rs` 442-469), returning the bytes appended. -/
def readLineContinued (I : Impl) (S : ByteSrc σ) (B : Nat) : Nat → σ → Bool → Except Err (Bytes × σ)
  | 0, _, _ => .error .diverge
  | fuel + 1, s, isInTail =>
    match S.fill s B with
    | .error e => .error e
    | .ok ((isEof, len), s) =>
      if isEof && decide (len = 0) then .ok ([], s)
      else
        match bodyLoop I.body (len + 1) (S.slice s) len isInTail [] with
        | none => .error .parse
        | some (remLen, isInTail, eol, d) =>
          match S.consume s (len - remLen) with
          | .error e => .error e
          | .ok s =>
            if eol then .ok (d, s)
            else
              match readLineContinued I S B fuel s isInTail with
              | .error e => .error e
              | .ok (d', s) => .ok (d ++ d', s)

/-- `TextParser::read_line` (`src/text/parser/mod.rs` 471-532).  `len - fwd - 3` underflows if the header
extends beyond the lent bytes. -/
def readLine (I : Impl) (S : ByteSrc σ) (B fuel : Nat) (fo fs : Field) (s : σ) : Except Err (Option Rec × σ) :=
  match S.fill s B with
  | .error e => .error e
  | .ok ((isEof, len), s) =>
    if isEof && decide (len = 0) then .ok (none, s)
    else
      let stream := S.slice s
      match readHead (fo.parse I) (fs.parse I) stream with
      | none => .error .parse
      | some (fwd, offset, span) =>
        if stream[fwd]? = some 10 then
          match S.consume s (min (fwd + 1) len) with
          | .error e => .error e
          | .ok s => .ok (some { offset := offset, span := span, data := [] }, s)
        else if (stream.drop fwd).take 3 ≠ [32, 124, 32] then .error .parse
        else if len < fwd + 3 then .error .panic
        else
          match bodyLoop I.body (len + 1) (stream.drop (fwd + 3)) (len - fwd - 3) false [] with
          | none => .error .parse
          | some (remLen, isInTail, eol, d) =>
            match S.consume s (len - remLen) with
            | .error e => .error e
            | .ok s =>
              if eol then .ok (some { offset := offset, span := span, data := d }, s)
              else
                match readLineContinued I S B fuel s isInTail with
                | .error e => .error e
                | .ok (d', s) => .ok (some { offset := offset, span := span, data := d ++ d' }, s)

/-- `struct TextParser` (`src/text/parser/mod.rs` 337-346) as a source of records; its state is the
underlying byte stream. -/
def recSrc (I : Impl) (S : ByteSrc σ) (B fuel : Nat) (fo fs : Field) : RecSrc σ where
  read := readLine I S B fuel fo fs

end TextParser
end Nd
