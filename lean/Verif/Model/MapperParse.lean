import Verif.Model.Eval
import Verif.Model.Mapper
/-!
# Parsing S..E expressions (src/mapper.rs)
-/
namespace Nd
open Eval

/-- `expr.split("..")` -/
def splitDots : List Char → List (List Char)
  | [] => [[]]
  | '.' :: '.' :: rest => [] :: splitDots rest
  | c :: rest =>
    match splitDots rest with
    | [] => [[c]]
    | x :: xs => (c :: x) :: xs

/-- The `match` in `SegmentMapperAnchor::from_str` (`src/mapper.rs` 35-45) on `rpn.tokens()`, which leaves out the second components.  `c as isize` does not change
the value on 64-bit platforms. -/
def anchorOfTokens (constDefault : Nat) : List Token → Except Err SegmentMapperAnchor
  | [.val c] => .ok { anchor := constDefault, offset := c.toInt }
  | [.var id c] => if c = 1 then .ok { anchor := id, offset := 0 } else .error .parse
  | [.var id c, .val x, .op o] => if c = 1 ∧ o = '+' then .ok { anchor := id, offset := x.toInt } else .error .parse
  | _ => .error .parse

/-- `vars` (`src/mapper.rs` 27-31). -/
def anchorVars : Vars := [(['s'], 0, false), (['e'], 1, false)]

/-- `SegmentMapperAnchor::from_str` (`src/mapper.rs` 18-48); the default for constants is "s" in all calls. -/
def SegmentMapperAnchor.fromStr (expr emptyDefault : List Char) : Except Err SegmentMapperAnchor := do
  let rpn ← rpnNew anchorVars (if expr = [] then emptyDefault else expr)
  anchorOfTokens 0 (rpn.map Prod.fst)

/-- The loop of `SegmentMapper::from_str` (`src/mapper.rs` 66-70) from part `i`. -/
def parseParts (i : Nat) : List (List Char) → Except Err (List SegmentMapperAnchor)
  | [] => .ok []
  | x :: xs => do
    let a ← SegmentMapperAnchor.fromStr x (if i = 1 then ['e'] else ['s'])
    .ok (a :: (← parseParts (i + 1) xs))

/-- `SegmentMapper::from_str` (`src/mapper.rs` 62-77). -/
def SegmentMapper.fromStr (expr : List Char) : Except Err SegmentMapper := do
  match ← parseParts 0 (splitDots expr) with
  | [a, b] => .ok { start := a, stop := b }
  | _ => .error .parse

/-- `RangeMapper::from_str` (`src/mapper.rs` 177-193). -/
def RangeMapper.fromStr (expr : List Char) : Except Err RangeMapper := do .ok (RangeMapper.ofMapper (← SegmentMapper.fromStr expr))

end Nd
