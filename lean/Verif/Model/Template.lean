import Verif.Model.Eval
import Verif.Model.Scatter
/-!
# File name templates (src/template.rs) and `Drain::new` (src/drain/scatter.rs)

Strings are lists of characters.
-/
namespace Nd
open Eval

/-- The crate `num_runtime_fmt` (not part of the repository): `NumFmt::from_str` and `NumFmt::fmt`. -/
structure NumFmts (φ : Type) where
  parse : List Char → Except Err φ
  fmt : φ → Int64 → Except Err (List Char)

/-- `struct TemplateElement` (`src/template.rs` 11-14). -/
structure TemplateElement (φ : Type) where
  fixed : List Char
  var : Option (List Tok × φ)

namespace Template

/-- What `.*?\}` matches (`src/template.rs` 24): the characters up to the first closing brace on the same line, and those after it. -/
def braceBody : List Char → Option (List Char × List Char)
  | [] => none
  | c :: cs => if c = '}' then some ([], cs) else if c = '\n' then none else (braceBody cs).map fun r => (c :: r.1, r.2)

/-- The first match of `\{.*?\}` (`src/template.rs` 24): what precedes it, what is between the braces, what follows. -/
def findBrace : List Char → Option (List Char × List Char × List Char)
  | [] => none
  | c :: cs =>
    match (if c = '{' then braceBody cs else none) with
    | some (body, rest) => some ([], body, rest)
    | none => (findBrace cs).map fun r => (c :: r.1, r.2)

/-- The longest match of `[^:]*\)` (`src/template.rs` 25) and what follows. -/
def lastParen : List Char → Option (List Char × List Char)
  | [] => none
  | c :: cs =>
    if c = ':' then none
    else
      match lastParen cs with
      | some r => some (c :: r.1, r.2)
      | none => if c = ')' then some ([c], cs) else none

/-- `[a-zA-Z]` -/
def isLetter (c : Char) : Bool := ('a' ≤ c && c ≤ 'z') || ('A' ≤ c && c ≤ 'Z')

/-- The two groups of `\{((?:\([^:]*\))|[a-zA-Z]*)(:{0,1}.*)\}` (`src/template.rs` 25) for what is between the braces.  The expression always matches there: the
second group takes whatever the first leaves. -/
def splitArgs (body : List Char) : List Char × List Char :=
  match body with
  | '(' :: cs =>
    match lastParen cs with
    | some r => ('(' :: r.1, r.2)
    | none => ([], body)
  | _ => (body.takeWhile isLetter, body.dropWhile isLetter)

/-- `if spec.as_str().is_empty() { "" } else { &spec.as_str()[1..] }` (`src/template.rs` 40-41), which panics if the first character takes more than one byte. -/
def stripFirst : List Char → Except Err (List Char)
  | [] => .ok []
  | c :: cs => if c.toNat < 128 then .ok cs else .error .panic

/-- The loop of `Template::from_str` with what follows it (`src/template.rs` 27-58) on the rest of the input. -/
def elems (N : NumFmts φ) (vars : Vars) : Nat → List Char → Except Err (List (TemplateElement φ))
  | 0, _ => .error .diverge
  | fuel + 1, input =>
    match findBrace input with
    | none => .ok [{ fixed := input, var := none }]
    | some (fixed, body, rest) => do
      let name ← rpnNew vars (splitArgs body).1
      let spec ← N.parse (← stripFirst (splitArgs body).2)
      .ok ({ fixed := fixed, var := some (name, spec) } :: (← elems N vars fuel rest))

/-- `Template::from_str` (`src/template.rs` 21-61). -/
def fromStr (N : NumFmts φ) (vars : Vars) (input : List Char) : Except Err (List (TemplateElement φ)) := elems N vars (input.length + 1) input

/-- `Template::has_variable` (`src/template.rs` 63-65). -/
def hasVariable (t : List (TemplateElement φ)) : Bool := t.any fun x => x.var.isSome

/-- `Template::render` (`src/template.rs` 67-84). -/
def render (N : NumFmts φ) (get : Nat → Int64 → Int64) : List (TemplateElement φ) → Except Err (List Char)
  | [] => .ok []
  | x :: xs =>
    match x.var with
    | none => do .ok (x.fixed ++ (← render N get xs))
    | some (rpn, spec) => do
      let val ← evalRpn get rpn
      let text ← N.fmt spec val
      .ok (x.fixed ++ text ++ (← render N get xs))

end Template

namespace ScatterContext

/-- The variables of `Drain::new` (`src/drain/scatter.rs` 22-26). -/
def vars : Vars := [(['n'], 0, false), (['l'], 1, false)]

/-- The closure in `dump_segment` (`src/drain/scatter.rs` 56-60). -/
def lookup (offset line : Nat) (id : Nat) (_ : Int64) : Int64 := if id = 0 then Int64.ofNat offset else if id = 1 then Int64.ofNat line else 0

/-- `ScatterContext::new` with `Drain::new` (`src/drain/scatter.rs` 20-50). -/
def new (N : NumFmts φ) (fs : FileSys (List Char)) (file : List Char) : Except Err (ScatterContext (List Char)) := do
  let template ← Template.fromStr N vars file
  if Template.hasVariable template then .ok (openTemplate fs fun offset line => Template.render N (lookup offset line) template)
  else .ok (openFile fs (← Template.render N (fun _ _ => 0) template))

end ScatterContext

/-- `ScatterDrain` with a file as a byte stream (`src/drain/scatter.rs` 171-189); its buffer stays empty.  Simplification: the state of the drain after the end is not kept, nobody reads on. -/
def ScatterDrain.scatterSrc {ν : Type} [DecidableEq ν] (S : SegSrc σ) (f : Formatting) (fuel : Nat) : ByteSrc (ScatterDrain σ × ScatterContext ν) where
  fill s _ :=
    match scatter S f fuel s.1 s.2 with
    | .error e => .error e
    | .ok c => .ok ((true, 0), (s.1, c))
  slice _ := List.replicate MARGIN 0
  consume s _ := .ok s

end Nd
