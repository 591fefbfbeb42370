import Verif.Model.Eval
/-!
# The debug build of the expression parser

`latter_precedes` (`src/eval.rs` 52-70) asserts that two operators which are in none of the classes it has looked for are comparisons (65).
-/
namespace Nd.Eval

/-- `is_cmp` (`src/eval.rs` 44-46). -/
def isCmp (c : Char) : Bool := c == 'g' || c == 'G' || c == 'l' || c == 'L'

/-- The assertion of `latter_precedes` is not reached, or holds (`src/eval.rs` 53-66). -/
def asserts : Token → Token → Bool
  | .op former, .op latter =>
    isMuldiv former || isMuldiv latter || isAddsub former || isAddsub latter || isShift former || isShift latter || isPow former || isPow latter || (isCmp former && isCmp latter)
  | _, _ => true

/-- `popOps` in the debug build (`src/eval.rs` 369-375). -/
def popOpsAsserting (op : Char) : List Tok → List Tok → Except Err (List Tok × List Tok)
  | [], rpn => .ok (rpn, [])
  | top :: stack, rpn =>
    if asserts top.1 (.op op) then
      if latterPrecedes top.1 (.op op) then .ok (rpn, top :: stack) else popOpsAsserting op stack (pushPopped top rpn)
    else .error .panic

/-- The body of the loop of `sort_into_rpn` in the debug build (`src/eval.rs` 360-397). -/
def rpnStepAsserting (st : List Tok × List Tok) (token : Token) : Except Err (Option (List Tok × List Tok)) :=
  match token with
  | .op op =>
    match popOpsAsserting op st.2 st.1 with
    | .error e => .error e
    | .ok r => .ok (some (r.1, (token, r.1.length) :: r.2))
  | _ => .ok (rpnStep st token)

/-- The loop over the tokens in the debug build. -/
def rpnLoopAsserting : List Token → List Tok × List Tok → Except Err (Option (List Tok × List Tok))
  | [], st => .ok (some st)
  | t :: ts, st =>
    match rpnStepAsserting st t with
    | .error e => .error e
    | .ok none => .ok none
    | .ok (some st) => rpnLoopAsserting ts st

/-- `sort_into_rpn` in the debug build (`src/eval.rs` 347-403). -/
def sortIntoRpnAsserting (ts : List Token) : Except Err (Option (List Tok)) :=
  match rpnLoopAsserting ts ([], []) with
  | .error e => .error e
  | .ok (some (rpn, [])) => .ok (some rpn)
  | .ok _ => .ok none

/-- `tokenize`, `mark_prefices` and `sort_into_rpn` as called by `Rpn::new` (`src/eval.rs` 1276-1285), in the debug build. -/
def parseAsserting (vars : Vars) (input : List Char) : Except Err (List Tok) :=
  if trim input = [] then .error .parse
  else
    match tokenize vars (trim input) with
    | .error e => .error e
    | .ok ts =>
      match markPrefices ts with
      | none => .error .parse
      | some ts =>
        match sortIntoRpnAsserting ts with
        | .error e => .error e
        | .ok none => .error .parse
        | .ok (some rpn) => .ok rpn

end Nd.Eval
