import Verif.Model.Mapper
/-!
# The expression evaluator (src/eval.rs)

`i64` is `Int64` (wrapping arithmetic, as in release builds).  A slice of the reverse Polish notation is a list of tokens with the distance to
the root of the left (or only) operand; the functions that rewrite such a slice in place and return the new position of its root are modelled as
functions returning the slice up to that root.  Index errors are `Err.panic`.
-/
namespace Nd

/-- `enum Token` (`src/eval.rs` 12-20). -/
inductive Token where
  | val (v : Int64)
  | op (c : Char)
  | pre (c : Char)
  | paren (c : Char)
  | var (id : Nat) (coef : Int64)
  | varArr (id : Nat)
  deriving DecidableEq, Repr

/-- A token with the distance to its operand. -/
abbrev Tok := Token × Nat

/-- The variables: name, identifier, and whether it is an array (`VarAttr`, `src/eval.rs` 22-26). -/
abbrev Vars := List (List Char × Nat × Bool)

namespace Eval

/-! ## Characters (src/eval.rs 28-70) -/

def isUnary (c : Char) : Bool := c == '+' || c == '-' || c == '!' || c == '~'
def isMuldiv (c : Char) : Bool := c == '*' || c == '/' || c == '%'
def isAddsub (c : Char) : Bool := c == '+' || c == '-' || c == '#' || c == '~'
def isShift (c : Char) : Bool := c == '<' || c == '>'
def isPow (c : Char) : Bool := c == '@'

/-- `latter_precedes` (`src/eval.rs` 52-70). -/
def latterPrecedes : Token → Token → Bool
  | .pre _, .op latter => isPow latter
  | .op former, .op latter =>
    if isMuldiv former || isMuldiv latter then !isMuldiv former
    else if isAddsub former || isAddsub latter then !isAddsub former
    else if isShift former || isShift latter then !isShift former
    else if isPow former || isPow latter then isPow latter
    else false
  | _, _ => true

/-! ## Tokens (src/eval.rs 121-335) -/

/-- `parse_op` (`src/eval.rs` 121-146): the token and the remaining characters. -/
def parseOp (first : Char) (it : List Char) : Option (Token × List Char) :=
  if first = '<' ∨ first = '>' then
    match it with
    | [] => none
    | next :: rest =>
      if first ≠ next then
        if next = '=' then some (.op (if first = '>' then 'G' else 'L'), rest)
        else some (.op (if first = '>' then 'g' else 'l'), it)
      else some (.op first, rest)
  else some (.op first, it)

/-- `parse_char` (`src/eval.rs` 148-166). -/
def parseChar (c : Char) : Option (Bool × Nat) :=
  if c = '_' then some (true, 0)
  else if '0' ≤ c ∧ c ≤ '9' then some (false, c.toNat - '0'.toNat)
  else if 'a' ≤ c ∧ c ≤ 'f' then some (false, c.toNat - 'a'.toNat + 10)
  else if 'A' ≤ c ∧ c ≤ 'F' then some (false, c.toNat - 'A'.toNat + 10)
  else none

/-- `while let Some((skip, digit)) = parse_char(…)` (`src/eval.rs` 222-228): the characters parsed and the rest. -/
def scanDigits : List Char → List (Bool × Nat) × List Char
  | [] => ([], [])
  | c :: it =>
    match parseChar c with
    | none => ([], c :: it)
    | some d => (d :: (scanDigits it).1, (scanDigits it).2)

/-- Two neighbouring bits are set. -/
def adjacent : List Bool → Bool
  | a :: b :: rest => (a && b) || adjacent (b :: rest)
  | _ => false

/-- `(skip_mask & ((skip_mask << 1) | 1)) != 0` (`src/eval.rs` 205-208, 231) after pushing the given bits: the mask holds the last 64 bits,
below those pushed there is a one. -/
def badMask (skips : List Bool) : Bool :=
  let mask := (skips.reverse ++ [true]).take 64
  mask.head? == some true || adjacent mask

/-- `for &digit in &digits[..i]` (`src/eval.rs` 234-240). -/
def digitsValue (base : Nat) : List Nat → Int64 → Option Int64
  | [], val => some val
  | d :: ds, val => if d ≥ base then none else digitsValue base ds (val * Int64.ofNat base + Int64.ofNat d)

/-- `tolower` (`src/eval.rs` 187-193). -/
def toLower (c : Char) : Char := if 'A' ≤ c ∧ c ≤ 'Z' then Char.ofNat (c.toNat - 'A'.toNat + 'a'.toNat) else c

/-- `parse_prefix` (`src/eval.rs` 168-181) on what follows the letter. -/
def parsePrefix (n : Nat) : List Char → Int64 × List Char
  | 'i' :: it => (1024 ^ n, it)
  | it => (1000 ^ n, it)

/-- `let scaler = …` (`src/eval.rs` 242-249). -/
def parseScaler : List Char → Int64 × List Char
  | [] => (1, [])
  | x :: it =>
    if toLower x = 'k' then parsePrefix 1 it
    else if toLower x = 'm' then parsePrefix 2 it
    else if toLower x = 'g' then parsePrefix 3 it
    else if toLower x = 't' then parsePrefix 4 it
    else if toLower x = 'e' then parsePrefix 5 it
    else (1, x :: it)

/-- `(it.next()?, base)` after the letter of a prefix (`src/eval.rs` 195-206). -/
def afterPrefix (base : Nat) : List Char → Option (Char × Nat × List Char)
  | [] => none
  | c :: rest => some (c, base, rest)

/-- `let (first, num_base) = …` (`src/eval.rs` 195-206). -/
def parseBase (first : Char) (it : List Char) : Option (Char × Nat × List Char) :=
  if first ≠ '0' then some (first, 10, it)
  else
    match it with
    | [] => some (first, 8, it)
    | x :: rest =>
      if toLower x = 'b' then afterPrefix 2 rest
      else if toLower x = 'o' then afterPrefix 8 rest
      else if toLower x = 'd' then afterPrefix 10 rest
      else if toLower x = 'x' then afterPrefix 16 rest
      else some (first, 8, it)

/-- `parse_val` (`src/eval.rs` 183-254).  The array `digits` has room for 32 digits. -/
def parseVal (first : Char) (it : List Char) : Except Err (Token × List Char) :=
  match parseBase first it with
  | none => .error .parse
  | some (first, base, it) =>
    match parseChar first with
    | none => .error .parse
    | some (skip, digit) =>
      let (run, it) := scanDigits it
      let digits := digit :: (run.filter (fun x => !x.1)).map Prod.snd
      if digits.length > 32 then .error .panic
      else if badMask (skip :: run.map Prod.fst) then .error .parse
      else
        match digitsValue base digits 0 with
        | none => .error .parse
        | some val =>
          let (scaler, it) := parseScaler it
          .ok (.val (val * scaler), it)

/-- The characters of a variable name. -/
def isNameChar (c : Char) : Bool := ('a' ≤ c && c ≤ 'z') || ('A' ≤ c && c ≤ 'Z') || ('0' ≤ c && c ≤ '9')

/-- `parse_var` (`src/eval.rs` 256-273). -/
def parseVar (vars : Vars) (first : Char) (it : List Char) : Option (Token × List Char) :=
  let name := first :: it.takeWhile isNameChar
  match vars.lookup name with
  | none => none
  | some (id, isArray) => some (if isArray then .varArr id else .var id 1, it.dropWhile isNameChar)

/-- The loop of `tokenize` (`src/eval.rs` 278-301). -/
def tokens (vars : Vars) : Nat → List Char → Except Err (List Token)
  | 0, _ => .error .diverge
  | _ + 1, [] => .ok []
  | fuel + 1, x :: it =>
    let continue_ (r : Token × List Char) : Except Err (List Token) := (tokens vars fuel r.2).map (r.1 :: ·)
    if x ∈ [' ', '\t', '\n', '\r'] then tokens vars fuel it
    else if x ∈ ['(', ')', '[', ']'] then continue_ (.paren x, it)
    else if x ∈ ['+', '-', '~', '!', '*', '/', '%', '&', '|', '^', '<', '>', '@'] then
      match parseOp x it with
      | none => .error .parse
      | some r => continue_ r
    else if '0' ≤ x ∧ x ≤ '9' then
      match parseVal x it with
      | .error e => .error e
      | .ok r => continue_ r
    else if ('a' ≤ x ∧ x ≤ 'z') ∨ ('A' ≤ x ∧ x ≤ 'Z') then
      match parseVar vars x it with
      | none => .error .parse
      | some r => continue_ r
    else .error .parse

/-- `tokenize` (`src/eval.rs` 275-304). -/
def tokenize (vars : Vars) (input : List Char) : Except Err (List Token) :=
  match tokens vars (input.length + 1) input with
  | .error e => .error e
  | .ok ts => .ok (.paren '(' :: ts ++ [.paren ')'])

/-- Beginning of an operand. -/
def opens : Token → Bool
  | .val _ | .var _ _ | .varArr _ => true
  | .paren c => c == '('
  | _ => false

/-- End of an operand. -/
def closes : Token → Bool
  | .val _ | .var _ _ => true
  | .paren c => c == ']' || c == ')'
  | _ => false

/-- The arms of the `match` in `mark_prefices` that accept two tokens (`src/eval.rs` 315-325). -/
def pairOk : Token → Token → Bool
  | .pre _, t => opens t
  | .op _, t => opens t
  | .varArr _, t => t == .paren '['
  | t, .op _ => closes t
  | .paren c, t => ((c == '(' || c == '[') && opens t) || ((c == ']' || c == ')') && (t == .paren ']' || t == .paren ')'))
  | _, t => t == .paren ']' || t == .paren ')'

/-- `Op(_) | Paren('(')` -/
def beforeUnary : Token → Bool
  | .op _ => true
  | .paren c => c == '('
  | _ => false

/-- The `match` in `mark_prefices` (`src/eval.rs` 310-330): what becomes of the latter token. -/
def fixPair (former latter : Token) : Option Token :=
  match latter with
  | .op y =>
    if beforeUnary former && isUnary y then some (.pre (if y = '~' then '!' else y))
    else if pairOk former latter then some latter else none
  | _ => if pairOk former latter then some latter else none

/-- The loop of `mark_prefices`. -/
def markFrom : Token → List Token → Option (List Token)
  | _, [] => some []
  | former, latter :: rest =>
    match fixPair former latter with
    | none => none
    | some t => (markFrom t rest).map (t :: ·)

/-- `mark_prefices` (`src/eval.rs` 306-335). -/
def markPrefices : List Token → Option (List Token)
  | [] => some []
  | t :: rest => (markFrom t rest).map (t :: ·)

/-! ## Reverse Polish notation (src/eval.rs 337-403) -/

/-- `expand_and_push_op` (`src/eval.rs` 337-345). -/
def expandOp (op : Token) (lhs : Nat) : List Tok :=
  if op = .op 'g' then [(.op '-', lhs), (.val (-1), 0), (.op '+', 2), (.pre 'G', 1)]
  else if op = .op 'G' then [(.op '-', lhs), (.pre 'G', 1)]
  else if op = .op 'l' then [(.op '~', lhs), (.val (-1), 0), (.op '+', 2), (.pre 'G', 1)]
  else if op = .op 'L' then [(.op '~', lhs), (.pre 'G', 1)]
  else [(op, lhs)]

/-- `calc_lhs` (`src/eval.rs` 351-357). -/
def calcLhs (op : Token) (i len : Nat) : Nat :=
  match op with
  | .pre _ => 1
  | .op _ | .varArr _ => len + 1 - i
  | _ => 0

/-- Pops one operator. -/
def pushPopped (top : Tok) (rpn : List Tok) : List Tok := rpn ++ expandOp top.1 (calcLhs top.1 top.2 rpn.length)

/-- `while let Some(&(former_op, _)) = op_stack.last()` (`src/eval.rs` 370-376); the top of the stack is the head of the list. -/
def popOps (op : Char) : List Tok → List Tok → List Tok × List Tok
  | [], rpn => (rpn, [])
  | top :: stack, rpn => if latterPrecedes top.1 (.op op) then (rpn, top :: stack) else popOps op stack (pushPopped top rpn)

/-- `loop { … }` up to the matching parenthesis (`src/eval.rs` 381-387). -/
def popParen (other : Char) : List Tok → List Tok → Option (List Tok × List Tok)
  | [], _ => none
  | top :: stack, rpn => if top.1 = .paren other then some (rpn, stack) else popParen other stack (pushPopped top rpn)

/-- The body of the loop (`src/eval.rs` 360-397) on the notation so far and the stack. -/
def rpnStep (st : List Tok × List Tok) (token : Token) : Option (List Tok × List Tok) :=
  match token with
  | .val _ | .var _ _ => some (st.1 ++ [(token, 0)], st.2)
  | .pre _ | .varArr _ => some (st.1, (token, st.1.length + 1) :: st.2)
  | .op op =>
    let r := popOps op st.2 st.1
    some (r.1, (token, r.1.length) :: r.2)
  | .paren c =>
    if c = '(' ∨ c = '[' then some (st.1, (token, st.1.length + 1) :: st.2)
    else if c = ')' then popParen '(' st.2 st.1
    else if c = ']' then
      match popParen '[' st.2 st.1 with
      | none => none
      | some (_, []) => none
      | some (rpn, top :: stack) => some (pushPopped top rpn, stack)
    else none

/-- The loop over the tokens. -/
def rpnLoop : List Token → List Tok × List Tok → Option (List Tok × List Tok)
  | [], st => some st
  | t :: ts, st =>
    match rpnStep st t with
    | none => none
    | some st => rpnLoop ts st

/-- `sort_into_rpn` (`src/eval.rs` 347-403). -/
def sortIntoRpn (ts : List Token) : Option (List Tok) :=
  match rpnLoop ts ([], []) with
  | some (rpn, []) => some rpn
  | _ => none

/-! ## Arithmetic (src/eval.rs 442-616) -/

/-- `apply_prefix` (`src/eval.rs` 442-450). -/
def applyPrefix (c : Char) (x : Int64) : Except Err Int64 :=
  if c = '+' then .ok x
  else if c = '-' then .ok (-x)
  else if c = '!' then .ok (~~~x)
  else if c = 'G' then .ok (if 0 ≤ x then 1 else 0)
  else .error .panic

/-- `x << ((y as usize) & 0x3f)` -/
def shl (x y : Int64) : Int64 := x <<< Int64.ofNat (y.toInt.toNat % 64)

/-- `x >> ((y as usize) & 0x3f)` -/
def shr (x y : Int64) : Int64 := x >>> Int64.ofNat (y.toInt.toNat % 64)

/-- `apply_op` (`src/eval.rs` 452-487).  Division by zero and `i64::MIN / -1` abort in every build.  `-y as usize` is `-y` modulo 2^64; its low 6
bits are those of `-y`. -/
def applyOp (c : Char) (x y : Int64) : Except Err Int64 :=
  if c = '+' then .ok (x + y)
  else if c = '-' then .ok (x - y)
  else if c = '#' then .ok (-(x + y))
  else if c = '~' then .ok (-(x - y))
  else if c = '*' then .ok (x * y)
  else if c = '/' then (if y = 0 ∨ (x = Int64.minValue ∧ y = -1) then .error .panic else .ok (x / y))
  else if c = '%' then (if y = 0 ∨ (x = Int64.minValue ∧ y = -1) then .error .panic else .ok (x % y))
  else if c = '&' then .ok (x &&& y)
  else if c = '|' then .ok (x ||| y)
  else if c = '^' then .ok (x ^^^ y)
  else if c = '<' then .ok (if 0 ≤ y then shl x y else shr x (-y))
  else if c = '>' then .ok (if 0 ≤ y then shr x y else shl x (-y))
  else if c = '@' then .ok (if 0 ≤ y then x ^ (y.toInt.toNat % 2 ^ 32) else 0)
  else .error .panic

/-- `is_comm_1` (`src/eval.rs` 489-491). -/
def isComm1 (c : Char) : Bool := c ∈ ['+', '-', '#', '~', '*', '&', '|', '^']

/-- `is_comm_2` (`src/eval.rs` 493-498). -/
def isComm2 (a b : Char) : Bool := (isAddsub a && isAddsub b) || (isComm1 a && a == b)

/-- `swap_op_hands` (`src/eval.rs` 507-513). -/
def swapOpHands (c : Char) : Char := if c = '-' then '~' else if c = '~' then '-' else c

/-- `fuse_sign2` (`src/eval.rs` 515-523). -/
def fuseSign2 (a b : Char) : Except Err Char :=
  match a, b with
  | '+', '+' => .ok '+'
  | '+', '-' => .ok '-'
  | '-', '+' => .ok '-'
  | '-', '-' => .ok '+'
  | _, _ => .error .panic

/-- `fuse_sign3` (`src/eval.rs` 525-527). -/
def fuseSign3 (a b c : Char) : Except Err Char := do fuseSign2 (← fuseSign2 a b) c

/-- `fuse_sign_op` (`src/eval.rs` 529-542). -/
def fuseSignOp (s op : Char) : Except Err Char :=
  match s, op with
  | '+', '+' => .ok '+'
  | '+', '-' => .ok '-'
  | '+', '#' => .ok '+'
  | '+', '~' => .ok '-'
  | '-', '+' => .ok '#'
  | '-', '-' => .ok '~'
  | '-', '#' => .ok '+'
  | '-', '~' => .ok '-'
  | _, _ => .error .panic

/-- `fuse_sign2_op` (`src/eval.rs` 544-547). -/
def fuseSign2Op (a b op : Char) : Except Err Char := do fuseSignOp (← fuseSign2 a b) op

/-- `peel_sign_from_op` (`src/eval.rs` 549-559). -/
def peelSign (op : Char) : Except Err (Char × Char) :=
  match op with
  | '+' => .ok ('+', '+')
  | '-' => .ok ('+', '-')
  | '#' => .ok ('-', '+')
  | '~' => .ok ('-', '-')
  | _ => .error .panic

/-- `peel_rhs_sign_from_op` (`src/eval.rs` 561-571). -/
def peelRhsSign (op : Char) : Except Err (Char × Char) :=
  match op with
  | '+' => .ok ('+', '+')
  | '-' => .ok ('-', '+')
  | '#' => .ok ('+', '#')
  | '~' => .ok ('-', '#')
  | _ => .error .panic

/-- `gather_sign2` (`src/eval.rs` 573-579). -/
def gatherSign2 (s1 op s2 : Char) : Except Err Char := do
  let (s, op) ← peelSign op
  let s ← fuseSign2 s s1
  let op ← fuseSign2 s1 (← fuseSign2 op s2)
  fuseSignOp s op

/-! ## Slices -/

/-- `tokens[i]` -/
def get (ts : List Tok) (i : Nat) : Except Err Tok :=
  match ts[i]? with
  | some t => .ok t
  | none => .error .panic

/-- `tokens[i] = t` -/
def put (ts : List Tok) (i : Nat) (t : Tok) : Except Err (List Tok) := if i < ts.length then .ok (ts.set i t) else .error .panic

/-- `a - b` of indices -/
def sub (a b : Nat) : Except Err Nat := if b ≤ a then .ok (a - b) else .error .panic

/-- `tokens[from..].rotate_left(n)` -/
def rotL (ts : List Tok) (start n : Nat) : Except Err (List Tok) :=
  if start ≤ ts.length ∧ n ≤ ts.length - start then .ok (ts.take start ++ ((ts.drop start).drop n ++ (ts.drop start).take n)) else .error .panic

/-- `tokens[from..].rotate_right(1)` -/
def rotR (ts : List Tok) (start : Nat) : Except Err (List Tok) :=
  if start < ts.length then rotL ts start (ts.length - start - 1) else .error .panic

/-! ## Simplification (src/eval.rs 602-975) -/

/-- `save_and_flip` (`src/eval.rs` 602-620). -/
def saveAndFlip (ts : List Tok) (slot : Nat) (token : Token) (lhs : Nat) : Except Err (List Tok) := do
  let prev ← get ts (← sub slot 1)
  match prev, token with
  | (.val x, _), .op op =>
    if isAddsub op then
      let (s, op) ← peelRhsSign op
      put (← put ts (slot - 1) (.val (← applyPrefix s x), 0)) slot (.op op, lhs)
    else put ts slot (token, lhs)
  | (.var id c, rlhs), .op op =>
    if isAddsub op then
      let (s, op) ← peelRhsSign op
      put (← put ts (slot - 1) (.var id (← applyPrefix s c), rlhs)) slot (.op op, lhs)
    else put ts slot (token, lhs)
  | _, _ => put ts slot (token, lhs)

/-- `rotate_left` (`src/eval.rs` 622-652); the first component says whether the tree has been rotated. -/
def rotateLeft : Nat → List Tok → Except Err (Bool × List Tok)
  | 0, _ => .error .diverge
  | fuel + 1, ts => do
    let root ← sub ts.length 1
    let a ← get ts (← sub root 1)
    let b ← get ts root
    match a, b with
    | (.op op2, rlhs), (.op op1, lhs) =>
      if isComm2 op1 op2 then
        let zpos := (← sub (root - 1) rlhs) + 1
        let ts ← rotR ts zpos
        let (s1, op1) ← peelSign op1
        let (s2, op2) ← peelSign op2
        let opa ← fuseSign3 s2 op1 op2
        let opb ← fuseSignOp s1 (← fuseSign2 s2 op1)
        let ts ← saveAndFlip ts (← sub root rlhs) (.op opa) (← sub lhs rlhs)
        let ts ← saveAndFlip ts root (.op opb) rlhs
        let r ← rotateLeft fuel ts
        .ok (true, r.2)
      else .ok (false, ts)
    | _, _ => .ok (false, ts)

/-- `rank` in `sort_tokens` (`src/eval.rs` 658-666). -/
def sortRank : Token → Nat
  | .op x => x.toNat
  | .var x _ => (x + 1) <<< 8
  | .pre x => x.toNat <<< 24
  | .val _ => 0xffffffff
  | _ => 0

/-- The second arm of `sort_tokens` (`src/eval.rs` 699-718). -/
def sortPlain (ts : List Tok) (root lhs : Nat) (x y : Token) (op : Char) : Except Err (Bool × List Tok) :=
  if isComm1 op then
    if sortRank x > sortRank y then do
      let ylen := lhs + 1
      let xlen ← sub root ylen
      let ts ← rotL ts 0 ylen
      let ts ← rotL ts xlen 1
      let ts ← saveAndFlip ts root (.op (swapOpHands op)) (ylen + 1)
      .ok (false, ts)
    else
      match x, y with
      | .var x xc, .var y yc =>
        if x = y then do
          let old ← get ts lhs
          let ts ← put ts lhs (.var x (← applyOp op xc yc), old.2)
          .ok (false, ts.take (lhs + 1))
        else .ok (false, ts)
      | _, _ => .ok (false, ts)
  else .ok (false, ts)

/-- The first arm of `sort_tokens` (`src/eval.rs` 677-698). -/
def sortChained (ts : List Tok) (root lhs llhs : Nat) (op1 : Char) (y : Token) (op2 : Char) : Except Err (Bool × List Tok) := do
  let (s1, op1) ← peelSign op1
  let (s2, op2) ← peelSign op2
  let opa ← fuseSign2Op s1 s2 op1
  let opb ← fuseSign2 s1 op2
  let x ← get ts (← sub lhs 1)
  if sortRank x.1 > sortRank y then
    let ts ← rotL ts ((← sub lhs llhs) + 1) llhs
    let ts ← saveAndFlip ts (← sub root llhs) (.op opb) (← sub root lhs)
    let ts ← saveAndFlip ts root (.op opa) llhs
    .ok (true, ts)
  else
    match x, y with
    | (.var x xc, l), .var y yc =>
      if x = y then
        let ts ← put ts (lhs - 1) (.var x (← applyOp opb xc yc), l)
        let ts ← saveAndFlip ts lhs (.op opa) 2
        .ok (false, ts.take (lhs + 1))
      else .ok (false, ts)
    | _, _ => .ok (false, ts)

/-- `sort_tokens` (`src/eval.rs` 654-723). -/
def sortTokens (ts : List Tok) : Except Err (Bool × List Tok) := do
  let root ← sub ts.length 1
  if root = 0 then .ok (false, ts)
  else
    let top ← get ts root
    let lhs ← sub root top.2
    let l ← get ts lhs
    let y ← get ts (root - 1)
    match l, top.1 with
    | (.op op1, llhs), .op op2 =>
      if isComm2 op1 op2 then sortChained ts root lhs llhs op1 y.1 op2 else sortPlain ts root lhs (.op op1) y.1 op2
    | (x, _), .op op => sortPlain ts root lhs x y.1 op
    | _, _ => .ok (false, ts)

/-- `fold_constants` (`src/eval.rs` 725-765). -/
def foldConstants (ts : List Tok) : Except Err (List Tok) := do
  let root ← sub ts.length 1
  if root = 0 then
    match ts with
    | [(.var _ c, _)] => if c = 0 then .ok [(.val 0, 0)] else .ok ts
    | _ => .ok ts
  else
    let top ← get ts root
    let lhs ← sub root top.2
    let l ← get ts lhs
    let r ← get ts (root - 1)
    match l, r.1, top.1 with
    | (.val x, n), .val y, .op op => .ok ((← put ts lhs (.val (← applyOp op x y), n)).take (lhs + 1))
    | (.var id c, n), .val x, .op op =>
      if op = '*' then .ok ((← put ts lhs (.var id (c * x), n)).take (lhs + 1)) else .ok ts
    | (.op op1, _), .val y, .op op2 =>
      if isComm2 op1 op2 then
        let p ← get ts (← sub lhs 1)
        match p with
        | (.val x, n) =>
          let (s1, op1) ← peelSign op1
          let (s2, op2) ← peelSign op2
          let opa ← fuseSignOp (← fuseSign2 s1 s2) op1
          let opb ← fuseSign3 s1 op1 op2
          let ts ← put ts (lhs - 1) (.val (← applyOp opb x y), n)
          let ts ← saveAndFlip ts lhs (.op opa) 2
          .ok (ts.take (lhs + 1))
        | _ => .ok ts
      else .ok ts
    | _, _, _ => .ok ts

/-- `is_id` (`src/eval.rs` 770-777). -/
def isId (op : Char) (x : Int64) : Bool :=
  if op = '+' ∨ op = '-' ∨ op = '|' then x == 0
  else if op = '*' ∨ op = '/' then x == 1
  else if op = '&' then x == -1
  else false

/-- `(_, Val(x), Op(op)) if is_id(op, x)` and `(_, Var(_, 0), Op(op)) if is_id(op, 0)` -/
def isIdArm (r : Token) (op : Char) : Bool :=
  match r with
  | .val x => isId op x
  | .var _ c => c == 0 && isId op 0
  | _ => false

/-- `Val(0) | Var(_, 0)` -/
def isZero : Token → Bool
  | .val x => x == 0
  | .var _ c => c == 0
  | _ => false

/-- `remove_identity` (`src/eval.rs` 767-818). -/
def removeIdentity (ts : List Tok) : Except Err (List Tok) := do
  let root ← sub ts.length 1
  if root = 0 then .ok ts
  else
    let top ← get ts root
    let lhs ← sub root top.2
    let l ← get ts lhs
    let r ← get ts (root - 1)
    match top.1 with
    | .op op =>
      if isIdArm r.1 op then .ok (ts.take (lhs + 1))
      else
        match l with
        | (.op op1, llhs) =>
          if isZero r.1 && (op == '#' || op == '~') && isAddsub op1 then
            .ok ((← saveAndFlip ts lhs (.op (← fuseSignOp '-' op1)) llhs).take (lhs + 1))
          else .ok ts
        | (.var id c, n) =>
          if r.1 = .val 0 ∧ (op = '#' ∨ op = '~') then
            .ok ((← put ts lhs (.var id (← applyPrefix '-' c), n)).take (lhs + 1))
          else if c = 0 ∧ isAddsub op then
            let (s, op) ← peelSign op
            let op ← fuseSign2 s op
            match r.1 with
            | .val x => .ok ((← put ts lhs (.val (← applyPrefix op x), n)).take (lhs + 1))
            | .var id c => .ok ((← put ts lhs (.var id (← applyPrefix op c), n)).take (lhs + 1))
            | _ => .ok ts
          else .ok ts
        | _ => .ok ts
    | _ => .ok ts

/-- Sorts the left child again with `rec`, closing the gap (`src/eval.rs` 827-834, 841-848). -/
def resort (rec : List Tok → Except Err (List Tok)) (ts : List Tok) : Except Err (List Tok) := do
  let root ← sub ts.length 1
  let top ← get ts root
  let lhs ← sub root top.2
  .ok ((← rec (ts.take (lhs + 1))) ++ ts.drop (lhs + 1))

/-- `sort_and_squash_tokens` (`src/eval.rs` 820-857). -/
def sortAndSquash : Nat → List Tok → Except Err (List Tok)
  | 0, _ => .error .diverge
  | fuel + 1, ts => do
    let root ← sub ts.length 1
    if root = 0 then .ok ts
    else
      let r ← rotateLeft ts.length ts
      let ts ← if r.1 then resort (sortAndSquash fuel) r.2 else .ok r.2
      let r ← sortTokens ts
      let ts ← if r.1 then resort (sortAndSquash fuel) r.2 else .ok r.2
      removeIdentity (← foldConstants ts)

/-- `remove_prefix_unary` (`src/eval.rs` 859-891). -/
def removePrefixUnary : Nat → List Tok → Except Err (List Tok)
  | 0, _ => .error .diverge
  | fuel + 1, ts => do
    let root ← sub ts.length 1
    let top ← get ts root
    let lhs ← sub root top.2
    let l ← get ts lhs
    match l, top.1 with
    | (.pre s1, llhs), .pre s2 =>
      if s1 = s2 then removePrefixUnary fuel (ts.take ((← sub lhs llhs) + 1))
      else if isAddsub s1 && isAddsub s2 then removePrefixUnary fuel ((← put ts lhs (.pre (← fuseSign2 s1 s2), 1)).take (lhs + 1))
      else .ok ((← removePrefixUnary fuel (ts.take (lhs + 1))) ++ [(.pre s2, 1)])
    | (.val x, n), .pre s => .ok ((← put ts lhs (.val (← applyPrefix s x), n)).take (lhs + 1))
    | (.var id c, n), .pre s =>
      if isAddsub s then .ok ((← put ts lhs (.var id (← applyPrefix s c), n)).take (lhs + 1)) else .ok ts
    | (.op op, llhs), .pre s =>
      if isComm2 op s then .ok ((← saveAndFlip ts lhs (.op (← fuseSignOp s op)) llhs).take (lhs + 1)) else .ok ts
    | _, _ => .ok ts

/-- `remove_prefix_binary` (`src/eval.rs` 910-935). -/
def removePrefixBinary (ts : List Tok) : Except Err (List Tok) := do
  let root ← sub ts.length 1
  let top ← get ts root
  let lhs ← sub root top.2
  let x ← get ts lhs
  let y ← get ts (← sub root 1)
  match top.1 with
  | .op op =>
    if isAddsub op then
      let (s1, lhs, root, ts) ← match x with
        | (.pre s1, llhs) => do
          let ts ← rotL ts ((← sub lhs llhs) + 1) llhs
          pure (s1, lhs - llhs, ← sub root llhs, ts)
        | _ => pure ('+', lhs, root, ts)
      let (s2, root) ← match y.1 with
        | .pre s2 => do pure (s2, ← sub root 1)
        | _ => pure ('+', root)
      let ts ← saveAndFlip ts root (.op (← gatherSign2 s1 op s2)) (← sub root lhs)
      .ok (ts.take (root + 1))
    else .ok ts
  | _ => .ok ts

/-- `simplify_down_unary` (`src/eval.rs` 893-908); `rec` is `simplify_rpn`. -/
def downUnary (rec : List Tok → Except Err (List Tok)) (ts : List Tok) : Except Err (List Tok) := do
  let ts ← removePrefixUnary ts.length ts
  let root := ts.length - 1
  if root = 0 then .ok ts
  else
    let top ← get ts root
    match top.1 with
    | .varArr id => .ok ((← rec (ts.take root)) ++ [(.var id 1, 1)])
    | .pre op =>
      let ts := (← rec (ts.take root)) ++ [(.pre op, 1)]
      removePrefixUnary ts.length ts
    | _ => rec ts

/-- `simplify_down_binary` (`src/eval.rs` 937-952); `rec` is `simplify_rpn`. -/
def downBinary (rec : List Tok → Except Err (List Tok)) (ts : List Tok) (root : Nat) (top : Tok) : Except Err (List Tok) := do
  let lhs ← sub root top.2
  let l ← rec (ts.take (lhs + 1))
  let r ← rec ((ts.take root).drop (lhs + 1))
  removePrefixBinary (l ++ r ++ [(top.1, r.length + 1)])

/-- `simplify_rpn` (`src/eval.rs` 954-975). -/
def simplify : Nat → List Tok → Except Err (List Tok)
  | 0, _ => .error .diverge
  | fuel + 1, ts => do
    if ts = [] then .error .parse
    else
      let root := ts.length - 1
      if root = 0 then .ok ts
      else
        let top ← get ts root
        let ts ← match top.1 with
          | .pre _ | .varArr _ => downUnary (simplify fuel) ts
          | .op _ => downBinary (simplify fuel) ts root top
          | _ => .ok ts
        if ts.length - 1 = 0 then .ok ts
        else sortAndSquash ts.length ts

/-! ## Signs (src/eval.rs 977-1032) -/

/-- `is_flippable` (`src/eval.rs` 977-984). -/
def isFlippable : Nat → List Tok → Except Err Bool
  | 0, _ => .error .diverge
  | fuel + 1, ts => do
    let root ← sub ts.length 1
    let top ← get ts root
    match top with
    | (.pre c, _) => .ok (c == '+' || c == '-')
    | (.val _, _) | (.var _ _, _) => .ok true
    | (.op op, lhs) =>
      if isAddsub op then
        let cut := (← sub root lhs) + 1
        if ← isFlippable fuel (ts.take cut) then isFlippable fuel ((ts.take root).drop cut) else .ok false
      else .ok false
    | _ => .ok false

/-- `flip_leaf_signs` (`src/eval.rs` 986-998). -/
def flipLeafSigns : Nat → List Tok → Except Err (List Tok)
  | 0, _ => .error .diverge
  | fuel + 1, ts => do
    let root ← sub ts.length 1
    let top ← get ts root
    match top with
    | (.val x, lhs) => put ts root (.val (← applyPrefix '-' x), lhs)
    | (.pre s, lhs) => put ts root (.pre (← fuseSign2 '-' s), lhs)
    | (.var id c, lhs) => put ts root (.var id (← applyPrefix '-' c), lhs)
    | (.op op, lhs) =>
      if isAddsub op then
        let cut := (← sub root lhs) + 1
        let l ← flipLeafSigns fuel (ts.take cut)
        let r ← flipLeafSigns fuel ((ts.take root).drop cut)
        .ok (l ++ r ++ [top])
      else .error .panic
    | _ => .error .panic

/-- The first `match` of `canonize_signs` (`src/eval.rs` 1007-1013). -/
def flipRoot (ts : List Tok) (root : Nat) (top : Tok) : Except Err (List Tok) := do
  match top with
  | (.op op, lhs) =>
    if op = '#' ∨ op = '~' then
      if ← isFlippable ts.length ts then
        let ts ← flipLeafSigns ts.length ts
        put ts root (.op (← peelSign op).2, lhs)
      else .ok ts
    else .ok ts
  | _ => .ok ts

/-- `canonize_signs` (`src/eval.rs` 1000-1026). -/
def canonizeSigns : Nat → List Tok → Except Err (List Tok)
  | 0, _ => .error .diverge
  | fuel + 1, ts => do
    let root ← sub ts.length 1
    if root = 0 then .ok ts
    else
      let ts ← flipRoot ts root (← get ts root)
      let top ← get ts root
      match top with
      | (.pre _, n) | (.var _ _, n) => if n = 1 then .ok ((← canonizeSigns fuel (ts.take root)) ++ [top]) else .ok ts
      | (.op _, lhs) =>
        let cut := (← sub root lhs) + 1
        let l ← canonizeSigns fuel (ts.take cut)
        let r ← canonizeSigns fuel ((ts.take root).drop cut)
        .ok (l ++ r ++ [top])
      | _ => .ok ts

/-- `canonize_rpn` (`src/eval.rs` 1028-1032). -/
def canonize (ts : List Tok) : Except Err (List Tok) := do
  let ts ← simplify (2 * ts.length + 1) ts
  canonizeSigns ts.length ts

/-! ## Evaluation (src/eval.rs 1156-1199) -/

/-- The body of the loop of `eval_rpn` (`src/eval.rs` 1164-1190); the top of the stack is the head of the list. -/
def evalStep (lookup : Nat → Int64 → Int64) (stack : List Int64) (t : Tok) : Except Err (List Int64) :=
  match t.1, stack with
  | .val v, _ => .ok (v :: stack)
  | .pre c, x :: rest => (applyPrefix c x).map (· :: rest)
  | .op c, y :: x :: rest => (applyOp c x y).map (· :: rest)
  | .var id c, _ =>
    if t.2 = 0 then .ok (c * lookup id 0 :: stack)
    else
      match stack with
      | [] => .error .parse
      | x :: rest => .ok (c * lookup id x :: rest)
  | _, _ => .error .parse

/-- The loop of `eval_rpn`. -/
def evalLoop (lookup : Nat → Int64 → Int64) : List Tok → List Int64 → Except Err (List Int64)
  | [], stack => .ok stack
  | t :: ts, stack =>
    match evalStep lookup stack t with
    | .error e => .error e
    | .ok stack => evalLoop lookup ts stack

/-- `eval_rpn` (`src/eval.rs` 1156-1199); `lookup` gives the values of the variables. -/
def evalRpn (lookup : Nat → Int64 → Int64) (ts : List Tok) : Except Err Int64 :=
  match evalLoop lookup ts [] with
  | .error e => .error e
  | .ok [] => .error .parse
  | .ok [v] => .ok v
  | .ok _ => .error .panic

/-! ## Interface (src/eval.rs 1270-1330) -/

/-- `input.trim()`, for ASCII input. -/
def trim (input : List Char) : List Char := ((input.dropWhile Char.isWhitespace).reverse.dropWhile Char.isWhitespace).reverse

/-- `tokenize`, `mark_prefices` and `sort_into_rpn` as called by `Rpn::new` (`src/eval.rs` 1276-1285). -/
def parse (vars : Vars) (input : List Char) : Except Err (List Tok) :=
  if trim input = [] then .error .parse
  else
    match tokenize vars (trim input) with
    | .error e => .error e
    | .ok ts =>
      match markPrefices ts with
      | none => .error .parse
      | some ts =>
        match sortIntoRpn ts with
        | none => .error .parse
        | some rpn => .ok rpn

/-- `Rpn::new` (`src/eval.rs` 1276-1291). -/
def rpnNew (vars : Vars) (input : List Char) : Except Err (List Tok) := do canonize (← parse vars input)

/-- `parse_int` (`src/eval.rs` 1327-1330). -/
def parseInt (input : List Char) : Except Err Int64 := do evalRpn (fun _ _ => 0) (← rpnNew [] input)

/-- `parse_usize` (`src/eval.rs` 1430-1443). -/
def parseUsize (input : List Char) : Except Err Nat := do
  let v ← parseInt input
  if 0 ≤ v then .ok v.toInt.toNat else .error .parse

end Eval

end Nd
