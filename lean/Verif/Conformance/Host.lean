import Verif.Model.Program
/-!
# The surroundings of the recorded commands

`README.md` and `test.md` record commands with what they print.  `Conformance/Readme.lean` and `Conformance/TestMd.lean` check that the model prints the
same; the project checks `test.md` against the program.  This file has the files, the commands, and the parts of the crates that the records use.
-/
namespace Nd.Conformance

/-- The bytes of a string literal, as a list literal. -/
macro "bytes! " s:str : term => do
  let ns : Array (Lean.TSyntax `term) := (s.getString.toUTF8.toList.map fun c => (⟨Lean.Syntax.mkNumLit (toString c.toNat)⟩ : Lean.TSyntax `term)).toArray
  `(([$ns,*] : Bytes))

/-- The characters of a string literal, as a list literal. -/
macro "chars! " s:str : term => do
  let cs : Array (Lean.TSyntax `term) := (s.getString.toList.map fun c => (Lean.Syntax.mkCharLit c : Lean.TSyntax `term)).toArray
  `(([$cs,*] : List Char))

/-- The files in `/repo/test`, and those used in `README.md`. -/
def content (name : String) : Option Bytes :=
  if name = "hello.txt" then some (bytes! "Hello\n")
  else if name = "world.txt" then some (bytes! "world\n")
  else if name = "quick.txt" then some (bytes! "The quick brown fox jumps over the lazy dog.\n")
  else if name = "walk.bin" then some ([11] ++ (bytes! "a payload") ++ [0, 17] ++ (bytes! "another payload") ++ [0])
  else if name = "guide.txt" then some (bytes! "000000000010 0003\n000000000028 0003\n")
  else if name = "lazy.txt" then some (bytes! "000000000023 00 | 6c 61 7a 79 20\n")
  else if name = "patch.txt" then some (bytes! "000000000010 0003 | 66 72 6f 67\n")
  else none

/-- The files that can be read, with their standard input. -/
def disk (stdin : Option Bytes) (name : String) : Option (Bytes × (Nat → Option Nat)) :=
  (if name = "-" ∨ name = "/dev/stdin" then stdin else content name).map (·, fun _ => some (2 ^ 21))

/-- `[fd]o[xg]` matches of the records: `fox` and `dog`. -/
def fdox (p : Bytes) : List Seg :=
  (List.range p.length).filterMap fun i => if (p.drop i).take 3 = (bytes! "fox") ∨ (p.drop i).take 3 = (bytes! "dog") then some ⟨i, 3⟩ else none

/-- The lines, without the line breaks. -/
def lines (b : Bytes) : List Bytes :=
  let r := b.foldr (fun c r => if c = 10 then ([], if r.1 = [] ∧ r.2 = [] then [] else r.1 :: r.2) else (c :: r.1, r.2)) (([], []) : Bytes × List Bytes)
  if r.1 = [] ∧ r.2 = [] then [] else r.1 :: r.2

/-- The first occurrence replaced. -/
def replace (old new : Bytes) : Bytes → Bytes
  | [] => []
  | c :: cs => if old.isPrefixOf (c :: cs) then new ++ (c :: cs).drop old.length else c :: replace old new cs

/-- `sed s/old/new/` -/
def sed (old new : Bytes) (b : Bytes) : Bytes := (lines b).flatMap fun l => replace old new l ++ [10]

/-- `awk '{ printf "%s %s | 4f 4f\n", $1, $2 }'` for lines that contain a bar -/
def awk (b : Bytes) : Bytes := (lines b).flatMap fun l => l.takeWhile (· != 124) ++ (bytes! "| 4f 4f\n")

/-- The commands of `--patch-back`. -/
def commands (c : String) (b : Bytes) : Bytes × (Nat → Option Nat) :=
  (if c = "cat" then b
   else if c = "sed s/48/68/" then sed (bytes! "48") (bytes! "68") b
   else if c = "sed s/6c/4c/" then sed (bytes! "6c") (bytes! "4c") b
   else if c = "awk" then awk b
   else [], fun _ => some (2 ^ 21))

/-- The formats `` (decimal) and `02x` of `num_runtime_fmt`, for values that are not negative. -/
def numFmts : NumFmts (List Char) where
  parse f := if f = [] ∨ f = ['0', '2', 'x'] then .ok f else .error .invalid
  fmt f v :=
    if f = [] then .ok (Nat.toDigits 10 v.toInt.toNat)
    else .ok (List.replicate (2 - (Nat.toDigits 16 v.toInt.toNat).length) '0' ++ Nat.toDigits 16 v.toInt.toNat)

/-- The program as built for an unknown target, on these files. -/
def host (stdin : Option Bytes := none) : Host where
  impl := .portable
  block := 2 ^ 21
  fuel := 300
  checks := false
  files := disk stdin
  outputs _ := none
  commands := commands
  tempSched _ := some (2 ^ 21)
  regex _ := .ok fdox
  numFmts := numFmts

/-- The command prints `out` and succeeds. -/
def prints (a : Args) (out : Bytes) (stdin : Option Bytes := none) : Bool := (host stdin).run a == (out, none)

/-- The command prints `out` first. -/
def starts (a : Args) (out : Bytes) (stdin : Option Bytes := none) : Bool := ((host stdin).run a).1.take out.length == out

/-- The command fails. -/
def fails (a : Args) (stdin : Option Bytes := none) : Bool := ((host stdin).run a).2.isSome

/-- The command prints nothing, succeeds, and leaves these files behind. -/
def writes (a : Args) (out : List (String × Option Bytes)) : Bool :=
  (host none).run a == ([], none) && ((host none).written a).any fun fs => out.all fun x => fs x.1.toList == x.2

/-- The in-place command succeeds on the files `before` and leaves the files `out` behind. -/
def edits (a : Args) (before : List (String × Bytes)) (out : List (String × Option Bytes)) : Bool :=
  let files : Disk := fun n => (before.lookup n).or (content n)
  let r := (host none).runInplace (fun b => [b]) (fun _ _ => some (2 ^ 21)) (fun _ => ([], fun _ => some 1)) a files
  r.2 && out.all fun x => applyAll files r.1 x.1 == x.2

/-- `tail -1` -/
def lastLine (b : Bytes) : Bytes := (b.dropLast.reverse.takeWhile (· != 10)).reverse ++ [10]

end Nd.Conformance
