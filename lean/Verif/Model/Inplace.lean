import Verif.Model.Byte
import Verif.Model.Sort
/-!
# `--inplace` (src/main.rs)

The file system is a map from names to contents; two names never denote the same file (no links), and nobody else touches the files.
Permissions and directories are left out.
-/
namespace Nd

/-- The files. -/
abbrev Disk := String → Option Bytes

/-- The file system operations issued by the in-place mode. -/
inductive FsOp where
  /-- `File::create` -/
  | create (name : String)
  /-- one `write(2)` at the end of the file being written -/
  | append (name : String) (data : Bytes)
  /-- `std::fs::rename` -/
  | rename (source target : String)

def Disk.set (σ : Disk) (name : String) (c : Option Bytes) : Disk := fun n => if n = name then c else σ n

/-- The effect of an operation that succeeds. -/
def FsOp.apply (σ : Disk) : FsOp → Disk
  | .create n => σ.set n (some [])
  | .append n d => σ.set n (some ((σ n).getD [] ++ d))
  | .rename a b => (σ.set b (σ a)).set a none

/-- The effect of a sequence of operations. -/
def applyAll (σ : Disk) (ops : List FsOp) : Disk := ops.foldl FsOp.apply σ

/-- `Vec::dedup` -/
def dedupNames : List String → List String
  | [] => []
  | [x] => [x]
  | x :: y :: rest => if x = y then dedupNames (y :: rest) else x :: dedupNames (y :: rest)

/-- `inputs.sort(); inputs.dedup()` (`src/main.rs` 156-158) -/
def inplaceOrder (inputs : List String) : List String := dedupNames (stableSort (fun a b => decide (a ≤ b)) inputs)

/-- `format!("{}.tmp", &input[0])` (`src/main.rs` 163) -/
def tmpName (f : String) : String := f ++ ".tmp"

/-- The loop over the inputs (`src/main.rs` 160-171): the operations and whether the program succeeds, if each of the operations does.
`run σ f old` stands for `spawn_stream` and `consume_stream` on the file `f`, which holds `old`: what is written, split into system calls, and the outcome.  The streams are
constructed after the temporary file has been created; `σ` is the disk at that point, on which the files that the options name are found.
A failing operation ends the program, as a crash does; the state is then that after a prefix of the operations. -/
def inplaceOps (run : Disk → String → Bytes → List Bytes × Option Err) : List String → Disk → List FsOp × Bool
  | [], _ => ([], true)
  | f :: rest, σ =>
    match σ f with
    | none => ([], false)
    | some old =>
      let r := run (FsOp.apply σ (.create (tmpName f))) f old
      let ops := .create (tmpName f) :: r.1.map (.append (tmpName f))
      match r.2 with
      | some _ => (ops, false)
      | none =>
        let ops := ops ++ [.rename (tmpName f) f]
        let r := inplaceOps run rest (applyAll σ ops)
        (ops ++ r.1, r.2)

/-- `spawn_stream` followed by `consume_stream`, where `split` is the way `write_all` splits what it writes. -/
def streamRun (split : Bytes → List Bytes) (S : ByteSrc σ) (B fuel : Nat) (spawn : String → Bytes → Except Err σ) (f : String) (old : Bytes) :
    List Bytes × Option Err :=
  match spawn f old with
  | .error e => ([], some e)
  | .ok s => (split (consumeStream S B fuel s).1, (consumeStream S B fuel s).2)

end Nd
