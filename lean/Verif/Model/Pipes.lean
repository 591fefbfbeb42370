import Verif.Model.PatchBack
/-!
# `--patch-back`: the command as a process between two pipes of limited capacity (src/drain/patch.rs)

`World` says in which order the threads can act, with a command that is a function.  Here the command is a process that reads and prints byte by byte, and everybody who writes
to a pipe that is full, reads from a pipe that is empty, or waits for the end of somebody else, is blocked.
-/
namespace Nd

/-- What a process does next: it reads a byte (or learns that there is none any more), prints a byte, or has ended. -/
inductive Act (κ : Type v) where
  | read (k : Option Byte → κ)
  | write (b : Byte) (k : κ)
  | exit

/-- The two threads, the command and the pipes. -/
structure Net (σ : Type u) (κ : Type v) where
  /-- the slicing thread; `a.written` is what it has passed to `write_all` -/
  a : Slicing σ
  /-- how many bytes of this have been written -/
  sent : Nat
  /-- what is in the pipe to the command -/
  input : Bytes
  /-- the command -/
  proc : κ
  /-- what is in the pipe from the command -/
  output : Bytes
  /-- what the main thread has read from the command -/
  got : Bytes
  /-- whether the main thread has seen the end of what the command prints -/
  ended : Bool

namespace Net

/-- The slicing thread has ended, and with it the pipe to the command is closed (`src/drain/patch.rs` 88-90). -/
def closed (n : Net σ κ) : Prop := n.a.fate.isSome = true ∧ n.sent = n.a.written.length

/-- At the start (`src/drain/patch.rs` 63-93). -/
def new (st : σ) (start : κ) : Net σ κ := { a := Slicing.new st, sent := 0, input := [], proc := start, output := [], got := [], ended := false }

/-- What can happen next.  `P` is the command, `ci` and `co` are the capacities of the pipes.  The main thread reads from the command until it has `enough`.
* `slice`: a round of the thread (`src/drain/patch.rs` 72-89), as soon as what it had to write is written;
* `send`: `write_all` writes a byte (`src/drain/patch.rs` 45);
* `broken`: the command has ended without having read everything: `write_all` fails and the thread panics (`src/drain/patch.rs` 83, 88);
* `receive`, `receiveEnd`, `print`: the command reads and prints;
* `take`, `finish`: the main thread reads a byte of what the command prints, or sees its end (`src/drain/patch.rs` 34). -/
inductive Step (S : SegSrc σ) (f : Formatting) (B : Nat) (P : κ → Act κ) (ci co : Nat) (enough : Bytes → Bool) : Net σ κ → Net σ κ → Prop where
  | slice (n) : n.a.fate = none → n.sent = n.a.written.length → Step S f B P ci co enough n { n with a := n.a.round S f B }
  | send (n) (b : Byte) : P n.proc ≠ .exit → n.a.written[n.sent]? = some b → n.input.length < ci → Step S f B P ci co enough n { n with sent := n.sent + 1, input := n.input ++ [b] }
  | broken (n) : P n.proc = .exit → n.sent < n.a.written.length → Step S f B P ci co enough n { n with a := { n.a with fate := some (some .io) }, sent := n.a.written.length }
  | receive (n) (k) (b : Byte) (rest : Bytes) : P n.proc = .read k → n.input = b :: rest → Step S f B P ci co enough n { n with proc := k (some b), input := rest }
  | receiveEnd (n) (k) : P n.proc = .read k → n.input = [] → n.closed → Step S f B P ci co enough n { n with proc := k none }
  | print (n) (b : Byte) (k) : P n.proc = .write b k → n.output.length < co → Step S f B P ci co enough n { n with proc := k, output := n.output ++ [b] }
  | take (n) (b : Byte) (rest : Bytes) : enough n.got = false → n.output = b :: rest → Step S f B P ci co enough n { n with got := n.got ++ [b], output := rest }
  | finish (n) : enough n.got = false → P n.proc = .exit → n.output = [] → n.ended = false → Step S f B P ci co enough n { n with ended := true }

/-- What can be reached with how many steps.  In between, once the main thread has read something from the command, it accesses the temporary file; these accesses are not counted. -/
inductive Path (S : SegSrc σ) (f : Formatting) (B : Nat) (P : κ → Act κ) (ci co : Nat) (enough : Bytes → Bool) (A : σ → σ → Prop) (st : σ) (start : κ) : Nat → Net σ κ → Prop where
  | init : Path S f B P ci co enough A st start 0 (new st start)
  | step (m : Nat) (n n' : Net σ κ) : Path S f B P ci co enough A st start m n → Step S f B P ci co enough n n' → Path S f B P ci co enough A st start (m + 1) n'
  | access (m : Nat) (n : Net σ κ) (st' : σ) : Path S f B P ci co enough A st start m n → n.got ≠ [] ∨ n.ended = true → A n.a.st st' →
      Path S f B P ci co enough A st start m { n with a := { n.a with st := st' } }

end Net
end Nd
