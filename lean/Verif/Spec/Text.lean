import Verif.Model.Parser
/-!
# The record format

`offset length`, `offset length | array` or `offset length | array | mosaic` (README, `--patch`).
Only the type of records, the two field formats and the names of the builds are shared with the model.
-/
namespace Nd.Spec
open Nd

/-- The value of a hexadecimal digit. -/
def hexVal (c : Byte) : Option Nat :=
  if 48 ≤ c.toNat ∧ c.toNat ≤ 57 then some (c.toNat - 48)
  else if 65 ≤ c.toNat ∧ c.toNat ≤ 70 then some (c.toNat - 55)
  else if 97 ≤ c.toNat ∧ c.toNat ≤ 102 then some (c.toNat - 87)
  else none

/-- The value of a decimal digit. -/
def decVal (c : Byte) : Option Nat :=
  if 48 ≤ c.toNat ∧ c.toNat ≤ 57 then some (c.toNat - 48) else none

/-- `s` consists of the digits `ds`, most significant first. -/
def Digits (val : Byte → Option Nat) (s : Bytes) (ds : List Nat) : Prop := s.map val = ds.map some

/-- The number denoted by the digits `ds`. -/
def number (base : Nat) (ds : List Nat) : Nat := ds.foldl (fun a d => a * base + d) 0

/-- The text of a header field: a hexadecimal number of at most 15 digits, or a decimal number (modulo
2^64).  The empty text is read as zero. -/
def FieldText : Field → Bytes → Nat → Prop
  | .hex, s, v => ∃ ds, Digits hexVal s ds ∧ s.length ≤ 15 ∧ v = number 16 ds
  | .dec, s, v => ∃ ds, Digits decVal s ds ∧ v = number 10 ds % 2 ^ 64

/-- Array text as the program reads it: two-digit columns separated by single spaces, ending at the end of
the text, at a blank column (whatever follows), or with one stray character (which is ignored). -/
inductive Columns : Bytes → Bytes → Prop
  | nil : Columns [] []
  | stray (c : Byte) : Columns [c] []
  | blank (rest : Bytes) : Columns (32 :: 32 :: rest) []
  | last (a b : Byte) (x y : Nat) : hexVal a = some x → hexVal b = some y → Columns [a, b] [UInt8.ofNat (16 * x + y)]
  | col (a b : Byte) (x y : Nat) (rest d : Bytes) : hexVal a = some x → hexVal b = some y → Columns rest d →
      Columns (a :: b :: 32 :: rest) (UInt8.ofNat (16 * x + y) :: d)

/-- Array text as documented: two-digit columns separated by single spaces, then nothing or only spaces. -/
inductive StrictColumns : Bytes → Bytes → Prop
  | spaces (n : Nat) : StrictColumns (List.replicate n 32) []
  | last (a b : Byte) (x y : Nat) : hexVal a = some x → hexVal b = some y → StrictColumns [a, b] [UInt8.ofNat (16 * x + y)]
  | col (a b : Byte) (x y : Nat) (rest d : Bytes) : hexVal a = some x → hexVal b = some y → StrictColumns rest d →
      StrictColumns (a :: b :: 32 :: rest) (UInt8.ofNat (16 * x + y) :: d)

/-- What counts as blank in the vectorised builds. -/
def Blank (c : Byte) : Prop := c = 32 ∨ c = 58 ∨ c = 10

/-- A block of array text as the vectorised builds read it: a blank column hides the columns behind it, which are still
checked, and only separators followed by another column are checked. -/
inductive VecColumns : Bytes → Bytes → Prop
  | short (t : Bytes) : t.length ≤ 1 → VecColumns t []
  | last (a b : Byte) (x y : Nat) (t : Bytes) : hexVal a = some x → hexVal b = some y → t.length ≤ 2 → VecColumns (a :: b :: t) [UInt8.ofNat (16 * x + y)]
  | lastBlank (a b : Byte) (t : Bytes) : Blank a → Blank b → t.length ≤ 2 → VecColumns (a :: b :: t) []
  | col (a b : Byte) (x y : Nat) (rest d : Bytes) : hexVal a = some x → hexVal b = some y → 2 ≤ rest.length → VecColumns rest d →
      VecColumns (a :: b :: 32 :: rest) (UInt8.ofNat (16 * x + y) :: d)
  | blank (a b : Byte) (rest d : Bytes) : Blank a → Blank b → 2 ≤ rest.length → VecColumns rest d → VecColumns (a :: b :: 32 :: rest) []

/-- Array text read in blocks of `n` characters, each on its own. -/
inductive Blocks (n : Nat) (cols : Bytes → Bytes → Prop) : Bytes → Bytes → Prop
  | last (arr d : Bytes) : arr.length < n → cols arr d → Blocks n cols arr d
  | more (w rest d d' : Bytes) : w.length = n → cols w d → Blocks n cols rest d' → Blocks n cols (w ++ rest) (d ++ d')

/-- The blocks have 192 characters (64 columns) in the portable build and 48 in the others. -/
def Windows : Impl → Bytes → Bytes → Prop
  | .portable => Blocks 192 Columns
  | .avx2 | .neon => Blocks 48 VecColumns

/-- A line (without its line break) and the record it denotes; `cols` says how array text is read.  A header
without an array is only accepted if the length is hexadecimal. -/
inductive Line (cols : Bytes → Bytes → Prop) (fo fs : Field) : Bytes → Rec → Prop
  | header (o s : Bytes) (off span : Nat) : FieldText fo o off → FieldText fs s span → fs = .hex →
      Line cols fo fs (o ++ 32 :: s) { offset := off, span := span, data := [] }
  | array (o s arr tail : Bytes) (off span : Nat) (d : Bytes) : FieldText fo o off → FieldText fs s span →
      cols arr d → 124 ∉ arr → (tail = [] ∨ ∃ mosaic, tail = 124 :: mosaic) →
      Line cols fo fs (o ++ 32 :: (s ++ 32 :: 124 :: 32 :: (arr ++ tail))) { offset := off, span := span, data := d }

/-- The lines of a text: separated by line breaks; a line break at the end does not start another line. -/
def lines (text : Bytes) : List Bytes := go [] text
where
  go (cur : Bytes) : Bytes → List Bytes
    | [] => if cur = [] then [] else [cur]
    | c :: cs => if c = 10 then cur :: go [] cs else go (cur ++ [c]) cs

/-- Line by line reading: the records of the lines before the first malformed one, and whether there is a
malformed one. -/
inductive Reading (line : Bytes → Rec → Prop) : List Bytes → List Rec → Bool → Prop
  | nil : Reading line [] [] false
  | bad (l : Bytes) (ls : List Bytes) : (∀ r, ¬ line l r) → Reading line (l :: ls) [] true
  | good (l : Bytes) (ls : List Bytes) (r : Rec) (rs : List Rec) (b : Bool) : line l r → Reading line ls rs b →
      Reading line (l :: ls) (r :: rs) b

end Nd.Spec
