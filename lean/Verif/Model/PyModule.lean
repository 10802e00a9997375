import Verif.Model.Cbor
/-!
# Classes of the Python module: `python/module/cqasm/v3x/primitives.py`, `python/module/cqasm/v3x/instruction.py`
-/

namespace Qasm.Py

/-- White space as Python's `int` strips it (`str.isspace`). -/
def isSpace (c : Char) : Bool :=
  (9 ≤ c.toNat && c.toNat ≤ 13) || (28 ≤ c.toNat && c.toNat ≤ 32) || c.toNat == 133 || c.toNat == 160 || c.toNat == 5760 ||
    (8192 ≤ c.toNat && c.toNat ≤ 8202) || c.toNat == 8232 || c.toNat == 8233 || c.toNat == 8239 || c.toNat == 8287 ||
    c.toNat == 12288

/-- The text without white space at both ends. -/
def strip (s : Str) : Str := ((s.dropWhile isSpace).reverse.dropWhile isSpace).reverse

/-- The digits of a number whose digits may be separated by single underscores; `none` if it is not one. Simplification:
of the Unicode decimal digits only the ASCII ones are known. -/
def digits : Str → Option Str
  | [] => none
  | [c] => if c.isDigit then some [c] else none
  | c :: '_' :: r => if c.isDigit then (digits r).map (c :: ·) else none
  | c :: d :: r => if c.isDigit then (digits (d :: r)).map (c :: ·) else none

/-- Python's `int(text)`. -/
def int (s : Str) : Res Empty Int :=
  let p := Version.splitSign (strip s)
  match digits p.2 with
  | none => .exn c!"ValueError"
  | some ds => .ok (if p.1 then - (Version.digitsVal 0 ds : Int) else Version.digitsVal 0 ds)

/-- `Version(elements)` for a text, python/module/cqasm/v3x/primitives.py:14-17; `split('.')` is the splitting that C++
does as well. -/
def version (s : Str) : Res Empty (List Int) := Cbor.each int (Version.splitDots [] s)

/-- An element of the argument `types` of `Instruction`: a node of `cqasm.v3x.types` or another object. -/
inductive Obj where
  | node (t : Ty)
  | other
  deriving DecidableEq

/-- What can be iterated over: a sequence, again and again, or an iterator, once. -/
inductive Iterable where
  | sequence (l : List Obj)
  | iterator (l : List Obj)
  deriving DecidableEq

/-- A loop over an iterable: the elements, and the iterable after it. -/
def Iterable.loop : Iterable → List Obj × Iterable
  | .sequence l => (l, .sequence l)
  | .iterator l => (l, .iterator [])

/-- `Instruction`, python/module/cqasm/v3x/instruction.py:4. -/
structure Instruction where
  name : Str
  types : List Obj
  deriving DecidableEq

/-- `Instruction.__init__`, python/module/cqasm/v3x/instruction.py:5-14, for a name that is a string: one loop to check,
and a second one, in `tuple`, to copy. -/
def Instruction.init (name : Str) (types : Option Iterable) : Res Empty Instruction :=
  match types with
  | none => .ok ⟨name, []⟩
  | some it =>
    if it.loop.1.any (· == .other) then .exn c!"TypeError"
    else .ok ⟨name, it.loop.2.loop.1⟩

/-- The arguments of `InstructionRef` in the ways it is meant to be called: none, an instruction or `None`, or those of
`Instruction`. -/
inductive RefArgs where
  | nothing
  | data (i : Option Instruction)
  | instruction (name : Str) (types : Option Iterable)

/-- `InstructionRef.__init__`, python/module/cqasm/v3x/instruction.py:29-35: the field `_data`. -/
def InstructionRef.init : RefArgs → Res Empty (Option Instruction)
  | .nothing => .ok none
  | .data i => .ok i
  | .instruction name types => (Instruction.init name types).bind fun i => .ok (some i)

/-- `Instruction.__str__`, python/module/cqasm/v3x/instruction.py:24-25. `str` is the generated text of an object. -/
def Instruction.str (str : Obj → Str) (i : Instruction) : Str :=
  i.name ++ c!"(" ++ joinStr c!", " (i.types.map str) ++ c!")"

/-- `InstructionRef.__str__`, python/module/cqasm/v3x/instruction.py:41-42. -/
def InstructionRef.str (str : Obj → Str) : Option Instruction → Str
  | none => c!"unresolved"
  | some i => i.str str

end Qasm.Py
