import Verif.Model.Base
/-!
# Independent notions for the string utilities

Nothing here refers to the model of `src/utils.cpp`.
-/

namespace Qasm.Spec

/-- RFC 3986 unreserved bytes: letters, digits, `-`, `.`, `_`, `~`. -/
def Unreserved (c : UInt8) : Prop :=
  (∃ ch : Char, ch.isAlphanum = true ∧ c.toNat = ch.toNat) ∨ c = 45 ∨ c = 46 ∨ c = 95 ∨ c = 126

/-- Value of one upper-case hexadecimal digit. -/
def hexVal (c : UInt8) : Option Nat :=
  if 48 ≤ c.toNat ∧ c.toNat ≤ 57 then some (c.toNat - 48)
  else if 65 ≤ c.toNat ∧ c.toNat ≤ 70 then some (c.toNat - 55)
  else none

/-- Percent-decoding (RFC 3986, 2.1), strict: a `%` must be followed by two hexadecimal digits. -/
def percentDecode : Bytes → Option Bytes
  | [] => some []
  | 37 :: a :: b :: rest =>
      match hexVal a, hexVal b, percentDecode rest with
      | some x, some y, some t => some (UInt8.ofNat (16 * x + y) :: t)
      | _, _, _ => none
  | 37 :: _ => none
  | c :: rest => (percentDecode rest).map (c :: ·)

/-- Content of a JSON string (RFC 8259, 7), as UTF-16 code units for `\u` escapes and bytes otherwise.
Only the escape form `\uXXXX` is accepted; raw `"`, `\` and control bytes are not. -/
def jsonStringDecode : Bytes → Option (List Nat)
  | [] => some []
  | 92 :: 117 :: a :: b :: c :: d :: rest =>
      match hexVal a, hexVal b, hexVal c, hexVal d, jsonStringDecode rest with
      | some w, some x, some y, some z, some t => some ((4096 * w + 256 * x + 16 * y + z) :: t)
      | _, _, _, _, _ => none
  | c :: rest =>
      if c.toNat < 32 ∨ c = 34 ∨ c = 92 then none else (jsonStringDecode rest).map (c.toNat :: ·)

/-- The known escape sequences of string literals and the character each stands for. -/
def escapes : List (Str × Char) :=
  [(['\\', 't'], '\t'), (['\\', 'n'], '\n'), (['\\', 'r'], '\r'),
   (['\\', '\''], '\''), (['\\', '"'], '"'), (['\\', '\\'], '\\')]

/-- The text an escape sequence stands for: the table entry, or the sequence itself. -/
def unescape (e : Str) : Str :=
  match escapes.lookup e with
  | some c => [c]
  | none => e

/-- One fragment pushed to a string builder: literal text or an escape sequence. -/
inductive Fragment where
  | text (s : Str)
  | escape (s : Str)

/-- The text a fragment stands for. -/
def Fragment.denote : Fragment → Str
  | .text s => s
  | .escape s => unescape s

/-- The lower-case letter of an ASCII upper-case letter, any other byte itself, by listing the alphabet. -/
def lowerTable : List (UInt8 × UInt8) :=
  [(65, 97), (66, 98), (67, 99), (68, 100), (69, 101), (70, 102), (71, 103), (72, 104), (73, 105),
   (74, 106), (75, 107), (76, 108), (77, 109), (78, 110), (79, 111), (80, 112), (81, 113), (82, 114),
   (83, 115), (84, 116), (85, 117), (86, 118), (87, 119), (88, 120), (89, 121), (90, 122)]

/-- Lower-casing by table. -/
def lower (c : UInt8) : UInt8 := (lowerTable.lookup c).getD c

end Qasm.Spec
