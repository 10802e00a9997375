import Verif.Spec.Version
import Verif.Model.Base
/-!
# Specification of Python's `int` of a text
-/

namespace Qasm.Spec

/-- The code points Python takes for white space. -/
def pySpaces : List Nat :=
  [9, 10, 11, 12, 13, 28, 29, 30, 31, 32, 133, 160, 5760, 8192, 8193, 8194, 8195, 8196, 8197, 8198, 8199, 8200, 8201, 8202,
   8232, 8233, 8239, 8287, 12288]

/-- `text` is the integer `i` with optional sign and white space around it; its digits come in groups separated by
underscores. -/
def PyInt (text : Str) (i : Int) : Prop :=
  ∃ (ws sign : Str) (groups : List Str) (ws' : Str),
    text = ws ++ sign ++ joinStr ['_'] groups ++ ws' ∧ (∀ c ∈ ws ++ ws', c.toNat ∈ pySpaces) ∧
    groups ≠ [] ∧ (∀ g ∈ groups, g ≠ [] ∧ ∀ c ∈ g, c.isDigit = true) ∧
    ((sign ∈ [[], ['+']] ∧ i = decimalValue groups.flatten) ∨ (sign = ['-'] ∧ i = -(decimalValue groups.flatten : Int)))

/-- `text` is the integer `i` as both languages read it: the white space before it is white space for C++, too, `i` is an `int`
and not negative, and its digits are one group, unless it is 0. -/
def CommonInt (text : Str) (i : Int) : Prop :=
  ∃ (ws sign : Str) (groups : List Str) (ws' : Str),
    text = ws ++ sign ++ joinStr ['_'] groups ++ ws' ∧
    (∀ c ∈ ws, c ∈ [' ', '\t', '\n', Char.ofNat 11, Char.ofNat 12, '\r']) ∧ (∀ c ∈ ws', c.toNat ∈ pySpaces) ∧
    groups ≠ [] ∧ (∀ g ∈ groups, g ≠ [] ∧ ∀ c ∈ g, c.isDigit = true) ∧ sign ∈ [[], ['+'], ['-']] ∧
    i = decimalValue groups.flatten ∧ i ≤ 2147483647 ∧ (sign = ['-'] → i = 0) ∧ (groups.length = 1 ∨ i = 0)

end Qasm.Spec
