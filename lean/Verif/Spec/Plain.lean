import Verif.Spec.Written
/-!
# Characters of the language, and plain text
-/

namespace Qasm.Spec

/-- The characters that words, numbers, signs and blanks are made of. -/
def PlainChar (c : Char) : Prop :=
  Letter c ∨ Digit c ∨ c ∈ [' ', '\t', '\r', '\n', ';', ':', ',', '.', '=', '[', ']', '(', ')', '+', '-', '\'', '~', '!', '*', '/',
    '%', '<', '>', '&', '^', '|', '?']

/-- The parts of a text that can contain any character: comments and the code of an assembly statement. -/
def FreeText (k : TokKind) : Prop := k = .singleLineComment ∨ k = .multiLineComment ∨ k = .rawTextString

/-- Plain text: only visible characters of ASCII and blanks. No line end, no tabulator, no NUL. -/
def PlainAscii (w : Str) : Prop := ∀ c ∈ w, 32 ≤ c.toNat ∧ c.toNat ≤ 126

instance (w : Str) : Decidable (PlainAscii w) := inferInstanceAs (Decidable (∀ c ∈ w, 32 ≤ c.toNat ∧ c.toNat ≤ 126))

end Qasm.Spec
