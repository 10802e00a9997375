import Verif.Spec.Lexer
import Verif.Spec.Ast
/-!
# Where a text stops being the start of a program

Only the grammar and the cutting into tokens are used, nothing of the parser.
-/

namespace Qasm.Spec

/-- The text is in the language: it is cut into tokens that the grammar derives. -/
def InLanguage (t : Str) : Prop := ∃ ts pr, Lexer.lex t = .ok ts ∧ Program DerivesStmt ts pr

/-- The tokens are the start of a program: some tokens complete them to one. -/
def Starts (us : List Token) : Prop := ∃ vs pr, Program DerivesStmt (us ++ vs) pr

/-- The first token that cannot continue what comes before it: the tokens before it start a program, with it they do not. -/
def FirstBad (ts : List Token) (t : Token) : Prop :=
  ∃ pre post, ts = pre ++ t :: post ∧ Starts pre ∧ ¬ Starts (pre ++ [t])

/-- The error is reported for the file at the given line and (zero-based) column, as the given number of bytes. -/
def SyntaxErrorAt (file : Option Str) (line column size : Nat) (e : Err) : Prop :=
  ∃ loc, e.location = some loc ∧ loc.fileName = (if file = some [] then none else file) ∧
    loc.range.first = ⟨line, column + 1⟩ ∧ loc.range.last = ⟨line, column + 1 + size⟩

/-- The size of a token in an error: that of its UTF-8 text, nothing for the end of the file. -/
def tokenSize (t : Token) : Nat := if t.kind = .eof then 0 else (utf8 t.text).length

end Qasm.Spec

namespace Qasm.Spec

/-- Blanks and comments. -/
def Blanks (b : Str) : Prop := ∃ segs : List (TokKind × Str), b = covered segs ∧ ∀ p ∈ segs, Skipped p.1 = true ∧ Text p.1 p.2

/-- The text goes wrong at `w`, after `u` and blanks and comments `b`: what ends with `u` can be completed to a text of the
language; with `w` and a blank after it, it cannot, whatever follows. (Two words have another meaning if more text follows: three
quotes, when they are closed, and a `*` directly after `/`, when it starts a comment.) If `w` is empty, the text goes wrong by
ending here. -/
def GoesWrong (text u b w v : Str) : Prop :=
  text = u ++ b ++ w ++ v ∧ Blanks b ∧ (∃ z, InLanguage (u ++ ' ' :: z)) ∧ (w = [] → v = []) ∧
    (w ≠ [] → w ≠ c!"'''" → (w.head? = some '*' → (u ++ b).getLast? ≠ some '/') → ∀ z, ¬ InLanguage (u ++ b ++ w ++ ' ' :: z))

end Qasm.Spec
