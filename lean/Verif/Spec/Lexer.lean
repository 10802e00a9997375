import Verif.Model.Lexer
/-!
# What the tokens of cQASM are

The texts of every token type in plain words, and what it means for a text to be cut into tokens. Nothing
here refers to the way the lexer matches (`Model/Regex`): only the names of token types, tokens and modes
are shared with the model.
-/

namespace Qasm.Spec

open Lexer (Mode)

/-- A decimal digit. -/
def Digit (c : Char) : Prop := c ∈ ['0', '1', '2', '3', '4', '5', '6', '7', '8', '9']

/-- A letter of the English alphabet, of either case, or an underscore. -/
def Letter (c : Char) : Prop := c.isAlpha ∨ c = '_'

/-- A non-empty run of digits. -/
def Digits (w : Str) : Prop := w ≠ [] ∧ ∀ c ∈ w, Digit c

/-- The exponent of a float literal. -/
def Exponent (w : Str) : Prop :=
  ∃ e sign ds, w = e :: sign ++ ds ∧ (e = 'e' ∨ e = 'E') ∧ (sign = [] ∨ sign = ['-'] ∨ sign = ['+']) ∧ Digits ds

/-- A word: a letter followed by letters and digits. -/
def Word (w : Str) : Prop := ∃ c u, w = c :: u ∧ Letter c ∧ ∀ d ∈ u, Letter d ∨ Digit d

/-- The signs, operators and keywords: token types with one text. -/
def fixedText : TokKind → Option Str
  | .semicolon => some c!";"
  | .colon => some c!":"
  | .comma => some c!","
  | .dot => some c!"."
  | .equals => some c!"="
  | .openBracket => some c!"["
  | .closeBracket => some c!"]"
  | .openParens => some c!"("
  | .closeParens => some c!")"
  | .plus => some c!"+"
  | .minus => some c!"-"
  | .tripleQuote => some c!"'''"
  | .bitwiseNot => some c!"~"
  | .logicalNot => some c!"!"
  | .power => some c!"**"
  | .product => some c!"*"
  | .division => some c!"/"
  | .modulo => some c!"%"
  | .shl => some c!"<<"
  | .shr => some c!">>"
  | .cmpGt => some c!">"
  | .cmpLt => some c!"<"
  | .cmpGe => some c!">="
  | .cmpLe => some c!"<="
  | .cmpEq => some c!"=="
  | .cmpNe => some c!"!="
  | .bitwiseAnd => some c!"&"
  | .bitwiseXor => some c!"^"
  | .bitwiseOr => some c!"|"
  | .logicalAnd => some c!"&&"
  | .logicalXor => some c!"^^"
  | .logicalOr => some c!"||"
  | .ternary => some c!"?"
  | .version => some c!"version"
  | .measure => some c!"measure"
  | .reset => some c!"reset"
  | .init => some c!"init"
  | .barrier => some c!"barrier"
  | .wait => some c!"wait"
  | .inv => some c!"inv"
  | .pow => some c!"pow"
  | .ctrl => some c!"ctrl"
  | .qubitType => some c!"qubit"
  | .bitType => some c!"bit"
  | .asm => some c!"asm"
  | _ => none

/-- The texts of a token type. -/
def Text (k : TokKind) (w : Str) : Prop :=
  match k with
  | .whiteSpace | .versionWhiteSpace => w ≠ [] ∧ ∀ c ∈ w, c = ' ' ∨ c = '\t'
  | .singleLineComment => ∃ u, w = '/' :: '/' :: u ∧ ∀ c ∈ u, c ≠ '\r' ∧ c ≠ '\n'
  | .multiLineComment => ∃ u, w = '/' :: '*' :: u ++ ['*', '/']
  | .newLine => w = ['\n'] ∨ w = ['\r', '\n']
  | .booleanLiteral => w = c!"true" ∨ w = c!"false"
  | .integerLiteral => Digits w
  | .floatLiteral => ∃ a b e, w = a ++ '.' :: b ++ e ∧ (∀ c ∈ a, Digit c) ∧ (∀ c ∈ b, Digit c)
      ∧ (a ≠ [] ∨ b ≠ []) ∧ (e = [] ∨ Exponent e)
  | .identifier => Word w
  | .rawTextString => ∃ u, w = c!"'''" ++ u ++ c!"'''"
  | .versionNumber => Digits w ∨ ∃ a b, w = a ++ '.' :: b ∧ Digits a ∧ Digits b
  | k => fixedText k = some w

/-- The two token types that end as early as possible: block comments and raw strings. -/
def EndsEarly (k : TokKind) : Prop := k = .multiLineComment ∨ k = .rawTextString

/-- The token types looked for in a mode, most preferred first. -/
def order : Mode → List TokKind
  | .default =>
    [.whiteSpace, .singleLineComment, .multiLineComment, .newLine, .semicolon, .colon, .comma, .dot, .equals,
     .openBracket, .closeBracket, .openParens, .closeParens, .plus, .minus, .tripleQuote, .bitwiseNot,
     .logicalNot, .power, .product, .division, .modulo, .shl, .shr, .cmpGt, .cmpLt, .cmpGe, .cmpLe, .cmpEq,
     .cmpNe, .bitwiseAnd, .bitwiseXor, .bitwiseOr, .logicalAnd, .logicalXor, .logicalOr, .ternary, .version,
     .measure, .reset, .init, .barrier, .wait, .inv, .pow, .ctrl, .qubitType, .bitType, .asm,
     .booleanLiteral, .integerLiteral, .floatLiteral, .identifier, .rawTextString]
  | .versionStatement => [.versionWhiteSpace, .versionNumber]

/-- A candidate: a text of type `k` at the start of `s`, the shortest one for types that end early. -/
def Candidate (k : TokKind) (s w : Str) : Prop :=
  Text k w ∧ w <+: s ∧ (EndsEarly k → ∀ v, Text k v → v <+: s → w.length ≤ v.length)

/-- The winner at the start of `s`: no candidate of any type is longer, and none of a preferred type is
as long. -/
def Winner (m : Mode) (s : Str) (k : TokKind) (w : Str) : Prop :=
  ∃ preferred others, order m = preferred ++ k :: others ∧ Candidate k s w
    ∧ (∀ k' ∈ preferred, ∀ v, Candidate k' s v → v.length < w.length)
    ∧ (∀ k' ∈ k :: others, ∀ v, Candidate k' s v → v.length ≤ w.length)

/-- No token type of the mode has a text at the start of `s`. -/
def Stuck (m : Mode) (s : Str) : Prop := ∀ k ∈ order m, ∀ w, Text k w → ¬ w <+: s

/-- Blanks and comments: cut off, but not delivered. -/
def Skipped (k : TokKind) : Bool :=
  k = .whiteSpace || k = .singleLineComment || k = .multiLineComment || k = .versionWhiteSpace

/-- The keyword `version` starts the version mode and the version number ends it. -/
def modeAfter (m : Mode) (k : TokKind) : Mode :=
  if k = .version then .versionStatement else if k = .versionNumber then .default else m

/-- `Cut m s segments m' rest`: in mode `m`, the text `s` starts with the segments (type and text), each
the winner at its place; the text `rest` remains, to be read in mode `m'`. -/
inductive Cut : Mode → Str → List (TokKind × Str) → Mode → Str → Prop
  | nil (m : Mode) (s : Str) : Cut m s [] m s
  | cons {m m' : Mode} {k : TokKind} {w s rest : Str} {segs : List (TokKind × Str)} :
      Winner m (w ++ s) k w → Cut (modeAfter m k) s segs m' rest → Cut m (w ++ s) ((k, w) :: segs) m' rest

/-- The text a list of segments covers. -/
def covered (segs : List (TokKind × Str)) : Str := segs.flatMap (·.2)

/-- The line of the position after the text `before`: one more than its number of newlines. -/
def lineAfter (before : Str) : Nat := before.count '\n' + 1

/-- The characters after the last newline of a text. -/
def lastLine (before : Str) : Str := (before.reverse.takeWhile (· ≠ '\n')).reverse

/-- The (zero-based) column of the position after the text `before`: the characters since its last newline. -/
def columnAfter (before : Str) : Nat := (lastLine before).length

/-- The tokens of a list of segments that follow the text `before`: every segment that is not skipped, at
its position. -/
def tokensOf (before : Str) : List (TokKind × Str) → List Token
  | [] => []
  | (k, w) :: segs =>
    if Skipped k then tokensOf (before ++ w) segs
    else ⟨k, w, lineAfter before, columnAfter before⟩ :: tokensOf (before ++ w) segs

end Qasm.Spec

namespace Qasm.Spec

open Lexer (Mode)

/-- The keywords. -/
def keywords : List (Str × TokKind) :=
  [(c!"version", .version), (c!"measure", .measure), (c!"reset", .reset), (c!"init", .init),
   (c!"barrier", .barrier), (c!"wait", .wait), (c!"inv", .inv), (c!"pow", .pow), (c!"ctrl", .ctrl),
   (c!"qubit", .qubitType), (c!"bit", .bitType), (c!"asm", .asm)]

/-- What a word is: a keyword if it is one of the keywords, a boolean if it is `true` or `false`, otherwise
an identifier. -/
def wordKind (w : Str) : TokKind :=
  match keywords.find? (·.1 = w) with
  | some (_, k) => k
  | none => if w = c!"true" ∨ w = c!"false" then .booleanLiteral else .identifier

/-- `Trivia t b`: the text `t`, put before `b`, is made of blanks, tabs, block comments that contain no
end of comment, and possibly a line comment that ends where `b` starts a new line or is empty. -/
inductive Trivia : Str → Str → Prop
  | nil (b : Str) : Trivia [] b
  | blank {c : Char} {t b : Str} : c = ' ' ∨ c = '\t' → Trivia t b → Trivia (c :: t) b
  | block {u t b : Str} : ¬ c!"*/" <:+: u ++ ['*'] → Trivia t b → Trivia ('/' :: '*' :: u ++ ['*', '/'] ++ t) b
  | line {u b : Str} : (∀ c ∈ u, c ≠ '\r' ∧ c ≠ '\n') → (∀ c, b.head? = some c → c = '\r' ∨ c = '\n') →
      Trivia ('/' :: '/' :: u) b

/-- The segments contain no `'''` that was left open (a token of its own) and no `/` directly followed by a
segment that starts with `*`. -/
def Closed : List (TokKind × Str) → Prop
  | [] => True
  | (k, _) :: segs => k ≠ .tripleQuote ∧ (k = .division → ∀ p ∈ segs.head?, p.2.head? ≠ some '*') ∧ Closed segs

/-- What the parser sees of a text, apart from positions: the types and texts of its tokens, or `none` if
it cannot be cut into tokens. -/
def seen (s : Str) : Option (List (TokKind × Str)) :=
  match Lexer.lex s with
  | .ok ts => some (ts.map fun t => (t.kind, t.text))
  | .error _ => none

end Qasm.Spec
