import Verif.Model.Regex
/-!
# The lexer: `src/v3x/CqasmLexer.g4`

The input is the decoded text ANTLR's input stream delivers (a list of code points).
ANTLR's run-time library is not in /repo; its documented behaviour is modelled: at every position the
longest match among the rules of the current mode, the first rule on ties, `skip`, `pushMode` and
`popMode`, and "token recognition error" when no rule matches.
-/

namespace Qasm

/-- The token types of src/v3x/CqasmLexer.g4, in the order of the file, and `Token::EOF`. -/
inductive TokKind where
  | whiteSpace | singleLineComment | multiLineComment
  | newLine | semicolon | colon | comma | dot | equals
  | openBracket | closeBracket | openParens | closeParens | plus | minus | tripleQuote
  | bitwiseNot | logicalNot | power | product | division | modulo | shl | shr
  | cmpGt | cmpLt | cmpGe | cmpLe | cmpEq | cmpNe
  | bitwiseAnd | bitwiseXor | bitwiseOr | logicalAnd | logicalXor | logicalOr | ternary
  | version | measure | reset | init | barrier | wait | inv | pow | ctrl | qubitType | bitType | asm
  | booleanLiteral | integerLiteral | floatLiteral | identifier | rawTextString
  | versionWhiteSpace | versionNumber
  | eof
  deriving Repr, DecidableEq

/-- `antlr4::Token`, the parts the code reads: `getType`, `getText`, `getLine` and
`getCharPositionInLine` (zero-based). `getStopIndex - getStartIndex + 1` is the length of the text. -/
structure Token where
  kind : TokKind
  text : Str
  line : Nat
  column : Nat
  deriving Repr, DecidableEq

namespace Lexer

/-- The modes of src/v3x/CqasmLexer.g4: the default mode and `VERSION_STATEMENT` (line 86). -/
inductive Mode where
  | default
  | versionStatement
  deriving Repr, DecidableEq

/-- The lexer command of a rule (`-> skip`, `-> pushMode(VERSION_STATEMENT)`, `-> popMode`). -/
inductive Command where
  | none
  | skip
  | pushVersion
  | pop
  deriving Repr, DecidableEq

/-- A lexer rule. -/
structure Rule where
  kind : TokKind
  regex : Regex
  greedy : Bool := true
  command : Command := .none

/-- `fragment Digit: [0-9]`, src/v3x/CqasmLexer.g4:71. -/
def isDigit (c : Char) : Bool := '0'.toNat ≤ c.toNat && c.toNat ≤ '9'.toNat

/-- `fragment Letter: [a-zA-Z_]`, src/v3x/CqasmLexer.g4:76. -/
def isLetter (c : Char) : Bool :=
  ('a'.toNat ≤ c.toNat && c.toNat ≤ 'z'.toNat) || ('A'.toNat ≤ c.toNat && c.toNat ≤ 'Z'.toNat) || c == '_'

open Regex

/-- `Digit+`. -/
def digits : Regex := plus (set isDigit)

/-- `fragment Exponent: [eE][-+]?Digit+`, src/v3x/CqasmLexer.g4:72. -/
def exponent : Regex :=
  seq (set (fun c => c == 'e' || c == 'E')) (seq (opt (set (fun c => c == '-' || c == '+'))) digits)

/-- `FLOAT_LITERAL`, src/v3x/CqasmLexer.g4:67-70. -/
def floatLiteral : Regex :=
  alt (seq digits (seq (str ['.']) (seq digits (opt exponent))))
    (alt (seq digits (seq (str ['.']) (opt exponent)))
      (seq (str ['.']) (seq digits (opt exponent))))

/-- The rules of the default mode, src/v3x/CqasmLexer.g4:4-80, in order. -/
def defaultRules : List Rule :=
  [ { kind := .whiteSpace, regex := plus (set (fun c => c == ' ' || c == '\t')), command := .skip },
    { kind := .singleLineComment,
      regex := seq (str ['/', '/']) (star (set (fun c => !(c == '\r' || c == '\n')))), command := .skip },
    { kind := .multiLineComment,
      regex := seq (str ['/', '*']) (seq (star (set (fun _ => true))) (str ['*', '/'])),
      greedy := false, command := .skip },
    { kind := .newLine, regex := seq (opt (str ['\r'])) (str ['\n']) },
    { kind := .semicolon, regex := str [';'] },
    { kind := .colon, regex := str [':'] },
    { kind := .comma, regex := str [','] },
    { kind := .dot, regex := str ['.'] },
    { kind := .equals, regex := str ['='] },
    { kind := .openBracket, regex := str ['['] },
    { kind := .closeBracket, regex := str [']'] },
    { kind := .openParens, regex := str ['('] },
    { kind := .closeParens, regex := str [')'] },
    { kind := .plus, regex := str ['+'] },
    { kind := .minus, regex := str ['-'] },
    { kind := .tripleQuote, regex := str ['\'', '\'', '\''] },
    { kind := .bitwiseNot, regex := str ['~'] },
    { kind := .logicalNot, regex := str ['!'] },
    { kind := .power, regex := str ['*', '*'] },
    { kind := .product, regex := str ['*'] },
    { kind := .division, regex := str ['/'] },
    { kind := .modulo, regex := str ['%'] },
    { kind := .shl, regex := str ['<', '<'] },
    { kind := .shr, regex := str ['>', '>'] },
    { kind := .cmpGt, regex := str ['>'] },
    { kind := .cmpLt, regex := str ['<'] },
    { kind := .cmpGe, regex := str ['>', '='] },
    { kind := .cmpLe, regex := str ['<', '='] },
    { kind := .cmpEq, regex := str ['=', '='] },
    { kind := .cmpNe, regex := str ['!', '='] },
    { kind := .bitwiseAnd, regex := str ['&'] },
    { kind := .bitwiseXor, regex := str ['^'] },
    { kind := .bitwiseOr, regex := str ['|'] },
    { kind := .logicalAnd, regex := str ['&', '&'] },
    { kind := .logicalXor, regex := str ['^', '^'] },
    { kind := .logicalOr, regex := str ['|', '|'] },
    { kind := .ternary, regex := str ['?'] },
    { kind := .version, regex := str c!"version", command := .pushVersion },
    { kind := .measure, regex := str c!"measure" },
    { kind := .reset, regex := str c!"reset" },
    { kind := .init, regex := str c!"init" },
    { kind := .barrier, regex := str c!"barrier" },
    { kind := .wait, regex := str c!"wait" },
    { kind := .inv, regex := str c!"inv" },
    { kind := .pow, regex := str c!"pow" },
    { kind := .ctrl, regex := str c!"ctrl" },
    { kind := .qubitType, regex := str c!"qubit" },
    { kind := .bitType, regex := str c!"bit" },
    { kind := .asm, regex := str c!"asm" },
    { kind := .booleanLiteral, regex := alt (str c!"true") (str c!"false") },
    { kind := .integerLiteral, regex := digits },
    { kind := .floatLiteral, regex := floatLiteral },
    { kind := .identifier,
      regex := seq (set isLetter) (star (alt (set isLetter) (set isDigit))) },
    { kind := .rawTextString,
      regex := seq (str ['\'', '\'', '\'']) (seq (star (set (fun _ => true))) (str ['\'', '\'', '\''])),
      greedy := false } ]

/-- The rules of the mode `VERSION_STATEMENT`, src/v3x/CqasmLexer.g4:86-88. -/
def versionRules : List Rule :=
  [ { kind := .versionWhiteSpace, regex := plus (set (fun c => c == ' ' || c == '\t')), command := .skip },
    { kind := .versionNumber, regex := seq digits (opt (seq (str ['.']) digits)), command := .pop } ]

/-- The rules of a mode. -/
def rules : Mode → List Rule
  | .default => defaultRules
  | .versionStatement => versionRules

/-- The length of the match of one rule at the start of the text, if any. -/
def Rule.matchLength (r : Rule) (s : Str) : Option Nat :=
  if r.greedy then Regex.longest [r.regex] s else Regex.shortest [r.regex] s

/-- The winner among the rules: the longest match, the first rule on ties. -/
def best : List Rule → Str → Option (Rule × Nat)
  | [], _ => none
  | r :: rs, s =>
    match r.matchLength s, best rs s with
    | some n, some (r', m) => if n < m then some (r', m) else some (r, n)
    | some n, none => some (r, n)
    | none, b => b

/-- `LexerATNSimulator::consume`: a newline character starts the next line at column zero, any other
character moves the column on. -/
def advance (line column : Nat) : Str → Nat × Nat
  | [] => (line, column)
  | c :: s => if c == '\n' then advance (line + 1) 0 s else advance line (column + 1) s

/-- `pushMode` and `popMode`. The stack of modes is never deeper than one: `VERSION_STATEMENT` has no
rule that pushes. -/
def nextMode (m : Mode) : Command → Mode
  | .pushVersion => .versionStatement
  | .pop => .default
  | _ => m

/-- `Lexer::nextToken` until `EOF`: the tokens, or the position of a token recognition error. The first
argument bounds the number of rule matches; every match is at least one character long. -/
def run : Nat → Mode → Nat → Nat → Str → Except (Nat × Nat) (List Token)
  | _, _, line, column, [] => .ok [⟨.eof, c!"<EOF>", line, column⟩]
  | 0, _, line, column, _ :: _ => .error (line, column)
  | fuel + 1, m, line, column, c :: s =>
    match best (rules m) (c :: s) with
    | none => .error (line, column)
    | some (r, n) =>
      let text := (c :: s).take n
      let p := advance line column text
      match run fuel (nextMode m r.command) p.1 p.2 ((c :: s).drop n) with
      | .error e => .error e
      | .ok ts => if r.command = .skip then .ok ts else .ok (⟨r.kind, text, line, column⟩ :: ts)

/-- The tokens of a text (`CqasmLexer` and `CommonTokenStream`, src/v3x/antlr_scanner.cpp:29-32), up to and
including `EOF`. Simplification: the stream asks for tokens one by one while parsing; here the text is
lexed first. Both fail on the same texts, as the grammar asks for all tokens up to `EOF`. -/
def lex (s : Str) : Except (Nat × Nat) (List Token) := run s.length .default 1 0 s

end Lexer
end Qasm
