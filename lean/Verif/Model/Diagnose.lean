import Verif.Model.Parser
/-!
# Where a syntax error is

The generated parser (`src/v3x/CqasmParser.g4`) and the lexer hand their first error to the listener, which throws
(src/v3x/antlr_scanner.cpp:28-37, src/v3x/antlr_custom_error_listener.cpp:18-39). An alternative of a rule is given up at the first
token that cannot continue it, and where several alternatives are possible ANTLR follows all of them until one is left. So the error is
at the token where the last one is given up.

The functions `stop…` follow the functions of `Model/Parser` and return the tokens from the offending one on. They are meant for token
lists on which the function of the parser fails, or leaves tokens that do not end the statement; elsewhere the result means nothing.

Simplification: ANTLR's prediction is not in /repo; modelled is what it does for this grammar. `tools/golden/compare.py` compares the
places with those in the golden files.
-/

namespace Qasm
namespace Parser

open TokKind

mutual

/-- Where `expression` fails, src/v3x/CqasmParser.g4:73-97. -/
def stopExpr : Nat → Nat → List Token → List Token
  | 0, _, ts => ts
  | fuel + 1, p, ts =>
    match primary fuel ts with
    | none => stopPrimary fuel ts
    | some (e, ts) => stopLoop fuel p e ts

/-- Where the alternatives of `expression` that do not start with an expression fail,
src/v3x/CqasmParser.g4:74-77, 91-96. -/
def stopPrimary : Nat → List Token → List Token
  | 0, ts => ts
  | _, [] => []
  | fuel + 1, t :: ts =>
    match t.kind with
    | openParens =>
      match expr fuel 0 ts with
      | none => stopExpr fuel 0 ts
      | some (_, ts) => ts
    | identifier =>
      match ts with
      | [] => []
      | o :: us =>
        if o.kind = openParens then
          match exprList fuel us with
          | none => stopExprList fuel us
          | some (_, us) => us
        else
          match indexList fuel us with
          | none => stopIndexList fuel us
          | some (_, us) => us
    | k =>
      match prefixPrec k with
      | none => t :: ts
      | some p => stopExpr fuel p ts

/-- Where the operands of the operators after an expression fail, src/v3x/CqasmParser.g4:78-90. -/
def stopLoop : Nat → Nat → PExpr → List Token → List Token
  | 0, _, _, ts => ts
  | _, _, _, [] => []
  | fuel + 1, p, e, t :: ts =>
    match prec t.kind with
    | some q =>
      match expr fuel (rightPrec t.kind q) ts with
      | none => stopExpr fuel (rightPrec t.kind q) ts
      | some (r, ts) => stopLoop fuel p (.bin t e r) ts
    | none =>
      match expr fuel 0 ts with
      | none => stopExpr fuel 0 ts
      | some (a, ts) =>
        match expect colon ts with
        | none => ts
        | some ts =>
          match expr fuel ternaryPrec ts with
          | none => stopExpr fuel ternaryPrec ts
          | some (b, ts) => stopLoop fuel p (.tern t e a b) ts

/-- Where `expressionList` fails, src/v3x/CqasmParser.g4:69. -/
def stopExprList : Nat → List Token → List Token
  | 0, ts => ts
  | fuel + 1, ts =>
    match expr fuel 0 ts with
    | none => stopExpr fuel 0 ts
    | some (_, ts) =>
      match expect comma ts with
      | none => ts
      | some ts => stopExprList fuel ts

/-- Where `indexEntry` fails, src/v3x/CqasmParser.g4:103-106. -/
def stopIndexEntry : Nat → List Token → List Token
  | 0, ts => ts
  | fuel + 1, ts =>
    match expr fuel 0 ts with
    | none => stopExpr fuel 0 ts
    | some (_, ts) =>
      match expect colon ts with
      | none => ts
      | some ts => stopExpr fuel 0 ts

/-- Where `indexList` fails, src/v3x/CqasmParser.g4:99. -/
def stopIndexList : Nat → List Token → List Token
  | 0, ts => ts
  | fuel + 1, ts =>
    match indexEntry fuel ts with
    | none => stopIndexEntry fuel ts
    | some (_, ts) =>
      match expect comma ts with
      | none => ts
      | some ts => stopIndexList fuel ts

end

/-- Where a last expression fails, or the token after it, if that does not end the statement. -/
def stopExpression (ts : List Token) : List Token :=
  match expression ts with
  | none => stopExpr (4 * ts.length + 2) 0 ts
  | some (_, ts) => ts

/-- Where a last list of expressions fails, or the token after it, if that does not end the statement. -/
def stopExpressions (ts : List Token) : List Token :=
  match expressions ts with
  | none => stopExprList (4 * ts.length + 3) ts
  | some (_, ts) => ts

/-- Of two alternatives, the place where the second one of them is given up. -/
def later (us vs : List Token) : List Token := if us.length ≤ vs.length then us else vs

/-- A token of the given type, and then where the rest fails. -/
def stopAfter (k : TokKind) (next : List Token → List Token) (ts : List Token) : List Token :=
  match expect k ts with
  | none => ts
  | some us => next us

/-- Where `OPEN_PARENS expressionList CLOSE_PARENS` fails, or what follows it. -/
def stopParenthesised (next : List Token → List Token) : List Token → List Token :=
  stopAfter openParens fun ts =>
    match expressions ts with
    | none => stopExpressions ts
    | some (_, ts) => stopAfter closeParens next ts

/-- Where `gateInstruction` fails, src/v3x/CqasmParser.g4:39-46. -/
def stopGate : Nat → List Token → List Token
  | 0, ts => ts
  | _, [] => []
  | fuel + 1, t :: ts =>
    match t.kind with
    | inv => stopAfter dot (stopGate fuel) ts
    | pow =>
      stopAfter openParens (fun ts =>
        match expression ts with
        | none => stopExpression ts
        | some (_, ts) => stopAfter closeParens (stopAfter dot (stopGate fuel)) ts) ts
    | ctrl => stopAfter dot (stopGate fuel) ts
    | identifier => later (stopParenthesised stopExpressions ts) (stopExpressions ts)
    | _ => t :: ts

/-- Where `measureInstruction` fails, src/v3x/CqasmParser.g4:51. -/
def stopMeasure (ts : List Token) : List Token :=
  match expression ts with
  | none => stopExpression ts
  | some (_, ts) =>
    stopAfter equals (stopAfter TokKind.measure fun ts => later (stopParenthesised stopExpression ts) (stopExpression ts)) ts

/-- Where `variableDefinition` fails after the type keyword, src/v3x/CqasmParser.g4:31, 60-67. -/
def stopVariable (ts : List Token) : List Token :=
  if next openBracket ts then
    stopAfter openBracket (stopAfter integerLiteral (stopAfter closeBracket (stopAfter identifier id))) ts
  else stopAfter identifier id ts

/-- Where `globalBlockStatement` fails, or the token after it, if that does not end the statement,
src/v3x/CqasmParser.g4:26-58. -/
def stopStatement (ts : List Token) : List Token :=
  match ts with
  | [] => []
  | t :: us =>
    match t.kind with
    | qubitType => stopVariable us
    | bitType => stopVariable us
    | reset => stopExpression us
    | init => stopExpression us
    | barrier => stopExpression us
    | wait =>
      stopAfter openParens (fun us =>
        match expression us with
        | none => stopExpression us
        | some (_, us) => stopAfter closeParens stopExpression us) us
    | asm => stopAfter openParens (stopAfter identifier (stopAfter closeParens (stopAfter rawTextString id))) us
    | _ => later (stopGate ts.length ts) (stopMeasure ts)

/-- Where `globalBlockSection? eofSection` fails, src/v3x/CqasmParser.g4:18-20. -/
def stopBlock : Nat → List Token → List Token
  | 0, ts => ts
  | fuel + 1, ts =>
    match separators ts with
    | [] => []
    | t :: us =>
      if t.kind = eof then us
      else if (separators ts).length = ts.length then t :: us
      else
        match statement (t :: us) with
        | none => stopStatement (t :: us)
        | some (_, ts) => stopBlock fuel ts

/-- Where `program` fails, src/v3x/CqasmParser.g4:14-24. -/
def stop (ts : List Token) : List Token :=
  stopAfter version (stopAfter versionNumber fun us => stopBlock (us.length + 1) us) (separators ts)

end Parser

namespace Lexer

/-- `Lexer::nextToken` until `EOF` or the first token recognition error: the tokens up to there, and the position of the error. -/
def scan : Nat → Mode → Nat → Nat → Str → List Token × Option (Nat × Nat)
  | _, _, line, column, [] => ([⟨.eof, c!"<EOF>", line, column⟩], none)
  | 0, _, line, column, _ :: _ => ([], some (line, column))
  | fuel + 1, m, line, column, c :: s =>
    match best (rules m) (c :: s) with
    | none => ([], some (line, column))
    | some (r, n) =>
      let text := (c :: s).take n
      let p := advance line column text
      let rest := scan fuel (nextMode m r.command) p.1 p.2 ((c :: s).drop n)
      if r.command = .skip then rest else (⟨r.kind, text, line, column⟩ :: rest.1, rest.2)

/-- The tokens of a text up to the first recognition error. -/
def scanText (s : Str) : List Token × Option (Nat × Nat) := scan s.length .default 1 0 s

end Lexer

/-- Which token is the offending one, or where no token is recognised, in a text that is not in the language.

The lexer runs while the parser asks for tokens. When the parser has found an offending token it may ask for further ones before it
reports it (`singleTokenDeletion` of ANTLR's error strategy looks at the next one). Then an error of the lexer is reported instead:
`ahead` says whether that happens.

The token at a recognition error is one that the grammar has nowhere (white space is skipped by the lexer). -/
def offending (ahead : Bool) (text : Str) : Except (Nat × Nat) Token :=
  match Lexer.scanText text with
  | (ts, none) =>
    match Parser.stop ts with
    | [] => .error (0, 0)
    | t :: _ => .ok t
  | (ts, some p) =>
    match Parser.stop (ts ++ [⟨.whiteSpace, [], p.1, p.2⟩]) with
    | t :: _ :: _ => if ahead then .error p else .ok t
    | _ => .error p

end Qasm
