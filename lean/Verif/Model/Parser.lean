import Verif.Model.Lexer
/-!
# The parser: `src/v3x/CqasmParser.g4`

ANTLR generates a recursive-descent parser from the grammar. The left-recursive rule `expression` becomes
a loop over operators with a minimum precedence (precedence climbing), where alternative `i` of the 23
alternatives has precedence `24 - i`. Where the grammar is ambiguous (`X (a) - b`: parameters and an
operand, or one operand) ANTLR takes the first alternative that leads to the end of the statement.

The first argument (`fuel`) of the recursive functions bounds the depth of the recursion; `parse` gives
enough for every token list (`Lemmas/ParserFuel`).

Simplification: the generated parser and ANTLR's prediction are not in /repo; modelled is what they do
for this grammar. Errors are only told apart from success (`none`), as the parser stops at the first one.
-/

namespace Qasm

mutual
/-- Parse trees of the rule `expression`, src/v3x/CqasmParser.g4:73-97. Tokens without content are not kept. -/
inductive PExpr where
  | parens (e : PExpr)
  | pre (op : Token) (e : PExpr)
  | bin (op : Token) (l r : PExpr)
  | tern (op : Token) (c t f : PExpr)
  | call (name : Token) (args : List PExpr)
  | index (name : Token) (entries : List PEntry)
  | atom (t : Token)
/-- Parse trees of the rule `indexEntry`, src/v3x/CqasmParser.g4:103-106. -/
inductive PEntry where
  | item (e : PExpr)
  | range (a b : PExpr)
end

/-- Parse trees of the rule `gate`, src/v3x/CqasmParser.g4:41-46. -/
inductive PGate where
  | inv (kw : Token) (g : PGate)
  | pow (kw : Token) (e : PExpr) (g : PGate)
  | ctrl (kw : Token) (g : PGate)
  | named (name : Token) (params : Option (List PExpr))

/-- Parse trees of the rule `globalBlockStatement` and below, src/v3x/CqasmParser.g4:26-67. -/
inductive PStmt where
  /-- Type keyword, size and closing bracket if any, name. -/
  | var (kw : Token) (size : Option (Token × Token)) (name : Token)
  | gate (g : PGate) (operands : List PExpr)
  | measure (kw : Token) (params : Option (List PExpr)) (b q : PExpr)
  /-- `reset`, `init` and `barrier`. -/
  | simple (kw : Token) (e : PExpr)
  | wait (kw : Token) (p e : PExpr)
  | asm (name raw : Token)

/-- Parse trees of the rule `program`, src/v3x/CqasmParser.g4:14-24. -/
structure PProgram where
  version : Token
  statements : List PStmt

namespace Parser

open TokKind

/-- The precedence of the binary operators, src/v3x/CqasmParser.g4:78-89: alternative `i` has `24 - i`. -/
def prec : TokKind → Option Nat
  | power => some 19
  | product | division | modulo => some 18
  | plus | minus => some 17
  | shl | shr => some 16
  | cmpGt | cmpLt | cmpGe | cmpLe => some 15
  | cmpEq | cmpNe => some 14
  | bitwiseAnd => some 13
  | bitwiseXor => some 12
  | bitwiseOr => some 11
  | logicalAnd => some 10
  | logicalXor => some 9
  | logicalOr => some 8
  | _ => none

/-- The precedence of `?:`, src/v3x/CqasmParser.g4:90. -/
def ternaryPrec : Nat := 7

/-- The minimum precedence of the right operand: `<assoc=right>` operators (`**`, line 78) take their own
precedence, others one more. -/
def rightPrec (k : TokKind) (q : Nat) : Nat := if k = power then q else q + 1

/-- The precedence of the prefix operators, src/v3x/CqasmParser.g4:75-77. -/
def prefixPrec : TokKind → Option Nat
  | plus | minus => some 22
  | bitwiseNot => some 21
  | logicalNot => some 20
  | _ => none

/-- Consumes a token of the given type. -/
def expect (k : TokKind) : List Token → Option (List Token)
  | t :: ts => if t.kind = k then some ts else none
  | [] => none

/-- Whether the next token is of the given type. -/
def next (k : TokKind) : List Token → Bool
  | t :: _ => t.kind = k
  | [] => false

mutual

/-- `expression` with a minimum precedence, src/v3x/CqasmParser.g4:73-97. -/
def expr : Nat → Nat → List Token → Option (PExpr × List Token)
  | 0, _, _ => none
  | fuel + 1, p, ts =>
    match primary fuel ts with
    | none => none
    | some (e, ts) => loop fuel p e ts

/-- The alternatives of `expression` that do not start with an expression,
src/v3x/CqasmParser.g4:74-77, 91-96. -/
def primary : Nat → List Token → Option (PExpr × List Token)
  | 0, _ => none
  | _, [] => none
  | fuel + 1, t :: ts =>
    match t.kind with
    | openParens =>
      match expr fuel 0 ts with
      | none => none
      | some (e, ts) => (expect closeParens ts).map fun ts => (.parens e, ts)
    | identifier =>
      match ts with
      | [] => some (.atom t, [])
      | o :: us =>
        if o.kind = openParens then
          if next closeParens us then some (.call t [], us.tail)
          else
            match exprList fuel us with
            | none => none
            | some (es, us) => (expect closeParens us).map fun us => (.call t es, us)
        else if o.kind = openBracket then
          match indexList fuel us with
          | none => none
          | some (es, us) => (expect closeBracket us).map fun us => (.index t es, us)
        else some (.atom t, o :: us)
    | booleanLiteral => some (.atom t, ts)
    | integerLiteral => some (.atom t, ts)
    | floatLiteral => some (.atom t, ts)
    | k =>
      match prefixPrec k with
      | none => none
      | some p =>
        match expr fuel p ts with
        | none => none
        | some (e, ts) => some (.pre t e, ts)

/-- The operators after an expression, as long as their precedence is at least the minimum,
src/v3x/CqasmParser.g4:78-90. -/
def loop : Nat → Nat → PExpr → List Token → Option (PExpr × List Token)
  | 0, _, _, _ => none
  | _, _, e, [] => some (e, [])
  | fuel + 1, p, e, t :: ts =>
    match prec t.kind with
    | some q =>
      if p ≤ q then
        match expr fuel (rightPrec t.kind q) ts with
        | none => none
        | some (r, ts) => loop fuel p (.bin t e r) ts
      else some (e, t :: ts)
    | none =>
      if t.kind = ternary ∧ p ≤ ternaryPrec then
        match expr fuel 0 ts with
        | none => none
        | some (a, ts) =>
          match expect colon ts with
          | none => none
          | some ts =>
            match expr fuel ternaryPrec ts with
            | none => none
            | some (b, ts) => loop fuel p (.tern t e a b) ts
      else some (e, t :: ts)

/-- `expressionList`, src/v3x/CqasmParser.g4:69. -/
def exprList : Nat → List Token → Option (List PExpr × List Token)
  | 0, _ => none
  | fuel + 1, ts =>
    match expr fuel 0 ts with
    | none => none
    | some (e, ts) =>
      match expect comma ts with
      | none => some ([e], ts)
      | some us =>
        match exprList fuel us with
        | none => none
        | some (es, ts) => some (e :: es, ts)

/-- `indexEntry`, src/v3x/CqasmParser.g4:103-106. -/
def indexEntry : Nat → List Token → Option (PEntry × List Token)
  | 0, _ => none
  | fuel + 1, ts =>
    match expr fuel 0 ts with
    | none => none
    | some (a, ts) =>
      match expect colon ts with
      | none => some (.item a, ts)
      | some us =>
        match expr fuel 0 us with
        | none => none
        | some (b, ts) => some (.range a b, ts)

/-- `indexList`, src/v3x/CqasmParser.g4:99. -/
def indexList : Nat → List Token → Option (List PEntry × List Token)
  | 0, _ => none
  | fuel + 1, ts =>
    match indexEntry fuel ts with
    | none => none
    | some (e, ts) =>
      match expect comma ts with
      | none => some ([e], ts)
      | some us =>
        match indexList fuel us with
        | none => none
        | some (es, ts) => some (e :: es, ts)

end

/-- `expression` with enough fuel. -/
def expression (ts : List Token) : Option (PExpr × List Token) := expr (4 * ts.length + 2) 0 ts

/-- `expressionList` with enough fuel. -/
def expressions (ts : List Token) : Option (List PExpr × List Token) := exprList (4 * ts.length + 3) ts

/-- `statementSeparator`, src/v3x/CqasmParser.g4:22. -/
def isSeparator (k : TokKind) : Bool := k = newLine || k = semicolon

/-- What can follow a statement: a separator or the end of the file, src/v3x/CqasmParser.g4:18-20. -/
def atEnd : List Token → Bool
  | t :: _ => isSeparator t.kind || t.kind = eof
  | [] => false

/-- Keeps a result that reaches the end of the statement. -/
def ifAtEnd {α : Type} : Option (α × List Token) → Option (α × List Token)
  | some (a, ts) => if atEnd ts then some (a, ts) else none
  | none => none

/-- `OPEN_PARENS expressionList CLOSE_PARENS`. -/
def parenthesised (ts : List Token) : Option (List PExpr × List Token) := do
  let ts ← expect openParens ts
  let (es, ts) ← expressions ts
  let ts ← expect closeParens ts
  pure (es, ts)

/-- `gateInstruction`, src/v3x/CqasmParser.g4:39-46: the gate and, after the innermost gate, the operands.
The alternative with parameters comes first. -/
def gateInstruction : Nat → List Token → Option ((PGate × List PExpr) × List Token)
  | 0, _ => none
  | _, [] => none
  | fuel + 1, t :: ts =>
    match t.kind with
    | inv => do
      let ts ← expect dot ts
      let ((g, es), ts) ← gateInstruction fuel ts
      pure ((.inv t g, es), ts)
    | pow => do
      let ts ← expect openParens ts
      let (e, ts) ← expression ts
      let ts ← expect closeParens ts
      let ts ← expect dot ts
      let ((g, es), ts) ← gateInstruction fuel ts
      pure ((.pow t e g, es), ts)
    | ctrl => do
      let ts ← expect dot ts
      let ((g, es), ts) ← gateInstruction fuel ts
      pure ((.ctrl t g, es), ts)
    | identifier =>
      let withParameters := ifAtEnd do
        let (ps, ts) ← parenthesised ts
        let (es, ts) ← expressions ts
        pure ((.named t (some ps), es), ts)
      withParameters.or <| ifAtEnd do
        let (es, ts) ← expressions ts
        pure ((.named t none, es), ts)
    | _ => none

/-- `measureInstruction`, src/v3x/CqasmParser.g4:51. The alternative with parameters comes first. -/
def measureInstruction (ts : List Token) : Option (PStmt × List Token) := do
  let (b, ts) ← expression ts
  let ts ← expect equals ts
  match ts with
  | [] => none
  | kw :: ts =>
    if kw.kind ≠ TokKind.measure then none
    else
      let withParameters := ifAtEnd do
        let (ps, ts) ← parenthesised ts
        let (q, ts) ← expression ts
        pure (.measure kw (some ps) b q, ts)
      withParameters.or <| ifAtEnd do
        let (q, ts) ← expression ts
        pure (.measure kw none b q, ts)

/-- `variableDefinition` after the type keyword, src/v3x/CqasmParser.g4:31, 60-67. -/
def variableDefinition (kw : Token) (ts : List Token) : Option (PStmt × List Token) :=
  if next openBracket ts then
    match ts.tail with
    | n :: c :: name :: ts =>
      if n.kind = integerLiteral ∧ c.kind = closeBracket ∧ name.kind = identifier then
        some (.var kw (some (n, c)) name, ts)
      else none
    | _ => none
  else
    match ts with
    | name :: ts => if name.kind = identifier then some (.var kw none name, ts) else none
    | [] => none

/-- `asmDeclaration` after the keyword, src/v3x/CqasmParser.g4:58. -/
def asmDeclaration : List Token → Option (PStmt × List Token)
  | o :: name :: c :: raw :: ts =>
    if o.kind = openParens ∧ name.kind = identifier ∧ c.kind = closeParens ∧ raw.kind = rawTextString then
      some (.asm name raw, ts)
    else none
  | _ => none

/-- `globalBlockStatement`, src/v3x/CqasmParser.g4:26-58, up to the end of the statement. -/
def statement (ts : List Token) : Option (PStmt × List Token) :=
  match ts with
  | [] => none
  | t :: us =>
    ifAtEnd <| match t.kind with
    | qubitType => variableDefinition t us
    | bitType => variableDefinition t us
    | reset => (expression us).map fun (e, ts) => (.simple t e, ts)
    | init => (expression us).map fun (e, ts) => (.simple t e, ts)
    | barrier => (expression us).map fun (e, ts) => (.simple t e, ts)
    | wait => do
      let us ← expect openParens us
      let (p, us) ← expression us
      let us ← expect closeParens us
      let (e, us) ← expression us
      pure (.wait t p e, us)
    | asm => asmDeclaration us
    | _ =>
      ((gateInstruction ts.length ts).map fun ((g, es), ts) => (.gate g es, ts)).or
        (measureInstruction ts)

/-- `statementSeparator*`: the tokens after a run of separators. -/
def separators : List Token → List Token
  | t :: ts => if isSeparator t.kind then separators ts else t :: ts
  | [] => []

/-- `globalBlockSection? eofSection`, src/v3x/CqasmParser.g4:18-20. -/
def block : Nat → List Token → Option (List PStmt)
  | 0, _ => none
  | fuel + 1, ts =>
    match separators ts with
    | [] => none
    | t :: us =>
      if t.kind = eof then (if us.isEmpty then some [] else none)
      else if (separators ts).length = ts.length then none
      else
        match statement (t :: us) with
        | none => none
        | some (s, ts) => (block fuel ts).map (s :: ·)

/-- `program`, src/v3x/CqasmParser.g4:14-24. -/
def parse (ts : List Token) : Option PProgram :=
  match separators ts with
  | v :: n :: us =>
    if v.kind = version ∧ n.kind = versionNumber then (block (us.length + 1) us).map fun ss => ⟨n, ss⟩
    else none
  | _ => none

end Parser
end Qasm
