import Verif.Model.Parser
/-!
# The grammar of cQASM

The rules of the grammar as a relation between token lists and trees, one constructor per alternative,
without any order between them; and, apart from it, what it means for a tree to be grouped by precedence.
Only tokens, token types and trees are shared with the model, none of the parser's functions.
-/

namespace Qasm.Spec

open TokKind

/-- The infix operators, one row per precedence level, from the tightest to the loosest. -/
def levels : List (List TokKind) :=
  [[power],
   [product, division, modulo],
   [plus, minus],
   [shl, shr],
   [cmpGt, cmpLt, cmpGe, cmpLe],
   [cmpEq, cmpNe],
   [bitwiseAnd],
   [bitwiseXor],
   [bitwiseOr],
   [logicalAnd],
   [logicalXor],
   [logicalOr],
   [ternary]]

/-- The row of an operator: the smaller, the tighter it binds. -/
def level (k : TokKind) : Option Nat := levels.findIdx? (·.contains k)

/-- The operators that group to the right. -/
def rightAssociative : List TokKind := [power, ternary]

/-- The prefix operators. -/
def prefixOps : List TokKind := [plus, minus, bitwiseNot, logicalNot]

/-- The infix operators with two operands. -/
def infixOps : List TokKind := (levels.take 12).flatten

/-- The statement separators. -/
def separatorKinds : List TokKind := [newLine, semicolon]

/-! ## Derivations -/

/-- What the rules around `expression` derive. -/
inductive Phrase where
  | expr (e : PExpr)
  | exprs (es : List PExpr)
  | entry (i : PEntry)
  | entries (is : List PEntry)

/-- The token list is derived from the rule of the phrase, with the phrase as parse tree. -/
inductive Derives : List Token → Phrase → Prop where
  | parens {o c : Token} {us : List Token} {e : PExpr} :
      o.kind = openParens → Derives us (.expr e) → c.kind = closeParens → Derives (o :: us ++ [c]) (.expr (.parens e))
  | pre {op : Token} {us : List Token} {e : PExpr} :
      op.kind ∈ prefixOps → Derives us (.expr e) → Derives (op :: us) (.expr (.pre op e))
  | bin {op : Token} {us vs : List Token} {l r : PExpr} :
      Derives us (.expr l) → op.kind ∈ infixOps → Derives vs (.expr r) → Derives (us ++ op :: vs) (.expr (.bin op l r))
  | tern {op c : Token} {us vs ws : List Token} {e a b : PExpr} :
      Derives us (.expr e) → op.kind = ternary → Derives vs (.expr a) → c.kind = colon → Derives ws (.expr b) →
        Derives (us ++ op :: vs ++ c :: ws) (.expr (.tern op e a b))
  | call0 {name o c : Token} :
      name.kind = identifier → o.kind = openParens → c.kind = closeParens → Derives [name, o, c] (.expr (.call name []))
  | call {name o c : Token} {us : List Token} {es : List PExpr} :
      name.kind = identifier → o.kind = openParens → Derives us (.exprs es) → c.kind = closeParens →
        Derives (name :: o :: us ++ [c]) (.expr (.call name es))
  | index {name o c : Token} {us : List Token} {is : List PEntry} :
      name.kind = identifier → o.kind = openBracket → Derives us (.entries is) → c.kind = closeBracket →
        Derives (name :: o :: us ++ [c]) (.expr (.index name is))
  | atom {t : Token} :
      t.kind ∈ [identifier, booleanLiteral, integerLiteral, floatLiteral] → Derives [t] (.expr (.atom t))
  | expr1 {us : List Token} {e : PExpr} : Derives us (.expr e) → Derives us (.exprs [e])
  | exprN {c : Token} {us vs : List Token} {e : PExpr} {es : List PExpr} :
      Derives us (.expr e) → c.kind = comma → Derives vs (.exprs es) → Derives (us ++ c :: vs) (.exprs (e :: es))
  | item {us : List Token} {e : PExpr} : Derives us (.expr e) → Derives us (.entry (.item e))
  | range {c : Token} {us vs : List Token} {a b : PExpr} :
      Derives us (.expr a) → c.kind = colon → Derives vs (.expr b) → Derives (us ++ c :: vs) (.entry (.range a b))
  | entry1 {us : List Token} {i : PEntry} : Derives us (.entry i) → Derives us (.entries [i])
  | entryN {c : Token} {us vs : List Token} {i : PEntry} {is : List PEntry} :
      Derives us (.entry i) → c.kind = comma → Derives vs (.entries is) → Derives (us ++ c :: vs) (.entries (i :: is))

/-- The rule `gate`. -/
inductive DerivesGate : List Token → PGate → Prop where
  | inv {kw d : Token} {us : List Token} {g : PGate} :
      kw.kind = inv → d.kind = dot → DerivesGate us g → DerivesGate (kw :: d :: us) (.inv kw g)
  | pow {kw o c d : Token} {us vs : List Token} {e : PExpr} {g : PGate} :
      kw.kind = pow → o.kind = openParens → Derives us (.expr e) → c.kind = closeParens → d.kind = dot →
        DerivesGate vs g → DerivesGate (kw :: o :: us ++ c :: d :: vs) (.pow kw e g)
  | ctrl {kw d : Token} {us : List Token} {g : PGate} :
      kw.kind = ctrl → d.kind = dot → DerivesGate us g → DerivesGate (kw :: d :: us) (.ctrl kw g)
  | named {name : Token} : name.kind = identifier → DerivesGate [name] (.named name none)
  | parameters {name o c : Token} {us : List Token} {es : List PExpr} :
      name.kind = identifier → o.kind = openParens → Derives us (.exprs es) → c.kind = closeParens →
        DerivesGate (name :: o :: us ++ [c]) (.named name (some es))

/-- The rule `globalBlockStatement`. -/
inductive DerivesStmt : List Token → PStmt → Prop where
  | var {kw name : Token} :
      kw.kind ∈ [qubitType, bitType] → name.kind = identifier → DerivesStmt [kw, name] (.var kw none name)
  | array {kw o n c name : Token} :
      kw.kind ∈ [qubitType, bitType] → o.kind = openBracket → n.kind = integerLiteral → c.kind = closeBracket →
        name.kind = identifier → DerivesStmt [kw, o, n, c, name] (.var kw (some (n, c)) name)
  | gate {us vs : List Token} {g : PGate} {es : List PExpr} :
      DerivesGate us g → Derives vs (.exprs es) → DerivesStmt (us ++ vs) (.gate g es)
  | measure {eq kw : Token} {us vs : List Token} {b q : PExpr} :
      Derives us (.expr b) → eq.kind = equals → kw.kind = TokKind.measure → Derives vs (.expr q) →
        DerivesStmt (us ++ eq :: kw :: vs) (.measure kw none b q)
  | measureParameters {eq kw o c : Token} {us vs ws : List Token} {b q : PExpr} {es : List PExpr} :
      Derives us (.expr b) → eq.kind = equals → kw.kind = TokKind.measure → o.kind = openParens → Derives vs (.exprs es) →
        c.kind = closeParens → Derives ws (.expr q) →
        DerivesStmt (us ++ eq :: kw :: o :: vs ++ c :: ws) (.measure kw (some es) b q)
  | simple {kw : Token} {us : List Token} {e : PExpr} :
      kw.kind ∈ [reset, init, barrier] → Derives us (.expr e) → DerivesStmt (kw :: us) (.simple kw e)
  | wait {kw o c : Token} {us vs : List Token} {p e : PExpr} :
      kw.kind = wait → o.kind = openParens → Derives us (.expr p) → c.kind = closeParens → Derives vs (.expr e) →
        DerivesStmt (kw :: o :: us ++ c :: vs) (.wait kw p e)
  | asm {kw o name c raw : Token} :
      kw.kind = asm → o.kind = openParens → name.kind = identifier → c.kind = closeParens →
        raw.kind = rawTextString → DerivesStmt [kw, o, name, c, raw] (.asm name raw)

/-- A run of separators. -/
def Separators (ts : List Token) : Prop := ∀ t ∈ ts, t.kind ∈ separatorKinds

/-- The statements of a program, each after at least one separator, up to the end of the file. `R` relates
the tokens of a statement to its tree. -/
inductive Block (R : List Token → PStmt → Prop) : List Token → List PStmt → Prop where
  | nil {seps : List Token} {e : Token} : Separators seps → e.kind = eof → Block R (seps ++ [e]) []
  | cons {seps us vs : List Token} {s : PStmt} {ss : List PStmt} :
      Separators seps → seps ≠ [] → R us s → Block R vs ss → Block R (seps ++ us ++ vs) (s :: ss)

/-- The rule `program`. -/
inductive Program (R : List Token → PStmt → Prop) : List Token → PProgram → Prop where
  | mk {seps us : List Token} {v n : Token} {ss : List PStmt} :
      Separators seps → v.kind = version → n.kind = versionNumber → Block R us ss →
        Program R (seps ++ v :: n :: us) ⟨n, ss⟩

/-! ## Grouping -/

/-- The infix operator at the root of an expression. -/
def top : PExpr → Option TokKind
  | .bin op _ _ => some op.kind
  | .tern op _ _ _ => some op.kind
  | _ => none

/-- The operator at the root of the expression, if any, binds tighter than `k`. -/
def Tighter (e : PExpr) (k : TokKind) : Prop :=
  ∀ j, top e = some j → ∃ m n, level j = some m ∧ level k = some n ∧ m < n

/-- The operator at the root of the expression, if any, binds as tight as `k` or tighter. -/
def AsTight (e : PExpr) (k : TokKind) : Prop :=
  ∀ j, top e = some j → ∃ m n, level j = some m ∧ level k = some n ∧ m ≤ n

/-- Every operator has operands that bind tighter; on the left an equally tight one if the operator groups
to the left, on the right if it groups to the right. The operand of a prefix operator is no infix expression.
Between `?` and `:`, in parentheses, brackets and argument lists anything goes. -/
inductive Grouped : PExpr → Prop where
  | parens {e : PExpr} : Grouped e → Grouped (.parens e)
  | pre {op : Token} {e : PExpr} : top e = none → Grouped e → Grouped (.pre op e)
  | left {op : Token} {l r : PExpr} :
      op.kind ∉ rightAssociative → AsTight l op.kind → Tighter r op.kind → Grouped l → Grouped r → Grouped (.bin op l r)
  | right {op : Token} {l r : PExpr} :
      op.kind ∈ rightAssociative → Tighter l op.kind → AsTight r op.kind → Grouped l → Grouped r → Grouped (.bin op l r)
  | tern {op : Token} {c a b : PExpr} :
      Tighter c op.kind → AsTight b op.kind → Grouped c → Grouped a → Grouped b → Grouped (.tern op c a b)
  | call {name : Token} {es : List PExpr} : (∀ e ∈ es, Grouped e) → Grouped (.call name es)
  | index {name : Token} {is : List PEntry} :
      (∀ e, .item e ∈ is → Grouped e) → (∀ a b, .range a b ∈ is → Grouped a) → (∀ a b, .range a b ∈ is → Grouped b) →
        Grouped (.index name is)
  | atom {t : Token} : Grouped (.atom t)

/-- The expressions of a gate. -/
def gateExprs : PGate → List PExpr
  | .inv _ g => gateExprs g
  | .pow _ e g => e :: gateExprs g
  | .ctrl _ g => gateExprs g
  | .named _ ps => ps.getD []

/-- The expressions of a statement. -/
def stmtExprs : PStmt → List PExpr
  | .var .. => []
  | .gate g es => gateExprs g ++ es
  | .measure _ ps b q => ps.getD [] ++ [b, q]
  | .simple _ e => [e]
  | .wait _ p e => [p, e]
  | .asm .. => []

/-- The innermost gate has parameters. -/
def gateHasParameters : PGate → Bool
  | .inv _ g => gateHasParameters g
  | .pow _ _ g => gateHasParameters g
  | .ctrl _ g => gateHasParameters g
  | .named _ ps => ps.isSome

/-- The innermost gate, or the measurement, has parameters. -/
def hasParameters : PStmt → Bool
  | .gate g _ => gateHasParameters g
  | .measure _ ps _ _ => ps.isSome
  | _ => false

/-- The tree of a statement the language prescribes: grouped by precedence and, where the tokens can be read
both ways (`X (a) - b`), with parameters rather than without. -/
def Chosen (ts : List Token) (s : PStmt) : Prop :=
  DerivesStmt ts s ∧ (∀ e ∈ stmtExprs s, Grouped e) ∧
    (hasParameters s = false → ¬ ∃ s', DerivesStmt ts s' ∧ hasParameters s' = true)

end Qasm.Spec
