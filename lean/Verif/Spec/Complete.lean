import Verif.Model.SyntacticAnalyzer
/-!
# What occurs in a tree

Occurrence of expressions in a syntax tree and of values in a semantic tree, for the completeness checks.
-/

namespace Qasm.Spec

variable {F : Type}

mutual
/-- The expression `x` occurs in the second expression, possibly as the whole. -/
inductive InExpr (x : Expr F) : Expr F → Prop
  | here : InExpr x x
  | indexed {l e is} : InExpr x e → InExpr x (.index l e is)
  | indices {l e is i} : i ∈ is → InEntry x i → InExpr x (.index l e is)
  | call {l n es e} : e ∈ es → InExpr x e → InExpr x (.call l n es)
  | un {l o e} : InExpr x e → InExpr x (.un l o e)
  | left {l o a b} : InExpr x a → InExpr x (.bin l o a b)
  | right {l o a b} : InExpr x b → InExpr x (.bin l o a b)
  | cond {l c a b} : InExpr x c → InExpr x (.tern l c a b)
  | ifTrue {l c a b} : InExpr x a → InExpr x (.tern l c a b)
  | ifFalse {l c a b} : InExpr x b → InExpr x (.tern l c a b)
/-- The expression `x` occurs in the index entry. -/
inductive InEntry (x : Expr F) : IndexEntry F → Prop
  | item {l e} : InExpr x e → InEntry x (.item l e)
  | first {l a b} : InExpr x a → InEntry x (.range l a b)
  | last {l a b} : InExpr x b → InEntry x (.range l a b)
end

/-- The expression `x` occurs in an operand of one of the annotations. -/
def InAnnotations (x : Expr F) (as : List (AnnotationData F)) : Prop := ∃ a ∈ as, ∃ e ∈ a.operands, InExpr x e

/-- The expression `x` occurs in the gate: in an annotation, a parameter, or the gate it modifies. -/
inductive OccursInGate (x : Expr F) : Gate F → Prop
  | annotation {l as n g ps} : InAnnotations x as → OccursInGate x (.mk l as n g ps)
  | parameter {l as n g ps e} : e ∈ ps → InExpr x e → OccursInGate x (.mk l as n g ps)
  | inner {l as n g ps} : OccursInGate x g → OccursInGate x (.mk l as n (some g) ps)

/-- The expression `x` occurs in the statement. -/
inductive OccursInStmt (x : Expr F) : Stmt F → Prop
  | var {l as n t} : InAnnotations x as → OccursInStmt x (.var l as n t)
  | gateAnnotation {l as g es} : InAnnotations x as → OccursInStmt x (.gate l as g es)
  | gate {l as g es} : OccursInGate x g → OccursInStmt x (.gate l as g es)
  | gateOperand {l as g es e} : e ∈ es → InExpr x e → OccursInStmt x (.gate l as g es)
  | nonGateAnnotation {l as n es ps} : InAnnotations x as → OccursInStmt x (.nonGate l as n es ps)
  | nonGateOperand {l as n es ps e} : e ∈ es → InExpr x e → OccursInStmt x (.nonGate l as n es ps)
  | nonGateParameter {l as n es ps e} : e ∈ ps → InExpr x e → OccursInStmt x (.nonGate l as n es ps)
  | asm {l as n c} : InAnnotations x as → OccursInStmt x (.asm l as n c)

/-- A syntax tree is complete if none of its index lists is empty (`Many<index_entry>` in src/v3x/syntactic.tree). -/
def CompleteAst (p : ProgramAst F) : Prop := ∀ s ∈ p.block.statements, ∀ l e is, OccursInStmt (.index l e is) s → is ≠ []

/-- The value occurs in an operand of one of the annotations. -/
def ValueInAnnotations (v : Value F) (as : List (SAnnotation F)) : Prop := ∃ a ∈ as, v ∈ a.operands

/-- The value occurs in the gate. -/
inductive ValueInGate (v : Value F) : SGate F → Prop
  | annotation {n g ps as l} : ValueInAnnotations v as → ValueInGate v (.mk n g ps as l)
  | parameter {n g ps as l} : v ∈ ps → ValueInGate v (.mk n g ps as l)
  | inner {n g ps as l} : ValueInGate v g → ValueInGate v (.mk n (some g) ps as l)

/-- The value occurs in the statement. -/
inductive ValueInStatement (v : Value F) : SStatement F → Prop
  | gateAnnotation {i g vs as l} : ValueInAnnotations v as → ValueInStatement v (.gate i g vs as l)
  | gate {i g vs as l} : ValueInGate v g → ValueInStatement v (.gate i g vs as l)
  | gateOperand {i g vs as l} : v ∈ vs → ValueInStatement v (.gate i g vs as l)
  | nonGateAnnotation {i n vs ps as l} : ValueInAnnotations v as → ValueInStatement v (.nonGate i n vs ps as l)
  | nonGateOperand {i n vs ps as l} : v ∈ vs → ValueInStatement v (.nonGate i n vs ps as l)
  | nonGateParameter {i n vs ps as l} : v ∈ ps → ValueInStatement v (.nonGate i n vs ps as l)
  | asm {n c as l} : ValueInAnnotations v as → ValueInStatement v (.asm n c as l)

/-- The value occurs in the program: in a statement or in an annotation of a variable. -/
def ValueInProgram (v : Value F) (p : SProgram F) : Prop :=
  (∃ s ∈ p.block.statements, ValueInStatement v s) ∨ ∃ x ∈ p.variables, ValueInAnnotations v x.annotations

/-- A semantic tree is complete if every reference in it is to one of its variables and no index list is empty. -/
def CompleteProgram (p : SProgram F) : Prop :=
  ∀ v, ValueInProgram v p →
    (∀ x, v.node = .variableRef x → ∃ y ∈ p.variables, y.uid = x.uid) ∧
    (∀ x is, v.node = .indexRef x is → (∃ y ∈ p.variables, y.uid = x.uid) ∧ is ≠ [])

end Qasm.Spec
