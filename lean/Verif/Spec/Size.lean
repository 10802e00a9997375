import Verif.Spec.Program
/-!
# Specification of sizes: how many nodes the two kinds of trees have
-/

namespace Qasm.Spec

variable {F : Type}

mutual
/-- The number of nodes of an expression. -/
def exprSize : Expr F → Nat
  | .boolLit _ _ | .intLit _ _ | .floatLit _ _ | .ident _ _ => 1
  | .index _ e ixs => 1 + exprSize e + entriesSize ixs
  | .call _ _ args => 1 + exprsSize args
  | .un _ _ e => 1 + exprSize e
  | .bin _ _ a b => 1 + exprSize a + exprSize b
  | .tern _ a b c => 1 + exprSize a + exprSize b + exprSize c
/-- The number of nodes of a list of expressions. -/
def exprsSize : List (Expr F) → Nat
  | [] => 0
  | e :: es => exprSize e + exprsSize es
/-- The number of nodes of a list of index entries. -/
def entriesSize : List (IndexEntry F) → Nat
  | [] => 0
  | .item _ e :: xs => 1 + exprSize e + entriesSize xs
  | .range _ a b :: xs => 1 + exprSize a + exprSize b + entriesSize xs
end

/-- The number of nodes of a gate. -/
def gateSize : Gate F → Nat
  | .mk _ _ _ none ps => 1 + exprsSize ps
  | .mk _ _ _ (some g) ps => 1 + gateSize g + exprsSize ps

/-- The number of nodes of a statement. A declaration has one for itself, one for its name, one for its type and one for the size. -/
def stmtSize : Stmt F → Nat
  | .var _ _ _ ⟨_, none, _⟩ => 3
  | .var _ _ _ ⟨_, some _, _⟩ => 4
  | .gate _ _ g es => 1 + gateSize g + exprsSize es
  | .nonGate _ _ _ es ps => 1 + exprsSize es + exprsSize ps
  | .asm _ _ _ _ => 1

/-- The number of nodes of the statements. -/
def stmtsSize (ss : List (Stmt F)) : Nat := (ss.map stmtSize).sum

/-- The number of nodes below the root of a syntax tree: version, block and statements. -/
def programSize (p : ProgramAst F) : Nat := 2 + stmtsSize p.block.statements

/-- The number of nodes of a value: a reference to elements has one for itself and one for each index. -/
def valueSize : ValueNode F → Nat
  | .indexRef _ is => 1 + is.length
  | _ => 1

/-- The number of nodes of a list of values. -/
def valuesSize (vs : List (Value F)) : Nat := (vs.map fun v => valueSize v.node).sum

/-- The number of nodes of a list of annotations. -/
def annotationsSize (as : List (SAnnotation F)) : Nat := (as.map fun a => 1 + valuesSize a.operands).sum

/-- The number of nodes of a gate of the semantic tree. -/
def sgateSize : SGate F → Nat
  | .mk _ none ps as _ => 1 + valuesSize ps + annotationsSize as
  | .mk _ (some g) ps as _ => 1 + sgateSize g + valuesSize ps + annotationsSize as

/-- The number of nodes of an instruction of the semantic tree. -/
def instrSize : SStatement F → Nat
  | .gate _ g vs as _ => 1 + sgateSize g + valuesSize vs + annotationsSize as
  | .nonGate _ _ vs ps as _ => 1 + valuesSize vs + valuesSize ps + annotationsSize as
  | .asm _ _ as _ => 1 + annotationsSize as

/-- The number of nodes below the root of a semantic tree: version, block, variables (with their types) and instructions. -/
def treeSize (r : SProgram F) : Nat :=
  2 + (r.variables.map fun x => 2 + annotationsSize x.annotations).sum + (r.block.statements.map instrSize).sum

/-- The operand is not a reference with an index range. -/
def NoRange : Expr F → Prop
  | .index _ _ ixs => ∀ x ∈ ixs, ∃ l e, x = .item l e
  | _ => True

/-- No operand of the program has an index range. -/
def NoRanges (p : ProgramAst F) : Prop := ∀ s ∈ p.block.statements, ∀ e ∈ operandExprs s, NoRange e

/-- No register of the program has more than `m` elements. -/
def RegistersUpTo (p : ProgramAst F) (m : Nat) : Prop :=
  ∀ l as name typ n k, Stmt.var l as name ⟨typ, some n, k⟩ ∈ p.block.statements → n.toInt ≤ m

end Qasm.Spec
