import Verif.Spec.Program
/-!
# Instructions on several elements at once, and one instruction per element
-/

namespace Qasm.Spec

variable {F : Type}

/-- Elements of a register, written as a list of integers: `x[i, j, …]`, with the locations of all parts. -/
structure Elements where
  loc : Option Loc
  nameLoc : Option Loc
  name : Str
  indices : List (Option Loc × Int64)

/-- The elements as an expression. -/
def Elements.expr (r : Elements) : Expr F :=
  .index r.loc (.ident r.nameLoc r.name) (r.indices.map fun i => .item i.1 (.intLit i.1 i.2))

/-- The `k`th of the elements alone. -/
def Elements.nth (k : Nat) (r : Elements) : Elements := { r with indices := r.indices[k]?.toList }

/-- An instruction without its operands: a gate or another instruction, with modifiers, parameters and annotations. -/
inductive Operation (F : Type)
  | gate (l : Option Loc) (as : List (AnnotationData F)) (g : Gate F)
  | nonGate (l : Option Loc) (as : List (AnnotationData F)) (name : Str) (ps : List (Expr F))

/-- The instruction with its operands. -/
def Operation.apply : Operation F → List (Expr F) → Stmt F
  | .gate l as g, es => .gate l as g es
  | .nonGate l as n ps, es => .nonGate l as n es ps

/-- The `k`th element of a reference to elements. -/
def nthValue (k : Nat) : Value F → Value F
  | ⟨.indexRef x is, l⟩ => ⟨.indexRef x is[k]?.toList, l⟩
  | v => v

/-- The second instruction is the first for the `k`th elements of all operands. -/
inductive NthInstruction (k : Nat) : SStatement F → SStatement F → Prop
  | gate {i i' g vs as l} : i.name = i'.name → NthInstruction k (.gate i g vs as l) (.gate i' g (vs.map (nthValue k)) as l)
  | nonGate {i i' n vs ps as l} : i.name = i'.name →
      NthInstruction k (.nonGate i n vs ps as l) (.nonGate i' n (vs.map (nthValue k)) ps as l)

/-- The instruction for the first to the `m`th elements of all operands, one after the other. -/
def each (o : Operation F) (rs : List Elements) (m : Nat) : List (Stmt F) :=
  (List.range m).map fun k => o.apply ((rs.map (Elements.nth k)).map Elements.expr)

/-- The results are the same, except that one instruction of the first corresponds to `m` of the second. -/
def EachResult (m : Nat) (r r' : SProgram F) : Prop :=
  r.apiVersion = r'.apiVersion ∧ r.version = r'.version ∧ r.variables = r'.variables ∧
    ∃ before t ts after, r.block.statements = before ++ t :: after ∧ r'.block.statements = before ++ ts ++ after ∧
      Forall2 (fun k t' => NthInstruction k t t') (List.range m) ts

end Qasm.Spec
