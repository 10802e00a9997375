import Verif.Spec.Program
/-!
# Programs with larger registers, and registers written as all their elements
-/

namespace Qasm.Spec

variable {F : Type}

/-! ## Larger registers

`size x = some m` says that the register `x` gets `m` elements instead of as many as it is declared with. -/

/-- The declaration with the new size; anything else is as before. -/
def enlargeStmt (size : Str → Option Int64) : Stmt F → Stmt F
  | .var l as name ⟨t, some n, k⟩ => .var l as name ⟨t, some ((size name.name).getD n), k⟩
  | s => s

/-- The program with the new sizes. -/
def enlarge (size : Str → Option Int64) (p : ProgramAst F) : ProgramAst F :=
  withStatements p (p.block.statements.map (enlargeStmt size))

/-- Only arrays get new sizes, and these are no smaller. -/
def NoSmaller (size : Str → Option Int64) : Stmt F → Prop
  | .var _ _ name typ => ∀ m, size name.name = some m → ∃ n, typ.size = some n ∧ n.toInt ≤ m.toInt
  | _ => True

/-- The instruction does not compare a register that gets a new size with anything else: either no operand is such a register as a
whole, or all operands are such registers, of the same new size. -/
def Compatible (size : Str → Option Int64) (s : Stmt F) : Prop :=
  (∀ l x, .ident l x ∈ operandExprs s → size x = none) ∨ ∃ m, ∀ e ∈ operandExprs s, ∃ l x, e = .ident l x ∧ size x = some m

/-- The type with the new size. -/
def resizeTy (size : Str → Option Int64) (name : Str) (t : Ty) : Ty :=
  if t.kind = .qubitArray ∨ t.kind = .bitArray then ⟨t.kind, (size name).getD t.size⟩ else t

/-- The link to the variable with its new size. -/
def resizeLink (size : Str → Option Int64) (x : VarLink) : VarLink := ⟨x.uid, x.name, resizeTy size x.name x.typ⟩

/-- The value with the new sizes. -/
def resizeNode (size : Str → Option Int64) : ValueNode F → ValueNode F
  | .indexRef v is => .indexRef (resizeLink size v) is
  | .variableRef v => .variableRef (resizeLink size v)
  | n => n

/-- The value with the new sizes. -/
def resizeValue (size : Str → Option Int64) (v : Value F) : Value F := ⟨resizeNode size v.node, v.loc⟩

/-- The annotation with the new sizes. -/
def resizeSAnnotation (size : Str → Option Int64) (a : SAnnotation F) : SAnnotation F :=
  ⟨a.interface, a.operation, a.operands.map (resizeValue size), a.loc⟩

/-- The gate with the new sizes. -/
def resizeSGate (size : Str → Option Int64) : SGate F → SGate F
  | .mk n none ps as l => .mk n none (ps.map (resizeValue size)) (as.map (resizeSAnnotation size)) l
  | .mk n (some g) ps as l => .mk n (some (resizeSGate size g)) (ps.map (resizeValue size)) (as.map (resizeSAnnotation size)) l

/-- The instruction with the new sizes. -/
def resizeSStatement (size : Str → Option Int64) : SStatement F → SStatement F
  | .gate i g vs as l => .gate i (resizeSGate size g) (vs.map (resizeValue size)) (as.map (resizeSAnnotation size)) l
  | .nonGate i n vs ps as l =>
    .nonGate i n (vs.map (resizeValue size)) (ps.map (resizeValue size)) (as.map (resizeSAnnotation size)) l
  | .asm n c as l => .asm n c (as.map (resizeSAnnotation size)) l

/-- The variable with its new size. -/
def resizeSVariable (size : Str → Option Int64) (v : SVariable F) : SVariable F :=
  ⟨v.uid, v.name, resizeTy size v.name v.typ, v.annotations.map (resizeSAnnotation size), v.loc⟩

/-- The result with the new sizes. -/
def resize (size : Str → Option Int64) (r : SProgram F) : SProgram F :=
  ⟨r.apiVersion, r.version, ⟨r.block.statements.map (resizeSStatement size), r.block.loc⟩, r.variables.map (resizeSVariable size)⟩

/-! ## Registers written as all their elements

`size x = some n` says that the register `x` has `n` elements. -/

/-- The declaration has the size that `size` says. -/
def AsDeclared (size : Str → Option Int64) : Stmt F → Prop
  | .var _ _ name typ => ∀ n, size name.name = some n → typ.size = some n
  | _ => True

/-- All elements of a register with `n` elements, in order. -/
def AllElements (n : Int64) (is : List (Int64 × Option Loc)) : Prop :=
  is.map (·.1.toInt) = (List.range n.toInt.toNat).map fun (i : Nat) => (i : Int)

/-- The second expression is the first, or the first is a register and the second a list of all its elements, however written. -/
inductive Spelled (fo : FloatOps F) (size : Str → Option Int64) : Expr F → Expr F → Prop
  | same (e) : Spelled fo size e e
  | elements {l l' x n ixs is} : size x = some n → EvalIndices fo [] ixs is → AllElements n is →
      Spelled fo size (.ident l x) (.index l (.ident l' x) ixs)

/-- The second instruction is the first with some operands that are registers written as lists of all their elements. -/
inductive SpelledStmt (fo : FloatOps F) (size : Str → Option Int64) : Stmt F → Stmt F → Prop
  | same (s) : SpelledStmt fo size s s
  | gate {l as g es es'} : Forall2 (Spelled fo size) es es' → SpelledStmt fo size (.gate l as g es) (.gate l as g es')
  | nonGate {l as n es es' ps} : Forall2 (Spelled fo size) es es' → SpelledStmt fo size (.nonGate l as n es ps) (.nonGate l as n es' ps)

/-- The second value is the first, or the first is a register and the second consists of all its elements. -/
inductive SpelledValue : Value F → Value F → Prop
  | same (v) : SpelledValue v v
  | elements {x is l} : AllElements x.typ.size is → SpelledValue ⟨.variableRef x, l⟩ ⟨.indexRef x is, l⟩

/-- The instructions are the same up to registers written as lists of all their elements. Then the instructions recorded for
them can differ in the kinds of the operands: a register of one qubit is an array, its element is not. -/
inductive SpelledSStatement : SStatement F → SStatement F → Prop
  | gate {i i' g vs vs' as l} : i.name = i'.name → Forall2 SpelledValue vs vs' →
      SpelledSStatement (.gate i g vs as l) (.gate i' g vs' as l)
  | nonGate {i i' n vs vs' ps as l} : i.name = i'.name → Forall2 SpelledValue vs vs' →
      SpelledSStatement (.nonGate i n vs ps as l) (.nonGate i' n vs' ps as l)
  | asm {n c as l} : SpelledSStatement (.asm n c as l) (.asm n c as l)

/-- The results are the same up to registers written as lists of all their elements. -/
def SpelledResult (r r' : SProgram F) : Prop :=
  r.apiVersion = r'.apiVersion ∧ r.version = r'.version ∧ r.variables = r'.variables ∧ r.block.loc = r'.block.loc ∧
    Forall2 SpelledSStatement r.block.statements r'.block.statements

end Qasm.Spec
