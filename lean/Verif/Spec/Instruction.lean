import Verif.Spec.Api
/-!
# Specification of instructions: operands, index lists, modifier chains
-/

namespace Qasm.Spec

variable {F : Type}

/-- The operands are `n` qubit references that all denote the same number of qubits. -/
def QubitOperands (fo : FloatOps F) (D : List VarLink) (es : List (Expr F)) (n : Nat) (vs : List (Value F)) : Prop :=
  EvalAll fo D es vs ∧ vs.length = n ∧ (∀ v ∈ vs, ∃ k, IsQubits v.node k) ∧
  ∀ v ∈ vs, ∀ w ∈ vs, elements v.node = elements w.node

/-- The first and the last index of an index entry as written (a single index is first and last). -/
inductive Bounds (fo : FloatOps F) (D : List VarLink) : IndexEntry F → Int × Int → Prop
  | item {l e} {c : Const F} {i : Int64} : Eval fo D e c.node → Converts fo c .int (.int i) →
      Bounds fo D (.item l e) (i.toInt, i.toInt)
  | range {l a b} {c d : Const F} {i j : Int64} :
      Eval fo D a c.node → Converts fo c .int (.int i) → Eval fo D b d.node → Converts fo d .int (.int j) →
      Bounds fo D (.range l a b) (i.toInt, j.toInt)

/-- `first, first + 1, …, last` -/
def upTo (b : Int × Int) : List Int := (List.range (b.2 - b.1 + 1).toNat).map fun n : Nat => b.1 + n

/-- One modifier: its location, name and parameters. -/
structure Modifier (F : Type) where
  loc : Option Loc
  name : Str
  parameters : List (Expr F)

/-- A chain of modifiers, outermost first, over a gate. -/
def chain : List (Modifier F) → Gate F → Gate F
  | [], g => g
  | m :: ms, g => .mk m.loc [] m.name (some (chain ms g)) m.parameters

/-- `inv` and `ctrl` have no parameters, `pow` has one that is a number. -/
def ModifierOk (fo : FloatOps F) (D : List VarLink) (m : Modifier F) : Prop :=
  (m.name = c!"inv" ∨ m.name = c!"ctrl") ∧ m.parameters = [] ∨
  m.name = c!"pow" ∧ ∃ (e : Expr F) (c c' : Const F), m.parameters = [e] ∧ Eval fo D e c.node ∧ Converts fo c .float c'

/-- `g` is the gate `h` or one of the gates inside it. -/
inductive GateIn : SGate F → SGate F → Prop
  | here {g} : GateIn g g
  | inner {g h name ps as l} : GateIn g h → GateIn g (.mk name (some h) ps as l)

/-- The values are constants of exactly the kinds `ks`. -/
def HaveKinds (vs : List (Value F)) (ks : List Kind) : Prop :=
  Forall2 (fun v k => ∃ c : Const F, v.node = c.node ∧ c.kind = k) vs ks

/-- What the gate is called in the instruction reference, from the semantic tree: the name of a named gate,
and `1q_X` or `2q_X` for modifiers over `X`. -/
def refNameOf : SGate F → Str
  | .mk name none _ _ _ => name
  | .mk name (some g) _ _ _ => (if name = c!"ctrl" then c!"2q_" else c!"1q_") ++ base g
where
  /-- The name of the innermost gate. -/
  base : SGate F → Str
  | .mk name none _ _ _ => name
  | .mk _ (some g) _ _ _ => base g

/-- The parameters of a named gate, or of a modifier (a gate with an inner gate), have the declared kinds. -/
def GateTyped : SGate F → Prop
  | .mk name none ps _ _ => ∃ n ks, (name, n, ks) ∈ namedGates ∧ HaveKinds ps ks
  | .mk name (some _) ps _ _ => name = c!"pow" ∧ HaveKinds ps [.float] ∨ (name = c!"inv" ∨ name = c!"ctrl") ∧ ps = []

/-- The parameters of every gate in the instruction, and of the instruction itself, are constants of exactly
the declared kinds. -/
def ParametersTyped : SStatement F → Prop
  | .gate _ g _ _ _ => ∀ g', GateIn g' g → GateTyped g'
  | .nonGate _ name _ ps _ _ =>
      name = c!"measure" ∧ (ps = [] ∨ HaveKinds ps [.float, .float, .float]) ∨
      name = c!"wait" ∧ HaveKinds ps [.int] ∨
      name ∈ [c!"reset", c!"init", c!"barrier"] ∧ ps = []
  | .asm _ _ _ _ => True

/-- The parameters written in a gate, outermost gate first. -/
def gateParameters : Gate F → List (Expr F)
  | .mk _ _ _ none ps => ps
  | .mk _ _ _ (some g) ps => ps ++ gateParameters g

/-- The parameters written in a statement. -/
def parameterExprs : Stmt F → List (Expr F)
  | .gate _ _ g _ => gateParameters g
  | .nonGate _ _ _ _ ps => ps
  | _ => []

/-- The parameters of a gate of the semantic tree, outermost gate first. -/
def sgateParameters : SGate F → List (Value F)
  | .mk _ none ps _ _ => ps
  | .mk _ (some g) ps _ _ => ps ++ sgateParameters g

/-- The parameters of an instruction of the semantic tree. -/
def parameters : SStatement F → List (Value F)
  | .gate _ g _ _ _ => sgateParameters g
  | .nonGate _ _ _ ps _ _ => ps
  | .asm _ _ _ _ => []

/-- A parameter is the converted value of its expression. -/
def ParamOf (fo : FloatOps F) (D : List VarLink) (e : Expr F) (w : Value F) : Prop :=
  w.loc = e.loc ∧ ∃ c c' : Const F, Eval fo D e c.node ∧ Converts fo c c'.kind c' ∧ w.node = c'.node

/-- The recorded instruction describes the instruction: it has its name and one operand type per operand, of
the kind of the operand. -/
def Describes (ref : Instruction) (name : Str) (ops : List (Value F)) : Prop :=
  ref.name = name ∧ Forall2 (fun v (t : Ty) => kindOf v.node = some t.kind) ops ref.operandTypes

end Qasm.Spec
