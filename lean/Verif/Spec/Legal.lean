import Verif.Spec.Program
import Verif.Spec.Written
/-!
# Which semantic trees are legal

What a back end may rely on when it walks the result of an analysis, said about that tree alone: without the syntax
tree, and without how the tree was made.
-/

namespace Qasm.Spec

variable {F : Type}

/-- The number is the value of a constant expression of the language, possibly an integer or boolean one. -/
def FloatWritten (fo : FloatOps F) (stod : Str → Option F) (x : F) : Prop :=
  ∃ (e : Expr F) (c : Const F), Writable stod (.expr e) ∧ Eval fo [] e c.node ∧ Converts fo c .float (.float x)

/-- A parameter is a constant of exactly the expected kind. Any 64-bit integer is possible. -/
inductive LegalParameter (fo : FloatOps F) (stod : Str → Option F) : Value F → Kind → Prop
  | int {i : Int64} {l : Option Loc} : LegalParameter fo stod ⟨.constInt i, l⟩ .int
  | float {x : F} {l : Option Loc} : FloatWritten fo stod x → LegalParameter fo stod ⟨.constFloat x, l⟩ .float

/-- `LegalGate fo stod g n`: a gate on `n` qubits. Modifiers are applied to gates on one qubit. -/
inductive LegalGate (fo : FloatOps F) (stod : Str → Option F) : SGate F → Nat → Prop
  | named {name : Str} {n : Nat} {ks : List Kind} {ps : List (Value F)} {l : Option Loc} :
      (name, n, ks) ∈ namedGates → Forall2 (LegalParameter fo stod) ps ks → LegalGate fo stod (.mk name none ps [] l) n
  | inv {g : SGate F} {l : Option Loc} : LegalGate fo stod g 1 → LegalGate fo stod (.mk c!"inv" (some g) [] [] l) 1
  | pow {g : SGate F} {p : Value F} {l : Option Loc} :
      LegalGate fo stod g 1 → LegalParameter fo stod p .float → LegalGate fo stod (.mk c!"pow" (some g) [p] [] l) 1
  | ctrl {g : SGate F} {l : Option Loc} : LegalGate fo stod g 1 → LegalGate fo stod (.mk c!"ctrl" (some g) [] [] l) 2

/-- The named gate under the modifiers. -/
def treeRoot : SGate F → Str
  | .mk name none _ _ _ => name
  | .mk _ (some g) _ _ _ => treeRoot g

/-- The name under which the instruction is recorded. -/
def treeName : SGate F → Str
  | .mk name none _ _ _ => name
  | .mk name (some g) _ _ _ => (if name = c!"ctrl" then c!"2q_" else c!"1q_") ++ treeRoot g

/-- A reference to a variable of the program, or to some elements of an array of the program. -/
inductive RefersIn (X : List VarLink) : ValueNode F → Prop
  | whole {x : VarLink} : x ∈ X → RefersIn X (.variableRef x)
  | elements {x : VarLink} {is : List (Int64 × Option Loc)} : x ∈ X → x.typ.kind = .qubitArray ∨ x.typ.kind = .bitArray →
      is ≠ [] → (∀ i ∈ is, 0 ≤ i.1.toInt ∧ i.1.toInt < x.typ.size.toInt) → RefersIn X (.indexRef x is)

/-- An operand that consists of qubits. -/
def QubitOperand (X : List VarLink) (v : Value F) (k : Kind) : Prop := RefersIn X v.node ∧ IsQubits v.node k

/-- An operand that consists of bits. -/
def BitOperand (X : List VarLink) (v : Value F) (k : Kind) : Prop := RefersIn X v.node ∧ IsBits v.node k

/-- An instruction of a program with the variables `X`. -/
inductive LegalStatement (fo : FloatOps F) (stod : Str → Option F) (X : List VarLink) : SStatement F → Prop
  | gate {g : SGate F} {vs : List (Value F)} {ks : List Kind} {l : Option Loc} :
      LegalGate fo stod g vs.length → Forall2 (QubitOperand X) vs ks →
      (∀ v ∈ vs, ∀ w ∈ vs, elements v.node = elements w.node) → LegalStatement fo stod X (.gate (refOf (treeName g) ks) g vs [] l)
  | measure {b q : Value F} {ps : List (Value F)} {kb kq : Kind} {l : Option Loc} :
      BitOperand X b kb → QubitOperand X q kq → elements b.node = elements q.node →
      Forall2 (LegalParameter fo stod) ps [] ∨ Forall2 (LegalParameter fo stod) ps [.float, .float, .float] →
      LegalStatement fo stod X (.nonGate (refOf c!"measure" [kb, kq]) c!"measure" [b, q] ps [] l)
  | simple {name : Str} {q : Value F} {k : Kind} {l : Option Loc} : name ∈ [c!"reset", c!"init", c!"barrier"] →
      QubitOperand X q k → LegalStatement fo stod X (.nonGate (refOf name [k]) name [q] [] [] l)
  | wait {q p : Value F} {k : Kind} {l : Option Loc} : QubitOperand X q k → LegalParameter fo stod p .int →
      LegalStatement fo stod X (.nonGate (refOf c!"wait" [k]) c!"wait" [q] [p] [] l)
  | asm {name code : Str} {l : Option Loc} : Name name → ¬ c!"'''" <:+: code ++ c!"''" →
      LegalStatement fo stod X (.asm name code [] l)

/-- The type of a variable: a qubit, a bit, or an array of a positive number of them. -/
def LegalType (t : Ty) : Prop :=
  (t.kind = .qubit ∨ t.kind = .bit) ∧ t.size = 1 ∨ (t.kind = .qubitArray ∨ t.kind = .bitArray) ∧ 0 < t.size.toInt

/-- The variables of a program: numbered from 0, with different names that are names of the language and do not stand for
constants. -/
structure LegalVariables (vs : List (SVariable F)) : Prop where
  numbered : vs.map (·.uid) = List.range vs.length
  different : (vs.map (·.name)).Pairwise (· ≠ ·)
  each : ∀ v ∈ vs, Name v.name ∧ v.name ∉ reserved ∧ LegalType v.typ ∧ v.annotations = []

/-- A legal tree. -/
structure LegalProgram (fo : FloatOps F) (stod : Str → Option F) (v : Version) (r : SProgram F) : Prop where
  api : r.apiVersion = v
  version : VersionOk v r.version.items ∧ (r.version.items.length = 1 ∨ r.version.items.length = 2)
  variables : LegalVariables r.variables
  statements : ∀ s ∈ r.block.statements, LegalStatement fo stod (r.variables.map fun x => ⟨x.uid, x.name, x.typ⟩) s

end Qasm.Spec
