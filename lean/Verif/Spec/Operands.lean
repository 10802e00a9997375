import Verif.Spec.Each
import Verif.Spec.Instruction
/-!
# Other operands for an instruction
-/

namespace Qasm.Spec

variable {F : Type}

/-- Both expressions denote qubits, or both denote bits, and equally many of them. -/
def AsMany (fo : FloatOps F) (D : List VarLink) (e e' : Expr F) : Prop :=
  ∃ n n' : ValueNode F, Eval fo D e n ∧ Eval fo D e' n' ∧ elements n = elements n' ∧
    ((∃ k k', IsQubits n k ∧ IsQubits n' k') ∨ ∃ k k', IsBits n k ∧ IsBits n' k')

/-- The second instruction is the first with the operands `vs` (and with what is recorded about the kinds of the operands). -/
inductive WithOperands (vs : List (Value F)) : SStatement F → SStatement F → Prop
  | gate {i i' g us as l} : i.name = i'.name → WithOperands vs (.gate i g us as l) (.gate i' g vs as l)
  | nonGate {i i' n us ps as l} : i.name = i'.name → WithOperands vs (.nonGate i n us ps as l) (.nonGate i' n vs ps as l)

/-- The results are the same, except that instruction number `k` has the operands `vs`. -/
def OperandsResult (k : Nat) (vs : List (Value F)) (r r' : SProgram F) : Prop :=
  r.apiVersion = r'.apiVersion ∧ r.version = r'.version ∧ r.variables = r'.variables ∧
    ∃ before t t' after, before.length = k ∧ r.block.statements = before ++ t :: after ∧
      r'.block.statements = before ++ t' :: after ∧ WithOperands vs t t'

/-- The `k`th qubit or bit of a reference: the variable and the place in it. -/
def place (k : Nat) : ValueNode F → Option (VarLink × Int)
  | .variableRef x => some (x, k)
  | .indexRef x is => is[k]?.map fun i => (x, i.1.toInt)
  | _ => none

/-- The instruction, taken as one for the first, second and further elements of its operands, never has the same qubit or bit
for two operands. -/
def NeverTwice (t : SStatement F) : Prop :=
  ∀ k v, (operands t)[0]? = some v → k < elements v.node → ((operands t).map fun w => place k w.node).Nodup

/-- `Written fo D e x ns`: the expression is written as the elements `ns` of the variable called `x`: as the name of the variable,
for all its elements, or as the name with indices and ranges. -/
inductive Written (fo : FloatOps F) (D : List VarLink) : Expr F → Str → List Int → Prop
  | whole {l y} : y ∈ D → Written fo D (.ident l y.name) y.name (upTo (0, y.typ.size.toInt - 1))
  | elements {l l' y ixs bs} : y ∈ D → Forall2 (Bounds fo D) ixs bs →
      Written fo D (.index l (.ident l' y.name) ixs) y.name (bs.flatMap upTo)

end Qasm.Spec
