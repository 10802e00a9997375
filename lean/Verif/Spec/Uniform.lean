import Verif.Model.SemanticAnalyzer
/-!
# How many qubits the operands of a gate have, for any operands a user's instruction may take
-/

namespace Qasm.Spec

open Sem

variable {F : Type}

/-- `QubitsOf v n`: the value `v` denotes `n` qubits. Constants, bits and whatever else is not a qubit denote none. -/
inductive QubitsOf : Value F → Nat → Prop
  | qubit {x l} : x.typ.kind = .qubit → QubitsOf ⟨.variableRef x, l⟩ 1
  | array {x l} : x.typ.kind = .qubitArray → QubitsOf ⟨.variableRef x, l⟩ x.typ.size.toUInt64.toNat
  | other {x l} : x.typ.kind ≠ .qubit → x.typ.kind ≠ .qubitArray → QubitsOf ⟨.variableRef x, l⟩ 0
  | index {x is l} : x.typ.kind = .qubit ∨ x.typ.kind = .qubitArray → QubitsOf ⟨.indexRef x is, l⟩ is.length
  | otherIndex {x is l} : x.typ.kind ≠ .qubit → x.typ.kind ≠ .qubitArray → QubitsOf ⟨.indexRef x is, l⟩ 0
  | bool {b l} : QubitsOf ⟨.constBool b, l⟩ 0
  | int {i l} : QubitsOf ⟨.constInt i, l⟩ 0
  | float {f l} : QubitsOf ⟨.constFloat f, l⟩ 0

/-- All operands of a gate denote equally many qubits. -/
def Uniform : SStatement F → Prop
  | .gate _ _ ops _ _ => ∃ n, ∀ v ∈ ops, QubitsOf v n
  | _ => True

end Qasm.Spec
