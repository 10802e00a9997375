import Verif.Spec.Uses
import Verif.Spec.Move
/-!
# Specification of what is done in a scope of its own
-/

namespace Qasm.Spec

variable {F : Type}

/-- Analyses, and calls in which every pop matches a push. No function is registered: functions go to the outermost scope. -/
inductive Inside : List (Event F) → Prop
  | nil : Inside []
  | analyze {p es} : Inside es → Inside (.analyze p :: es)
  | var {name value es} : Inside es → Inside (.call (.var name value) :: es)
  | instruction {i es} : Inside es → Inside (.call (.instruction i) :: es)
  | scope {es ds} : Inside es → Inside ds → Inside (.call .push :: es ++ .call .pop :: ds)

/-- No function is registered, and no variable that stands for another one. -/
def Steady : Event F → Prop
  | .call (.function _ _ _) => False
  | .call (.var _ v) => (∀ x, v.node ≠ .variableRef x) ∧ ∀ x is, v.node ≠ .indexRef x is
  | _ => True

/-- The answer with other identities of variables. -/
def moveResult (f : Nat → Nat) (r : Result (SProgram F)) : Result (SProgram F) :=
  ⟨r.root.map fun p => ⟨p.apiVersion, p.version, moveSBlock f p.block, p.variables.map (moveSVariable f)⟩, r.errors⟩

end Qasm.Spec
