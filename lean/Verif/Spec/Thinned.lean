import Verif.Spec.Annotated
/-!
# Specification of programs with some instructions left out
-/

namespace Qasm.Spec

variable {F : Type}

/-- `Thinned ss ss'`: `ss'` are the statements `ss` without some of the instructions. All declarations are there. -/
inductive Thinned : List (Stmt F) → List (Stmt F) → Prop
  | nil : Thinned [] []
  | keep {s ss ss'} : Thinned ss ss' → Thinned (s :: ss) (s :: ss')
  | drop {s ss ss'} : ¬ IsDecl s → Thinned ss ss' → Thinned (s :: ss) ss'

/-- The same call, or programs of the same version, the second without some of the instructions. -/
inductive ThinnedEvent : Event F → Event F → Prop
  | call {c} : ThinnedEvent (.call c) (.call c)
  | analyze {p p' : ProgramAst F} : p'.version = p.version → Thinned p.block.statements p'.block.statements →
      ThinnedEvent (.analyze p) (.analyze p')

/-- The same answer without some of the errors and instructions. -/
def ThinnedAnswer (r r' : Result (SProgram F)) : Prop :=
  r'.errors.Sublist r.errors ∧ ∃ q q', r.root = some q ∧ r'.root = some q' ∧ q'.apiVersion = q.apiVersion ∧ q'.version = q.version ∧
    q'.variables = q.variables ∧ q'.block.statements.Sublist q.block.statements

end Qasm.Spec
