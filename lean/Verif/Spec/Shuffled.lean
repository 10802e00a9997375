import Verif.Spec.Annotated
/-!
# Specification of programs with their instructions in another order
-/

namespace Qasm.Spec

variable {F : Type}

/-- `Shuffled ss ss'`: the same statements, except that instructions that follow one another are in another order. No instruction
moves across a declaration. -/
inductive Shuffled : List (Stmt F) → List (Stmt F) → Prop
  | nil : Shuffled [] []
  | cons {s ss ss'} : Shuffled ss ss' → Shuffled (s :: ss) (s :: ss')
  | swap {s t ss} : ¬ IsDecl s → ¬ IsDecl t → Shuffled (s :: t :: ss) (t :: s :: ss)
  | trans {ss ss' ss''} : Shuffled ss ss' → Shuffled ss' ss'' → Shuffled ss ss''

/-- The same call, or programs of the same version with their instructions in another order. -/
inductive ShuffledEvent : Event F → Event F → Prop
  | call {c} : ShuffledEvent (.call c) (.call c)
  | analyze {p p' : ProgramAst F} : p'.version = p.version → Shuffled p.block.statements p'.block.statements →
      ShuffledEvent (.analyze p) (.analyze p')

/-- The same answer, except for the order of errors and instructions. -/
def ShuffledAnswer (r r' : Result (SProgram F)) : Prop :=
  r.errors.Perm r'.errors ∧ ∃ q q', r.root = some q ∧ r'.root = some q' ∧ q'.apiVersion = q.apiVersion ∧ q'.version = q.version ∧
    q'.variables = q.variables ∧ q.block.statements.Perm q'.block.statements

end Qasm.Spec
