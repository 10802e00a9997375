import Verif.Spec.Move
/-!
# Programs joined statement by statement

A list of statements each of which is marked with the program it comes from (the marks are of any type).
-/

namespace Qasm.Spec

variable {F : Type} {ι : Type}

/-- The entries of a list that are marked `i`, in order. -/
def part [DecidableEq ι] {α : Type} (i : ι) : List ι → List α → List α
  | m :: ms, x :: xs => if m = i then x :: part i ms xs else part i ms xs
  | _, _ => []

/-- The statements of program `i`. -/
def own [DecidableEq ι] (i : ι) (ss : List (ι × Stmt F)) : List (Stmt F) := part i (ss.map Prod.fst) (ss.map Prod.snd)

/-- The marks of the declarations. -/
def declarationMarks : List (ι × Stmt F) → List ι
  | [] => []
  | (i, .var _ _ _ _) :: ss => i :: declarationMarks ss
  | _ :: ss => declarationMarks ss

/-- The marks of the instructions. -/
def instructionMarks : List (ι × Stmt F) → List ι
  | [] => []
  | (_, .var _ _ _ _) :: ss => instructionMarks ss
  | (i, _) :: ss => i :: instructionMarks ss

/-- The statement declares a variable of this name. -/
def DeclaresName (x : Str) : Stmt F → Prop
  | .var _ _ n _ => n.name = x
  | _ => False

/-- No two programs declare variables of the same name. -/
def DifferentNames (ss : List (ι × Stmt F)) : Prop :=
  ∀ s ∈ ss, ∀ t ∈ ss, s.1 ≠ t.1 → ∀ x, DeclaresName x s.2 → ¬ DeclaresName x t.2

/-- No program mentions a name that another one declares. -/
def Separate (ss : List (ι × Stmt F)) : Prop :=
  ∀ s ∈ ss, ∀ t ∈ ss, s.1 ≠ t.1 → ∀ x ∈ mentioned s.2, ¬ DeclaresName x t.2

/-- `R` is the results `r i` joined in the same way as the statements, under other identities of the variables. -/
def Joined [DecidableEq ι] (ss : List (ι × Stmt F)) (r : ι → SProgram F) (R : SProgram F) : Prop :=
  R.variables.length = (declarationMarks ss).length ∧ R.block.statements.length = (instructionMarks ss).length ∧
    (∀ i, R.apiVersion = (r i).apiVersion ∧ R.version = (r i).version) ∧
    ∃ f : ι → Nat → Nat, ∀ i, part i (declarationMarks ss) R.variables = (r i).variables.map (moveSVariable (f i)) ∧
      part i (instructionMarks ss) R.block.statements = (r i).block.statements.map (moveSStatement (f i))

/-- The statements that are not declarations. -/
def onlyInstructions : List (Stmt F) → List (Stmt F)
  | [] => []
  | .var _ _ _ _ :: ss => onlyInstructions ss
  | s :: ss => s :: onlyInstructions ss

end Qasm.Spec
