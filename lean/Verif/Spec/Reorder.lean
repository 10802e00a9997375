import Verif.Spec.Join
/-!
# What each statement of a program became
-/

namespace Qasm.Spec

variable {F : Type}

/-- The statements of an accepted program, each with what became of it: a variable or an instruction of the result. -/
def outcomes : List (Stmt F) → List (SVariable F) → List (SStatement F) → List (Stmt F × (SVariable F ⊕ SStatement F))
  | .var l as n t :: ss, x :: vs, ts => (.var l as n t, .inl x) :: outcomes ss vs ts
  | s :: ss, vs, t :: ts => (s, .inr t) :: outcomes ss vs ts
  | _, _, _ => []

/-- The same outcome under other identities of the variables. -/
def moveOutcome (f : Nat → Nat) : SVariable F ⊕ SStatement F → SVariable F ⊕ SStatement F
  | .inl x => .inl (moveSVariable f x)
  | .inr t => .inr (moveSStatement f t)

/-- Every variable of the program that a statement uses has been declared before it. -/
def DeclaredFirst (ss : List (Stmt F)) : Prop :=
  ∀ pre s post, ss = pre ++ s :: post → ∀ x ∈ namesStmt s, (∃ d ∈ ss, DeclaresName x d) → ∃ d ∈ pre, DeclaresName x d

end Qasm.Spec
