import Verif.Spec.Again
import Verif.Spec.Stops
/-!
# Specification of registrations that keep trees in order

At the end of an analysis without errors the tree is checked: values must refer to variables of the tree, and to at least one
element of them (`ClosedProgram`). Otherwise a `std::runtime_error` is thrown. It is thrown only if the user registers values or
functions that are not in order, or uses variables from another scope.
-/

namespace Qasm.Spec

variable {F : Type}

/-- The function returns constants, or what refers to a variable that one of the arguments refers to, and to no elements of it
only if the argument does so. -/
def Honest (f : CoreFn F) : Prop :=
  ∀ args r, f args = .ok (some r) → (∀ x, RefersTo r x → ∃ a ∈ args, RefersTo a x) ∧
    ∀ x, r.node = .indexRef x [] → ∃ a ∈ args, a.node = .indexRef x []

/-- All values that are registered are in order, where the tree has the variables `vs`, and all functions are honest. -/
def TidyLevels (vs : List (SVariable F)) (ls : List (Level F)) : Prop :=
  ∀ l ∈ ls, (∀ x ∈ l.vars, ClosedValue vs x.2) ∧ ∀ f ∈ l.functions, Honest f.2.1

/-- The current scope is in order. -/
def Tidy (m : Memory F) : Prop :=
  ∀ f fs, m.frames = f :: fs → TidyLevels f.variables m.levels ∧ ClosedProgram f.variables f.statements

/-- The function throws analysis errors only, and what it returns has a type. -/
def Mild (f : CoreFn F) : Prop := ∀ args, (∀ c, f args ≠ .exn c) ∧ ∀ r, f args = .ok (some r) → ¬ Untyped r

/-- All values that are registered have types, and all functions are mild. -/
def MildLevels (ls : List (Level F)) : Prop := ∀ l ∈ ls, (∀ x ∈ l.vars, ¬ Untyped x.2) ∧ ∀ f ∈ l.functions, Mild f.2.1

/-- What the user calls in a session keeps things in order: no scopes are opened, values that are registered refer to nothing, and
functions are honest. -/
def TidyEvent : TextEvent F → Prop
  | .call .push => False
  | .call (.var _ x) => ClosedValue [] x
  | .call (.function _ _ f) => Honest f
  | _ => True

/-- What the user registers has types, and throws analysis errors only. -/
def MildEvent : TextEvent F → Prop
  | .call (.var _ x) => ¬ Untyped x
  | .call (.function _ _ f) => Mild f
  | _ => True

end Qasm.Spec
