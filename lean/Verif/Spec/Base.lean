import Verif.Model.Base
/-!
# Relations on lists used in specifications
-/

namespace Qasm.Spec

/-- The lists have equal length and their entries are related pairwise. -/
inductive Forall2 {α β : Type} (R : α → β → Prop) : List α → List β → Prop
  | nil : Forall2 R [] []
  | cons {a b as bs} : R a b → Forall2 R as bs → Forall2 R (a :: as) (b :: bs)

end Qasm.Spec
