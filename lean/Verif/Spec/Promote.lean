import Verif.Spec.Const
import Verif.Model.Overload
/-!
# Specification of promotion of values and of overload resolution
-/

namespace Qasm.Spec

variable {F : Type}

/-- The kind of the elements of an array. -/
def elementKind : Kind → Option Kind
  | .qubitArray => some .qubit
  | .bitArray => some .bit
  | _ => none

/-- The kind of a value. A reference to one element of an array has the kind of the element, a reference
to another number of elements that of the array. There is none for an index into a non-array. -/
def kindOf : ValueNode F → Option Kind
  | .constBool _ => some .bool
  | .constInt _ => some .int
  | .constFloat _ => some .float
  | .variableRef l => some l.typ.kind
  | .indexRef l [_] => elementKind l.typ.kind
  | .indexRef l _ => some l.typ.kind

/-- How error messages call a kind. -/
def kindLabel : Kind → Str
  | .bool => c!"bool"
  | .int => c!"int"
  | .float => c!"float"
  | .bit => c!"bit"
  | .qubit => c!"qubit"
  | .bitArray => c!"bit array"
  | .qubitArray => c!"qubit array"

/-- `PromotesTo fo v k w`: the value `v`, used where kind `k` is expected, is `w`.
The last rule only matters for `bool` variables, which the language cannot declare but an API user can
register. -/
inductive PromotesTo (fo : FloatOps F) : Value F → Kind → Value F → Prop
  | same {v : Value F} {k : Kind} : kindOf v.node = some k → PromotesTo fo v k v
  | const {c c' : Const F} {k : Kind} (l : Option Loc) :
      Converts fo c k c' → PromotesTo fo ⟨c.node, l⟩ k ⟨c'.node, l⟩
  | boolVar {x : VarLink} (l : Option Loc) :
      x.typ.kind = .bool → PromotesTo fo ⟨.variableRef x, l⟩ .int ⟨.variableRef x, l⟩

/-- The arguments fit the parameter types, one each, and are promoted to `args'`. -/
inductive Fits (fo : FloatOps F) : List (Value F) → List Ty → List (Value F) → Prop
  | nil : Fits fo [] [] []
  | cons {v w : Value F} {t : Ty} {vs ts ws} :
      PromotesTo fo v t.kind w → Fits fo vs ts ws → Fits fo (v :: vs) (t :: ts) (w :: ws)

/-- A registration: name, what is registered, and the parameter types. -/
abbrev Registration (T : Type) := Str × T × List Ty

/-- The outcome of resolving a call against a history of registrations: the most recent registration of
that name whose parameter types fit. -/
def LastFitting {T : Type} (fo : FloatOps F) (regs : List (Registration T)) (name : Str) (args : List (Value F))
    (tag : T) (args' : List (Value F)) : Prop :=
  ∃ older params newer, regs = older ++ (name, tag, params) :: newer ∧ Fits fo args params args' ∧
    ∀ r ∈ newer, r.1 = name → ¬∃ ws, Fits fo args r.2.2 ws

end Qasm.Spec
