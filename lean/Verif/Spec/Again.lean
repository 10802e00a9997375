import Verif.Spec.Texts
/-!
# Specification of analysing the same program again

An analyser keeps the variables of the programs it has analysed.
-/

namespace Qasm.Spec

variable {F : Type}

/-- The names of the variables that the statements declare. -/
def declaredNames (ss : List (Stmt F)) : List Str :=
  ss.filterMap fun
    | .var _ _ name _ => some name.name
    | _ => none

/-- The errors if all variables that the statements declare exist already, in the order of the declarations. -/
def redeclarations (ss : List (Stmt F)) : List Err :=
  ss.filterMap fun
    | .var l _ name _ => some ⟨c!"trying to redeclare variable '" ++ name.name ++ c!"'", l⟩
    | _ => none

/-- The variables, but numbered from `u`. -/
def numbered : Nat → List (SVariable F) → List (SVariable F)
  | _, [] => []
  | u, x :: xs => { x with uid := u } :: numbered (u + 1) xs

/-- `Repeats ss q c vs ts rs`: the answers to a program with the statements `ss` that is analysed again and again after an
analysis with the tree `q`, where it declared the variables `vs` and denoted the instructions `ts`. -/
def Repeats (ss : List (Stmt F)) (q : SProgram F) (c : Nat) (vs : List (SVariable F)) (ts : List (SStatement F))
    (rs : List (Result (SProgram F))) : Prop :=
  ∀ k x, rs[k]? = some x → x.errors = redeclarations ss ∧ ∃ y, x.root = some y ∧
    y.block.statements = q.block.statements ++ (List.replicate (k + 1) ts).flatten ∧
    y.variables = q.variables ++ numbered c (List.replicate (k + 1) vs).flatten

end Qasm.Spec
