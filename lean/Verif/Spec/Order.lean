import Verif.Spec.Ast
/-!
# The order of positions

Only the types of the model are used.
-/

namespace Qasm.Spec

variable {F : Type}

/-- Both locations are known. The first has at least one character, and ends before the second begins: its end, which is the
position after its last character, is at most the beginning of the second. -/
def Before (l m : Option Loc) : Prop :=
  ∃ a b, l = some a ∧ m = some b ∧ PosLe a.range.first a.range.last ∧ a.range.first ≠ a.range.last ∧
    PosLe a.range.last b.range.first

/-- The locations of the errors, in the order in which they are reported. -/
def errorPlaces (r : Result (SProgram F)) : List (Option Loc) := r.errors.map fun e => e.location

/-- The locations of the instructions of the tree other than assembly declarations, which have none. -/
def instructionPlaces (p : SProgram F) : List (Option Loc) :=
  p.block.statements.filterMap fun
    | .gate _ _ _ _ l => some l
    | .nonGate _ _ _ _ _ l => some l
    | .asm _ _ _ _ => none

/-- The same for the statements of a syntax tree. -/
def statementPlaces (p : ProgramAst F) : List (Option Loc) :=
  p.block.statements.filterMap fun
    | .var l _ _ _ => some l
    | .gate l _ _ _ => some l
    | .nonGate l _ _ _ _ => some l
    | .asm _ _ _ _ => none

end Qasm.Spec
