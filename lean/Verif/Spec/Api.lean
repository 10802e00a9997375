import Verif.Spec.Program
import Verif.Model.SemanticAnalyzer
/-!
# Observing the analyser through its interface
-/

namespace Qasm.Spec

open Sem

variable {F : Type}

/-- The analyser accepts the program: it reports no errors and returns the semantic program `r`. -/
def Accepts (fo : FloatOps F) (a : Analyzer F) (p : ProgramAst F) (r : SProgram F) : Prop :=
  ∃ a', analyze fo a p = .ok (a', ⟨some r, []⟩)

/-- The analysers a user can have that registers nothing: a default analyser that has analysed any number of
programs, of whatever result. -/
inductive Reached (fo : FloatOps F) : Analyzer F → Prop
  | fresh {v a} : Analyzer.default fo v = .ok a → Reached fo a
  | analyzed {a a' p r} : Reached fo a → analyze fo a p = .ok (a', r) → Reached fo a'

end Qasm.Spec
