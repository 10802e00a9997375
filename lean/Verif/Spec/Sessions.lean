import Verif.Spec.Api
/-!
# Sessions: one analyser for several programs
-/

namespace Qasm.Spec

variable {F : Type}

/-- How the analyses end if the programs are analysed one after another with the same analyser. An analysis that does not return ends
the session. -/
def session (fo : FloatOps F) : Analyzer F → List (ProgramAst F) → List (Res Empty (Analyzer F × Result (SProgram F)))
  | _, [] => []
  | a, p :: ps => Sem.analyze fo a p ::
      match Sem.analyze fo a p with
      | .ok (a', _) => session fo a' ps
      | _ => []

end Qasm.Spec
