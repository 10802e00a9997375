import Verif.Model.SemanticAnalyzer
/-!
# Results that are kept while the analyser is used again

`visit_program` (src/v3x/semantic_analyzer.cpp:24-32) stores in the result the `tree::One<semantic::Block>` of the
analyser's current scope (`Analyzer::current_block`, src/v3x/analyzer.cpp:41-43). `tree::One` is a shared pointer
(include/libqasm/tree.hpp), so the result and the scope share one block node, and `add_statement_to_current_scope`
(src/v3x/analyzer.cpp:148-165) changes that node in place. `variables`, `version` and the errors are copied.
-/

namespace Qasm

variable {F : Type}

/-- The program a result returned by `Analyzer::analyze` holds, read when the analyser that returned it is in the
state `a`: its block is that of the current scope (src/v3x/semantic_analyzer.cpp:29, src/v3x/analyzer.cpp:41-43).
Simplification: only for uses of the analyser that leave the same scope current. -/
def SProgram.readIn (a : Analyzer F) (r : SProgram F) : SProgram F :=
  match a.scopes with
  | [] => r
  | s :: _ => { r with block := s.block }

/-- The result of an earlier call of `analyze`, read when the analyser is in the state `a`. -/
def Result.readIn (a : Analyzer F) (r : Result (SProgram F)) : Result (SProgram F) :=
  { r with root := r.root.map (SProgram.readIn a) }

end Qasm
