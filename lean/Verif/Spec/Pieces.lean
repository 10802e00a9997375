import Verif.Spec.Tidy
/-!
# Specification of programs that are given in pieces
-/

namespace Qasm.Spec

variable {F : Type}

/-- `p` has the statements of the programs, one program after another. -/
def IsJoined (ps : List (ProgramAst F)) (p : ProgramAst F) : Prop := p.block.statements = ps.flatMap (·.block.statements)

/-- The answer to the joined program, `r`, and those to the pieces, `rs`: the same errors, and the same variables and instructions
as after the last piece. -/
def JoinedAnswer (rs : List (Result (SProgram F))) (r : Result (SProgram F)) : Prop :=
  r.errors = rs.flatMap (·.errors) ∧ ∃ x q q', rs.getLast? = some x ∧ x.root = some q' ∧ r.root = some q ∧
    q.apiVersion = q'.apiVersion ∧ q.variables = q'.variables ∧ q.block.statements = q'.block.statements

end Qasm.Spec
