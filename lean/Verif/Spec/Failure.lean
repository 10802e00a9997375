import Verif.Spec.Scope
import Verif.Spec.Promote
/-!
# What is registered after a history of calls
-/

namespace Qasm.Spec

variable {F : Type}

/-- What was registered in one scope, oldest first. -/
structure Level (F : Type) where
  vars : List (Str × Value F)
  functions : List (Registration (CoreFn F))
  instructions : List (Registration Instruction)

/-- Changes the last level, that of the global scope. -/
def onLast (f : Level F → Level F) : List (Level F) → List (Level F)
  | [] => []
  | [l] => [f l]
  | l :: m :: ls => l :: onLast f (m :: ls)

/-- What is registered after a call, innermost scope first: variables (unless the name is taken in that scope) and
instructions in the current scope, functions in the global one. -/
def Call.see : Call F → List (Level F) → List (Level F)
  | .push, ls => ⟨[], [], []⟩ :: ls
  | .pop, ls => ls.tail
  | .var _ _, [] => []
  | .var name v, l :: ls =>
    if name ∈ l.vars.map (·.1) then l :: ls else { l with vars := l.vars ++ [(name, v)] } :: ls
  | .instruction _, [] => []
  | .instruction i, l :: ls => { l with instructions := l.instructions ++ [(i.name, i, i.operandTypes)] } :: ls
  | .function name params f, ls => onLast (fun l => { l with functions := l.functions ++ [(name, f, params)] }) ls

/-- What is registered after the calls, starting with an analyser in which nothing is registered. -/
def registered (cs : List (Call F)) : List (Level F) := cs.foldl (fun ls c => c.see ls) [⟨[], [], []⟩]

end Qasm.Spec
