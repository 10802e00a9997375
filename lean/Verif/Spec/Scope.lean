import Verif.Model.Analyzer
/-!
# Histories of registrations and scopes
-/

namespace Qasm.Spec

variable {F : Type}

/-- A call on an analyser. -/
inductive Call (F : Type)
  | push
  | pop
  | var (name : Str) (value : Value F)
  | instruction (i : Instruction)
  | function (name : Str) (params : List Ty) (f : CoreFn F)

/-- The call in the model of the interface. -/
def Call.on (a : Analyzer F) : Call F → Res Err (Analyzer F)
  | .push => .ok a.pushScope
  | .pop => a.popScope
  | .var name value => a.registerVariable name value
  | .instruction i => a.registerInstruction i
  | .function name params f => a.registerFunction name params f

/-- `Calls cs a b`: the calls `cs`, one after the other, take `a` to `b`. A call that throws changes nothing, and the
user carries on. -/
inductive Calls : List (Call F) → Analyzer F → Analyzer F → Prop
  | nil {a} : Calls [] a a
  | ok {c cs a b d} : c.on a = .ok b → Calls cs b d → Calls (c :: cs) a d
  | error {c cs a d e} : c.on a = .err e → Calls cs a d → Calls (c :: cs) a d

/-- Every pop matches a push. -/
inductive Balanced : List (Call F) → Prop
  | nil : Balanced []
  | var {name value cs} : Balanced cs → Balanced (.var name value :: cs)
  | instruction {i cs} : Balanced cs → Balanced (.instruction i :: cs)
  | function {name params f cs} : Balanced cs → Balanced (.function name params f :: cs)
  | scope {cs ds} : Balanced cs → Balanced ds → Balanced (.push :: cs ++ .pop :: ds)

/-- The call registers a function. -/
def IsFunction : Call F → Prop
  | .function _ _ _ => True
  | _ => False

end Qasm.Spec
