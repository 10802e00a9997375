import Verif.Model.Analyzer
/-!
# The classes of the errors that name resolution throws

The model of resolution (`OverloadTable.resolve`, `VariableTable.resolve`, `Analyzer.resolveVariable`, …)
keeps the message and the location of an error. Here the class of the exception is kept as well. A caller
of the API can catch by class; the analyser itself catches all of them as `error::AnalysisError`.
-/

namespace Qasm

/-- The classes declared with `CQASM_ANALYSIS_ERROR` in include/libqasm/v3x/resolver.hpp:43, 48 and 53.
Each derives from `error::AnalysisError` (include/libqasm/error.hpp:97-102) and none from another.
`plain` stands for any other class derived from it, such as that thrown by a registered function. -/
inductive FailureClass
  | name
  | overload
  | resolution
  | plain
  deriving Repr, DecidableEq

/-- A thrown error with its class. -/
structure Thrown where
  cls : FailureClass
  err : Err
  deriving Repr, DecidableEq

variable {T F : Type}

/-- Every error gets the class `plain`. -/
def Res.plain {α : Type} (r : Res Err α) : Res Thrown α := r.mapErr (Thrown.mk .plain)

/-- `resolver::OverloadedNameResolver::resolve`, include/libqasm/v3x/resolver.hpp:71-80: the exceptions of
include/libqasm/overload.hpp:108-128 and 176-181 are translated to those of the resolver. -/
def OverloadTable.resolveThrown (fo : FloatOps F) (tbl : OverloadTable T) (name : Str) (args : List (Value F)) :
    Res Thrown (T × List (Value F)) :=
  match OverloadTable.find tbl name with
  | none => .err ⟨.name, Err.mk0 (c!"failed to resolve '" ++ name ++ c!"'")⟩
  | some ovs =>
    (OverloadTable.resolveOverload fo ovs args).plain.bind fun
      | some r => .ok r
      | none => (Values.typesOf args).plain.bind fun ts =>
          .err ⟨.overload, Err.mk0 (c!"failed to resolve overload for '" ++ name ++ c!"' with argument pack ("
            ++ Types.printList ts ++ c!")")⟩

/-- `VariableTable::add`, src/v3x/resolver.cpp:24-29. -/
def VariableTable.addThrown (tbl : VariableTable F) (name : Str) (v : Value F) : Res Thrown (VariableTable F) :=
  match VariableTable.find tbl name with
  | some _ => .err ⟨.name, Err.mk0 (c!"trying to redeclare variable '" ++ name ++ c!"'")⟩
  | none => .ok ((name, v) :: tbl)

/-- `VariableTable::resolve`, src/v3x/resolver.cpp:35-40. -/
def VariableTable.resolveThrown (tbl : VariableTable F) (name : Str) : Res Thrown (Value F) :=
  match VariableTable.find tbl name with
  | some v => .ok v
  | none => .err ⟨.name, Err.mk0 (c!"failed to resolve variable '" ++ name ++ c!"'")⟩

/-- `ConstEvalCoreFunctionTable::resolve`, src/v3x/resolver.cpp:88-94. -/
def FnTable.resolveThrown (fo : FloatOps F) (tbl : OverloadTable (CoreFn F)) (name : Str)
    (args : List (Value F)) : Res Thrown (Option (Value F)) :=
  (OverloadTable.resolveThrown fo tbl name args).bind fun r => (r.1 r.2).plain

namespace Analyzer

/-- `Analyzer::resolve_variable`, src/v3x/analyzer.cpp:178-187. -/
def resolveVariableThrown (scopes : List (Scope F)) (name : Str) : Res Thrown (Value F) :=
  match scopes with
  | [] => .err ⟨.name, Err.mk0 (c!"failed to resolve variable '" ++ name ++ c!"'")⟩
  | s :: rest =>
    match s.variableTable.resolveThrown name with
    | .err _ => resolveVariableThrown rest name
    | r => r

/-- `Analyzer::resolve_function`, src/v3x/analyzer.cpp:204-206. -/
def resolveFunctionThrown (fo : FloatOps F) (scopes : List (Scope F)) (name : Str) (args : List (Value F)) :
    Res Thrown (Option (Value F)) :=
  match scopes.getLast? with
  | none => .ub
  | some s => FnTable.resolveThrown fo s.fnTable name args

/-- `Analyzer::resolve_instruction`, src/v3x/analyzer.cpp:233-244 and 253-264. -/
def resolveInstructionThrown (fo : FloatOps F) (scopes : List (Scope F)) (name : Str) (args : List (Value F)) :
    Res Thrown (Instruction × List (Value F)) :=
  match scopes with
  | [] => (Values.typesOf args).plain.bind fun ts =>
      .err ⟨.resolution, Err.mk0 (c!"failed to resolve instruction '" ++ name ++ c!"' with argument pack ("
        ++ Types.printList ts ++ c!")")⟩
  | s :: rest =>
    match OverloadTable.resolveThrown fo s.instructionTable name args with
    | .err _ => resolveInstructionThrown fo rest name args
    | r => r

end Analyzer

end Qasm
