import Verif.Model.Semantic
import Verif.Model.ConstEval
import Verif.Model.InstructionSet
/-!
# The analyser object: `src/v3x/analyzer.cpp`, `include/libqasm/v3x/analyzer.hpp`,
`include/libqasm/v3x/scope.hpp`, `src/v3x/cqasm.cpp`
-/

namespace Qasm

/-- `analyzer::Scope`, include/libqasm/v3x/scope.hpp:10-38. -/
structure Scope (F : Type) where
  variableTable : VariableTable F
  fnTable : OverloadTable (CoreFn F)
  instructionTable : OverloadTable Instruction
  block : SBlock F
  variables : List (SVariable F)

/-- A default-constructed scope whose block is then set to a fresh block
(src/v3x/analyzer.cpp:28-32, 133-136). -/
def Scope.empty {F : Type} : Scope F := ⟨[], [], [], ⟨[], none⟩, []⟩

/-- `analyzer::Analyzer`, include/libqasm/v3x/analyzer.hpp:44-227. The front of `scope_stack_` is the
current scope, its back the global scope. `nextUid` numbers the variable nodes made so far. -/
structure Analyzer (F : Type) where
  apiVersion : Version
  scopes : List (Scope F)
  nextUid : Nat

namespace Analyzer

variable {F : Type}

/-- `Analyzer::Analyzer`, src/v3x/analyzer.cpp:26-33; `none` is the thrown `std::invalid_argument`. -/
def new (apiVersion : Version) : Option (Analyzer F) :=
  if Version.eq apiVersion [3, 0] then some ⟨apiVersion, [.empty], 0⟩ else none

/-- Changes the current scope; with an empty scope stack the access is undefined (`none`). -/
def modifyCurrent (a : Analyzer F) (f : Scope F → Res Err (Scope F)) : Res Err (Analyzer F) :=
  match a.scopes with
  | [] => .ub
  | s :: rest => (f s).bind fun s' => .ok { a with scopes := s' :: rest }

/-- Changes the last scope of a stack (`scope_stack_.back()`). -/
def modifyLast (f : Scope F → Scope F) : List (Scope F) → Res Err (List (Scope F))
  | [] => .ub
  | [s] => .ok [f s]
  | s :: t :: rest => (modifyLast f (t :: rest)).bind fun ss => .ok (s :: ss)

/-- `Analyzer::register_variable`, src/v3x/analyzer.cpp:192-194. -/
def registerVariable (a : Analyzer F) (name : Str) (v : Value F) : Res Err (Analyzer F) :=
  a.modifyCurrent fun s => (s.variableTable.add name v).bind fun t => .ok { s with variableTable := t }

/-- `Analyzer::register_consteval_core_function(name, Types, f)`, src/v3x/analyzer.cpp:211-214. -/
def registerFunction (a : Analyzer F) (name : Str) (params : List Ty) (f : CoreFn F) : Res Err (Analyzer F) :=
  (modifyLast (fun s => { s with fnTable := FnTable.add s.fnTable name params f }) a.scopes).bind fun ss =>
    .ok { a with scopes := ss }

/-- `Analyzer::register_consteval_core_function(name, string, f)`, src/v3x/analyzer.cpp:221-224. -/
def registerFunctionSpec (a : Analyzer F) (name spec : Str) (f : CoreFn F) : Res Err (Analyzer F) :=
  match Types.fromSpec spec with
  | none => .exn c!"std::invalid_argument"
  | some ts => a.registerFunction name ts f

/-- `Analyzer::register_instruction(Instruction)`, src/v3x/analyzer.cpp:269-271. -/
def registerInstruction (a : Analyzer F) (i : Instruction) : Res Err (Analyzer F) :=
  a.modifyCurrent fun s => .ok { s with instructionTable := InstrTable.add s.instructionTable i }

/-- `Analyzer::register_instruction(name, operand_types)`, src/v3x/analyzer.cpp:277-279. -/
def registerInstructionSpec (a : Analyzer F) (name : Str) (operandTypes : Option Str) : Res Err (Analyzer F) :=
  match Instruction.mk' name operandTypes with
  | none => .exn c!"std::invalid_argument"
  | some i => a.registerInstruction i

/-- `Analyzer::push_scope`, src/v3x/analyzer.cpp:133-136. -/
def pushScope (a : Analyzer F) : Analyzer F := { a with scopes := .empty :: a.scopes }

/-- `Analyzer::pop_scope`, src/v3x/analyzer.cpp:141-143; popping an empty list is undefined. -/
def popScope (a : Analyzer F) : Res Err (Analyzer F) :=
  match a.scopes with
  | [] => .ub
  | _ :: rest => .ok { a with scopes := rest }

/-- `Analyzer::register_default_constants`, src/v3x/analyzer.cpp:61-68. -/
def registerDefaultConstants (fo : FloatOps F) (a : Analyzer F) : Res Err (Analyzer F) :=
  (a.registerVariable c!"true" ⟨.constBool true, none⟩).bind fun a =>
  (a.registerVariable c!"false" ⟨.constBool false, none⟩).bind fun a =>
  (a.registerVariable c!"pi" ⟨.constFloat fo.pi, none⟩).bind fun a =>
  (a.registerVariable c!"eu" ⟨.constFloat fo.e, none⟩).bind fun a =>
  a.registerVariable c!"tau" ⟨.constFloat fo.tau, none⟩

/-- `Analyzer::register_default_functions`, src/v3x/analyzer.cpp:73-75. -/
def registerDefaultFunctions (fo : FloatOps F) (a : Analyzer F) : Res Err (Analyzer F) :=
  (ConstEval.registrations fo).foldl (fun r e => r.bind fun a => a.registerFunctionSpec e.1 e.2.1 e.2.2) (.ok a)

/-- `Analyzer::register_default_instructions`, src/v3x/analyzer.cpp:80-82. -/
def registerDefaultInstructions (a : Analyzer F) : Res Err (Analyzer F) :=
  InstructionSet.registrations.foldl (fun r e => r.bind fun a => a.registerInstructionSpec e.1 (some e.2)) (.ok a)

/-- `default_analyzer`, src/v3x/cqasm.cpp:42-50, from an already parsed API version. -/
def default (fo : FloatOps F) (apiVersion : Version) : Res Err (Analyzer F) :=
  match new apiVersion with
  | none => .exn c!"std::invalid_argument"
  | some a =>
    (a.registerDefaultConstants fo).bind fun a =>
    (a.registerDefaultFunctions fo).bind fun a =>
    a.registerDefaultInstructions

/-- `Analyzer::resolve_variable`, src/v3x/analyzer.cpp:178-187. -/
def resolveVariable (scopes : List (Scope F)) (name : Str) : Res Err (Value F) :=
  match scopes with
  | [] => .err (Err.mk0 (c!"failed to resolve variable '" ++ name ++ c!"'"))
  | s :: rest =>
    match s.variableTable.resolve name with
    | .err _ => resolveVariable rest name
    | r => r

/-- `Analyzer::resolve_function`, src/v3x/analyzer.cpp:204-206. -/
def resolveFunction (fo : FloatOps F) (scopes : List (Scope F)) (name : Str) (args : List (Value F)) :
    Res Err (Option (Value F)) :=
  match scopes.getLast? with
  | none => .ub
  | some s => FnTable.resolve fo s.fnTable name args

/-- `Analyzer::resolve_instruction`, src/v3x/analyzer.cpp:233-244 and 253-264 (the two overloads differ
only in the class of the node they return; here: the instruction and the promoted operands). -/
def resolveInstruction (fo : FloatOps F) (scopes : List (Scope F)) (name : Str) (args : List (Value F)) :
    Res Err (Instruction × List (Value F)) :=
  match scopes with
  | [] => (Values.typesOf args).bind fun ts =>
      .err (Err.mk0 (c!"failed to resolve instruction '" ++ name ++ c!"' with argument pack ("
        ++ Types.printList ts ++ c!")"))
  | s :: rest =>
    match OverloadTable.resolve fo s.instructionTable name args with
    | .err _ => resolveInstruction fo rest name args
    | r => r

/-- `Analyzer::add_variable_to_current_scope`, src/v3x/analyzer.cpp:170-172. -/
def addVariable (a : Analyzer F) (v : SVariable F) : Res Err (Analyzer F) :=
  a.modifyCurrent fun s => .ok { s with variables := s.variables ++ [v] }

/-- The location update of `add_statement_to_current_scope`, src/v3x/analyzer.cpp:156-164. -/
def blockLoc (blockLoc statementLoc : Option Loc) : Option Loc :=
  match statementLoc with
  | none => blockLoc
  | some sl =>
    match blockLoc with
    | some bl => some ((bl.expandToInclude sl.range.first).expandToInclude sl.range.last)
    | none => some sl

/-- `Analyzer::add_statement_to_current_scope`, src/v3x/analyzer.cpp:148-165. The block of a scope is
never empty: it is set when the scope is made (src/v3x/analyzer.cpp:32, 135). -/
def addStatement (a : Analyzer F) (st : SStatement F) : Res Err (Analyzer F) :=
  a.modifyCurrent fun s =>
    .ok { s with block := ⟨s.block.statements ++ [st], blockLoc s.block.loc st.loc⟩ }

end Analyzer
end Qasm
