import Verif.Model.Values
/-!
# Overload resolution and name tables: `include/libqasm/overload.hpp`,
`src/v3x/resolver.cpp`, `include/libqasm/v3x/resolver.hpp`
-/

namespace Qasm

/-- `overload::Overload<T, TypeBase>`, include/libqasm/overload.hpp:28-71. -/
structure Overload (T : Type) where
  tag : T
  params : List Ty

/-- `OverloadedNameResolver::table`, include/libqasm/overload.hpp:146: for every name the vector of
overloads in the order they were added. The unordered map is an association list here; only lookups
by key are made, so its order is irrelevant. -/
abbrev OverloadTable (T : Type) := List (Str × List (Overload T))

namespace OverloadTable

variable {T F : Type}

/-- `table.find(name)`. -/
def find (tbl : OverloadTable T) (name : Str) : Option (List (Overload T)) :=
  match tbl with
  | [] => none
  | (n, ovs) :: rest => if n = name then some ovs else find rest name

/-- `OverloadedNameResolver::add_overload`, include/libqasm/overload.hpp:159-167. -/
def add (tbl : OverloadTable T) (name : Str) (tag : T) (params : List Ty) : OverloadTable T :=
  match tbl with
  | [] => [(name, [⟨tag, params⟩])]
  | (n, ovs) :: rest =>
    if n = name then (n, ovs ++ [⟨tag, params⟩]) :: rest else (n, ovs) :: add rest name tag params

/-- The inner loop of `OverloadResolver::resolve`, include/libqasm/overload.hpp:113-122:
promote every argument; `none` as soon as one promotion fails. -/
def promoteAll (fo : FloatOps F) : List (Value F) → List Ty → Res Err (Option (List (Value F)))
  | v :: vs, t :: ts =>
    (Values.promote fo v t).bind fun
      | none => .ok none
      | some v' => (promoteAll fo vs ts).bind fun
        | none => .ok none
        | some vs' => .ok (some (v' :: vs'))
  | _, _ => .ok (some [])

/-- The loop of `OverloadResolver::resolve`, include/libqasm/overload.hpp:108-128, over overloads listed
in the order they are tried; `none` is `OverloadResolutionFailure`. -/
def resolveFirst (fo : FloatOps F) (args : List (Value F)) :
    List (Overload T) → Res Err (Option (T × List (Value F)))
  | [] => .ok none
  | ov :: rest =>
    if ov.params.length ≠ args.length then resolveFirst fo args rest
    else (promoteAll fo args ov.params).bind fun
      | none => resolveFirst fo args rest
      | some args' => .ok (some (ov.tag, args'))

/-- `OverloadResolver::resolve`, include/libqasm/overload.hpp:108-128: from the last added to the first. -/
def resolveOverload (fo : FloatOps F) (ovs : List (Overload T)) (args : List (Value F)) :
    Res Err (Option (T × List (Value F))) :=
  resolveFirst fo args ovs.reverse

/-- `resolver::OverloadedNameResolver::resolve`, include/libqasm/v3x/resolver.hpp:71-80, over
include/libqasm/overload.hpp:176-181. -/
def resolve (fo : FloatOps F) (tbl : OverloadTable T) (name : Str) (args : List (Value F)) :
    Res Err (T × List (Value F)) :=
  match find tbl name with
  | none => .err (Err.mk0 (c!"failed to resolve '" ++ name ++ c!"'"))
  | some ovs =>
    (resolveOverload fo ovs args).bind fun
      | some r => .ok r
      | none => (Values.typesOf args).bind fun ts =>
          .err (Err.mk0 (c!"failed to resolve overload for '" ++ name ++ c!"' with argument pack ("
            ++ Types.printList ts ++ c!")"))

end OverloadTable

/-- `VariableTable::table`, include/libqasm/v3x/resolver.hpp:91. -/
abbrev VariableTable (F : Type) := List (Str × Value F)

namespace VariableTable

variable {F : Type}

/-- `table.find(name)`. -/
def find (tbl : VariableTable F) (name : Str) : Option (Value F) :=
  match tbl with
  | [] => none
  | (n, v) :: rest => if n = name then some v else find rest name

/-- `VariableTable::add`, src/v3x/resolver.cpp:24-29. -/
def add (tbl : VariableTable F) (name : Str) (v : Value F) : Res Err (VariableTable F) :=
  match find tbl name with
  | some _ => .err (Err.mk0 (c!"trying to redeclare variable '" ++ name ++ c!"'"))
  | none => .ok ((name, v) :: tbl)

/-- `VariableTable::resolve`, src/v3x/resolver.cpp:35-40 (the returned clone is a copy). -/
def resolve (tbl : VariableTable F) (name : Str) : Res Err (Value F) :=
  match find tbl name with
  | some v => .ok v
  | none => .err (Err.mk0 (c!"failed to resolve variable '" ++ name ++ c!"'"))

end VariableTable

/-- `ConstEvalCoreFunction`, include/libqasm/v3x/resolver.hpp:114: a function on constant arguments;
`none` is an empty returned value. -/
abbrev CoreFn (F : Type) := List (Value F) → Res Err (Option (Value F))

/-- `ConstEvalCoreFunctionTable::add`, src/v3x/resolver.cpp:77-80. -/
def FnTable.add {F : Type} (tbl : OverloadTable (CoreFn F)) (name : Str) (params : List Ty) (f : CoreFn F) :
    OverloadTable (CoreFn F) := OverloadTable.add tbl name f params

/-- `ConstEvalCoreFunctionTable::resolve`, src/v3x/resolver.cpp:88-94. -/
def FnTable.resolve {F : Type} (fo : FloatOps F) (tbl : OverloadTable (CoreFn F)) (name : Str)
    (args : List (Value F)) : Res Err (Option (Value F)) :=
  (OverloadTable.resolve fo tbl name args).bind fun r => r.1 r.2

/-- `instruction::Instruction`, include/libqasm/v3x/instruction.hpp:33-54. -/
structure Instruction where
  name : Str
  operandTypes : List Ty
  deriving Repr, DecidableEq

/-- `Instruction::Instruction(name, operand_types)`, src/v3x/instruction.cpp:18-20;
`none` is the exception of `from_spec`. -/
def Instruction.mk' (name : Str) (operandTypes : Option Str) : Option Instruction :=
  (Types.fromSpec (operandTypes.getD [])).map fun ts => ⟨name, ts⟩

/-- `InstructionTable::add`, src/v3x/resolver.cpp:121-123. -/
def InstrTable.add (tbl : OverloadTable Instruction) (i : Instruction) : OverloadTable Instruction :=
  OverloadTable.add tbl i.name i i.operandTypes

end Qasm
