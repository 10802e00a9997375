import Verif.Model.Types
import Verif.Model.Err
/-!
# Values: `src/v3x/values.cpp`, `src/v3x/values.tree`

A value node carries its class-specific data and its source location annotation. Pointers to shared
nodes are modelled by copies; a `Link<Variable>` is modelled by `VarLink`: the identity (`uid`) of the
linked variable node together with its name and type, which never change after the node is built.

Floating point numbers are an arbitrary type `F` whose operations are the fields of `FloatOps`;
nothing is assumed about them.
-/

namespace Qasm

/-- The C++ `double` operations used by the code; no laws are assumed. Conversions:
`static_cast<double>(int64)` and `bool → double` (src/v3x/values.cpp:52-54); operators and `<cmath>`
functions: include/libqasm/v3x/register_consteval_core_functions.hpp:75-166; constants:
src/v3x/analyzer.cpp:61-68; `stod`: src/v3x/syntactic_analyzer.cpp:81-88 (`none` = `std::out_of_range`). -/
structure FloatOps (F : Type) where
  ofInt : Int64 → F
  ofBool : Bool → F
  neg : F → F
  add : F → F → F
  sub : F → F → F
  mul : F → F → F
  div : F → F → F
  pow : F → F → F
  eq : F → F → Bool
  ne : F → F → Bool
  ge : F → F → Bool
  gt : F → F → Bool
  le : F → F → Bool
  lt : F → F → Bool
  sqrt : F → F
  exp : F → F
  log : F → F
  sin : F → F
  cos : F → F
  tan : F → F
  sinh : F → F
  cosh : F → F
  tanh : F → F
  asin : F → F
  acos : F → F
  atan : F → F
  asinh : F → F
  acosh : F → F
  atanh : F → F
  abs : F → F
  pi : F
  e : F
  tau : F
  stod : Str → Option F

/-- `Link<semantic::Variable>`: identity, name and type of the linked variable. -/
structure VarLink where
  uid : Nat
  name : Str
  typ : Ty
  deriving Repr, DecidableEq

/-- Class-specific data of a value, src/v3x/values.tree. An index is a `const_int` node: value and location. -/
inductive ValueNode (F : Type) where
  | constBool (b : Bool)
  | constInt (i : Int64)
  | constFloat (f : F)
  | indexRef (var : VarLink) (indices : List (Int64 × Option Loc))
  | variableRef (var : VarLink)
  deriving Repr, DecidableEq

/-- A value with its `SourceLocation` annotation. -/
structure Value (F : Type) where
  node : ValueNode F
  loc : Option Loc
  deriving Repr, DecidableEq

namespace Values

variable {F : Type}

/-- `values::size_of`, src/v3x/values.cpp:133-143. -/
def sizeOf (v : Value F) : Int :=
  match v.node with
  | .constBool _ => 1
  | .constInt _ => 1
  | .constFloat _ => 1
  | .indexRef _ ixs => ixs.length
  | .variableRef var => (Types.sizeOf var.typ).toInt

/-- `values::element_type_of`, src/v3x/values.cpp:84-92; a non-array type throws `std::runtime_error`. -/
def elementTypeOf (t : Ty) : Res Err Ty :=
  if Types.typeCheck t (.bare .qubitArray) then .ok (.bare .qubit)
  else if Types.typeCheck t (.bare .bitArray) then .ok (.bare .bit)
  else .exn c!"std::runtime_error"

/-- `values::type_of`, src/v3x/values.cpp:97-117. -/
def typeOf (v : Value F) : Res Err Ty :=
  match v.node with
  | .constBool _ => .ok (.bare .bool)
  | .constInt _ => .ok (.bare .int)
  | .constFloat _ => .ok (.bare .float)
  | .indexRef var _ => if sizeOf v = 1 then elementTypeOf var.typ else .ok var.typ
  | .variableRef var => .ok var.typ

/-- `values::types_of`, src/v3x/values.cpp:122-128. -/
def typesOf : List (Value F) → Res Err (List Ty)
  | [] => .ok []
  | v :: vs => (typeOf v).bind fun t => (typesOf vs).bind fun ts => .ok (t :: ts)

/-- `values::promote`, src/v3x/values.cpp:30-64; `none` is the empty value. -/
def promote (fo : FloatOps F) (v : Value F) (t : Ty) : Res Err (Option (Value F)) :=
  (typeOf v).bind fun tv =>
    if Types.typeCheck t tv then .ok (some v)
    else
      let ret : Option (Value F) :=
        match t.kind with
        | .int =>
          match v.node with
          | .constBool b => some ⟨.constInt (if b then 1 else 0), none⟩
          | .variableRef _ => if Types.typeCheck tv (.bare .bool) then some v else none
          | _ => none
        | .float =>
          match v.node with
          | .constBool b => some ⟨.constFloat (fo.ofBool b), none⟩
          | .constInt i => some ⟨.constFloat (fo.ofInt i), none⟩
          | _ => none
        | _ => none
      -- copy_annotation<SourceLocation>(*value)
      .ok (ret.map fun r => { r with loc := v.loc })

/-- `values::check_promote`, src/v3x/values.cpp:69-78. -/
def checkPromote (fromType toType : Ty) : Bool :=
  if Types.typeCheck fromType toType then true
  else if fromType.kind = .bool then toType.kind = .int || toType.kind = .float
  else if fromType.kind = .int then toType.kind = .float
  else false

/-- `value->as_constant()`, src/v3x/values.tree. -/
def isConstant (v : Value F) : Bool :=
  match v.node with
  | .constBool _ => true
  | .constInt _ => true
  | .constFloat _ => true
  | _ => false

/-- `values::check_const(Value)`, src/v3x/values.cpp:149-153. -/
def checkConst (v : Value F) : Res Err Unit :=
  if isConstant v then .ok () else .err (Err.mkNode c!"dynamic values are not supported here" v.loc)

/-- `values::check_const(Values)`, src/v3x/values.cpp:159-163. -/
def checkConstAll : List (Value F) → Res Err Unit
  | [] => .ok ()
  | v :: vs => (checkConst v).bind fun _ => checkConstAll vs

end Values
end Qasm
