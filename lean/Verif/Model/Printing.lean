import Verif.Model.Cbor
/-!
# Equality and printing of instructions, functions and their references: `src/v3x/instruction.cpp`,
`src/v3x/core_function.cpp`, `python/module/cqasm/v3x/instruction.py`
-/

namespace Qasm.Printing

open Cbor

/-- tree-gen's `equals` of two type nodes: the same class and the same size. -/
def typeEquals (a b : Ty) : Bool := a.kind == b.kind && a.size == b.size

/-- tree-gen's `Any::equals`: the same number of nodes, equal one by one. -/
def typesEqual : List Ty → List Ty → Bool
  | [], [] => true
  | a :: as, b :: bs => typeEquals a b && typesEqual as bs
  | _, _ => false

/-- `Instruction::operator==`, src/v3x/instruction.cpp:25-27. -/
def instrEquals (a b : InstrData) : Bool := a.name == b.name && typesEqual a.operandTypes b.operandTypes

/-- `operator<<(std::ostream&, const Types&)`, src/v3x/types.cpp:89-91, as the bytes written. -/
def types (ts : List Ty) : Bytes := utf8 (Types.printList ts)

/-- `operator<<(std::ostream&, const Instruction&)`, src/v3x/instruction.cpp:32-34. -/
def instr (i : InstrData) : Bytes := i.name ++ utf8 c!"(" ++ types i.operandTypes ++ utf8 c!")"

/-- `operator<<(std::ostream&, const InstructionRef&)`, src/v3x/instruction.cpp:39-41. -/
def instrRef : Option InstrData → Bytes
  | none => utf8 c!"unresolved"
  | some i => instr i

/-- `CoreFunction::CoreFunction(name, param_types, return_type)`, src/v3x/core_function.cpp:18-21; `none` is the exception of
`from_spec`. -/
def mkFn (name : Bytes) (paramTypes : Str) (returnType : Char) : Option FnData :=
  match Types.fromSpec paramTypes with
  | none => none
  | some ps => (Types.fromSpecChar returnType).map fun r => ⟨name, ps, r⟩

/-- `CoreFunction::operator==`, src/v3x/core_function.cpp:26-28. -/
def fnEquals (a b : FnData) : Bool :=
  a.name == b.name && typesEqual a.paramTypes b.paramTypes && typeEquals a.returnType b.returnType

/-- `operator<<(std::ostream&, const CoreFunction&)`, src/v3x/core_function.cpp:33-35. -/
def fn (f : FnData) : Bytes := f.name ++ utf8 c!"(" ++ types f.paramTypes ++ utf8 c!") -> " ++ utf8 (Types.print f.returnType)

/-- `operator<<(std::ostream&, const CoreFunctionRef&)`, src/v3x/core_function.cpp:40-42. -/
def fnRef : Option FnData → Bytes
  | none => utf8 c!"unresolved"
  | some f => fn f

end Qasm.Printing
