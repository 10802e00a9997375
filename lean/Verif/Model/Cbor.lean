import Verif.Model.Types
import Verif.Model.Version
/-!
# Serialisation of primitives: `src/v3x/primitives.cpp`, `src/v3x/instruction.cpp`, `src/v3x/core_function.cpp`,
`python/module/cqasm/v3x/primitives.py`

The CBOR reader and writer and the (de)serialisers of tree nodes are tree-gen's, outside the repository. A CBOR
document is modelled by the value it describes (`Cbor`), and the node functions are a parameter (`NodeCodec`).
-/

namespace Qasm

/-- A CBOR value. A text or binary string is its bytes. -/
inductive Cbor (F : Type) where
  | bool (b : Bool)
  | int (i : Int)
  | float (x : F)
  | text (b : Bytes)
  | binary (b : Bytes)
  | array (items : List (Cbor F))
  | map (entries : List (Str × Cbor F))

namespace Cbor

variable {F : Type}

/-- `tree::cbor::MapWriter` after its `append_…` calls: the entries in the order written. -/
abbrev Writer (F : Type) := List (Str × Cbor F)

/-- `tree::cbor::MapReader::at`; a missing key is a thrown `std::out_of_range`. -/
def at' (m : List (Str × Cbor F)) (k : Str) : Res Empty (Cbor F) :=
  match m.lookup k with
  | some v => .ok v
  | none => .exn c!"std::out_of_range"

/-- `tree::cbor::MapReader::count`. -/
def count (m : List (Str × Cbor F)) (k : Str) : Nat := (m.filter fun e => e.1 == k).length

/-- `tree::cbor::Reader::as_bool`; another type of value is a thrown `std::runtime_error`, here and below. -/
def asBool : Cbor F → Res Empty Bool
  | .bool b => .ok b
  | _ => .exn c!"std::runtime_error"

/-- `tree::cbor::Reader::as_int`: an `int64_t`. -/
def asInt : Cbor F → Res Empty Int64
  | .int i => .ok (Int64.ofInt i)
  | _ => .exn c!"std::runtime_error"

/-- `tree::cbor::Reader::as_float`. -/
def asFloat : Cbor F → Res Empty F
  | .float x => .ok x
  | _ => .exn c!"std::runtime_error"

/-- `tree::cbor::Reader::as_string`. -/
def asString : Cbor F → Res Empty Bytes
  | .text b => .ok b
  | _ => .exn c!"std::runtime_error"

/-- `tree::cbor::Reader::as_binary`. -/
def asBinary : Cbor F → Res Empty Bytes
  | .binary b => .ok b
  | _ => .exn c!"std::runtime_error"

/-- `tree::cbor::Reader::as_array`. -/
def asArray : Cbor F → Res Empty (List (Cbor F))
  | .array l => .ok l
  | _ => .exn c!"std::runtime_error"

/-- The loop over an array that reads every element. -/
def each {α β : Type} (f : α → Res Empty β) : List α → Res Empty (List β)
  | [] => .ok []
  | x :: xs => do
    let y ← f x
    let ys ← each f xs
    pure (y :: ys)

/-- tree-gen's `serialize(Maybe<TypeBase>)` and `deserialize<types::Node>`, not in the repository. -/
structure NodeCodec where
  ser : Ty → Bytes
  de : Bytes → Res Empty Ty

/-! ## C++ primitives -/

/-- `serialize(const Str&)`, src/v3x/primitives.cpp:20-23. -/
def writeStr (s : Bytes) : Writer F := [(c!"x", .binary s)]

/-- `deserialize<Str>`, src/v3x/primitives.cpp:25-28. -/
def readStr (m : List (Str × Cbor F)) : Res Empty Bytes := do asBinary (← at' m c!"x")

/-- `Axis`, include/libqasm/v3x/primitives.hpp:56-62. -/
structure Axis (F : Type) where
  x : F
  y : F
  z : F
  deriving DecidableEq

/-- `serialize(const Axis&)`, src/v3x/primitives.cpp:38-43. -/
def writeAxis (a : Axis F) : Writer F := [(c!"x", .float a.x), (c!"y", .float a.y), (c!"z", .float a.z)]

/-- `deserialize<Axis>`, src/v3x/primitives.cpp:45-48. -/
def readAxis (m : List (Str × Cbor F)) : Res Empty (Axis F) := do
  let x ← asFloat (← at' m c!"x")
  let y ← asFloat (← at' m c!"y")
  let z ← asFloat (← at' m c!"z")
  pure ⟨x, y, z⟩

/-- `serialize(const Bool&)`, src/v3x/primitives.cpp:58-61. -/
def writeBool (b : Bool) : Writer F := [(c!"x", .bool b)]

/-- `deserialize<Bool>`, src/v3x/primitives.cpp:63-66. -/
def readBool (m : List (Str × Cbor F)) : Res Empty Bool := do asBool (← at' m c!"x")

/-- `serialize(const Int&)`, src/v3x/primitives.cpp:76-79. -/
def writeInt (i : Int64) : Writer F := [(c!"x", .int i.toInt)]

/-- `deserialize<Int>`, src/v3x/primitives.cpp:81-84. -/
def readInt (m : List (Str × Cbor F)) : Res Empty Int64 := do asInt (← at' m c!"x")

/-- `serialize(const Float&)`, src/v3x/primitives.cpp:94-97. -/
def writeFloat (x : F) : Writer F := [(c!"x", .float x)]

/-- `deserialize<Float>`, src/v3x/primitives.cpp:99-102. -/
def readFloat (m : List (Str × Cbor F)) : Res Empty F := do asFloat (← at' m c!"x")

/-- `serialize(const Complex&)`, src/v3x/primitives.cpp:107-111; a pair of real and imaginary part. -/
def writeComplex (z : F × F) : Writer F := [(c!"r", .float z.1), (c!"i", .float z.2)]

/-- `deserialize<Complex>`, src/v3x/primitives.cpp:113-116. -/
def readComplex (m : List (Str × Cbor F)) : Res Empty (F × F) := do
  let r ← asFloat (← at' m c!"r")
  let i ← asFloat (← at' m c!"i")
  pure (r, i)

/-- `serialize(const Version&)`, src/v3x/primitives.cpp:121-128. -/
def writeVersion (v : Version) : Writer F := [(c!"x", .array (v.map fun c => .int c.toInt))]

/-- `deserialize<Version>`, src/v3x/primitives.cpp:130-137: an empty version, resized and overwritten. -/
def readVersion (m : List (Str × Cbor F)) : Res Empty Version := do
  let ar ← asArray (← at' m c!"x")
  let _ ← Version.ofString []
  each asInt ar

/-! ## C++ references -/

/-- `instruction::Instruction` with its name as bytes, include/libqasm/v3x/instruction.hpp:36-60. -/
structure InstrData where
  name : Bytes
  operandTypes : List Ty
  deriving DecidableEq

/-- `function::CoreFunction` with its name as bytes, include/libqasm/v3x/core_function.hpp:32-62. -/
structure FnData where
  name : Bytes
  paramTypes : List Ty
  returnType : Ty
  deriving DecidableEq

/-- `serialize(const InstructionRef&)`, src/v3x/instruction.cpp:46-57. -/
def writeInstr (nc : NodeCodec) : Option InstrData → Writer F
  | none => []
  | some i => [(c!"name", .text i.name), (c!"operand_types", .array (i.operandTypes.map fun t => .binary (nc.ser t)))]

/-- An element of an array of types, src/v3x/instruction.cpp:70, src/v3x/core_function.cpp:73. -/
def readType (nc : NodeCodec) (c : Cbor F) : Res Empty Ty := do nc.de (← asBinary c)

/-- `deserialize<InstructionRef>`, src/v3x/instruction.cpp:59-74. -/
def readInstr (nc : NodeCodec) (m : List (Str × Cbor F)) : Res Empty (Option InstrData) :=
  if count m c!"name" = 0 then .ok none
  else do
    let name ← asString (← at' m c!"name")
    let ar ← asArray (← at' m c!"operand_types")
    let ts ← each (readType nc) ar
    pure (some ⟨name, ts⟩)

/-- `serialize(const CoreFunctionRef&)`, src/v3x/core_function.cpp:47-60. -/
def writeFn (nc : NodeCodec) : Option FnData → Writer F
  | none => []
  | some f => [(c!"name", .text f.name), (c!"param_types", .array (f.paramTypes.map fun t => .binary (nc.ser t))),
      (c!"return_type", .binary (nc.ser f.returnType))]

/-- `deserialize<CoreFunctionRef>`, src/v3x/core_function.cpp:62-78. -/
def readFn (nc : NodeCodec) (m : List (Str × Cbor F)) : Res Empty (Option FnData) :=
  if count m c!"name" = 0 then .ok none
  else do
    let name ← asString (← at' m c!"name")
    let ar ← asArray (← at' m c!"param_types")
    let ts ← each (readType nc) ar
    let r ← readType nc (← at' m c!"return_type")
    pure (some ⟨name, ts, r⟩)

/-! ## Python -/

/-- The values `deserialize` in `primitives.py` returns. A Python string is its code points. -/
inductive PyVal (F : Type) where
  | str (s : Str)
  | bool (b : Bool)
  | int (i : Int)
  | float (x : F)
  | version (v : List Int)
  | instr (i : Option (Str × List Ty))
  deriving DecidableEq

/-- The classes passed as `typ`, python/module/cqasm/v3x/primitives.py:4-18. -/
inductive PyType where
  | str | bool | int | float | complex | version | instructionRef | other
  deriving DecidableEq, Repr

/-- `bytes.decode('utf-8')`; `none` is a `UnicodeDecodeError`. -/
def decodeUtf8 (b : Bytes) : Option Str := (ByteArray.utf8Decode? b.toByteArray).map Array.toList

/-- A CBOR text string as tree-gen's reader gives it to Python. -/
def pyText (b : Bytes) : Res Empty Str :=
  match decodeUtf8 b with
  | some s => .ok s
  | none => .exn c!"UnicodeDecodeError"

/-- `val[k]` in Python. -/
def pyAt (m : List (Str × Cbor F)) (k : Str) : Res Empty (Cbor F) :=
  match m.lookup k with
  | some v => .ok v
  | none => .exn c!"KeyError"

/-- `Int(e)` for an integer `e`. Simplification: for anything else, which Python may convert, a `TypeError`. -/
def pyInt : Cbor F → Res Empty Int
  | .int i => .ok i
  | _ => .exn c!"TypeError"

/-- `cqasm.v3x.types.Node.deserialize(x)`, generated by tree-gen. Simplification: for anything but bytes, which the generated
code may also take, a `TypeError`. -/
def pyType (nc : NodeCodec) : Cbor F → Res Empty Ty
  | .binary b => nc.de b
  | _ => .exn c!"TypeError"

/-- `deserialize(typ, val)`, python/module/cqasm/v3x/primitives.py:46-72. Simplification: the conversions `Str(…)`,
`Bool(…)`, `Float(…)` of a value of another type are a `TypeError`. -/
def pyRead (nc : NodeCodec) (typ : PyType) (m : List (Str × Cbor F)) : Res Empty (PyVal F) :=
  match typ with
  | .str => do
    match ← pyAt m c!"x" with
    | .binary b => return .str (← pyText b)
    | .text b => return .str (← pyText b)
    | _ => .exn c!"TypeError"
  | .bool => do
    match ← pyAt m c!"x" with
    | .bool b => return .bool b
    | _ => .exn c!"TypeError"
  | .int => do return .int (← pyInt (← pyAt m c!"x"))
  | .float => do
    match ← pyAt m c!"x" with
    | .float x => return .float x
    | _ => .exn c!"TypeError"
  | .version => do
    match ← pyAt m c!"x" with
    | .array l => return .version (← each pyInt l)
    | _ => .exn c!"TypeError"
  | .instructionRef =>
    if (m.lookup c!"n").isSome then do
      match ← pyAt m c!"n", ← pyAt m c!"t" with
      | .text b, .array l => return .instr (some (← pyText b, ← each (pyType nc) l))
      | _, _ => .exn c!"TypeError"
    else .ok (.instr none)
  | .complex | .other => .exn c!"AssertionError"

/-- `serialize(typ, val)`, python/module/cqasm/v3x/primitives.py:21-43, for a value of the given class. -/
def pyWrite (nc : NodeCodec) : PyVal F → Writer F
  | .str s => [(c!"x", .text (utf8 s))]
  | .bool b => [(c!"x", .bool b)]
  | .int i => [(c!"x", .int i)]
  | .float x => [(c!"x", .float x)]
  | .version v => [(c!"x", .array (v.map .int))]
  | .instr none => []
  | .instr (some (n, ts)) => [(c!"n", .text (utf8 n)), (c!"t", .array (ts.map fun t => .binary (nc.ser t)))]

/-- The class of a Python value. -/
def PyVal.typ : PyVal F → PyType
  | .str _ => .str
  | .bool _ => .bool
  | .int _ => .int
  | .float _ => .float
  | .version _ => .version
  | .instr _ => .instructionRef

end Cbor
end Qasm
