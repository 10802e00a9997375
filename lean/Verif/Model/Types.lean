import Verif.Model.Base
/-!
# Types: `src/v3x/types.cpp`, `src/v3x/types.tree`
-/

namespace Qasm

/-- The node classes below `type_base`, src/v3x/types.tree (what `Node::type()` returns). -/
inductive Kind where
  | bool | int | float | bit | qubit | bitArray | qubitArray
  deriving Repr, DecidableEq

/-- A type node: its class and its `size` field, src/v3x/types.tree. `tree::make<T>()` leaves `size` 0. -/
structure Ty where
  kind : Kind
  size : Int64
  deriving Repr, DecidableEq

/-- `tree::make<K>()` with no argument: `size` is initialised to 0. -/
def Ty.bare (k : Kind) : Ty := ⟨k, 0⟩

namespace Types

/-- `types::from_spec(char)`, src/v3x/types.cpp:24-35; `none` is the thrown `std::invalid_argument`. -/
def fromSpecChar (c : Char) : Option Ty :=
  if c = 'Q' then some (.bare .qubit)
  else if c = 'B' then some (.bare .bit)
  else if c = 'b' then some (.bare .bool)
  else if c = 'i' then some (.bare .int)
  else if c = 'f' then some (.bare .float)
  else if c = 'V' then some (.bare .qubitArray)
  else if c = 'W' then some (.bare .bitArray)
  else none

/-- `types::from_spec(std::string)`, src/v3x/types.cpp:37-43. -/
def fromSpec : Str → Option (List Ty)
  | [] => some []
  | c :: cs =>
    match fromSpecChar c with
    | none => none
    | some t => (fromSpec cs).map (t :: ·)

/-- `types::type_check`, src/v3x/types.cpp:48-50. -/
def typeCheck (expected actual : Ty) : Bool := actual.kind == expected.kind

/-- `types::size_of`, src/v3x/types.cpp:55-57. -/
def sizeOf (t : Ty) : Int64 := t.size

/-- The type names, include/libqasm/v3x/types.hpp:18-24. -/
def kindName : Kind → Str
  | .qubit => c!"qubit"
  | .bit => c!"bit"
  | .bool => c!"bool"
  | .int => c!"int"
  | .float => c!"float"
  | .qubitArray => c!"qubit array"
  | .bitArray => c!"bit array"

/-- `operator<<(std::ostream&, const Type&)`, src/v3x/types.cpp:62-84 (types are never empty here). -/
def print (t : Ty) : Str := kindName t.kind

/-- `operator<<(std::ostream&, const Types&)`, src/v3x/types.cpp:89-91. -/
def printList (ts : List Ty) : Str := joinStr c!", " (ts.map print)

end Types
end Qasm
