import Verif.Model.Types
import Verif.Spec.Base
/-!
# Specification: the letters of type specification strings
-/

namespace Qasm.Spec

/-- The letters of specification strings and the types they stand for. -/
inductive TypeLetter : Char → Kind → Prop
  | qubit : TypeLetter 'Q' .qubit
  | bit : TypeLetter 'B' .bit
  | bool : TypeLetter 'b' .bool
  | int : TypeLetter 'i' .int
  | float : TypeLetter 'f' .float
  | qubitArray : TypeLetter 'V' .qubitArray
  | bitArray : TypeLetter 'W' .bitArray

end Qasm.Spec
