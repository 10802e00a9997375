import Verif.Model.Base
/-!
# Specification of input bytes: which text they are
-/

namespace Qasm.Spec

/-- The byte order mark. -/
def bom : Bytes := [0xEF, 0xBB, 0xBF]

/-- The bytes are the UTF-8 encoding of the text, possibly after a byte order mark. -/
def IsTextOf (data : Bytes) (text : Str) : Prop :=
  data = bom ++ utf8 text ∨ data = utf8 text ∧ ¬ ∃ rest, data = bom ++ rest

end Qasm.Spec
