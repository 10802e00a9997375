import Verif.Model.PyText
import Verif.Spec.Input
/-!
# Specification of the texts that Python and C++ exchange
-/

namespace Qasm.Spec

/-- A text of characters, as a Python `str`. -/
def pyStr (s : Str) : Py.Text := s.map .char

/-- The `str` contains a surrogate. -/
def HasSurrogate (t : Py.Text) : Prop := ∃ n, Py.Point.surrogate n ∈ t

/-- A text without the byte order mark at its beginning. -/
def noMark : Str → Str
  | [] => []
  | c :: s => if c = '\ufeff' then s else c :: s

/-- All bytes are ASCII. -/
def IsAscii (bs : Bytes) : Prop := ∀ b ∈ bs, b.toNat < 0x80

/-- What Python is given for the outcome of a C++ call: the deserialised tree, or the messages. -/
def pyOutcome {ρ σ : Type} (de : Bytes → σ) (ser : Option ρ → Bytes) (r : Result ρ) : Py.Outcome σ :=
  match r.errors with
  | [] => .tree (de (ser r.root))
  | e :: es => .errors (pyStr e.what :: es.map fun e => pyStr e.what)

end Qasm.Spec
