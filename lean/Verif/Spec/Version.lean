import Verif.Spec.Base
/-!
# Independent notions for versions
-/

namespace Qasm.Spec

/-- Component `i` of a version; missing components are 0. -/
def component (v : List Int64) (i : Nat) : Int := ((v[i]?).getD 0).toInt

/-- Two versions are the same if all components agree. -/
def VersionSame (a b : List Int64) : Prop := ∀ i, component a i = component b i

/-- `a` is older than `b`: at the first difference `a` is smaller. -/
def VersionOlder (a b : List Int64) : Prop :=
  ∃ i, (∀ j, j < i → component a j = component b j) ∧ component a i < component b i

/-- Number denoted by a string of decimal digits. -/
def decimalValue (ds : Str) : Nat := ds.foldl (fun n c => 10 * n + (c.toNat - '0'.toNat)) 0

/-- `text` starts with the decimal integer `i`, after optional white space, and goes on with anything
that does not continue the number. -/
def LeadingInt (text : Str) (i : Int) : Prop :=
  ∃ ws sign ds rest, text = ws ++ sign ++ ds ++ rest ∧
    (∀ c ∈ ws, c ∈ [' ', '\t', '\n', Char.ofNat 11, Char.ofNat 12, '\r']) ∧
    ds ≠ [] ∧ (∀ c ∈ ds, c.isDigit = true) ∧
    (∀ c, rest.head? = some c → c.isDigit = false) ∧
    ((sign ∈ [[], ['+']] ∧ i = decimalValue ds) ∨ (sign = ['-'] ∧ i = -(decimalValue ds : Int)))

end Qasm.Spec
