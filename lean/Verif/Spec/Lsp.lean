import Verif.Spec.Location
import Verif.Spec.Located
/-!
# Positions of the Language Server Protocol

The specification of the protocol (version 3.17, "Position"): positions count from zero, lines end with `\n`, `\r\n` or `\r`, and the
character offset in a line counts UTF-16 code units.
-/

namespace Qasm.Spec

/-- The line of the position after a text. -/
def lspLine : Str → Nat
  | [] => 0
  | '\r' :: '\n' :: s => lspLine s + 1
  | '\r' :: s => lspLine s + 1
  | '\n' :: s => lspLine s + 1
  | _ :: s => lspLine s

/-- The number of UTF-16 code units of a character. -/
def utf16Units (c : Char) : Nat := if c.toNat < 0x10000 then 1 else 2

/-- The characters after the last line end of a text. -/
def lspLastLine (s : Str) : Str := (s.reverse.takeWhile fun c => c ≠ '\n' ∧ c ≠ '\r').reverse

/-- The character offset of the position after a text: the code units after its last line end. -/
def lspCharacter (s : Str) : Nat := ((lspLastLine s).map utf16Units).sum

/-- The number of carriage returns that are not followed by a line feed. -/
def loneReturns : Str → Nat
  | [] => 0
  | '\r' :: '\n' :: s => loneReturns s
  | '\r' :: s => loneReturns s + 1
  | _ :: s => loneReturns s

/-- The number of characters of a text beyond the basic multilingual plane. -/
def supplementary (s : Str) : Nat := s.countP fun c => 0x10000 ≤ c.toNat

end Qasm.Spec
