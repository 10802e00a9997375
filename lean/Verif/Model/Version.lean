import Verif.Model.Base
/-!
# Versions: `src/version.cpp`, `include/libqasm/version.hpp`
-/

namespace Qasm

/-- `version::Version`, include/libqasm/version.hpp:27: a vector of `int64_t`. -/
abbrev Version := List Int64

namespace Version

/-- The loop of `Version::compare`, src/version.cpp:50-59, for `n` more iterations from index `i`. -/
def cmpLoop (a b : Version) : Nat → Nat → Int
  | 0, _ => 0
  | n + 1, i =>
    let lhs := if h : i < a.length then a[i] else 0
    let rhs := if h : i < b.length then b[i] else 0
    if lhs > rhs then 1 else if lhs < rhs then -1 else cmpLoop a b n (i + 1)

/-- `Version::compare`, src/version.cpp:49-61: 1, -1 or 0. The loop condition
`i < this->size() || i < other.size()` makes it run up to the larger of the two sizes. -/
def cmp (a b : Version) : Int := cmpLoop a b (max a.length b.length) 0

/-- `operator==`, include/libqasm/version.hpp:56. -/
def eq (a b : Version) : Bool := cmp a b == 0

/-- `operator<` via `operator<=>`, include/libqasm/version.hpp:57. -/
def lt (a b : Version) : Bool := decide (cmp a b < 0)

/-- `operator>` via `operator<=>`, include/libqasm/version.hpp:57. -/
def gt (a b : Version) : Bool := decide (cmp a b > 0)

/-- `operator<=` via `operator<=>`, include/libqasm/version.hpp:57. -/
def le (a b : Version) : Bool := decide (cmp a b ≤ 0)

/-- `operator>=` via `operator<=>`, include/libqasm/version.hpp:57. -/
def ge (a b : Version) : Bool := decide (cmp a b ≥ 0)

/-- `operator<<`, src/version.cpp:66-68. -/
def print (v : Version) : Str := joinStr ['.'] (v.map fun c => decInt c.toInt)

/-- `std::isspace` in the "C" locale (skipped by `strtol`). -/
def isSpace (c : Char) : Bool := c == ' ' || (9 ≤ c.toNat && c.toNat ≤ 13)

/-- Value of a digit string read most significant digit first. -/
def digitsVal (acc : Nat) (ds : Str) : Nat := ds.foldl (fun a c => a * 10 + (c.toNat - 48)) acc

/-- Optional sign of a number: whether it is negative, and the text after the sign. -/
def splitSign : Str → Bool × Str
  | '-' :: t => (true, t)
  | '+' :: t => (false, t)
  | t => (false, t)

/-- `std::stoi` of the C++ library: skip white space, optional sign, longest run of digits;
`invalid_argument` without digits, `out_of_range` outside `int`; trailing text is ignored. -/
def stoi (s : Str) : Res Empty Int :=
  let p := splitSign (s.dropWhile isSpace)
  let ds := p.2.takeWhile Char.isDigit
  if ds.isEmpty then .exn c!"std::invalid_argument"
  else
    let v : Int := if p.1 then - (digitsVal 0 ds : Int) else digitsVal 0 ds
    if -2147483648 ≤ v ∧ v ≤ 2147483647 then .ok v else .exn c!"std::out_of_range"

/-- Splits at every '.', like the `find`/`substr` loop of src/version.cpp:21-27. `cur` is the piece
read so far, reversed. -/
def splitDots (cur : Str) : Str → List Str
  | [] => [cur.reverse]
  | c :: cs => if c = '.' then cur.reverse :: splitDots [] cs else splitDots (c :: cur) cs

/-- The `push_back(std::stoi(...))` sequence of src/version.cpp:21-27. -/
def stois : List Str → Res Empty Version
  | [] => .ok []
  | p :: ps => do
    let i ← stoi p
    let rest ← stois ps
    pure (Int64.ofInt i :: rest)

/-- `Version::Version(const std::string&)`, src/version.cpp:17-33. -/
def ofString (s : Str) : Res Empty Version :=
  if s.isEmpty then .ok []
  else do
    let v ← stois (splitDots [] s)
    if v.any (· < 0) then .exn c!"std::invalid_argument" else pure v

end Version
end Qasm
