import Verif.Model.Base
/-!
# Source locations: `src/annotations.cpp`, `include/libqasm/annotations.hpp`

Simplification: lines and columns are `std::uint32_t` in the code and `Nat` here (no wrap-around).
-/

namespace Qasm

/-- `SourceLocation::Index`, include/libqasm/annotations.hpp:23-29. -/
structure Index where
  line : Nat
  column : Nat
  deriving Repr, DecidableEq

namespace Index

/-- Defaulted `operator<=>` (`a < b`): lexicographic in (line, column), include/libqasm/annotations.hpp:28. -/
def lt (a b : Index) : Bool := a.line < b.line || (a.line == b.line && a.column < b.column)

/-- `std::max<Index>(a, b)`: `(a < b) ? b : a`. -/
def max (a b : Index) : Index := if lt a b then b else a

/-- `std::min<Index>(a, b)`: `(b < a) ? b : a`. -/
def min (a b : Index) : Index := if lt b a then b else a

end Index

/-- `SourceLocation::Range`, include/libqasm/annotations.hpp:35-48. -/
structure Range where
  first : Index
  last : Index
  deriving Repr, DecidableEq

/-- `Range::Range(f, l)`, src/annotations.cpp:14-18: `last` is raised to `first` if below it. -/
def Range.mk' (f l : Index) : Range := ⟨f, Index.max l f⟩

/-- `SourceLocation`, include/libqasm/annotations.hpp:18-82. -/
structure Loc where
  fileName : Option Str
  range : Range
  deriving Repr, DecidableEq

namespace Loc

/-- `SourceLocation::SourceLocation`, src/annotations.cpp:23-29: an empty file name becomes none. -/
def mk' (fileName : Option Str) (range : Range) : Loc :=
  ⟨if fileName = some [] then none else fileName, range⟩

/-- `SourceLocation::expand_to_include`, src/annotations.cpp:34-37. -/
def expandToInclude (l : Loc) (i : Index) : Loc :=
  { l with range := ⟨Index.min l.range.first i, Index.max l.range.last i⟩ }

/-- `unknown_file_name`, include/libqasm/annotations_constants.hpp. -/
def unknownFileName : Str := c!"<unknown file name>"

/-- `operator<<(std::ostream&, const SourceLocation&)`, src/annotations.cpp:42-77. -/
def print (l : Loc) : Str :=
  let f := l.range.first
  let e := l.range.last
  let name := l.fileName.getD unknownFileName
  if f.line = 0 then name
  else
    let s := name ++ [':'] ++ decNat f.line
    if f.column = 0 then
      if e.line > f.line then s ++ ['.', '.'] ++ decNat e.line else s
    else
      let s := s ++ [':'] ++ decNat f.column
      if e.line = f.line then
        if e.column > f.column then s ++ ['.', '.'] ++ decNat e.column else s
      else if e.line > f.line then
        s ++ ['.', '.'] ++ decNat e.line ++ [':'] ++ decNat e.column
      else s

end Loc
end Qasm
