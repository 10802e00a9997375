import Verif.Model.Location
/-!
# Comparing source locations: the comparison operators of `include/libqasm/annotations.hpp`

`operator<=>` returns one of `less`, `equal` and `greater` (`std::strong_ordering`); the operators `<`, `<=`, `>` and `>=`
are rewritten by the compiler in terms of it, `!=` in terms of `==`.
-/

namespace Qasm

/-- Defaulted `Index::operator<=>`, include/libqasm/annotations.hpp:28: the members in the order of declaration. -/
def Index.compare (a b : Index) : Ordering := (Ord.compare a.line b.line).then (Ord.compare a.column b.column)

/-- Defaulted `Index::operator==`, include/libqasm/annotations.hpp:27. -/
def Index.same (a b : Index) : Bool := a.line == b.line && a.column == b.column

/-- Defaulted `Range::operator<=>`, include/libqasm/annotations.hpp:47. -/
def Range.compare (a b : Range) : Ordering := (Index.compare a.first b.first).then (Index.compare a.last b.last)

/-- Defaulted `Range::operator==`, include/libqasm/annotations.hpp:46. -/
def Range.same (a b : Range) : Bool := a.first.same b.first && a.last.same b.last

/-- `SourceLocation::operator<=>`, include/libqasm/annotations.hpp:76: the file name is left out. -/
def Loc.compare (a b : Loc) : Ordering := a.range.compare b.range

/-- Defaulted `SourceLocation::operator==`, include/libqasm/annotations.hpp:70. -/
def Loc.same (a b : Loc) : Bool := a.fileName == b.fileName && a.range.same b.range

/-- `a < b`. -/
def Loc.less (a b : Loc) : Bool := a.compare b == .lt

/-- `a <= b`. -/
def Loc.lessEq (a b : Loc) : Bool := a.compare b != .gt

end Qasm
