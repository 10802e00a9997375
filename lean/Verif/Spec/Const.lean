import Verif.Spec.Base
import Verif.Model.Syntax
import Verif.Model.Values
/-!
# Specification of constants, promotion and the built-in functions

Uses the data types of the model (syntax trees, values) but none of its functions.
-/

namespace Qasm.Spec

/-- `a` can be used where `b` is expected: the same kind, or up the chain bool, int, float. -/
inductive Widens : Kind → Kind → Prop
  | same (k : Kind) : Widens k k
  | boolInt : Widens .bool .int
  | boolFloat : Widens .bool .float
  | intFloat : Widens .int .float

/-- A constant. -/
inductive Const (F : Type) where
  | bool (b : Bool)
  | int (i : Int64)
  | float (f : F)
  deriving DecidableEq

variable {F : Type}

/-- The kind of a constant. -/
def Const.kind : Const F → Kind
  | .bool _ => .bool
  | .int _ => .int
  | .float _ => .float

/-- The value node holding a constant. -/
def Const.node : Const F → ValueNode F
  | .bool b => .constBool b
  | .int i => .constInt i
  | .float f => .constFloat f

/-- `Converts fo c k c'`: the constant `c` used as kind `k` is `c'`. -/
inductive Converts (fo : FloatOps F) : Const F → Kind → Const F → Prop
  | same (c : Const F) : Converts fo c c.kind c
  | falseInt : Converts fo (.bool false) .int (.int 0)
  | trueInt : Converts fo (.bool true) .int (.int 1)
  | boolFloat (b : Bool) : Converts fo (.bool b) .float (.float (fo.ofBool b))
  | intFloat (i : Int64) : Converts fo (.int i) .float (.float (fo.ofInt i))

/-- The mathematical functions of one float argument. -/
inductive MathFn where
  | sqrt | exp | log | sin | cos | tan | sinh | cosh | tanh | asin | acos | atan | asinh | acosh | atanh
  deriving DecidableEq

/-- The built-in functions of the language: operators, the conditional, and the named functions. -/
inductive Fn where
  | un (op : UnOp)
  | bin (op : BinOp)
  | cond
  | math (f : MathFn)
  | abs
  deriving DecidableEq

/-- The name under which a math function is called. -/
def MathFn.name : MathFn → Str
  | .sqrt => c!"sqrt" | .exp => c!"exp" | .log => c!"log" | .sin => c!"sin" | .cos => c!"cos" | .tan => c!"tan"
  | .sinh => c!"sinh" | .cosh => c!"cosh" | .tanh => c!"tanh" | .asin => c!"asin" | .acos => c!"acos"
  | .atan => c!"atan" | .asinh => c!"asinh" | .acosh => c!"acosh" | .atanh => c!"atanh"

/-- The name under which a built-in function is called. -/
def Fn.name : Fn → Str
  | .un .neg => c!"operator-" | .un .bnot => c!"operator~" | .un .lnot => c!"operator!"
  | .bin .pow => c!"operator**" | .bin .mul => c!"operator*" | .bin .div => c!"operator/" | .bin .mod => c!"operator%"
  | .bin .add => c!"operator+" | .bin .sub => c!"operator-"
  | .bin .shl => c!"operator<<" | .bin .shr => c!"operator>>"
  | .bin .gt => c!"operator>" | .bin .lt => c!"operator<" | .bin .ge => c!"operator>=" | .bin .le => c!"operator<="
  | .bin .eq => c!"operator==" | .bin .ne => c!"operator!="
  | .bin .band => c!"operator&" | .bin .bxor => c!"operator^" | .bin .bor => c!"operator|"
  | .bin .land => c!"operator&&" | .bin .lxor => c!"operator^^" | .bin .lor => c!"operator||"
  | .cond => c!"operator?:"
  | .math f => f.name
  | .abs => c!"abs"

/-- The parameter kinds a built-in function exists for. -/
def Fn.signatures : Fn → List (List Kind)
  | .un .neg => [[.int], [.float]]
  | .un .bnot => [[.int]]
  | .un .lnot => [[.bool]]
  | .bin .add | .bin .sub | .bin .mul | .bin .div => [[.int, .int], [.float, .float]]
  | .bin .mod => [[.int, .int]]
  | .bin .pow => [[.float, .float]]
  | .bin .shl | .bin .shr | .bin .band | .bin .bxor | .bin .bor => [[.int, .int]]
  | .bin .gt | .bin .lt | .bin .ge | .bin .le | .bin .eq | .bin .ne =>
    [[.bool, .bool], [.int, .int], [.float, .float]]
  | .bin .land | .bin .lxor | .bin .lor => [[.bool, .bool]]
  | .cond => [[.bool, .bool, .bool], [.bool, .int, .int], [.bool, .float, .float]]
  | .math _ => [[.float]]
  | .abs => [[.int], [.float]]

/-- The kind of the result, given the parameter kinds. -/
def Fn.resultKind : Fn → List Kind → Kind
  | .un .neg, k :: _ => k
  | .un .bnot, _ => .int
  | .un .lnot, _ => .bool
  | .bin .add, k :: _ | .bin .sub, k :: _ | .bin .mul, k :: _ | .bin .div, k :: _ => k
  | .bin .mod, _ => .int
  | .bin .pow, _ => .float
  | .bin .shl, _ | .bin .shr, _ | .bin .band, _ | .bin .bxor, _ | .bin .bor, _ => .int
  | .bin _, _ => .bool
  | .cond, _ :: k :: _ => k
  | .math _, _ => .float
  | .abs, k :: _ => k
  | _, [] => .bool
  | .cond, [_] => .bool

/-- The signature used for arguments of the given kinds: the least general one that accepts them. -/
def Selects (fn : Fn) (args sig : List Kind) : Prop :=
  sig ∈ fn.signatures ∧ Forall2 Widens args sig ∧
  ∀ sig' ∈ fn.signatures, Forall2 Widens args sig' → Forall2 Widens sig sig'

/-- The result of an integer operation as a 64-bit integer; `none` if it does not fit. -/
def fit (z : Int) : Option Int64 :=
  if -2 ^ 63 ≤ z ∧ z < 2 ^ 63 then some (Int64.ofInt z) else none

/-- Bit `n` of the two's complement representation of an integer. -/
def bit (z : Int) (n : Nat) : Bool := z.fmod (2 ^ (n + 1)) ≥ 2 ^ n

/-- The unique 64-bit integer congruent to `z` modulo 2^64. -/
def wrap (z : Int) : Int64 := Int64.ofInt z

/-- Meaning of binary operators on two integers; `none` where C++ leaves it undefined. -/
def intBin : BinOp → Int64 → Int64 → Option (Const F)
  | .add, a, b => (fit (a.toInt + b.toInt)).map .int
  | .sub, a, b => (fit (a.toInt - b.toInt)).map .int
  | .mul, a, b => (fit (a.toInt * b.toInt)).map .int
  | .div, a, b => if b = 0 then none else (fit (a.toInt.tdiv b.toInt)).map .int
  | .mod, a, b =>
    if b = 0 ∨ fit (a.toInt.tdiv b.toInt) = none then none else (fit (a.toInt.tmod b.toInt)).map .int
  | .shl, a, b => if 0 ≤ b.toInt ∧ b.toInt < 64 then some (.int (wrap (a.toInt * 2 ^ b.toInt.toNat))) else none
  | .shr, a, b => if 0 ≤ b.toInt ∧ b.toInt < 64 then some (.int (wrap (a.toInt.fdiv (2 ^ b.toInt.toNat)))) else none
  | .band, a, b => some (.int (a &&& b))
  | .bxor, a, b => some (.int (a ^^^ b))
  | .bor, a, b => some (.int (a ||| b))
  | .eq, a, b => some (.bool (a.toInt = b.toInt))
  | .ne, a, b => some (.bool (a.toInt ≠ b.toInt))
  | .lt, a, b => some (.bool (a.toInt < b.toInt))
  | .le, a, b => some (.bool (a.toInt ≤ b.toInt))
  | .gt, a, b => some (.bool (a.toInt > b.toInt))
  | .ge, a, b => some (.bool (a.toInt ≥ b.toInt))
  | _, _, _ => none

/-- Meaning of binary operators on two booleans (`false < true`). -/
def boolBin : BinOp → Bool → Bool → Option (Const F)
  | .eq, a, b => some (.bool (a = b))
  | .ne, a, b => some (.bool (a ≠ b))
  | .lt, a, b => some (.bool (a = false ∧ b = true))
  | .le, a, b => some (.bool (a = true → b = true))
  | .gt, a, b => some (.bool (a = true ∧ b = false))
  | .ge, a, b => some (.bool (b = true → a = true))
  | .land, a, b => some (.bool (a = true ∧ b = true))
  | .lor, a, b => some (.bool (a = true ∨ b = true))
  | .lxor, a, b => some (.bool (a ≠ b))
  | _, _, _ => none

/-- Meaning of binary operators on two floats. -/
def floatBin (fo : FloatOps F) : BinOp → F → F → Option (Const F)
  | .add, a, b => some (.float (fo.add a b))
  | .sub, a, b => some (.float (fo.sub a b))
  | .mul, a, b => some (.float (fo.mul a b))
  | .div, a, b => some (.float (fo.div a b))
  | .pow, a, b => some (.float (fo.pow a b))
  | .eq, a, b => some (.bool (fo.eq a b))
  | .ne, a, b => some (.bool (fo.ne a b))
  | .lt, a, b => some (.bool (fo.lt a b))
  | .le, a, b => some (.bool (fo.le a b))
  | .gt, a, b => some (.bool (fo.gt a b))
  | .ge, a, b => some (.bool (fo.ge a b))
  | _, _, _ => none

/-- Meaning of the float functions. -/
def MathFn.meaning (fo : FloatOps F) : MathFn → F → F
  | .sqrt => fo.sqrt | .exp => fo.exp | .log => fo.log | .sin => fo.sin | .cos => fo.cos | .tan => fo.tan
  | .sinh => fo.sinh | .cosh => fo.cosh | .tanh => fo.tanh | .asin => fo.asin | .acos => fo.acos
  | .atan => fo.atan | .asinh => fo.asinh | .acosh => fo.acosh | .atanh => fo.atanh

/-- Meaning of a built-in function on constants that have exactly the kinds of one of its signatures;
`none` where the C++ evaluation is undefined (overflow, division by zero, bad shift amount). -/
def Fn.meaning (fo : FloatOps F) : Fn → List (Const F) → Option (Const F)
  | .un .neg, [.int a] => (fit (-a.toInt)).map .int
  | .un .neg, [.float a] => some (.float (fo.neg a))
  | .un .bnot, [.int a] => some (.int (wrap (-a.toInt - 1)))
  | .un .lnot, [.bool a] => some (.bool (a = false))
  | .bin op, [.int a, .int b] => intBin op a b
  | .bin op, [.bool a, .bool b] => boolBin op a b
  | .bin op, [.float a, .float b] => floatBin fo op a b
  | .cond, [.bool c, a, b] => some (if c = true then a else b)
  | .math f, [.float a] => some (.float (f.meaning fo a))
  | .abs, [.int a] => (fit a.toInt.natAbs).map .int
  | .abs, [.float a] => some (.float (fo.abs a))
  | _, _ => none

/-- Applying a built-in function to constants: select the least general signature, convert the arguments,
and compute. The outcome `none` is undefined behaviour. -/
def Applies (fo : FloatOps F) (fn : Fn) (args : List (Const F)) (out : Option (Const F)) : Prop :=
  ∃ sig args', Selects fn (args.map Const.kind) sig ∧
    args'.map Const.kind = sig ∧ Forall2 (fun a b => Converts fo a b.kind b) args args' ∧
    out = fn.meaning fo args'

end Qasm.Spec
