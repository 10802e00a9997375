import Verif.Spec.Expr
/-!
# Specification of the kinds of constant expressions
-/

namespace Qasm.Spec

variable {F : Type}

/-- The larger of two kinds of constants in the order bool, int, float. -/
def join : Kind → Kind → Kind
  | .bool, k => k
  | .int, .float => .float
  | .int, _ => .int
  | k, _ => k

/-- The kind of a constant, as opposed to a register. -/
def IsConstKind (k : Kind) : Prop := k = .bool ∨ k = .int ∨ k = .float

instance (k : Kind) : Decidable (IsConstKind k) := inferInstanceAs (Decidable (_ ∨ _ ∨ _))

/-- Arithmetic at int for bools and ints, at float if there is a float. -/
def arithKind (a b : Kind) : Kind := if a = .float ∨ b = .float then .float else .int

/-- A unary operator on a constant of kind `k`: the kind it works at, which is also the kind of the result. -/
def unKind : UnOp → Kind → Option Kind
  | .neg, k => if k = .float then some .float else some .int
  | .bnot, k => if k = .float then none else some .int
  | .lnot, k => if k = .bool then some .bool else none

/-- A binary operator on constants of kinds `a` and `b`: the kind both are converted to. -/
def binKind : BinOp → Kind → Kind → Option Kind
  | .add, a, b | .sub, a, b | .mul, a, b | .div, a, b => some (arithKind a b)
  | .pow, _, _ => some .float
  | .mod, a, b | .shl, a, b | .shr, a, b | .band, a, b | .bxor, a, b | .bor, a, b =>
    if a = .float ∨ b = .float then none else some .int
  | .eq, a, b | .ne, a, b | .lt, a, b | .le, a, b | .gt, a, b | .ge, a, b => some (join a b)
  | .land, a, b | .lxor, a, b | .lor, a, b => if a = .bool ∧ b = .bool then some .bool else none

/-- Comparisons. -/
def IsComparison : BinOp → Prop
  | .eq | .ne | .lt | .le | .gt | .ge => True
  | _ => False

instance (op : BinOp) : Decidable (IsComparison op) := by cases op <;> unfold IsComparison <;> infer_instance

/-- The kind of the result of a binary operator that works at kind `k`. -/
def binResult (op : BinOp) (k : Kind) : Kind := if IsComparison op then .bool else k

/-- The mathematical functions. -/
def mathNames : List Str :=
  [c!"sqrt", c!"exp", c!"log", c!"sin", c!"cos", c!"tan", c!"sinh", c!"cosh", c!"tanh", c!"asin", c!"acos", c!"atan",
   c!"asinh", c!"acosh", c!"atanh"]

/-- A function call on constants of the given kinds: the kind of the result. -/
def callKind (name : Str) : List Kind → Option Kind
  | [k] =>
    if name ∈ mathNames then some .float
    else if name = c!"abs" then some (if k = .float then .float else .int)
    else none
  | _ => none

/-- The literal for a constant. -/
def literal : Const F → Expr F
  | .bool b => .boolLit none b
  | .int i => .intLit none i
  | .float x => .floatLit none x

/-- The operators on floats that give a float. -/
def floatOperators (fo : FloatOps F) : List (BinOp × (F → F → F)) :=
  [(.add, fo.add), (.sub, fo.sub), (.mul, fo.mul), (.div, fo.div), (.pow, fo.pow)]

/-- The functions on floats. -/
def floatFunctions (fo : FloatOps F) : List (Str × (F → F)) :=
  [(c!"sqrt", fo.sqrt), (c!"exp", fo.exp), (c!"log", fo.log),
   (c!"sin", fo.sin), (c!"cos", fo.cos), (c!"tan", fo.tan),
   (c!"sinh", fo.sinh), (c!"cosh", fo.cosh), (c!"tanh", fo.tanh),
   (c!"asin", fo.asin), (c!"acos", fo.acos), (c!"atan", fo.atan),
   (c!"asinh", fo.asinh), (c!"acosh", fo.acosh), (c!"atanh", fo.atanh)]

/-- The kind, if it is that of a constant. -/
def constOnly (k : Option Kind) : Option Kind := k.filter fun k => decide (IsConstKind k)

mutual
/-- The kind of an expression, from the kinds of its parts; `none` if it has no value. `env` gives the kinds
of names. Operators and functions apply to constants only. -/
def typing (env : Str → Option Kind) : Expr F → Option Kind
  | .boolLit _ _ => some .bool
  | .intLit _ _ => some .int
  | .floatLit _ _ => some .float
  | .ident _ x => env x
  | .index _ _ _ => none
  | .call _ name args => (typingAll env args).bind fun ks => callKind name ks
  | .un _ op e => (constOnly (typing env e)).bind fun k => unKind op k
  | .bin _ op a b => (constOnly (typing env a)).bind fun j => (constOnly (typing env b)).bind fun k => (binKind op j k).map (binResult op)
  | .tern _ c a b =>
    (constOnly (typing env c)).bind fun i => (constOnly (typing env a)).bind fun j => (constOnly (typing env b)).bind fun k =>
      if i = .bool then some (join j k) else none
/-- The kinds of a list of constant expressions. -/
def typingAll (env : Str → Option Kind) : List (Expr F) → Option (List Kind)
  | [] => some []
  | e :: es => (constOnly (typing env e)).bind fun k => (typingAll env es).map fun ks => k :: ks
end

mutual
/-- An expression without index operations in which all called functions have names a program can write:
made of letters, digits and underscores. -/
def Simple : Expr F → Prop
  | .boolLit _ _ | .intLit _ _ | .floatLit _ _ | .ident _ _ => True
  | .index _ _ _ => False
  | .call _ name args => (∀ c ∈ name, c.isAlphanum = true ∨ c = '_') ∧ SimpleAll args
  | .un _ _ e => Simple e
  | .bin _ _ a b => Simple a ∧ Simple b
  | .tern _ c a b => Simple c ∧ Simple a ∧ Simple b
/-- All expressions are simple. -/
def SimpleAll : List (Expr F) → Prop
  | [] => True
  | e :: es => Simple e ∧ SimpleAll es
end

mutual
/-- The expression does no int arithmetic that could overflow, divide by zero or shift out of range: `+`, `-`, `*`,
`/`, unary minus and `abs` are used on floats only (or as the sign of a literal), and `%`, `<<` and `>>` not at all. -/
def Total (env : Str → Option Kind) : Expr F → Prop
  | .boolLit _ _ | .intLit _ _ | .floatLit _ _ | .ident _ _ | .index _ _ _ => True
  | .call l name args => TotalAll env args ∧ (name = c!"abs" → typing env (.call l name args) ≠ some .int)
  | .un l op e => Total env e ∧
      (op = .neg → typing env (.un l op e) ≠ some .int ∨ ∃ k i, e = .intLit k i ∧ 0 ≤ i.toInt)
  | .bin l op a b => Total env a ∧ Total env b ∧
      (op ∈ [BinOp.add, .sub, .mul, .div, .mod, .shl, .shr] → typing env (.bin l op a b) ≠ some .int)
  | .tern _ c a b => Total env c ∧ Total env a ∧ Total env b
/-- The same for a list of expressions. -/
def TotalAll (env : Str → Option Kind) : List (Expr F) → Prop
  | [] => True
  | e :: es => Total env e ∧ TotalAll env es
end

end Qasm.Spec
