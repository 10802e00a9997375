import Verif.Spec.Const
import Verif.Spec.Promote
/-!
# Specification of expressions: which value an expression denotes, given the declarations before it

`D` is the list of variables declared so far. An expression denotes a constant, a whole variable, or a
list of elements of an array variable.
-/

namespace Qasm.Spec

variable {F : Type}

/-- The constants every program can use. -/
def builtin (fo : FloatOps F) (name : Str) : Option (Const F) :=
  if name = c!"true" then some (.bool true)
  else if name = c!"false" then some (.bool false)
  else if name = c!"pi" then some (.float fo.pi)
  else if name = c!"eu" then some (.float fo.e)
  else if name = c!"tau" then some (.float fo.tau)
  else none

/-- What a name denotes: a built-in constant or a declared variable. -/
inductive Denotes (fo : FloatOps F) (D : List VarLink) (name : Str) : ValueNode F → Prop
  | const {c : Const F} : builtin fo name = some c → Denotes fo D name c.node
  | var {x : VarLink} : builtin fo name = none → x ∈ D → x.name = name → Denotes fo D name (.variableRef x)

/-- The elements a range of indices stands for: `first`, `first + 1`, …, `last`, all with the location of
the range. -/
def RangeList (loc : Option Loc) (first last : Int64) (is : List (Int64 × Option Loc)) : Prop :=
  first.toInt ≤ last.toInt ∧
  is.map (fun i => i.1.toInt) = (List.range (last.toInt - first.toInt + 1).toNat).map (fun n : Nat => first.toInt + n) ∧
  ∀ i ∈ is, i.2 = loc

mutual
/-- `Eval fo D e n`: the expression `e` denotes `n`. -/
inductive Eval (fo : FloatOps F) (D : List VarLink) : Expr F → ValueNode F → Prop
  | boolLit (l b) : Eval fo D (.boolLit l b) (.constBool b)
  | intLit (l i) : Eval fo D (.intLit l i) (.constInt i)
  | floatLit (l f) : Eval fo D (.floatLit l f) (.constFloat f)
  | ident {l name n} : Denotes fo D name n → Eval fo D (.ident l name) n
  | index {l e ixs x is} :
      Eval fo D e (.variableRef x) →
      x.typ.kind = .qubitArray ∨ x.typ.kind = .bitArray →
      EvalIndices fo D ixs is →
      (∀ i ∈ is, 0 ≤ i.1.toInt ∧ i.1.toInt < x.typ.size.toInt) →
      Eval fo D (.index l e ixs) (.indexRef x is)
  | call {l args} {fn : Fn} {cs : List (Const F)} {r : Const F} :
      EvalConsts fo D args cs → Applies fo fn cs (some r) → Eval fo D (.call l fn.name args) r.node
  | un {l op e} {c r : Const F} :
      Eval fo D e c.node → Applies fo (.un op) [c] (some r) → Eval fo D (.un l op e) r.node
  | bin {l op a b} {c d r : Const F} :
      Eval fo D a c.node → Eval fo D b d.node → Applies fo (.bin op) [c, d] (some r) → Eval fo D (.bin l op a b) r.node
  | tern {l a b c} {x y z r : Const F} :
      Eval fo D a x.node → Eval fo D b y.node → Eval fo D c z.node → Applies fo .cond [x, y, z] (some r) →
      Eval fo D (.tern l a b c) r.node
/-- The expressions denote the constants `cs`. -/
inductive EvalConsts (fo : FloatOps F) (D : List VarLink) : List (Expr F) → List (Const F) → Prop
  | nil : EvalConsts fo D [] []
  | cons {e es} {c : Const F} {cs} :
      Eval fo D e c.node → EvalConsts fo D es cs → EvalConsts fo D (e :: es) (c :: cs)
/-- The index entries denote the indices `is`, in order. -/
inductive EvalIndices (fo : FloatOps F) (D : List VarLink) : List (IndexEntry F) → List (Int64 × Option Loc) → Prop
  | nil : EvalIndices fo D [] []
  | cons {x xs is js} : EvalEntry fo D x is → EvalIndices fo D xs js → EvalIndices fo D (x :: xs) (is ++ js)
/-- One index entry denotes the indices `is`: an item its value, a range all values from first to last. -/
inductive EvalEntry (fo : FloatOps F) (D : List VarLink) : IndexEntry F → List (Int64 × Option Loc) → Prop
  | item {l e} {c : Const F} {i} : Eval fo D e c.node → Converts fo c .int (.int i) → EvalEntry fo D (.item l e) [(i, l)]
  | range {l a b} {c d : Const F} {i j is} :
      Eval fo D a c.node → Converts fo c .int (.int i) → Eval fo D b d.node → Converts fo d .int (.int j) →
      RangeList l i j is → EvalEntry fo D (.range l a b) is
end

mutual
/-- `Undef fo D e`: evaluating `e` from left to right runs into undefined behaviour of C++ before any
error: integer overflow, division by zero, a shift amount outside 0..63, an index range that ends at the
largest 64-bit integer, or indexing something that is not a variable. -/
inductive Undef (fo : FloatOps F) (D : List VarLink) : Expr F → Prop
  | indexSub {l e ixs} : Undef fo D e → Undef fo D (.index l e ixs)
  | indexNonVariable {l e ixs n} : Eval fo D e n → (∀ x, n ≠ .variableRef x) → Undef fo D (.index l e ixs)
  | indexIndices {l e ixs x} : Eval fo D e (.variableRef x) → x.typ.kind = .qubitArray ∨ x.typ.kind = .bitArray →
      UndefIndices fo D ixs → Undef fo D (.index l e ixs)
  | callArgs {l name args} : UndefList fo D args → Undef fo D (.call l name args)
  | call {l args} {fn : Fn} {cs : List (Const F)} :
      EvalConsts fo D args cs → Applies fo fn cs none → Undef fo D (.call l fn.name args)
  | unSub {l op e} : Undef fo D e → Undef fo D (.un l op e)
  | un {l op e} {c : Const F} : Eval fo D e c.node → Applies fo (.un op) [c] none → Undef fo D (.un l op e)
  | binLeft {l op a b} : Undef fo D a → Undef fo D (.bin l op a b)
  | binRight {l op a b n} : Eval fo D a n → Undef fo D b → Undef fo D (.bin l op a b)
  | bin {l op a b} {c d : Const F} :
      Eval fo D a c.node → Eval fo D b d.node → Applies fo (.bin op) [c, d] none → Undef fo D (.bin l op a b)
  | ternCond {l a b c} : Undef fo D a → Undef fo D (.tern l a b c)
  | ternTrue {l a b c n} : Eval fo D a n → Undef fo D b → Undef fo D (.tern l a b c)
  | ternFalse {l a b c n m} : Eval fo D a n → Eval fo D b m → Undef fo D c → Undef fo D (.tern l a b c)
/-- The first of the expressions that does not evaluate is undefined. -/
inductive UndefList (fo : FloatOps F) (D : List VarLink) : List (Expr F) → Prop
  | head {e es} : Undef fo D e → UndefList fo D (e :: es)
  | tail {e es n} : Eval fo D e n → UndefList fo D es → UndefList fo D (e :: es)
/-- The first of the index entries that does not evaluate is undefined. -/
inductive UndefIndices (fo : FloatOps F) (D : List VarLink) : List (IndexEntry F) → Prop
  | head {x xs} : UndefEntry fo D x → UndefIndices fo D (x :: xs)
  | tail {x xs is} : EvalEntry fo D x is → UndefIndices fo D xs → UndefIndices fo D (x :: xs)
/-- An index entry is undefined. -/
inductive UndefEntry (fo : FloatOps F) (D : List VarLink) : IndexEntry F → Prop
  | item {l e} : Undef fo D e → UndefEntry fo D (.item l e)
  | rangeFirst {l a b} : Undef fo D a → UndefEntry fo D (.range l a b)
  | rangeLast {l a b i} {c : Const F} :
      Eval fo D a c.node → Converts fo c .int (.int i) → Undef fo D b → UndefEntry fo D (.range l a b)
  | rangeEnd {l a b i j} {c d : Const F} :
      Eval fo D a c.node → Converts fo c .int (.int i) → Eval fo D b d.node → Converts fo d .int (.int j) →
      i.toInt ≤ j.toInt → j.toInt = 2 ^ 63 - 1 → UndefEntry fo D (.range l a b)
end

/-- The declarations of an analysed program: distinct names that are not built-in constants, register
types, positive sizes. -/
structure DeclsOk (D : List VarLink) : Prop where
  names : D.Pairwise fun x y => x.name ≠ y.name
  notBuiltin : ∀ x ∈ D, x.name ∉ [c!"true", c!"false", c!"pi", c!"eu", c!"tau"]
  kinds : ∀ x ∈ D, (x.typ.kind = .qubit ∨ x.typ.kind = .bit) ∧ x.typ.size = 1 ∨
    (x.typ.kind = .qubitArray ∨ x.typ.kind = .bitArray) ∧ 0 < x.typ.size.toInt

end Qasm.Spec
