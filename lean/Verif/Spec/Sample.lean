import Verif.Model.SemanticAnalyzer
/-!
# A concrete instance for the examples: integers as "floats" and a default analyser for API version 3.0
-/

namespace Qasm.Sample

/-- A structure of float operations on which everything computes (used in examples only). -/
def fo : FloatOps Int where
  ofInt i := i.toInt
  ofBool b := if b then 1 else 0
  neg a := -a
  add a b := a + b
  sub a b := a - b
  mul a b := a * b
  div a b := a / b
  pow a b := a ^ b.toNat
  eq a b := a == b
  ne a b := a != b
  ge a b := decide (a ≥ b)
  gt a b := decide (a > b)
  le a b := decide (a ≤ b)
  lt a b := decide (a < b)
  sqrt a := a
  exp a := a
  log a := a
  sin a := a
  cos a := a
  tan a := a
  sinh a := a
  cosh a := a
  tanh a := a
  asin a := a
  acos a := a
  atan a := a
  asinh a := a
  acosh a := a
  atanh a := a
  abs a := a.natAbs
  pi := 3
  e := 2
  tau := 6
  stod _ := none

/-- `version 3.0` followed by the given statements, without locations. -/
def program (ss : List (Stmt Int)) : ProgramAst Int := ⟨⟨[3, 0], none⟩, ⟨ss, none⟩, none⟩

/-- `qubit[n] name` -/
def qubits (name : Str) (n : Int64) : Stmt Int := .var none [] ⟨name, none⟩ ⟨c!"qubit", some n, none⟩

/-- `bit[n] name` -/
def bits (name : Str) (n : Int64) : Stmt Int := .var none [] ⟨name, none⟩ ⟨c!"bit", some n, none⟩

/-- An integer literal. -/
def int (i : Int64) : Expr Int := .intLit none i

/-- A name. -/
def name (x : Str) : Expr Int := .ident none x

/-- `x[i]` -/
def at_ (x : Str) (i : Int64) : Expr Int := .index none (name x) [.item none (int i)]

/-- `x[i:j]` -/
def slice (x : Str) (i j : Int64) : Expr Int := .index none (name x) [.range none (int i) (int j)]

/-- A gate without modifiers applied to operands. -/
def gate (g : Str) (ps es : List (Expr Int)) : Stmt Int := .gate none [] (.mk none [] g none ps) es

/-- `b = measure q` -/
def measure (b q : Expr Int) : Stmt Int := .nonGate none [] c!"measure" [b, q] []

/-- The messages a default analyser reports for a program; `none` if analysis does not return. -/
def messages (p : ProgramAst Int) : Option (List Str) :=
  match Analyzer.default fo [3, 0] with
  | .ok a =>
    match Sem.analyze fo a p with
    | .ok r => some (r.2.errors.map Err.message)
    | _ => none
  | _ => none

/-- Analysis of the program with a default analyser runs into undefined behaviour. -/
def undefined (p : ProgramAst Int) : Bool :=
  match Analyzer.default fo [3, 0] with
  | .ok a =>
    match Sem.analyze fo a p with
    | .ub => true
    | _ => false
  | _ => false

end Qasm.Sample
