/-!
# Basic notions shared by all model modules

Text is a list of Unicode code points (`Str`); byte strings are lists of `UInt8` (`Bytes`).
C++ `std::string`s that hold source text are UTF-8; the model keeps them decoded and encodes with
`utf8` where the code works on bytes.
-/

namespace Qasm

/-- Text as a list of code points (models `std::string` holding UTF-8 text). -/
abbrev Str := List Char

/-- Raw bytes (models `std::string` where the code inspects single `char`s). -/
abbrev Bytes := List UInt8

open Lean in
/-- `c!"abc"` is the literal list `['a', 'b', 'c']`. -/
macro:max "c!" s:str : term => do
  let cs := s.getString.toList.map fun c => Syntax.mkCharLit c
  `(([ $[$(cs.toArray)],* ] : List Char))

/-- UTF-8 encoding of text. -/
def utf8 (s : Str) : Bytes := s.flatMap String.utf8EncodeChar

/-- Outcome of a C++ computation: a value, a thrown `error::AnalysisError` (`err`), another standard
exception (`exn`, named by its class), or undefined behaviour (`ub`). -/
inductive Res (ε α : Type) where
  | ok (a : α)
  | err (e : ε)
  | exn (cls : Str)
  | ub
  deriving Repr, DecidableEq

namespace Res

/-- Sequential composition: anything but a value stops the computation. -/
def bind {ε α β : Type} (x : Res ε α) (f : α → Res ε β) : Res ε β :=
  match x with
  | ok a => f a
  | err e => err e
  | exn c => exn c
  | ub => ub

/-- `try { … } catch (AnalysisError& e) { …; throw; }` where the handler only edits the error. -/
def mapErr {ε ε' α : Type} (f : ε → ε') (x : Res ε α) : Res ε' α :=
  match x with
  | ok a => ok a
  | err e => err (f e)
  | exn c => exn c
  | ub => ub

instance {ε : Type} : Monad (Res ε) where
  pure := ok
  bind := bind

@[simp] theorem pure_eq {ε α : Type} (a : α) : (pure a : Res ε α) = ok a := rfl
@[simp] theorem bind_eq {ε α β : Type} (x : Res ε α) (f : α → Res ε β) : (x >>= f) = x.bind f := rfl

section
variable {ε ε' α β : Type}
@[simp] theorem bind_ok (a : α) (f : α → Res ε β) : (ok a : Res ε α).bind f = f a := rfl
@[simp] theorem bind_err (e : ε) (f : α → Res ε β) : (err e : Res ε α).bind f = err e := rfl
@[simp] theorem bind_exn (c : Str) (f : α → Res ε β) : (exn c : Res ε α).bind f = exn c := rfl
@[simp] theorem bind_ub (f : α → Res ε β) : (ub : Res ε α).bind f = ub := rfl
@[simp] theorem mapErr_ok (a : α) (f : ε → ε') : (ok a : Res ε α).mapErr f = ok a := rfl
@[simp] theorem mapErr_err (e : ε) (f : ε → ε') : (err e : Res ε α).mapErr f = err (f e) := rfl
@[simp] theorem mapErr_exn (c : Str) (f : ε → ε') : (exn c : Res ε α).mapErr f = exn c := rfl
@[simp] theorem mapErr_ub (f : ε → ε') : (ub : Res ε α).mapErr f = ub := rfl

theorem bind_eq_ok {x : Res ε α} {f : α → Res ε β} {b : β} :
    x.bind f = ok b ↔ ∃ a, x = ok a ∧ f a = ok b := by
  cases x <;> simp
theorem bind_eq_err {x : Res ε α} {f : α → Res ε β} {e : ε} :
    x.bind f = err e ↔ x = err e ∨ ∃ a, x = ok a ∧ f a = err e := by
  cases x <;> simp
theorem bind_eq_exn {x : Res ε α} {f : α → Res ε β} {c : Str} :
    x.bind f = exn c ↔ x = exn c ∨ ∃ a, x = ok a ∧ f a = exn c := by
  cases x <;> simp
theorem bind_eq_ub {x : Res ε α} {f : α → Res ε β} :
    x.bind f = ub ↔ x = ub ∨ ∃ a, x = ok a ∧ f a = ub := by
  cases x <;> simp
end

end Res

/-- Decimal digits of a natural number, as `fmt::format("{}", n)` prints it. -/
def decNat (n : Nat) : Str := Nat.toDigits 10 n

/-- Decimal text of an integer, as `fmt::format("{}", i)` prints it. -/
def decInt (i : Int) : Str := if i < 0 then '-' :: decNat i.natAbs else decNat i.natAbs

/-- `fmt::join(items, sep)`. -/
def joinStr (sep : Str) : List Str → Str
  | [] => []
  | [x] => x
  | x :: y :: xs => x ++ sep ++ joinStr sep (y :: xs)

end Qasm
