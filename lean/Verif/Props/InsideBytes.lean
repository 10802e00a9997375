import Verif.Props.Inside
import Verif.Model.Input
/-!
# Strings and files after something was done in a scope of its own (C128)
-/

namespace Qasm

open Spec Sem Analyzer

variable {F : Type} {fo : FloatOps F}

private theorem parse_later {f : Nat → Nat} {a b : Analyzer F}
    (h : ∀ p, outcome (analyze fo b p) = (outcome (analyze fo a p)).bind fun r => .ok (moveResult f r)) (x : Res Err (Result (ProgramAst F))) :
    ((x.bind fun pr => (analyzeParse fo b pr).mapErr Empty.elim).bind fun y => .ok y.2) =
      (x.bind fun pr => (analyzeParse fo a pr).mapErr Empty.elim).bind fun y => .ok (moveResult f y.2) := by
  cases x with
  | ok pr =>
    obtain ⟨root, errs⟩ := pr
    cases errs with
    | cons e es => rfl
    | nil =>
      cases root with
      | none => rfl
      | some p =>
        have := h p
        simp only [analyzeParse, List.isEmpty_nil, Bool.not_true, Bool.false_eq_true, if_false, Res.bind_ok]
        cases q1 : analyze fo a p with
        | err e => exact e.elim
        | ok y =>
          cases q2 : analyze fo b p with
          | err e => exact e.elim
          | ok z =>
            simp only [q1, q2, outcome, Res.bind_ok, Res.ok.injEq] at this
            simp [Res.mapErr, this]
          | _ => simp [q1, q2, outcome] at this
        | exn c =>
          cases q2 : analyze fo b p with
          | err e => exact e.elim
          | exn c' =>
            simp only [q1, q2, outcome, Res.bind_exn, Res.exn.injEq] at this
            simp [Res.mapErr, this]
          | _ => simp [q1, q2, outcome] at this
        | ub =>
          cases q2 : analyze fo b p with
          | err e => exact e.elim
          | ub => rfl
          | _ => simp [q1, q2, outcome] at this
  | _ => rfl

/-- C128, for strings and files given as bytes, valid or not: what was done before in a scope of its own does not matter, except for the
identities of variables. -/
theorem C128_bytes (an : Antlr F) {a b : Analyzer F} (hr : Reached fo a) {es : List (Event F)} (hi : Inside es)
    {rs : List (Result (SProgram F))} (h : Answers fo (.call .push :: es ++ [.call .pop]) a rs b) :
    ∃ f : Nat → Nat, (∀ i j, f i = f j → i = j) ∧ (∀ i, i < a.nextUid → f i = i) ∧
      (∀ data file, ((Input.analyzeString fo an b data file).bind fun y => .ok y.2) =
        (Input.analyzeString fo an a data file).bind fun y => .ok (moveResult f y.2)) ∧
      ∀ content path, ((Input.analyzeFile fo an b content path).bind fun y => .ok y.2) =
        (Input.analyzeFile fo an a content path).bind fun y => .ok (moveResult f y.2) := by
  obtain ⟨f, h1, h2, h3⟩ := C128_later hr hi h
  exact ⟨f, h1, h2, fun data file => parse_later (fun p => (h3 p).1) _, fun content path => parse_later (fun p => (h3 p).1) _⟩

end Qasm
