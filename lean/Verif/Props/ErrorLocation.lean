import Verif.Lemmas.Typing
import Verif.Props.Program
/-!
# Where errors are reported (C50)
-/

namespace Qasm

open Spec Sem

attribute [local irreducible] defaultInstrs defaultFns defaultVars

variable {F : Type} {fo : FloatOps F} {a : Analyzer F} {e e₁ e₂ : Expr F}

/-- C50. Every error of a program without annotations is located at the version statement or at a node of
one of the statements, and it has a location if that statement has one. -/
theorem C50_reported {v : Version} (ha : Analyzer.default fo v = .ok a) {p : ProgramAst F} (hs : ShapedProgram p)
    (hp : PlainProgram p) {a' : Analyzer F} {r : Result (SProgram F)} (h : analyze fo a p = .ok (a', r)) :
    ∀ err ∈ r.errors, err.location = p.version.loc ∨
      ∃ s ∈ p.block.statements, err.location ∈ stmtLocs s ∧ (s.loc.isSome → err.location.isSome) := by
  obtain ⟨root, verrs, errs, bad, _, h2, h3, h4, h5⟩ := C02_one_error_per_statement fo v a ha p hs hp a' r h
  intro err herr
  rw [h2, List.mem_append] at herr
  rcases herr with herr | herr
  · rcases h3 with ⟨rfl, _⟩ | ⟨e, rfl, h6, _⟩
    · cases herr
    · cases List.mem_singleton.mp herr; exact .inl h6
  · right
    have hsub := (C02_counts fo _ _ _ _ _ _ h4).1
    clear h2 h4
    revert hsub
    induction h5 with
    | nil => cases herr
    | @cons s e' _ _ h6 _ ih =>
      intro hsub
      rcases List.mem_cons.mp herr with rfl | herr
      · exact ⟨s, hsub.subset (List.mem_cons_self ..), h6⟩
      · exact ih herr ((List.sublist_cons_self _ _).trans hsub)

/-- The outcome of an expression one of whose parts failed with `err`: the same error, located at the part, or
if that has no location at the whole. -/
def failed (err : Err) (l : Option Loc) : Res Err (Value F) := .err ⟨err.message, err.location.or l⟩

private theorem locate_failed (err : Err) (l : Option Loc) : locate (F := F) l (.err err) = failed err l := by
  obtain ⟨m, k⟩ := err
  cases k <;> rfl

/-- C50. The error of a part of an expression is the error of the whole: the first part that fails, from left to
right, and with the location of that part if it has one. -/
theorem C50_innermost (l : Option Loc) {err : Err} :
    (∀ op, visitExpression fo a.scopes e₁ = .err err → visitExpression fo a.scopes (.un l op e₁) = failed err l) ∧
    (∀ op, visitExpression fo a.scopes e₁ = .err err → visitExpression fo a.scopes (.bin l op e₁ e₂) = failed err l) ∧
    (∀ op w, visitExpression fo a.scopes e₁ = .ok w → visitExpression fo a.scopes e₂ = .err err →
      visitExpression fo a.scopes (.bin l op e₁ e₂) = failed err l) ∧
    (visitExpression fo a.scopes e = .err err → visitExpression fo a.scopes (.tern l e e₁ e₂) = failed err l) ∧
    (∀ w, visitExpression fo a.scopes e = .ok w → visitExpression fo a.scopes e₁ = .err err →
      visitExpression fo a.scopes (.tern l e e₁ e₂) = failed err l) ∧
    (∀ w w', visitExpression fo a.scopes e = .ok w → visitExpression fo a.scopes e₁ = .ok w' →
      visitExpression fo a.scopes e₂ = .err err → visitExpression fo a.scopes (.tern l e e₁ e₂) = failed err l) ∧
    (∀ ixs, visitExpression fo a.scopes e₁ = .err err → visitExpression fo a.scopes (.index l e₁ ixs) = failed err l) := by
  unfold visitExpression
  refine ⟨?_, ?_, ?_, ?_, ?_, ?_, ?_⟩
  · intro op h; simp only [visit, h, Res.bind_err]; exact locate_failed err l
  · intro op h; simp only [visit, h, Res.bind_err]; exact locate_failed err l
  · intro op w h h'; simp only [visit, h, h', Res.bind_ok, Res.bind_err]; exact locate_failed err l
  · intro h; simp only [visit, h, Res.bind_err]; exact locate_failed err l
  · intro w h h'; simp only [visit, h, h', Res.bind_ok, Res.bind_err]; exact locate_failed err l
  · intro w w' h h' h''; simp only [visit, h, h', h'', Res.bind_ok, Res.bind_err]; exact locate_failed err l
  · intro ixs h
    simp only [visit, h, Res.bind_err, Res.mapErr_err]
    obtain ⟨m, k⟩ := err
    cases k <;> cases l <;> rfl

/-- C50. The error of a function call is that of the first argument that fails. -/
theorem C50_argument (l : Option Loc) {err : Err} {before after : List (Expr F)}
    (hb : ∀ e ∈ before, ∃ w, visitExpression fo a.scopes e = .ok w) (he : visitExpression fo a.scopes e = .err err)
    (name : Str) : visitExpression fo a.scopes (.call l name (before ++ e :: after)) = failed err l := by
  have : visitList fo a.scopes (before ++ e :: after) = .err err := by
    induction before with
    | nil => unfold visitExpression at he; simp [visitList, he]
    | cons b bs ih =>
      obtain ⟨w, hw⟩ := hb b (List.mem_cons_self ..)
      unfold visitExpression at hw
      simp [visitList, hw, ih fun e he => hb e (List.mem_cons_of_mem _ he)]
  unfold visitExpression
  simp only [visit, this, Res.bind_err]
  exact locate_failed err l

private theorem locate_none {l : Option Loc} {r : Res Err (Value F)} (hr : ∀ e, r = .err e → e.location = none) {err : Err}
    (h : locate l r = .err err) : err.location = l := by
  obtain ⟨e', h1, rfl⟩ := locate_err h
  have := hr e' h1
  obtain ⟨m, k⟩ := e'
  cases this
  rfl

/-- C50. If all parts of an expression have values, an error is located at the expression itself. -/
theorem C50_own (ha : Reached fo a) (l : Option Loc) {err : Err} {w w₁ w₂ : Value F}
    (h : visitExpression fo a.scopes e = .ok w) (h₁ : visitExpression fo a.scopes e₁ = .ok w₁)
    (h₂ : visitExpression fo a.scopes e₂ = .ok w₂) :
    (∀ x, visitExpression fo a.scopes (.ident l x) = .err err → err.location = l) ∧
    (∀ op, visitExpression fo a.scopes (.un l op e₁) = .err err → err.location = l) ∧
    (∀ op, visitExpression fo a.scopes (.bin l op e₁ e₂) = .err err → err.location = l) ∧
    (visitExpression fo a.scopes (.tern l e e₁ e₂) = .err err → err.location = l) := by
  obtain ⟨D, henv⟩ := reached_env ha
  have g := value_good henv h
  have g₁ := value_good henv h₁
  have g₂ := value_good henv h₂
  unfold visitExpression at h h₁ h₂ ⊢
  refine ⟨?_, ?_, ?_, ?_⟩
  · intro x
    refine locate_none fun e' he' => ?_
    rw [visit] at he'
    rcases resolveVariable_spec henv x with ⟨_, _, h'⟩ | ⟨_, h'⟩
    · rw [h'] at he'; cases he'
    · rw [h'] at he'; cases he'; rfl
  · intro op
    refine locate_none fun e' he' => ?_
    simp only [visit, h₁, Res.bind_ok] at he'
    exact callFunction_errLoc henv (by simpa using g₁) he'
  · intro op
    refine locate_none fun e' he' => ?_
    simp only [visit, h₁, h₂, Res.bind_ok] at he'
    exact callFunction_errLoc henv (by simpa using ⟨g₁, g₂⟩) he'
  · refine locate_none fun e' he' => ?_
    simp only [visit, h, h₁, h₂, Res.bind_ok] at he'
    exact callFunction_errLoc henv (by simpa using ⟨g, g₁, g₂⟩) he'

/-- C50. The same for function calls. -/
theorem C50_own_call (ha : Reached fo a) (l : Option Loc) {err : Err} {args : List (Expr F)} {ws : List (Value F)}
    (h : Forall2 (fun e w => visitExpression fo a.scopes e = .ok w) args ws) (name : Str)
    (he : visitExpression fo a.scopes (.call l name args) = .err err) : err.location = l := by
  obtain ⟨D, henv⟩ := reached_env ha
  have hg := nodes_good henv h
  have hl : visitList fo a.scopes args = .ok ws := by
    clear hg he
    induction h with
    | nil => simp [visitList]
    | cons h1 _ ih =>
      unfold visitExpression at h1
      simp [visitList, h1, ih]
  unfold visitExpression at he
  refine locate_none (fun e' he' => ?_) he
  simp only [visit, hl, Res.bind_ok] at he'
  exact callFunction_errLoc henv hg he'

/-! ## Examples -/

private def at1 : Option Loc := some ⟨none, ⟨⟨1, 1⟩, ⟨1, 9⟩⟩⟩
private def at2 : Option Loc := some ⟨none, ⟨⟨1, 5⟩, ⟨1, 6⟩⟩⟩

/-- The location of the error a fresh default analyser gives for an expression. -/
private def errorAt (e : Expr Int) : Option (Option Loc) :=
  match Analyzer.default Sample.fo [3, 0] with
  | .ok a =>
    match visitExpression Sample.fo a.scopes e with
    | .err err => some err.location
    | _ => none
  | _ => none

-- `1 + x`: the error is at `x`; `1 && true`: the error is at the operator
example : errorAt (.bin at1 .add (Sample.int 1) (.ident at2 c!"x")) = some at2 := by decide +kernel
example : errorAt (.bin at1 .land (.intLit at2 1) (.boolLit none true)) = some at1 := by decide +kernel

end Qasm
