import Verif.Lemmas.Frame
import Verif.Spec.Ast
/-!
# The code of assembly declarations plays no role in the analysis
-/

namespace Qasm

open Spec Sem

variable {F : Type}

/-- Two scopes with the same contents, except for code. -/
def SameScope (s s' : Scope F) : Prop :=
  ∃ ts, s' = { s with block := ⟨ts, s.block.loc⟩ } ∧ Forall2 SameButCodeS s.block.statements ts

/-- Two outcomes with the same errors, and analysers that are the same except for code. -/
def SameOut : Res Empty (Log (Analyzer F)) → Res Empty (Log (Analyzer F)) → Prop
  | .ok (e, a), .ok (e', a') => e = e' ∧ ∃ v s s' u, a = ⟨v, [s], u⟩ ∧ a' = ⟨v, [s'], u⟩ ∧ SameScope s s'
  | .exn m, .exn m' => m = m'
  | .ub, .ub => True
  | _, _ => False

theorem forall2_snoc {α β : Type} {R : α → β → Prop} {as : List α} {bs : List β} {a : α} {b : β} (h : Forall2 R as bs)
    (h' : R a b) : Forall2 R (as ++ [a]) (bs ++ [b]) := by
  induction h with
  | nil => exact .cons h' .nil
  | cons h _ ih => exact .cons h ih

theorem sameScope_bare {s s' : Scope F} (h : SameScope s s') : bare s' = bare s := by
  obtain ⟨ts, rfl, _⟩ := h; rfl

theorem sameScope_addOpt {s s' : Scope F} (h : SameScope s s') {t t' : SStatement F} (ht : SameButCodeS t t') :
    SameScope (addOpt s (some t)) (addOpt s' (some t')) := by
  obtain ⟨ts, rfl, h⟩ := h
  have hl : t.loc = t'.loc := by cases ht <;> rfl
  exact ⟨ts ++ [t'], by simp [addOpt, addTo, hl], forall2_snoc h ht⟩

/-- The outcome of an instruction, in the two scopes. -/
theorem instr_same (fo : FloatOps F) {s s' : Scope F} (h : SameScope s s') (v : Version) (u : Nat) {st : Stmt F}
    (hd : ¬ IsDecl st) : SameOut (visitStatement fo ⟨v, [s], u⟩ st) (visitStatement fo ⟨v, [s'], u⟩ st) := by
  obtain ⟨r, hr⟩ := visitStatement_frame fo (bare s) st hd
  rw [hr v s u rfl, hr v s' u (sameScope_bare h)]
  cases r with
  | ok x =>
    refine ⟨rfl, v, _, _, u, rfl, rfl, ?_⟩
    cases x.2 with
    | none => exact h
    | some t => exact sameScope_addOpt h .same
  | exn => exact rfl
  | ub => trivial
  | err e => exact e.elim

theorem asm_same (fo : FloatOps F) {s s' : Scope F} (h : SameScope s s') (v : Version) (u : Nat) (l : Option Loc)
    (as : List (AnnotationData F)) (name code code' : Str) :
    SameOut (visitStatement fo ⟨v, [s], u⟩ (.asm l as name code)) (visitStatement fo ⟨v, [s'], u⟩ (.asm l as name code')) := by
  simp only [visitStatement, visitAsmDeclaration, visitAnnotations_bare fo s, visitAnnotations_bare fo s', sameScope_bare h]
  cases visitAnnotations fo [bare s] as with
  | ub => trivial
  | exn c => exact rfl
  | err e => exact e.elim
  | ok ra => exact ⟨rfl, v, _, _, u, rfl, rfl, sameScope_addOpt h (.asm (code := code) (code' := code'))⟩

theorem var_same (fo : FloatOps F) {s s' : Scope F} (h : SameScope s s') (v : Version) (u : Nat) (l : Option Loc)
    (as : List (AnnotationData F)) (name : Ident) (typ : TypeAst) :
    SameOut (visitStatement fo ⟨v, [s], u⟩ (.var l as name typ)) (visitStatement fo ⟨v, [s'], u⟩ (.var l as name typ)) := by
  simp only [visitStatement, visitVariable]
  cases buildSemanticType typ with
  | err e => exact ⟨rfl, v, _, _, u, rfl, rfl, h⟩
  | exn => exact rfl
  | ub => trivial
  | ok t =>
    dsimp only
    rw [visitAnnotations_bare fo s, visitAnnotations_bare fo s', sameScope_bare h]
    cases visitAnnotations fo [bare s] as with
    | err e => exact e.elim
    | exn => exact rfl
    | ub => trivial
    | ok r =>
      obtain ⟨es, sas⟩ := r
      obtain ⟨ts, rfl, hts⟩ := h
      simp only [Res.bind_ok, Analyzer.addVariable, Analyzer.modifyCurrent, Analyzer.registerVariable]
      cases s.variableTable.add name.name ⟨.variableRef (SVariable.link ⟨u, name.name, t, sas, name.loc⟩), none⟩ with
      | ok tbl => exact ⟨rfl, v, _, _, _, rfl, rfl, ts, rfl, hts⟩
      | err e => exact ⟨rfl, v, _, _, _, rfl, rfl, ts, rfl, hts⟩
      | exn c => exact rfl
      | ub => trivial

theorem block_same (fo : FloatOps F) {ss ss' : List (Stmt F)} (hs : Forall2 SameButCode ss ss') {s s' : Scope F}
    (h : SameScope s s') (v : Version) (u : Nat) :
    SameOut (visitBlock fo ⟨v, [s], u⟩ ss) (visitBlock fo ⟨v, [s'], u⟩ ss') := by
  induction hs generalizing s s' v u with
  | nil => exact ⟨rfl, v, _, _, u, rfl, rfl, h⟩
  | @cons st st' ss ss' hst _ ih =>
    have h1 : SameOut (visitStatement fo ⟨v, [s], u⟩ st) (visitStatement fo ⟨v, [s'], u⟩ st') := by
      cases hst with
      | asm => exact asm_same fo h v u ..
      | same =>
        cases st with
        | var => exact var_same fo h v u ..
        | _ => exact instr_same fo h v u (by simp [IsDecl])
    rw [visitBlock, visitBlock]
    revert h1
    cases visitStatement fo ⟨v, [s], u⟩ st with
    | err e => exact e.elim
    | exn m =>
      cases visitStatement fo ⟨v, [s'], u⟩ st' with
      | err e => exact e.elim
      | exn m' => exact id
      | _ => exact False.elim
    | ub =>
      cases visitStatement fo ⟨v, [s'], u⟩ st' with
      | err e => exact e.elim
      | ub => exact id
      | _ => exact False.elim
    | ok x =>
      cases visitStatement fo ⟨v, [s'], u⟩ st' with
      | err e => exact e.elim
      | ub => exact False.elim
      | exn => exact False.elim
      | ok y =>
        obtain ⟨e, a⟩ := x
        obtain ⟨e', a'⟩ := y
        rintro ⟨rfl, v, s, s', u, rfl, rfl, h⟩
        have h2 := ih h v u
        simp only [Res.bind_ok]
        revert h2
        cases visitBlock fo ⟨v, [s], u⟩ ss with
        | err e => exact e.elim
        | exn m =>
          cases visitBlock fo ⟨v, [s'], u⟩ ss' with
          | err e => exact e.elim
          | exn m' => exact id
          | _ => exact False.elim
        | ub =>
          cases visitBlock fo ⟨v, [s'], u⟩ ss' with
          | err e => exact e.elim
          | ub => exact id
          | _ => exact False.elim
        | ok x =>
          cases visitBlock fo ⟨v, [s'], u⟩ ss' with
          | err e => exact e.elim
          | ub => exact False.elim
          | exn => exact False.elim
          | ok y =>
            obtain ⟨e1, a1⟩ := x
            obtain ⟨e2, a2⟩ := y
            rintro ⟨rfl, h⟩
            exact ⟨rfl, h⟩

theorem same_values {ts ts' : List (SStatement F)} (h : Forall2 SameButCodeS ts ts') :
    ts.flatMap SProgram.statementValues = ts'.flatMap SProgram.statementValues := by
  induction h with
  | nil => rfl
  | cons h _ ih =>
    rw [List.flatMap_cons, List.flatMap_cons, ih]
    cases h <;> rfl

/-- Two results with the same errors and programs that are the same except for code. -/
def SameResult : Res Empty (Analyzer F × Result (SProgram F)) → Res Empty (Analyzer F × Result (SProgram F)) → Prop
  | .ok (_, ⟨some p, e⟩), .ok (_, ⟨some p', e'⟩) => e = e' ∧
      ∃ ts, p' = { p with block := ⟨ts, p.block.loc⟩ } ∧ Forall2 SameButCodeS p.block.statements ts
  | .exn m, .exn m' => m = m'
  | .ub, .ub => True
  | _, _ => False

theorem analyze_same (fo : FloatOps F) {a : Analyzer F} (ha : ∃ s, a.scopes = [s]) {p : ProgramAst F} {ss : List (Stmt F)}
    (hs : Forall2 SameButCode p.block.statements ss) :
    SameResult (analyze fo a p) (analyze fo a { p with block := ⟨ss, p.block.loc⟩ }) := by
  obtain ⟨v, scs, u⟩ := a
  obtain ⟨s, rfl⟩ := ha
  have hsc : SameScope s s := ⟨s.block.statements, rfl, by
    induction s.block.statements with
    | nil => exact .nil
    | cons t ts ih => exact .cons .same ih⟩
  have h := block_same fo hs hsc v u
  simp only [analyze, visitProgram]
  revert h
  cases visitBlock fo ⟨v, [s], u⟩ p.block.statements with
  | err e => exact e.elim
  | exn m =>
    cases visitBlock fo ⟨v, [s], u⟩ ss with
    | err e => exact e.elim
    | exn m' => exact id
    | _ => exact False.elim
  | ub =>
    cases visitBlock fo ⟨v, [s], u⟩ ss with
    | err e => exact e.elim
    | ub => exact id
    | _ => exact False.elim
  | ok x =>
    cases visitBlock fo ⟨v, [s], u⟩ ss with
    | err e => exact e.elim
    | ub => exact False.elim
    | exn => exact False.elim
    | ok y =>
      obtain ⟨e1, a1⟩ := x
      obtain ⟨e2, a2⟩ := y
      rintro ⟨rfl, v', s1, s2, u', rfl, rfl, ts, rfl, hts⟩
      have hw : ∀ sv : SVersion, SProgram.wellFormed ⟨v, sv, ⟨ts, s1.block.loc⟩, s1.variables⟩
          = SProgram.wellFormed ⟨v, sv, s1.block, s1.variables⟩ := by
        intro sv
        simp only [SProgram.wellFormed, SProgram.values]
        rw [same_values hts]
      simp only [Res.bind_ok, Option.map_some, Option.getD_some, hw]
      split
      · exact rfl
      · exact ⟨rfl, ts, rfl, hts⟩

theorem analysis_asms {fo : FloatOps F} {D : List VarLink} {u : Nat} {ss : List (Stmt F)} {vs : List (SVariable F)}
    {ts : List (SStatement F)} {bad : List (Stmt F)} (h : Analysis fo D u ss vs ts bad) (hp : ∀ s ∈ ss, PlainStmt s) :
    asmsOfS ts = asmsOf ss ∧ asmsOf bad = [] := by
  induction h with
  | nil => exact ⟨rfl, rfl⟩
  | decl _ _ _ _ ih => exact ih fun s hs => hp s (by simp [hs])
  | badType _ _ ih => exact ih fun s hs => hp s (by simp [hs])
  | redeclared _ _ _ _ ih => exact ih fun s hs => hp s (by simp [hs])
  | instr hi _ ih =>
    obtain ⟨h1, h2⟩ := ih fun s hs => hp s (by simp [hs])
    refine ⟨?_, h2⟩
    cases hi with
    | asm => simp only [asmsOfS, asmsOf, List.filterMap_cons] at h1 ⊢; rw [h1]
    | _ => exact h1
  | @badInstr D u s ss vs ts bad hd hn _ _ ih =>
    obtain ⟨h1, h2⟩ := ih fun s hs => hp s (by simp [hs])
    cases s with
    | asm l as name code =>
      have := hp (.asm l as name code) (by simp)
      simp only [PlainStmt] at this
      subst this
      exact absurd ⟨_, .asm .nil⟩ hn
    | _ => exact ⟨h1, h2⟩

end Qasm
