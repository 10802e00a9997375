import Verif.Spec.Api
import Verif.Spec.Sample
import Verif.Lemmas.Names
/-!
# Accepted programs
-/

namespace Qasm

open Spec Sem

attribute [local irreducible] defaultInstrs defaultFns defaultVars

variable {F : Type}

theorem accepts_valid {fo : FloatOps F} {v : Version} {a : Analyzer F} (ha : Analyzer.default fo v = .ok a)
    {p : ProgramAst F} (hs : ShapedProgram p) {r : SProgram F} (h : Accepts fo a p r) :
    Valid fo v p r.variables r.block.statements ∧ r.apiVersion = v ∧ r.version = ⟨p.version.items, p.version.loc⟩ ∧
      r.block = blockAfter ⟨[], none⟩ r.block.statements := by
  obtain ⟨a', h⟩ := h
  obtain ⟨vs, ts, hv⟩ := analyze_noErrors ha hs h
  rw [analyze_valid ha hs hv] at h
  injection h with h
  injection h with _ h
  injection h with h _
  injection h with h
  subst h
  have hb := blockAfter_statements (⟨[], none⟩ : SBlock F) ts
  rw [List.nil_append] at hb
  dsimp only
  rw [hb]
  exact ⟨hv, rfl, rfl, rfl⟩

theorem valid_accepts {fo : FloatOps F} {v : Version} {a : Analyzer F} (ha : Analyzer.default fo v = .ok a)
    {p : ProgramAst F} (hs : ShapedProgram p) {vs : List (SVariable F)} {ts : List (SStatement F)}
    (h : Valid fo v p vs ts) :
    Accepts fo a p ⟨v, ⟨p.version.items, p.version.loc⟩, ⟨ts, (blockAfter (⟨[], none⟩ : SBlock F) ts).loc⟩, vs⟩ := by
  have := analyze_valid ha hs h
  rw [← blockAfter_eq]
  exact ⟨_, this⟩

theorem accepts_iff {fo : FloatOps F} {v : Version} {a : Analyzer F} (ha : Analyzer.default fo v = .ok a)
    {p : ProgramAst F} (hs : ShapedProgram p) :
    (∃ r, Accepts fo a p r) ↔ ∃ vs ts, Valid fo v p vs ts :=
  ⟨fun ⟨_, h⟩ => ⟨_, _, (accepts_valid ha hs h).1⟩, fun ⟨_, _, h⟩ => ⟨_, valid_accepts ha hs h⟩⟩

/-- The result of analysing a plain shaped program from what visiting its statements does. -/
theorem analyze_of_block {fo : FloatOps F} {v : Version} {a : Analyzer F} (ha : Analyzer.default fo v = .ok a)
    {p : ProgramAst F} (hs : ShapedProgram p) (hp : PlainProgram p) {errs : List Err} {D : List VarLink} {u : Nat}
    {b : SBlock F} {vars : List (SVariable F)}
    (h : visitBlock fo a p.block.statements = .ok (errs, stateOf fo v D u b vars)) :
    analyze fo a p = .ok (stateOf fo v D u b vars,
      ⟨some ⟨v, (visitVersion v p.version).2, b, vars⟩, (visitVersion v p.version).1 ++ errs⟩) := by
  rcases analyze_plain ha hs hp with ⟨errs', vs, ts, bad, D', u', h1, h2, _⟩ | ⟨_, h2, _⟩
  · rw [h] at h2
    injection h2 with h2
    injection h2 with e1 e2
    rw [e1, e2, h1]
    congr 3
    have e2' := congrArg Analyzer.scopes e2
    simp only [stateOf, List.cons.injEq, Scope.mk.injEq] at e2'
    rw [e2'.1.2.2.2.1, e2'.1.2.2.2.2]
  · rw [h] at h2; cases h2

theorem analyze_of_ub {fo : FloatOps F} {a : Analyzer F} {p : ProgramAst F}
    (h : visitBlock fo a p.block.statements = .ub) : analyze fo a p = .ub := by
  unfold analyze visitProgram
  rw [h]
  rfl

/-- Visiting the statements of a plain shaped program with a fresh analyser. -/
theorem block_plain {fo : FloatOps F} {v : Version} {a : Analyzer F} (ha : Analyzer.default fo v = .ok a)
    {ss : List (Stmt F)} (hs : ∀ s ∈ ss, ShapedStmt s) (hp : ∀ s ∈ ss, PlainStmt s) :
    (∃ errs D u b vars, visitBlock fo a ss = .ok (errs, stateOf fo v D u b vars) ∧ DeclsOk D ∧
      ∀ l as name typ, Stmt.var l as name typ ∈ ss → (∃ t, TypeOk typ t) → ¬ Fresh D name.name) ∨
    visitBlock fo a ss = .ub := by
  have := default_state ha
  subst this
  rcases visitBlock_noExn_plain (fo := fo) v ss hs hp [] 0 ⟨[], none⟩ [] declsOk_nil with
    ⟨errs, vs, ts, bad, D', u', h1, _, _, h4, _, h6⟩ | ⟨h1, _⟩
  · exact .inl ⟨_, _, _, _, _, h1, h4, h6⟩
  · exact .inr h1

namespace Sample

/-- A default analyser for version 3.0 exists. -/
theorem default30 : ∃ a, Analyzer.default fo [3, 0] = .ok a := ⟨_, default_eq _ _ (by decide)⟩

/-- A sample program without messages is accepted. -/
theorem accepted {a : Analyzer Int} (ha : Analyzer.default fo [3, 0] = .ok a) {p : ProgramAst Int}
    (hs : ShapedProgram p) (h : messages p = some []) : ∃ r, Accepts fo a p r := by
  unfold messages at h
  rw [ha] at h
  dsimp only at h
  refine (accepts_iff ha hs).mpr ?_
  split at h
  · rename_i r h1
    obtain ⟨a', root, errs⟩ := r
    injection h with h
    have := List.map_eq_nil_iff.mp h
    subst this
    exact analyze_noErrors ha hs h1
  · cases h

end Sample
end Qasm
