import Verif.Lemmas.Analyze
/-!
# Helper lemmas: structure of valid programs
-/

namespace Qasm

open Spec Sem

variable {F : Type}

theorem exec_append {fo : FloatOps F} {xs ys : List (Stmt F)} : ∀ {D : List VarLink} {vs : List (SVariable F)} {ts : List (SStatement F)},
    Exec fo D (xs ++ ys) vs ts ↔ ∃ vs1 vs2 ts1 ts2, vs = vs1 ++ vs2 ∧ ts = ts1 ++ ts2 ∧ Exec fo D xs vs1 ts1 ∧
      Exec fo ((vs1.map SVariable.link).reverse ++ D) ys vs2 ts2 := by
  induction xs with
  | nil =>
    intro D vs ts
    constructor
    · intro h; exact ⟨[], vs, [], ts, rfl, rfl, .nil, by simpa using h⟩
    · rintro ⟨vs1, vs2, ts1, ts2, rfl, rfl, h1, h2⟩
      cases h1
      simpa using h2
  | cons s xs ih =>
    intro D vs ts
    constructor
    · intro h
      rw [List.cons_append] at h
      generalize hl : s :: (xs ++ ys) = l at h
      cases h with
      | nil => cases hl
      | decl h1 h2 h3 h4 =>
        cases hl
        obtain ⟨vs1, vs2, ts1, ts2, rfl, rfl, g1, g2⟩ := ih.mp h4
        exact ⟨_ :: vs1, vs2, ts1, ts2, rfl, rfl, .decl h1 h2 h3 g1, by simpa [SVariable.link] using g2⟩
      | @instr _ _ _ t _ _ h1 h4 =>
        cases hl
        obtain ⟨vs1, vs2, ts1, ts2, rfl, rfl, g1, g2⟩ := ih.mp h4
        exact ⟨vs1, vs2, t :: ts1, ts2, rfl, rfl, .instr h1 g1, g2⟩
    · rintro ⟨vs1, vs2, ts1, ts2, rfl, rfl, h1, h2⟩
      cases h1 with
      | decl h1 h2' h3 h4 => exact .decl h1 h2' h3 (ih.mpr ⟨_, _, _, _, rfl, rfl, h4, by simpa [SVariable.link] using h2⟩)
      | instr h1 h4 => exact .instr h1 (ih.mpr ⟨_, _, _, _, rfl, rfl, h4, h2⟩)

theorem exec_declsOk {fo : FloatOps F} {D : List VarLink} {ss : List (Stmt F)} {vs : List (SVariable F)}
    {ts : List (SStatement F)} (h : Exec fo D ss vs ts) : DeclsOk D → DeclsOk ((vs.map SVariable.link).reverse ++ D) := by
  induction h with
  | nil => simp
  | decl h1 h2 _ _ ih => intro hD; simpa [SVariable.link] using ih (declsOk_cons hD h1 h2)
  | instr _ _ ih => exact ih

theorem exec_det {fo : FloatOps F} {D : List VarLink} (hD : DeclsOk D) {ss : List (Stmt F)} {vs vs' : List (SVariable F)}
    {ts ts' : List (SStatement F)} (h : Exec fo D ss vs ts) (h' : Exec fo D ss vs' ts') : vs = vs' ∧ ts = ts' := by
  have h1 := visitBlock_of_exec [] h ⟨[], none⟩ [] hD
  have h2 := visitBlock_of_exec [] h' ⟨[], none⟩ [] hD
  rw [h1] at h2
  simp only [stateOf, Res.ok.injEq, Prod.mk.injEq, Analyzer.mk.injEq, List.cons.injEq, Scope.mk.injEq, List.nil_append] at h2
  refine ⟨h2.2.2.1.1.2.2.2.2, ?_⟩
  have h3 := congrArg SBlock.statements h2.2.2.1.1.2.2.2.1
  simpa [blockAfter_statements] using h3

theorem exec_snoc {fo : FloatOps F} {pre : List (Stmt F)} {vs : List (SVariable F)} {ts : List (SStatement F)}
    (h : Exec fo [] pre vs ts) {s : Stmt F} (hs : ¬ IsDecl s) {vs' : List (SVariable F)} {ts' : List (SStatement F)} :
    Exec fo [] (pre ++ [s]) vs' ts' ↔ vs' = vs ∧ ∃ t, ts' = ts ++ [t] ∧ InstrOk fo (vs.map SVariable.link).reverse s t := by
  rw [exec_append]
  constructor
  · rintro ⟨vs1, vs2, ts1, ts2, rfl, rfl, h1, h2⟩
    obtain ⟨rfl, rfl⟩ := exec_det declsOk_nil h h1
    rw [List.append_nil] at h2
    cases h2 with
    | decl => exact absurd trivial hs
    | instr g1 g2 =>
      cases g2
      exact ⟨by simp, _, rfl, g1⟩
  · rintro ⟨rfl, t, rfl, h1⟩
    exact ⟨vs', [], ts, [t], by simp, rfl, h, .instr (by simpa using h1) .nil⟩

/-- Every instruction of a valid program comes from a statement, valid after the declarations before it. -/
theorem exec_instr_mem {fo : FloatOps F} {D : List VarLink} {ss : List (Stmt F)} {vs : List (SVariable F)}
    {ts : List (SStatement F)} (h : Exec fo D ss vs ts) : DeclsOk D → ∀ t ∈ ts, ∃ pre s post vs1 vs2 ts1, ss = pre ++ s :: post ∧
      vs = vs1 ++ vs2 ∧ Exec fo D pre vs1 ts1 ∧ DeclsOk ((vs1.map SVariable.link).reverse ++ D) ∧
      InstrOk fo ((vs1.map SVariable.link).reverse ++ D) s t := by
  induction h with
  | nil => simp
  | decl h1 h2 h3 _ ih =>
    intro hD t ht
    obtain ⟨pre, s, post, vs1, vs2, ts1, rfl, rfl, g1, g2, g3⟩ := ih (declsOk_cons hD h1 h2) t ht
    exact ⟨_ :: pre, s, post, _ :: vs1, vs2, ts1, rfl, rfl, .decl h1 h2 h3 g1, by simpa [SVariable.link] using g2,
      by simpa [SVariable.link] using g3⟩
  | @instr D s ss t' vs ts h1 h4 ih =>
    intro hD t ht
    rcases List.mem_cons.mp ht with rfl | ht
    · exact ⟨[], s, ss, [], vs, [], rfl, rfl, .nil, by simpa using hD, by simpa using h1⟩
    · obtain ⟨pre, s, post, vs1, vs2, ts1, rfl, rfl, g1, g2, g3⟩ := ih hD t ht
      exact ⟨_ :: pre, s, post, vs1, vs2, t' :: ts1, rfl, rfl, .instr h1 g1, g2, g3⟩

theorem visitBlock_append (fo : FloatOps F) (xs ys : List (Stmt F)) : ∀ a : Analyzer F, visitBlock fo a (xs ++ ys) =
    (visitBlock fo a xs).bind fun r => Log.after r.1 (visitBlock fo r.2 ys) := by
  induction xs with
  | nil =>
    intro a
    rw [List.nil_append, visitBlock, Res.bind_ok]
    dsimp only
    cases visitBlock fo a ys <;> rfl
  | cons s xs ih =>
    intro a
    rw [List.cons_append, visitBlock, visitBlock]
    cases visitStatement fo a s with
    | ok r =>
      simp only [Res.bind_ok, ih]
      cases visitBlock fo r.2 xs with
      | ok r' =>
        obtain ⟨es', a'⟩ := r'
        simp only [Res.bind_ok, after_ok]
        cases visitBlock fo a' ys with
        | ok r'' => obtain ⟨es'', a''⟩ := r''; simp [after_ok]
        | _ => rfl
      | _ => rfl
    | _ => rfl

end Qasm
