import Verif.Lemmas.Frame
/-!
# Helper lemmas: names and references in valid programs
-/

namespace Qasm

open Spec Sem

variable {F : Type}

theorem annotationValues_mem {v : Value F} {as : List (SAnnotation F)} :
    v ∈ SProgram.annotationValues as ↔ ∃ a ∈ as, v ∈ a.operands := by
  simp [SProgram.annotationValues, List.mem_flatMap]

theorem inGate_iff {v : Value F} : ∀ {g : SGate F}, InGate v g ↔ v ∈ SProgram.gateValues g
  | .mk name none ps as l => by
    simp only [SProgram.gateValues, List.nil_append, List.mem_append, annotationValues_mem]
    constructor
    · intro h
      cases h with
      | parameter h => exact .inl h
      | annotation h1 h2 => exact .inr ⟨_, h1, h2⟩
    · rintro (h | ⟨a, h1, h2⟩)
      · exact .parameter h
      · exact .annotation h1 h2
  | .mk name (some g) ps as l => by
    have ih := @inGate_iff v g
    simp only [SProgram.gateValues, List.mem_append, annotationValues_mem]
    constructor
    · intro h
      cases h with
      | parameter h => exact .inl (.inr h)
      | annotation h1 h2 => exact .inr ⟨_, h1, h2⟩
      | inner h => exact .inl (.inl (ih.mp h))
    · rintro ((h | h) | ⟨a, h1, h2⟩)
      · exact .inner (ih.mpr h)
      · exact .parameter h
      · exact .annotation h1 h2

theorem inInstr_iff {v : Value F} {t : SStatement F} : InInstr v t ↔ v ∈ SProgram.statementValues t := by
  cases t with
  | gate ref g ops as l =>
    simp only [SProgram.statementValues, List.mem_append, annotationValues_mem, ← inGate_iff]
    constructor
    · intro h
      cases h with
      | gate h => exact .inl (.inl h)
      | operand h => exact .inl (.inr h)
      | annotation h1 h2 => exact .inr ⟨_, h1, h2⟩
    · rintro ((h | h) | ⟨a, h1, h2⟩)
      · exact .gate h
      · exact .operand h
      · exact .annotation h1 h2
  | nonGate ref name ops ps as l =>
    simp only [SProgram.statementValues, List.mem_append, annotationValues_mem]
    constructor
    · intro h
      cases h with
      | operand' h => exact .inl (.inl h)
      | parameter h => exact .inl (.inr h)
      | annotation' h1 h2 => exact .inr ⟨_, h1, h2⟩
    · rintro ((h | h) | ⟨a, h1, h2⟩)
      · exact .operand' h
      · exact .parameter h
      · exact .annotation' h1 h2
  | asm name code as l =>
    simp only [SProgram.statementValues, annotationValues_mem]
    constructor
    · intro h
      cases h with
      | asm h1 h2 => exact ⟨_, h1, h2⟩
    · rintro ⟨a, h1, h2⟩
      exact .asm h1 h2

theorem instructions_cons {s : Stmt F} (h : ¬ IsDecl s) (ss : List (Stmt F)) : instructions (s :: ss) = instructions ss + 1 := by
  cases s <;> first | rfl | exact absurd trivial h

/-- The instruction at a position of a valid program. -/
theorem exec_at {fo : FloatOps F} {pre : List (Stmt F)} : ∀ {D : List VarLink} {s : Stmt F} {post : List (Stmt F)}
    {vs : List (SVariable F)} {ts : List (SStatement F)}, DeclsOk D → Exec fo D (pre ++ s :: post) vs ts → ¬ IsDecl s →
    ∃ vs1 vs2 ts1 t, vs = vs1 ++ vs2 ∧ Exec fo D pre vs1 ts1 ∧ ts1.length = instructions pre ∧
      DeclsOk ((vs1.map SVariable.link).reverse ++ D) ∧
      ts[instructions pre]? = some t ∧ InstrOk fo ((vs1.map SVariable.link).reverse ++ D) s t := by
  induction pre with
  | nil =>
    intro D s post vs ts hD h hs
    rw [List.nil_append] at h
    cases h with
    | decl => exact absurd trivial hs
    | instr h1 h2 => exact ⟨[], vs, [], _, rfl, .nil, rfl, by simpa using hD, rfl, by simpa using h1⟩
  | cons x pre ih =>
    intro D s post vs ts hD h hs
    rw [List.cons_append] at h
    generalize hl : x :: (pre ++ s :: post) = l at h
    cases h with
    | nil => cases hl
    | decl h1 h2 h3 h4 =>
      cases hl
      obtain ⟨vs1, vs2, ts1, t, rfl, g1, g2, g3, g4, g5⟩ := ih (declsOk_cons hD h1 h2) h4 hs
      exact ⟨_ :: vs1, vs2, ts1, t, rfl, .decl h1 h2 h3 g1, g2, by simpa [SVariable.link] using g3, g4,
        by simpa [SVariable.link] using g5⟩
    | @instr _ _ _ t' _ _ h1 h4 =>
      cases hl
      obtain ⟨vs1, vs2, ts1, t, rfl, g1, g2, g3, g4, g5⟩ := ih hD h4 hs
      have hx := (instrOk_loc h1).2
      refine ⟨vs1, vs2, t' :: ts1, t, rfl, .instr h1 g1, ?_, g3, ?_, g5⟩
      · rw [instructions_cons hx, List.length_cons, g2]
      · rw [instructions_cons hx, List.getElem?_cons_succ, g4]

/-- The variables of a valid program come from its declarations. -/
theorem exec_declares {fo : FloatOps F} {D : List VarLink} {ss : List (Stmt F)} {vs : List (SVariable F)}
    {ts : List (SStatement F)} (h : Exec fo D ss vs ts) : ∀ x ∈ vs, Declares ss x.name x.typ := by
  induction h with
  | nil => simp
  | decl h1 _ _ _ ih =>
    intro x hx
    rcases List.mem_cons.mp hx with rfl | hx
    · exact ⟨_, _, _, _, List.mem_cons_self .., rfl, h1⟩
    · obtain ⟨l, as, y, typ, g1, g2, g3⟩ := ih x hx
      exact ⟨l, as, y, typ, List.mem_cons_of_mem _ g1, g2, g3⟩
  | instr _ _ ih =>
    intro x hx
    obtain ⟨l, as, y, typ, g1, g2, g3⟩ := ih x hx
    exact ⟨l, as, y, typ, List.mem_cons_of_mem _ g1, g2, g3⟩

theorem exec_variables {fo : FloatOps F} {D : List VarLink} {ss : List (Stmt F)} {vs : List (SVariable F)}
    {ts : List (SStatement F)} (h : Exec fo D ss vs ts) :
    Forall2 (fun d x => x.name = d.1.name ∧ x.loc = d.1.loc ∧ TypeOk d.2 x.typ) (declarations ss) vs ∧
    vs.map (·.uid) = (List.range vs.length).map (D.length + ·) ∧ ts.length = instructions ss := by
  induction h with
  | nil => exact ⟨.nil, rfl, rfl⟩
  | @decl D l as name typ ss t sas vs ts h1 _ _ _ ih =>
    refine ⟨.cons ⟨rfl, rfl, h1⟩ ih.1, ?_, ih.2.2⟩
    rw [List.map_cons, ih.2.1]
    simp only [List.length_cons, List.range_succ_eq_map]
    simp [Nat.add_assoc, Nat.add_comm 1]
  | @instr D s ss t vs ts h1 _ ih =>
    have hx := (instrOk_loc h1).2
    refine ⟨?_, ih.2.1, by rw [instructions_cons hx, List.length_cons, ih.2.2]⟩
    cases s with
    | var => exact absurd trivial hx
    | _ => exact ih.1

/-! ## Names -/

/-- The name is a built-in constant or declared. -/
def Known (D : List VarLink) (x : Str) : Prop := x ∈ reserved ∨ ∃ y ∈ D, y.name = x

theorem denotes_known {fo : FloatOps F} {D : List VarLink} {name : Str} {n : ValueNode F} (h : Denotes fo D name n) :
    Known D name := by
  cases h with
  | const h =>
    left
    by_cases hc : name ∈ reserved
    · exact hc
    · rw [(builtin_none fo).mp hc] at h; cases h
  | var _ h1 h2 => exact .inr ⟨_, h1, h2⟩

mutual
theorem eval_names {fo : FloatOps F} {D : List VarLink} : {e : Expr F} → {n : ValueNode F} → Eval fo D e n →
    ∀ x ∈ names e, Known D x
  | _, _, .boolLit .. => by simp [names]
  | _, _, .intLit .. => by simp [names]
  | _, _, .floatLit .. => by simp [names]
  | _, _, .ident h => by simpa [names] using denotes_known h
  | _, _, .index h1 _ h2 _ => by
    intro x hx
    simp only [names, List.mem_append] at hx
    exact hx.elim (eval_names h1 x) (evalIndices_names h2 x)
  | _, _, .call h1 _ => by
    intro x hx
    simp only [names] at hx
    exact evalConsts_names h1 x hx
  | _, _, .un h1 _ => by
    intro x hx
    simp only [names] at hx
    exact eval_names h1 x hx
  | _, _, .bin h1 h2 _ => by
    intro x hx
    simp only [names, List.mem_append] at hx
    exact hx.elim (eval_names h1 x) (eval_names h2 x)
  | _, _, .tern h1 h2 h3 _ => by
    intro x hx
    simp only [names, List.mem_append] at hx
    exact hx.elim (fun hx => hx.elim (eval_names h1 x) (eval_names h2 x)) (eval_names h3 x)
theorem evalConsts_names {fo : FloatOps F} {D : List VarLink} : {es : List (Expr F)} → {cs : List (Const F)} →
    EvalConsts fo D es cs → ∀ x ∈ namesList es, Known D x
  | _, _, .nil => by simp [namesList]
  | _, _, .cons h1 h2 => by
    intro x hx
    simp only [namesList, List.mem_append] at hx
    exact hx.elim (eval_names h1 x) (evalConsts_names h2 x)
theorem evalIndices_names {fo : FloatOps F} {D : List VarLink} : {xs : List (IndexEntry F)} →
    {is : List (Int64 × Option Loc)} → EvalIndices fo D xs is → ∀ x ∈ namesEntries xs, Known D x
  | _, _, .nil => by simp [namesEntries]
  | _, _, .cons (x := .item _ _) h1 h2 => by
    intro x hx
    simp only [namesEntries, List.mem_append] at hx
    exact hx.elim (fun hx => evalEntry_names h1 x (by simpa [namesEntries] using hx)) (evalIndices_names h2 x)
  | _, _, .cons (x := .range _ _ _) h1 h2 => by
    intro x hx
    simp only [namesEntries, List.mem_append] at hx
    exact hx.elim (fun hx => evalEntry_names h1 x (by simpa [namesEntries] using hx)) (evalIndices_names h2 x)
theorem evalEntry_names {fo : FloatOps F} {D : List VarLink} : {y : IndexEntry F} →
    {is : List (Int64 × Option Loc)} → EvalEntry fo D y is → ∀ x ∈ namesEntries [y], Known D x
  | _, _, .item h1 _ => by
    intro x hx
    simp only [namesEntries, List.append_nil] at hx
    exact eval_names h1 x hx
  | _, _, .range h1 _ h2 _ _ => by
    intro x hx
    simp only [namesEntries, List.append_nil, List.mem_append] at hx
    exact hx.elim (eval_names h1 x) (eval_names h2 x)
end

theorem evalAll_names {fo : FloatOps F} {D : List VarLink} {es : List (Expr F)} {vs : List (Value F)}
    (h : EvalAll fo D es vs) : ∀ x ∈ namesList es, Known D x := by
  unfold EvalAll at h
  induction h with
  | nil => simp [namesList]
  | cons h _ ih =>
    intro x hx
    simp only [namesList, List.mem_append] at hx
    exact hx.elim (eval_names h.2 x) (ih x)

theorem evalParams_names {fo : FloatOps F} {D : List VarLink} {es : List (Expr F)} {ks : List Kind} {vs : List (Value F)}
    (h : EvalParams fo D es ks vs) : ∀ x ∈ namesList es, Known D x := by
  induction h with
  | nil => simp [namesList]
  | cons h _ _ ih =>
    intro x hx
    simp only [namesList, List.mem_append] at hx
    exact hx.elim (eval_names h x) (ih x)

theorem gateOk_paramNames {fo : FloatOps F} {D : List VarLink} {g : Gate F} {n : Nat} {s : SGate F} (h : GateOk fo D g n s) :
    ∀ x ∈ namesGate g, Known D x := by
  induction h with
  | named _ h _ => exact evalParams_names h
  | inv _ _ ih | ctrl _ _ ih => simpa [namesGate, namesList] using ih
  | pow _ h _ ih =>
    intro x hx
    simp only [namesGate, List.mem_append] at hx
    exact hx.elim (ih x) (evalParams_names h x)

theorem instrOk_names {fo : FloatOps F} {D : List VarLink} {s : Stmt F} {t : SStatement F} (h : InstrOk fo D s t) :
    ∀ x ∈ namesStmt s, Known D x := by
  intro x hx
  cases h with
  | gate h1 h2 =>
    simp only [namesStmt, List.mem_append] at hx
    exact hx.elim (gateOk_paramNames h1 x) (evalAll_names h2 x)
  | measure h1 _ h2 _ _ h3 =>
    simp only [namesStmt, namesList, List.append_nil, List.mem_append] at hx
    exact hx.elim (fun hx => hx.elim (eval_names h1 x) (eval_names h2 x))
      (fun hx => h3.elim (fun h => evalParams_names h x hx) (fun h => evalParams_names h x hx))
  | simple _ h1 =>
    simp only [namesStmt, namesList, List.append_nil] at hx
    exact eval_names h1 x hx
  | wait h1 _ h3 =>
    simp only [namesStmt, namesList, List.append_nil, List.mem_append] at hx
    exact hx.elim (eval_names h1 x) (evalParams_names h3 x)
  | asm => simp [namesStmt] at hx

end Qasm
