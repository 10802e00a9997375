import Verif.Lemmas.Stmt
/-!
# Helper lemmas: whole programs
-/

namespace Qasm

open Spec Sem

variable {F : Type}

/-- The block after adding statements. -/
def blockAfter (b : SBlock F) (ts : List (SStatement F)) : SBlock F := ts.foldl addTo b

theorem blockAfter_statements (b : SBlock F) (ts : List (SStatement F)) :
    (blockAfter b ts).statements = b.statements ++ ts := by
  induction ts generalizing b with
  | nil => simp [blockAfter]
  | cons t ts ih => rw [blockAfter, List.foldl_cons, ← blockAfter, ih]; simp [addTo]

/-! ## Valid programs -/

theorem visitBlock_of_exec {fo : FloatOps F} {D : List VarLink} (v : Version) {ss : List (Stmt F)}
    {vs : List (SVariable F)} {ts : List (SStatement F)} (h : Exec fo D ss vs ts) :
    ∀ (b : SBlock F) (vars : List (SVariable F)), DeclsOk D →
    visitBlock fo (stateOf fo v D D.length b vars) ss =
      .ok ([], stateOf fo v ((vs.map SVariable.link).reverse ++ D) (D.length + vs.length) (blockAfter b ts) (vars ++ vs)) := by
  induction h with
  | nil => intro b vars _; simp [visitBlock, blockAfter]
  | @decl D l as name typ ss t sas vs ts h1 h2 h3 _ ih =>
    intro b vars hD
    rw [visitBlock]
    rcases visitVariable_spec hD v D.length b vars l as name typ h3 with ⟨t', g1, _, g3⟩ | ⟨_, _, _, g, _⟩ | ⟨_, g, _⟩
    · rw [typeOk_det g1 h1] at g3
      rw [g3, Res.bind_ok]
      have := ih b (vars ++ [⟨D.length, name.name, t, sas, name.loc⟩]) (declsOk_cons hD h1 h2)
      simp only [List.length_cons] at this
      simp only [this, after_ok]
      simp [SVariable.link, Nat.add_assoc, Nat.add_comm 1]
    · exact absurd h2 g
    · exact absurd ⟨t, h1⟩ g
  | instr h1 _ ih =>
    intro b vars hD
    rw [visitBlock, visitStatement_of_ok hD v _ b vars h1, Res.bind_ok]
    simp only [ih _ vars hD, after_ok]
    simp [blockAfter]

theorem after_nil_inv {α : Type} {es : List Err} {r : Res Empty (Log α)} {x : α} (h : Log.after es r = .ok ([], x)) :
    es = [] ∧ r = .ok ([], x) := by
  cases r with
  | ok y =>
    obtain ⟨es', y⟩ := y
    simp only [after_ok, Res.ok.injEq, Prod.mk.injEq, List.append_eq_nil_iff] at h
    exact ⟨h.1.1, by rw [h.1.2, h.2]⟩
  | err e => exact e.elim
  | exn c => cases h
  | ub => cases h

theorem visitBlock_noErrors {fo : FloatOps F} (v : Version) (ss : List (Stmt F)) (hs : ∀ s ∈ ss, ShapedStmt s) :
    ∀ (D : List VarLink) (b : SBlock F) (vars : List (SVariable F)) (a' : Analyzer F), DeclsOk D →
    visitBlock fo (stateOf fo v D D.length b vars) ss = .ok ([], a') → ∃ vs ts, Exec fo D ss vs ts := by
  induction ss with
  | nil => intro D b vars a' _ _; exact ⟨[], [], .nil⟩
  | cons s ss ih =>
    intro D b vars a' hD h
    have ih := ih fun s hs' => hs s (by simp [hs'])
    have hs := hs s (by simp)
    rw [visitBlock] at h
    by_cases hd : IsDecl s
    · cases s with
      | gate => exact hd.elim
      | nonGate => exact hd.elim
      | asm => exact hd.elim
      | var l as name typ =>
        rcases visitVariable_cases (fo := fo) hD v D.length b vars l as name typ with ⟨sas, ha⟩ | g | ⟨e, errs, a1, g⟩
        · rcases visitVariable_spec hD v D.length b vars l as name typ ha with ⟨t, g1, g2, g3⟩ | ⟨t, e, g1, g2, _, g3⟩ | ⟨e, g1, _, g3⟩
          · rw [g3, Res.bind_ok] at h
            obtain ⟨vs, ts, h'⟩ := ih (⟨D.length, name.name, t⟩ :: D) _ _ _ (declsOk_cons hD g1 g2) (after_nil_inv h).2
            exact ⟨_, _, .decl g1 g2 ha h'⟩
          · rw [g3, Res.bind_ok] at h; cases (after_nil_inv h).1
          · rw [g3, Res.bind_ok] at h; cases (after_nil_inv h).1
        · rw [g] at h; cases h
        · rw [g, Res.bind_ok] at h; cases (after_nil_inv h).1
    · rcases visitStatement_cases (fo := fo) hD v D.length b vars s hs hd with ⟨t, g1, g2⟩ | ⟨g1, _⟩ | ⟨e, errs, a1, g1, _⟩
      · rw [g1, Res.bind_ok] at h
        obtain ⟨vs, ts, h'⟩ := ih D _ _ _ hD (after_nil_inv h).2
        exact ⟨_, _, .instr g2 h'⟩
      · rw [g1] at h; cases h
      · rw [g1, Res.bind_ok] at h; cases (after_nil_inv h).1

theorem not_fresh_mono {D D' : List VarLink} {n : Str} (h : ¬ Fresh D n) (hD : ∀ x ∈ D, x ∈ D') : ¬ Fresh D' n :=
  fun hf => h ⟨hf.1, fun x hx => hf.2 x (hD x hx)⟩

theorem declared_cons {D : List VarLink} {l : Option Loc} {as : List (AnnotationData F)} {name : Ident} {typ : TypeAst}
    {ss : List (Stmt F)} (h : ¬ Fresh D name.name)
    (h' : ∀ l as name typ, Stmt.var l as name typ ∈ ss → (∃ t, TypeOk typ t) → ¬ Fresh D name.name) :
    ∀ l' as' name' typ', Stmt.var (F := F) l' as' name' typ' ∈ Stmt.var l as name typ :: ss → (∃ t, TypeOk typ' t) →
      ¬ Fresh D name'.name := by
  intro l' as' n' t' hm ht
  rcases List.mem_cons.mp hm with he | hm
  · cases he; exact h
  · exact h' _ _ _ _ hm ht

/-- Analysis of annotation-free statements: never an exception; one error per rejected statement. -/
theorem visitBlock_noExn_plain {fo : FloatOps F} (v : Version) (ss : List (Stmt F)) (hs : ∀ s ∈ ss, ShapedStmt s)
    (hp : ∀ s ∈ ss, PlainStmt s) :
    ∀ (D : List VarLink) (u : Nat) (b : SBlock F) (vars : List (SVariable F)), DeclsOk D →
    (∃ errs vs ts bad D' u', visitBlock fo (stateOf fo v D u b vars) ss =
        .ok (errs, stateOf fo v D' u' (blockAfter b ts) (vars ++ vs)) ∧
      Analysis fo D u ss vs ts bad ∧ Forall2 ReportedAt bad errs ∧ DeclsOk D' ∧ (∀ x ∈ D, x ∈ D') ∧
      ∀ l as name typ, Stmt.var l as name typ ∈ ss → (∃ t, TypeOk typ t) → ¬ Fresh D' name.name) ∨
    (visitBlock fo (stateOf fo v D u b vars) ss = .ub ∧ UndefStmts fo D u ss) := by
  induction ss with
  | nil =>
    intro D u b vars hD
    exact .inl ⟨[], [], [], [], D, u, by simp [visitBlock, blockAfter], .nil, .nil, hD, by simp, by simp⟩
  | cons s ss ih =>
    intro D u b vars hD
    have ih := ih (fun s hs' => hs s (by simp [hs'])) (fun s hs' => hp s (by simp [hs']))
    have hs := hs s (by simp)
    have hp := hp s (by simp)
    rw [visitBlock]
    by_cases hd : IsDecl s
    · cases s with
      | gate => exact hd.elim
      | nonGate => exact hd.elim
      | asm => exact hd.elim
      | var l as name typ =>
        have hp : as = [] := hp
        subst hp
        have ha : EvalAnnotations fo D ([] : List (AnnotationData F)) [] := .nil
        rcases visitVariable_spec hD v u b vars l [] name typ ha with ⟨t, g1, g2, g3⟩ | ⟨t, e, g1, g2, g4, g3⟩ | ⟨e, g1, g4, g3⟩
        · rw [g3, Res.bind_ok]
          rcases ih (⟨u, name.name, t⟩ :: D) (u + 1) b (vars ++ [⟨u, name.name, t, [], name.loc⟩]) (declsOk_cons hD g1 g2) with
            ⟨errs, vs, ts, bad, D', u', h1, h2, h3, h4, h5, h6⟩ | ⟨h1, h2⟩
          · exact .inl ⟨errs, _, ts, bad, D', u', by simp only [h1, after_ok]; simp [List.append_assoc], .decl g1 g2 ha h2, h3, h4,
              fun x hx => h5 x (List.mem_cons_of_mem _ hx), declared_cons (fun hf => hf.2 _ (h5 _ (List.mem_cons_self ..)) rfl) h6⟩
          · exact .inr ⟨by simp only [h1]; rfl, .decl g1 g2 h2⟩
        · rw [g3, Res.bind_ok]
          rcases ih D (u + 1) b (vars ++ [⟨u, name.name, t, [], name.loc⟩]) hD with
            ⟨errs, vs, ts, bad, D', u', h1, h2, h3, h4, h5, h6⟩ | ⟨h1, h2⟩
          · exact .inl ⟨e :: errs, _, ts, _, D', u', by simp only [h1, after_ok]; simp [List.append_assoc],
              .redeclared g1 g2 ha h2, .cons g4.1 h3, h4, h5,
              declared_cons (not_fresh_mono g2 h5) h6⟩
          · exact .inr ⟨by simp only [h1]; rfl, .redeclared g1 g2 h2⟩
        · rw [g3, Res.bind_ok]
          rcases ih D u b vars hD with ⟨errs, vs, ts, bad, D', u', h1, h2, h3, h4, h5, h6⟩ | ⟨h1, h2⟩
          · exact .inl ⟨e :: errs, _, ts, _, D', u', by simp only [h1, after_ok]; rfl, .badType g1 h2, .cons g4 h3, h4, h5,
              fun l' as' n' t' hm ht' => (List.mem_cons.mp hm).elim (fun he => by cases he; exact absurd ht' g1) fun hm => h6 _ _ _ _ hm ht'⟩
          · exact .inr ⟨by simp only [h1]; rfl, .badType g1 h2⟩
    · have hok : ∀ t, InstrOk fo D s t → visitStatement fo (stateOf fo v D u b vars) s =
          .ok ([], stateOf fo v D u (addTo b t) vars) := fun t h => visitStatement_of_ok hD v u b vars h
      have hun : UndefStmt fo D s → visitStatement fo (stateOf fo v D u b vars) s = .ub :=
        fun h => visitStatement_of_undef hD v u b vars hs h
      rcases visitStatement_cases (fo := fo) hD v u b vars s hs hd with ⟨t, g1, g2⟩ | ⟨g1, g2⟩ | ⟨e, errs, a1, g1, g2⟩
      · have hnu : ¬ UndefStmt fo D s := fun h => by rw [hun h] at g1; cases g1
        rw [g1, Res.bind_ok]
        rcases ih D u (addTo b t) vars hD with ⟨errs, vs, ts, bad, D', u', h1, h2, h3, h4, h5, h6⟩ | ⟨h1, h2⟩
        · exact .inl ⟨errs, vs, t :: ts, bad, D', u', by simp only [h1, after_ok]; simp [blockAfter], .instr g2 h2, h3, h4, h5,
            fun l' as' n' t' hm ht' => (List.mem_cons.mp hm).elim (fun he => by subst he; exact absurd trivial hd) fun hm => h6 _ _ _ _ hm ht'⟩
        · exact .inr ⟨by simp only [h1]; rfl, .instr hd hnu h2⟩
      · exact .inr ⟨by rw [g1]; rfl, .here (g2 hp)⟩
      · obtain ⟨rfl, rfl, hr⟩ := g2 hp
        have hno : ¬∃ t, InstrOk fo D s t := fun ⟨t, h⟩ => by rw [hok t h] at g1; cases g1
        have hnu : ¬ UndefStmt fo D s := fun h => by rw [hun h] at g1; cases g1
        rw [g1, Res.bind_ok]
        rcases ih D u b vars hD with ⟨errs, vs, ts, bad, D', u', h1, h2, h3, h4, h5, h6⟩ | ⟨h1, h2⟩
        · exact .inl ⟨e :: errs, vs, ts, s :: bad, D', u', by simp only [h1, after_ok]; rfl, .badInstr hd hno hnu h2, .cons hr h3, h4, h5,
            fun l' as' n' t' hm ht' => (List.mem_cons.mp hm).elim (fun he => by subst he; exact absurd trivial hd) fun hm => h6 _ _ _ _ hm ht'⟩
        · exact .inr ⟨by simp only [h1]; rfl, .instr hd hnu h2⟩

/-! ## The relation is deterministic and covers `Exec` -/

theorem eval_det' {fo : FloatOps F} {D : List VarLink} (hD : DeclsOk D) : ∀ {s : Stmt F} {t t' : SStatement F},
    InstrOk fo D s t → InstrOk fo D s t' → t = t' := by
  intro s t t' h h'
  have h1 := visitStatement_of_ok (fo := fo) hD [] 0 ⟨[], none⟩ [] h
  have h2 := visitStatement_of_ok (fo := fo) hD [] 0 ⟨[], none⟩ [] h'
  rw [h1] at h2
  simp only [Res.ok.injEq, Prod.mk.injEq, stateOf, addTo, Analyzer.mk.injEq, List.cons.injEq, Scope.mk.injEq,
    SBlock.mk.injEq, true_and, and_true, List.nil_append] at h2
  exact h2.1

theorem instrOk_not_undef {fo : FloatOps F} {D : List VarLink} (hD : DeclsOk D) {s : Stmt F} {t : SStatement F}
    (hs : ShapedStmt s) (h : InstrOk fo D s t) : ¬ UndefStmt fo D s := by
  intro hu
  have h1 := visitStatement_of_ok (fo := fo) hD [] 0 ⟨[], none⟩ [] h
  rw [visitStatement_of_undef hD [] 0 ⟨[], none⟩ [] hs hu] at h1
  cases h1

theorem evalAnnotations_nil {fo : FloatOps F} {D : List VarLink} {sas : List (SAnnotation F)}
    (h : EvalAnnotations fo D [] sas) : sas = [] := by cases h; rfl

theorem analysis_det {fo : FloatOps F} {ss : List (Stmt F)} (hp : ∀ s ∈ ss, PlainStmt s) :
    ∀ {D : List VarLink} {u : Nat} {vs vs' : List (SVariable F)} {ts ts' : List (SStatement F)} {bad bad' : List (Stmt F)},
    DeclsOk D → Analysis fo D u ss vs ts bad → Analysis fo D u ss vs' ts' bad' → vs = vs' ∧ ts = ts' ∧ bad = bad' := by
  induction ss with
  | nil => intro D u vs vs' ts ts' bad bad' _ h h'; cases h; cases h'; exact ⟨rfl, rfl, rfl⟩
  | cons s ss ih =>
    intro D u vs vs' ts ts' bad bad' hD h h'
    have ih := @ih (fun s hs' => hp s (by simp [hs']))
    have hp := hp s (by simp)
    cases h with
    | decl h1 h2 h3 h4 =>
      obtain rfl : _ = [] := hp
      have := evalAnnotations_nil h3
      subst this
      cases h' with
      | decl g1 g2 g3 g4 =>
        have := typeOk_det h1 g1
        subst this
        have := evalAnnotations_nil g3
        subst this
        obtain ⟨rfl, rfl, rfl⟩ := ih (declsOk_cons hD h1 h2) h4 g4
        exact ⟨rfl, rfl, rfl⟩
      | instr g => exact absurd trivial (instrOk_loc g).2
      | badType g => exact absurd ⟨_, h1⟩ g
      | redeclared _ g => exact absurd h2 g
      | badInstr g => exact absurd trivial g
    | instr h1 h4 =>
      cases h' with
      | instr g g4 =>
        have := eval_det' hD h1 g
        subst this
        obtain ⟨rfl, rfl, rfl⟩ := ih hD h4 g4
        exact ⟨rfl, rfl, rfl⟩
      | badInstr _ g => exact absurd ⟨_, h1⟩ g
      | _ => exact absurd trivial (instrOk_loc h1).2
    | badType h1 h4 =>
      cases h' with
      | badType g g4 =>
        obtain ⟨rfl, rfl, rfl⟩ := ih hD h4 g4
        exact ⟨rfl, rfl, rfl⟩
      | decl g => exact absurd ⟨_, g⟩ h1
      | instr g => exact absurd trivial (instrOk_loc g).2
      | redeclared g => exact absurd ⟨_, g⟩ h1
      | badInstr g => exact absurd trivial g
    | redeclared h1 h2 h3 h4 =>
      obtain rfl : _ = [] := hp
      have := evalAnnotations_nil h3
      subst this
      cases h' with
      | redeclared g1 g2 g3 g4 =>
        have := typeOk_det h1 g1
        subst this
        have := evalAnnotations_nil g3
        subst this
        obtain ⟨rfl, rfl, rfl⟩ := ih hD h4 g4
        exact ⟨rfl, rfl, rfl⟩
      | decl _ g => exact absurd g h2
      | instr g => exact absurd trivial (instrOk_loc g).2
      | badType g => exact absurd ⟨_, h1⟩ g
      | badInstr g => exact absurd trivial g
    | badInstr h0 h1 h2 h4 =>
      cases h' with
      | badInstr _ _ _ g4 =>
        obtain ⟨rfl, rfl, rfl⟩ := ih hD h4 g4
        exact ⟨rfl, rfl, rfl⟩
      | instr g => exact absurd ⟨_, g⟩ h1
      | _ => exact absurd trivial h0

theorem analysis_not_undef {fo : FloatOps F} {D : List VarLink} {u : Nat} {ss : List (Stmt F)} {vs : List (SVariable F)}
    {ts : List (SStatement F)} {bad : List (Stmt F)} (hs : ∀ s ∈ ss, ShapedStmt s) (hD : DeclsOk D)
    (h : Analysis fo D u ss vs ts bad) : ¬ UndefStmts fo D u ss := by
  induction h with
  | nil => intro h; cases h
  | decl h1 h2 h3 _ ih =>
    have ih := ih (fun s hs' => hs s (by simp [hs'])) (declsOk_cons hD h1 h2)
    intro h
    cases h with
    | here h => cases h
    | decl g1 g2 g3 => rw [typeOk_det g1 h1] at g3; exact ih g3
    | badType g => exact g ⟨_, h1⟩
    | redeclared _ g => exact g h2
    | instr g => exact g trivial
  | instr h1 _ ih =>
    have ih := ih (fun s hs' => hs s (by simp [hs'])) hD
    intro h
    cases h with
    | here h => exact instrOk_not_undef hD (hs _ (by simp)) h1 h
    | instr _ _ g => exact ih g
    | _ => exact (instrOk_loc h1).2 trivial
  | badType h1 _ ih =>
    have ih := ih (fun s hs' => hs s (by simp [hs'])) hD
    intro h
    cases h with
    | here h => cases h
    | decl g => exact h1 ⟨_, g⟩
    | badType _ g => exact ih g
    | redeclared g => exact h1 ⟨_, g⟩
    | instr g => exact g trivial
  | redeclared h1 h2 h3 _ ih =>
    have ih := ih (fun s hs' => hs s (by simp [hs'])) hD
    intro h
    cases h with
    | here h => cases h
    | decl _ g => exact h2 g
    | badType g => exact g ⟨_, h1⟩
    | redeclared _ _ g => exact ih g
    | instr g => exact g trivial
  | badInstr h0 h1 h2 _ ih =>
    have ih := ih (fun s hs' => hs s (by simp [hs'])) hD
    intro h
    cases h with
    | here h => exact h2 h
    | instr _ _ g => exact ih g
    | _ => exact h0 trivial

theorem exec_iff_analysis {fo : FloatOps F} {D : List VarLink} {ss : List (Stmt F)} {vs : List (SVariable F)}
    {ts : List (SStatement F)} : Exec fo D ss vs ts ↔ Analysis fo D D.length ss vs ts [] := by
  constructor
  · intro h
    induction h with
    | nil => exact .nil
    | decl h1 h2 h3 _ ih => exact .decl h1 h2 h3 ih
    | instr h1 _ ih => exact .instr h1 ih
  · intro h
    generalize hu : D.length = u at h
    generalize hb : ([] : List (Stmt F)) = bad at h
    induction h with
    | nil => exact .nil
    | decl h1 h2 h3 _ ih =>
      subst hu
      exact .decl h1 h2 h3 (ih rfl hb)
    | instr h1 _ ih => exact .instr h1 (ih hu hb)
    | _ => cases hb

end Qasm
