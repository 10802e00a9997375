import Verif.Lemmas.Annotated
import Verif.Lemmas.FrameScopes
import Verif.Props.Reports
/-!
# Annotations do not change what is annotated (C115)

The user makes an analyser in which nothing is registered, and registers, opens and closes scopes and analyses programs in
any order (`Answers fo es a rs b`). The programs are any with the shape that the parser gives them, and may have annotations,
which the parser does not make.
-/

namespace Qasm

open Spec Sem Analyzer

variable {F : Type} {fo : FloatOps F} {v : Version}

/-! ## What is reported and kept -/

theorem block_noted {ls : List (Level F)} (stmts : List (Stmt F)) (hst : ∀ s ∈ stmts, ShapedStmt s) :
    ∀ {s : Scope F} {ss : List (Scope F)} {r : Level F} (u : Nat) (_ : Forall2 HoldsLevel (s :: ss) (r :: ls))
      {es : List Err} {a' : Analyzer F}, visitBlock fo ⟨v, s :: ss, u⟩ stmts = .ok (es, a') →
        ∃ s' vs ts r', a' = ⟨v, s' :: ss, u + vs.length⟩ ∧ HoldsLevel s' r' ∧ s'.variables = s.variables ++ vs ∧
          s'.block = blockAfter s.block ts ∧ NotedIn fo ls r u stmts vs ts es r' := by
  induction stmts with
  | nil =>
    intro s ss r u h es a' h0
    cases h0
    have hs : HoldsLevel s r := by cases h; assumption
    exact ⟨s, [], [], r, rfl, hs, by simp, rfl, .nil⟩
  | cons st stmts ih =>
    intro s ss r u h es a' h0
    replace ih := @ih fun s hs => hst s (List.mem_cons_of_mem _ hs)
    have hsh := hst st (List.mem_cons_self ..)
    have hs : HoldsLevel s r := by cases h; assumption
    have hss : Forall2 HoldsLevel ss ls := by cases h; assumption
    rw [visitBlock] at h0
    obtain ⟨⟨es1, a1⟩, h1, h2'⟩ := Res.bind_eq_ok.1 h0
    unfold Log.after at h2'
    obtain ⟨⟨es2, a2⟩, h2, h3⟩ := Res.bind_eq_ok.1 h2'
    simp only [Res.ok.injEq, Prod.mk.injEq] at h3
    obtain ⟨rfl, rfl⟩ := h3
    dsimp only at h2
    by_cases hd : IsDecl st
    · cases st with
      | gate => exact hd.elim
      | nonGate => exact hd.elim
      | asm => exact hd.elim
      | var l as name typ =>
        rcases visitVariable_noted h h1 with ⟨t, sas, ht, hn, hna, rfl⟩ | ⟨ht, rfl, e, he, rfl⟩ | ⟨t, sas, es', ht, hn, hna, rfl, rfl⟩
        · obtain ⟨s', vs, ts, r', h4, h5, h6, h7, h8⟩ :=
            ih (u + 1) (.cons (holds_declared hs ⟨u, name.name, t, sas, name.loc⟩ hn) hss) h2
          refine ⟨s', _ :: vs, ts, r', ?_, h5, ?_, h7, .decl ht hn hna h8⟩
          · rw [h4]; simp; omega
          · rw [h6]; simp [declareIn]
        · obtain ⟨s', vs, ts, r', h4, h5, h6, h7, h8⟩ := ih u h h2
          exact ⟨s', vs, ts, r', h4, h5, h6, h7, .badType ht he h8⟩
        · obtain ⟨s', vs, ts, r', h4, h5, h6, h7, h8⟩ :=
            ih (u + 1) (.cons (a := redeclareIn s ⟨u, name.name, t, sas, name.loc⟩) hs hss) h2
          refine ⟨s', ⟨u, name.name, t, sas, name.loc⟩ :: vs, ts, r', ?_, h5, ?_, h7, ?_⟩
          · rw [h4]; simp; omega
          · rw [h6]; simp [redeclareIn]
          · rw [List.append_assoc]
            exact .redeclared ht hn hna h8
    · rcases visitInstruction_noted h rfl hsh hd h1 with ⟨t, a0, h3, h4, _⟩ | ⟨e, es', rfl, rfl, h3, h4⟩
      · cases h4
        obtain ⟨s', vs, ts, r', h4, h5, h6, h7, h8⟩ := ih u (.cons (a := { s with block := addTo s.block t }) hs hss) h2
        exact ⟨s', vs, t :: ts, r', h4, h5, h6, by rw [h7]; rfl, .instr h3 h8⟩
      · obtain ⟨s', vs, ts, r', h9, h5, h6, h7, h8⟩ := ih u h h2
        refine ⟨s', vs, ts, r', h9, h5, h6, h7, ?_⟩
        rw [List.append_assoc]
        have hd' : ¬ IsDecl (unnoted st) := by rw [unnoted_decl]; exact hd
        refine .badInstr hd ?_ h3 ⟨((visitInstruction_failsIn h (by simp) (unnoted_shaped st hsh) (unnoted_plain st) hd').1 h4).1, ?_⟩ h8
        · rintro ⟨t, ht⟩
          have := (visitInstruction_iff (fo := fo) (a := ⟨v, s :: ss, u⟩) (a' := _) h (unnoted_shaped st hsh) hd').2 ⟨t, ht, rfl⟩
          rw [h4] at this
          simp at this
        · rcases visitInstruction_errs h rfl hd' (unnoted_plain st) h4 with h10 | ⟨_, e', h10, h11⟩
          · simp at h10
          · cases h10; exact h11

theorem block_empty (stmts : List (Stmt F)) (hst : ∀ s ∈ stmts, ShapedStmt s) {u : Nat}
    {es : List Err} {a' : Analyzer F} (h : visitBlock fo ⟨v, [], u⟩ stmts = .ok (es, a')) : a'.scopes = [] := by
  induction stmts generalizing es with
  | nil => cases h; rfl
  | cons st stmts ih =>
    replace ih := @ih fun s hs => hst s (List.mem_cons_of_mem _ hs)
    have hsh := hst st (List.mem_cons_self ..)
    rw [visitBlock] at h
    obtain ⟨⟨es1, a1⟩, h1, h2'⟩ := Res.bind_eq_ok.1 h
    unfold Log.after at h2'
    obtain ⟨⟨es2, a2⟩, h2, h3⟩ := Res.bind_eq_ok.1 h2'
    simp only [Res.ok.injEq, Prod.mk.injEq] at h3
    obtain ⟨rfl, rfl⟩ := h3
    dsimp only at h2
    have same : a1 = ⟨v, [], u⟩ := by
      by_cases hd : IsDecl st
      · cases st with
        | gate => exact hd.elim
        | nonGate => exact hd.elim
        | asm => exact hd.elim
        | var l as name typ =>
          simp only [visitStatement, visitVariable] at h1
          split at h1
          · cases h1; rfl
          · cases h1
          · cases h1
          · obtain ⟨_, _, h4⟩ := Res.bind_eq_ok.1 h1
            cases h4
      · rcases visitInstruction_noted (ls := []) .nil rfl hsh hd h1 with ⟨t, _, _, h4, _⟩ | ⟨_, _, h3, _⟩
        · cases h4
        · exact h3
    rw [same] at h2
    exact ih h2

theorem keeps_noted {a b : Analyzer F} {m : Memory F} (h : Keeps v a m) {p : ProgramAst F} (hp : ShapedProgram p)
    {r : Result (SProgram F)} (h0 : analyze fo a p = .ok (b, r)) : ∃ m', AnalysedNoted fo v m p r m' ∧ Keeps v b m' := by
  obtain ⟨w, sc, u⟩ := a
  obtain ⟨fs, n⟩ := m
  obtain ⟨h1, h2, h3⟩ := h
  dsimp only at h1 h2 h3
  subst h1 h2
  rw [analyze, Res.bind_eq_ok] at h0
  obtain ⟨⟨a1, r1⟩, h4, h5⟩ := h0
  rw [visitProgram, Res.bind_eq_ok] at h4
  obtain ⟨⟨errs, a2⟩, h6, h7⟩ := h4
  dsimp only at h7
  cases h3 with
  | nil =>
    rw [block_empty _ hp h6] at h7
    cases h7
  | @cons s f ss fs h8 h9 =>
    have hls : Forall2 HoldsLevel (s :: ss) (f.level :: fs.map (·.level)) := by
      refine .cons h8.1 ?_
      clear h6
      induction h9 with
      | nil => exact .nil
      | cons h1 _ ih => exact .cons h1.1 ih
    obtain ⟨s', vs, ts, r', rfl, h11, h12, h13, h15⟩ := block_noted _ hp u hls h6
    dsimp only at h7
    cases h7
    have hr : b = ⟨w, s' :: ss, u + vs.length⟩ ∧
        r = ⟨some ⟨w, (visitVersion w p.version).2, s'.block, s'.variables⟩, (visitVersion w p.version).1 ++ errs⟩ ∧
        (r.errors = [] → ClosedProgram s'.variables s'.block.statements) := by
      split at h5
      · cases h5
      · next hc =>
        simp only [Res.ok.injEq, Prod.mk.injEq] at h5
        obtain ⟨rfl, rfl⟩ := h5
        refine ⟨rfl, rfl, fun he => ?_⟩
        dsimp only at he
        rw [he] at hc
        refine (closed_iff w (visitVersion w p.version).2 s'.block s'.variables).1 ?_
        simpa using hc
    obtain ⟨rfl, rfl, hcl⟩ := hr
    have hb : s'.block = blockAfter ⟨[], none⟩ (f.statements ++ ts) := by rw [h13, h8.2.2, blockAfter_append]
    have hbs : s'.block.statements = f.statements ++ ts := by rw [hb, blockAfter_statements]; rfl
    rw [h12, hbs, h8.2.1] at hcl
    refine ⟨_, ⟨f, fs, r', vs, ts, errs, (visitVersion w p.version).1, rfl, h15, rfl, rfl, (versionErrors_iff ..).2 rfl,
      ⟨_, rfl, rfl, by rw [h12, h8.2.1], hbs, fun hr => by dsimp only; rw [hb]; exact blockAfter_loc _ hr, versionNode_of w p.version⟩,
      hcl⟩, rfl, rfl, .cons ⟨h11, by rw [h12, h8.2.1], hb⟩ h9⟩

theorem answers_noted {es : List (Event F)} {a b : Analyzer F} {rs : List (Result (SProgram F))} (h : Answers fo es a rs b)
    (hp : ∀ p, .analyze p ∈ es → ShapedProgram p) {m : Memory F} (hk : Keeps v a m) :
    ∃ m', AnswersNoted fo v es m rs m' ∧ Keeps v b m' := by
  induction h generalizing m with
  | nil => exact ⟨m, .nil, hk⟩
  | ok h1 _ ih =>
    obtain ⟨m', h2, h3⟩ := ih (fun p h => hp p (List.mem_cons_of_mem _ h)) (keeps_call hk (.inl h1))
    exact ⟨m', .call h2, h3⟩
  | error h1 _ ih =>
    obtain ⟨m', h2, h3⟩ := ih (fun p h => hp p (List.mem_cons_of_mem _ h)) (keeps_call hk (.inr ⟨⟨_, h1⟩, rfl⟩))
    exact ⟨m', .call h2, h3⟩
  | analyze h1 _ ih =>
    obtain ⟨m1, h6, h7⟩ := keeps_noted hk (hp _ (List.mem_cons_self ..)) h1
    obtain ⟨m', h2, h3⟩ := ih (fun p h => hp p (List.mem_cons_of_mem _ h)) h7
    exact ⟨m', .analyze h6 h2, h3⟩

/-- C115. Over a whole session, whatever is registered and analysed in whatever order and scopes: an operand of an annotation
that is not valid gives one error, in the order of the program and before the error for the statement itself, and is left out
of the annotation, which is kept otherwise, as is the statement. Annotations of statements that are rejected are not looked at,
except for those of gates inside it that are valid. -/
theorem C115_session {a b : Analyzer F} (ha : Analyzer.new v = some a) {es : List (Event F)} {rs : List (Result (SProgram F))}
    (h : Answers fo es a rs b) (hp : ∀ p, .analyze p ∈ es → ShapedProgram p) :
    ∃ m, AnswersNoted fo v es ⟨[⟨⟨[], [], []⟩, [], []⟩], 0⟩ rs m := by
  obtain ⟨m, h1, _⟩ := answers_noted h hp (keeps_new ha)
  exact ⟨m, h1⟩

/-! ## With and without annotations -/

theorem instr_bare {ls : List (Level F)} {s : Stmt F} {t : SStatement F} {errs : List Err} (h : InstrNoted fo ls s t errs) :
    InstrIn fo ls (unnoted s) (bareInstr t) := by
  cases h with
  | gate h1 _ _ => exact h1
  | nonGate h1 _ => exact h1
  | asm _ => exact .asm .nil

theorem instr_decl {ls : List (Level F)} {s : Stmt F} {t : SStatement F} {errs : List Err} (h : InstrNoted fo ls s t errs) :
    ¬ IsDecl s := by
  cases h <;> exact id

/-- C115. Without the annotations the rules give the same variables and instructions, without annotations, and the same is
registered afterwards. The errors are those that are not for annotations. -/
theorem C115_unnoted {ls : List (Level F)} {r r' : Level F} {u : Nat} {ss : List (Stmt F)} {vs : List (SVariable F)}
    {ts : List (SStatement F)} {errs : List Err} (h : NotedIn fo ls r u ss vs ts errs r') :
    ∃ bad, AnalysisIn fo ls r u (ss.map unnoted) (vs.map bareVar) (ts.map bareInstr) bad r' ∧ (bad.map (·.2)).Sublist errs := by
  induction h with
  | nil => exact ⟨[], .nil, .slnil⟩
  | decl h1 h2 _ _ ih =>
    obtain ⟨bad, h3, h4⟩ := ih
    exact ⟨bad, .decl h1 h2 h3, h4.trans (List.sublist_append_right ..)⟩
  | instr h1 _ ih =>
    obtain ⟨bad, h3, h4⟩ := ih
    exact ⟨bad, .instr (instr_bare h1) h3, h4.trans (List.sublist_append_right ..)⟩
  | badType h1 h2 _ ih =>
    obtain ⟨bad, h3, h4⟩ := ih
    exact ⟨_, .badType h1 h2 h3, h4.cons_cons _⟩
  | redeclared h1 h2 _ _ ih =>
    obtain ⟨bad, h3, h4⟩ := ih
    exact ⟨_, .redeclared h1 h2 h3, (h4.cons_cons _).trans (List.sublist_append_right ..)⟩
  | badInstr h1 h2 _ h4 _ ih =>
    obtain ⟨bad, h5, h6⟩ := ih
    exact ⟨_, .badInstr (by rw [unnoted_decl]; exact h1) h2 h4 h5, (h6.cons_cons _).trans (List.sublist_append_right ..)⟩

/-- The effect without annotations. -/
private def bareEffect (x : Effect F) : Effect F := ⟨x.variableTable, x.variables.map bareVar, x.statements.map bareInstr, x.nextUid⟩

private theorem apply_inj {x y : Effect F} {s : Scope F} (h : x.apply s = y.apply s) (hu : x.nextUid = y.nextUid) : x = y := by
  obtain ⟨t, vs, ts, u⟩ := x
  obtain ⟨t', vs', ts', u'⟩ := y
  have h1 := congrArg Scope.variableTable h
  have h2 := congrArg Scope.variables h
  have h3 := congrArg (·.block.statements) h
  simp only [Effect.apply, List.append_cancel_left_eq, blockAfter_statements] at h1 h2 h3
  subst h1 h2 h3
  cases hu
  rfl

private theorem moved {s s0 : Scope F} {ss : List (Scope F)} {u : Nat} {st : Stmt F} {es : List Err} {y : Effect F}
    (h : visitStatement fo ⟨v, s :: ss, u⟩ st = .ok (es, ⟨v, y.apply s :: ss, y.nextUid⟩)) (hb : bare s0 = bare s) :
    visitStatement fo ⟨v, s0 :: ss, u⟩ st = .ok (es, ⟨v, y.apply s0 :: ss, y.nextUid⟩) := by
  obtain ⟨r, _, hr⟩ := visitStatement_effect fo ((s :: ss).map bare) u st
  rw [hr v s ss rfl] at h
  rw [hr v s0 ss (by simp [hb])]
  obtain ⟨⟨es', x⟩, h1, h2⟩ := Res.bind_eq_ok.1 h
  simp only [Res.ok.injEq, Prod.mk.injEq, Analyzer.mk.injEq, List.cons.injEq, and_true, true_and] at h2
  obtain ⟨rfl, h3, h4⟩ := h2
  cases apply_inj h3 h4
  rw [h1]
  rfl

private theorem statement_unnoted {ls : List (Level F)} {s : Scope F} {ss : List (Scope F)} (hl : Forall2 HoldsLevel (s :: ss) ls)
    {u : Nat} {st : Stmt F} (hsh : ShapedStmt st) {es : List Err} {a' : Analyzer F}
    (h : visitStatement fo ⟨v, s :: ss, u⟩ st = .ok (es, a')) :
    ∃ x es0, a' = ⟨v, x.apply s :: ss, x.nextUid⟩ ∧ es0.Sublist es ∧
      visitStatement fo ⟨v, s :: ss, u⟩ (unnoted st) = .ok (es0, ⟨v, (bareEffect x).apply s :: ss, x.nextUid⟩) := by
  by_cases hd : IsDecl st
  · cases st with
    | gate => exact hd.elim
    | nonGate => exact hd.elim
    | asm => exact hd.elim
    | var l as name typ =>
      simp only [visitStatement, visitVariable, unnoted] at h ⊢
      split at h
      · next e he =>
        cases h
        exact ⟨⟨s.variableTable, [], [], u⟩, _, by simp [Effect.apply, blockAfter], .refl _,
          by simp [Effect.apply, blockAfter, bareEffect]⟩
      · cases h
      · cases h
      · next t ht =>
        obtain ⟨⟨es1, sas⟩, h1, h2⟩ := Res.bind_eq_ok.1 h
        simp only [visitAnnotations, addVariable, modifyCurrent, registerVariable, VariableTable.add, Res.bind_ok] at h2 ⊢
        cases hf : VariableTable.find s.variableTable name.name with
        | none =>
          rw [hf] at h2
          cases h2
          refine ⟨⟨_, [⟨u, name.name, t, sas, name.loc⟩], [], u + 1⟩, [], rfl, by simp, rfl⟩
        | some w =>
          rw [hf] at h2
          cases h2
          refine ⟨⟨_, [⟨u, name.name, t, sas, name.loc⟩], [], u + 1⟩, _, rfl, ?_, rfl⟩
          exact List.sublist_append_right ..
  · rcases visitInstruction_noted hl rfl hsh hd h with ⟨t, a0, _, h4, h5, h6⟩ | ⟨e, es', rfl, rfl, _, h4⟩
    · cases h4
      cases h6
      refine ⟨⟨s.variableTable, [], [t], u⟩, [], by simp [Effect.apply, blockAfter, addTo], by simp, ?_⟩
      rw [h5]
      simp [Effect.apply, blockAfter, addTo, bareEffect]
    · refine ⟨⟨s.variableTable, [], [], u⟩, [e], by simp [Effect.apply, blockAfter], List.sublist_append_right .., ?_⟩
      rw [h4]
      simp [Effect.apply, blockAfter, bareEffect]

private theorem block_unnoted {ls : List (Level F)} (stmts : List (Stmt F)) (hst : ∀ s ∈ stmts, ShapedStmt s) :
    ∀ {s : Scope F} {ss : List (Scope F)} {r : Level F} (u : Nat) (_ : Forall2 HoldsLevel (s :: ss) (r :: ls))
      {es : List Err} {a' : Analyzer F}, visitBlock fo ⟨v, s :: ss, u⟩ stmts = .ok (es, a') →
      ∃ x es0, a' = ⟨v, x.apply s :: ss, x.nextUid⟩ ∧ es0.Sublist es ∧ ∀ s0, bare s0 = bare s →
        visitBlock fo ⟨v, s0 :: ss, u⟩ (stmts.map unnoted) = .ok (es0, ⟨v, (bareEffect x).apply s0 :: ss, x.nextUid⟩) := by
  induction stmts with
  | nil =>
    intro s ss r u h es a' h0
    cases h0
    refine ⟨⟨s.variableTable, [], [], u⟩, [], by simp [Effect.apply, blockAfter], .slnil, fun s0 hb => ?_⟩
    have : (bare s0).variableTable = (bare s).variableTable := by rw [hb]
    simp only [bare] at this
    simp [visitBlock, Effect.apply, blockAfter, bareEffect, ← this]
  | cons st stmts ih =>
    intro s ss r u h es a' h0
    replace ih := @ih fun s hs => hst s (List.mem_cons_of_mem _ hs)
    have hsh := hst st (List.mem_cons_self ..)
    rw [visitBlock] at h0
    obtain ⟨⟨es1, a1⟩, h1, h2'⟩ := Res.bind_eq_ok.1 h0
    unfold Log.after at h2'
    obtain ⟨⟨es2, a2⟩, h2, h3⟩ := Res.bind_eq_ok.1 h2'
    simp only [Res.ok.injEq, Prod.mk.injEq] at h3
    obtain ⟨rfl, rfl⟩ := h3
    dsimp only at h2
    obtain ⟨x, es0, rfl, h4, h5⟩ := statement_unnoted h hsh h1
    have hone : visitBlock fo ⟨v, s :: ss, u⟩ [st] = .ok (es1, ⟨v, x.apply s :: ss, x.nextUid⟩) := by
      rw [visitBlock, h1]
      simp [Log.after, visitBlock]
    obtain ⟨s', vs, ts, r', h6, h7, _⟩ := block_noted [st] (by simpa using hsh) u h hone
    simp only [Analyzer.mk.injEq, List.cons.injEq, and_true, true_and] at h6
    rw [← h6.1] at h7
    have hss : Forall2 HoldsLevel ss ls := by cases h; assumption
    obtain ⟨y, es0', rfl, h8, h9⟩ := ih x.nextUid (.cons h7 hss) h2
    refine ⟨x.andThen y, es0 ++ es0', by rw [apply_andThen]; rfl, h4.append h8, fun s0 hb => ?_⟩
    have h10 := moved (y := bareEffect x) h5 hb
    have h11 : bare ((bareEffect x).apply s0) = bare (x.apply s) := by
      have e1 := congrArg Scope.fnTable hb
      have e2 := congrArg Scope.instructionTable hb
      simp only [bare] at e1 e2
      simp [bare, Effect.apply, bareEffect, e1, e2]
    have h12 := h9 _ h11
    have h13 : bareEffect (x.andThen y) = (bareEffect x).andThen (bareEffect y) := by simp [bareEffect, Effect.andThen]
    rw [List.map_cons, visitBlock, h10, h13, apply_andThen]
    simp only [Res.bind_ok]
    show Log.after es0 (visitBlock fo ⟨v, (bareEffect x).apply s0 :: ss, x.nextUid⟩ _) = _
    rw [h12]
    rfl

private theorem inGate_bare {w : Value F} : ∀ {g : SGate F}, InGate w (bareGate g) → InGate w g
  | .mk name none ps as l, h => by
    cases h with
    | parameter h => exact .parameter h
    | annotation h => simp at h
  | .mk name (some g) ps as l, h => by
    cases h with
    | parameter h => exact .parameter h
    | annotation h => simp at h
    | inner h => exact .inner (inGate_bare h)

private theorem inInstr_bare {w : Value F} {t : SStatement F} (h : InInstr w (bareInstr t)) : InInstr w t := by
  cases t with
  | gate =>
    cases h with
    | gate h => exact .gate (inGate_bare h)
    | operand h => exact .operand h
    | annotation h => simp at h
  | nonGate =>
    cases h with
    | operand' h => exact .operand' h
    | parameter h => exact .parameter h
    | annotation' h => simp at h
  | asm =>
    cases h with
    | asm h => simp at h

private theorem closed_bare {vs vs' : List (SVariable F)} {ts ts' : List (SStatement F)} (h : ClosedProgram (vs ++ vs') (ts ++ ts')) :
    ClosedProgram (vs ++ vs'.map bareVar) (ts ++ ts'.map bareInstr) := by
  have value : ∀ w, ClosedValue (vs ++ vs') w → ClosedValue (vs ++ vs'.map bareVar) w := by
    rintro w ⟨h1, h2⟩
    refine ⟨fun x hx => ?_, h2⟩
    obtain ⟨y, hy, hu⟩ := h1 x hx
    rcases List.mem_append.1 hy with hy | hy
    · exact ⟨y, by simp [hy], hu⟩
    · exact ⟨bareVar y, by simp only [List.mem_append, List.mem_map]; exact .inr ⟨y, hy, rfl⟩, hu⟩
  refine ⟨fun t ht w hw => value w ?_, fun x hx n hn w hw => value w ?_⟩
  · rcases List.mem_append.1 ht with ht | ht
    · exact h.1 t (by simp [ht]) w hw
    · obtain ⟨t', ht', rfl⟩ := List.mem_map.1 ht
      exact h.1 t' (by simp [ht']) w (inInstr_bare hw)
  · rcases List.mem_append.1 hx with hx | hx
    · exact h.2 x (by simp [hx]) n hn w hw
    · obtain ⟨x', _, rfl⟩ := List.mem_map.1 hx
      simp [bareVar] at hn

/-- C115. After any session, if the analysis of a program returns then that of the program without its annotations does, with
the same tree except for the annotations, and the same errors except for those of annotations. The exception is that the
errors were all for annotations, and what is left is found to be not in order. -/
theorem C115_same {a b : Analyzer F} (ha : Analyzer.new v = some a) {es : List (Event F)} {rs : List (Result (SProgram F))}
    (h : Answers fo es a rs b) (hp : ∀ p, .analyze p ∈ es → ShapedProgram p) {p : ProgramAst F} (hsh : ShapedProgram p)
    {c : Analyzer F} {r : Result (SProgram F)} (h0 : analyze fo b p = .ok (c, r)) :
    (∃ c' r', analyze fo b (unnotedProgram p) = .ok (c', r') ∧ r'.errors.Sublist r.errors ∧
      ∃ t t', r.root = some t ∧ r'.root = some t' ∧ t'.version = t.version ∧
        t'.variables.map bareVar = t.variables.map bareVar ∧ t'.block.statements.map bareInstr = t.block.statements.map bareInstr) ∨
    r.errors ≠ [] ∧ analyze fo b (unnotedProgram p) = .exn c!"std::runtime_error" := by
  obtain ⟨m, _, hk⟩ := answers_noted h hp (keeps_new ha)
  have hl := keeps_levels hk
  obtain ⟨w, sc, u⟩ := b
  rw [analyze, Res.bind_eq_ok] at h0
  obtain ⟨⟨a1, r1⟩, h4, h5⟩ := h0
  rw [visitProgram, Res.bind_eq_ok] at h4
  obtain ⟨⟨errs, a2⟩, h6, h7⟩ := h4
  dsimp only at h7 hl
  generalize m.levels = ls at hl
  cases hl with
  | nil =>
    rw [block_empty _ hsh h6] at h7
    cases h7
  | @cons s l ss ls h8 h9 =>
    obtain ⟨x, es0, rfl, h10, h11⟩ := block_unnoted _ hsh u (.cons h8 h9) h6
    have h12 := h11 s rfl
    dsimp only at h7
    cases h7
    have bares : ((bareEffect x).apply s).variables.map bareVar = (x.apply s).variables.map bareVar ∧
        ((bareEffect x).apply s).block.statements.map bareInstr = (x.apply s).block.statements.map bareInstr := by
      have i1 : ∀ y : SVariable F, bareVar (bareVar y) = bareVar y := fun _ => rfl
      have i2 : ∀ g : SGate F, bareGate (bareGate g) = bareGate g := by
        intro g
        suffices ∀ n (g : SGate F), sizeOf g < n → bareGate (bareGate g) = bareGate g from this _ g (Nat.lt_succ_self _)
        intro n
        induction n with
        | zero => intro g hg; omega
        | succ n ih =>
          rintro ⟨name, _ | g, ps, as, l⟩ hg
          · rfl
          · simp only [bareGate]
            rw [ih g (by simp at hg; omega)]
      have i3 : ∀ t : SStatement F, bareInstr (bareInstr t) = bareInstr t := by
        intro t
        cases t <;> simp [bareInstr, i2]
      constructor
      · simp [Effect.apply, bareEffect, Function.comp_def, i1]
      · simp [Effect.apply, bareEffect, Function.comp_def, i3, blockAfter_statements]
    have hu : analyze fo ⟨w, s :: ss, u⟩ (unnotedProgram p) =
        if ((visitVersion w p.version).1 ++ es0).isEmpty &&
            !SProgram.wellFormed ⟨w, (visitVersion w p.version).2, ((bareEffect x).apply s).block, ((bareEffect x).apply s).variables⟩
          then .exn c!"std::runtime_error"
          else .ok (⟨w, (bareEffect x).apply s :: ss, x.nextUid⟩,
            ⟨some ⟨w, (visitVersion w p.version).2, ((bareEffect x).apply s).block, ((bareEffect x).apply s).variables⟩,
              (visitVersion w p.version).1 ++ es0⟩) := by
      simp only [analyze, visitProgram, unnotedProgram, h12, Res.bind_ok]
      rfl
    rw [hu]
    split at h5
    · cases h5
    · next hc =>
      simp only [Res.ok.injEq, Prod.mk.injEq] at h5
      obtain ⟨rfl, rfl⟩ := h5
      have hsub : ((visitVersion w p.version).1 ++ es0).Sublist ((visitVersion w p.version).1 ++ errs) := (List.Sublist.refl _).append h10
      split
      · next hc' =>
        refine .inr ⟨fun he => ?_, rfl⟩
        dsimp only at he
        rw [he] at hc
        simp only [Bool.and_eq_true] at hc'
        have h13 : ClosedProgram (x.apply s).variables (x.apply s).block.statements :=
          (closed_iff w (visitVersion w p.version).2 _ _).1 (by simpa using hc)
        have h14 : ClosedProgram ((bareEffect x).apply s).variables ((bareEffect x).apply s).block.statements := by
          simp only [Effect.apply, bareEffect, blockAfter_statements] at h13 ⊢
          exact closed_bare h13
        rw [(closed_iff w (visitVersion w p.version).2 _ _).2 h14] at hc'
        simp at hc'
      · exact .inl ⟨_, _, rfl, hsub, _, _, rfl, rfl, rfl, bares⟩

/-- C115. Every operand of an annotation is either kept or gives an error. -/
theorem C115_operands {ls : List (Level F)} {as : List (AnnotationData F)} {sas : List (SAnnotation F)} {errs : List Err}
    (h : NotesIn fo ls as sas errs) :
    (sas.map (·.operands.length)).sum + errs.length = (as.map (·.operands.length)).sum ∧
      Forall2 (fun s a => s.interface = a.interface ∧ s.operation = a.operation ∧ s.loc = a.loc) sas as := by
  induction h with
  | nil => exact ⟨rfl, .nil⟩
  | cons h1 _ ih =>
    refine ⟨?_, .cons ⟨rfl, rfl, rfl⟩ ih.2⟩
    have h2 : ∀ {l es vs errs}, OperandsIn fo ls l es vs errs → vs.length + errs.length = es.length := by
      intro l es vs errs h
      induction h with
      | nil => rfl
      | valid _ _ ih => simp only [List.length_cons]; omega
      | invalid _ _ _ ih => simp only [List.length_cons]; omega
    have h3 := h2 h1
    have h4 := ih.1
    simp only [List.map_cons, List.sum_cons, List.length_append]
    omega

/-! ## Examples -/

section Examples

open Sample

private def line (n : Nat) : Option Loc := some ⟨none, ⟨⟨n, 1⟩, ⟨n, 2⟩⟩⟩

/-- An annotation with two valid operands and between them one that is not, at line `n`. -/
private def note (n : Nat) (x : Str) : AnnotationData Int := ⟨c!"my", c!"note", [int 1, .ident (line n) x, int 2], line n⟩

private def noted : List (Stmt Int) :=
  [.var (line 1) [note 2 c!"a", note 3 c!"b"] ⟨c!"q", none⟩ ⟨c!"qubit", some 4, none⟩,
   .gate (line 4) [note 5 c!"c"] (.mk none [note 6 c!"d"] c!"inv" (some (.mk none [note 7 c!"e"] c!"X" none [])) []) [name c!"q"],
   .gate (line 8) [note 9 c!"f"] (.mk none [note 10 c!"g"] c!"inv" (some (.mk none [note 11 c!"h"] c!"X" none [])) [int 1]) [name c!"q"],
   .var (line 12) [note 13 c!"i"] ⟨c!"q", none⟩ ⟨c!"qubit", some 2, none⟩]

private def seen (ss : List (Stmt Int)) : Option (List (Str × Option Loc) × List (List Nat) × Nat) :=
  (Analyzer.new [3, 0]).bind fun a =>
    match registerInstruction a ⟨InstructionSet.compositionName c!"1q" c!"X", [.bare .qubitArray]⟩ with
    | .ok a =>
      match analyze Sample.fo a (program ss) with
      | .ok (_, r) => r.root.map fun t => (r.errors.map fun e => (e.message, e.location),
          t.variables.map fun x => x.annotations.map (·.operands.length), t.block.statements.length)
      | _ => none
    | _ => none

/-- C115: the errors for annotations are in the order of the program, those of inner gates first. The third statement is
rejected, since `inv` takes no parameter; only the annotations of the gate inside are looked at. The annotations keep two of
their three operands. -/
example : (seen noted).map (fun x => x.1.map (·.2)) =
    some [line 2, line 3, line 7, line 6, line 5, line 11, line 8, line 13, line 12] := by
  decide +kernel

example : (seen noted).map (·.2) = some ([[2, 2], [2]], 1) := by decide +kernel

/-- Without the annotations the other errors are the same, and so is the rest. -/
example : seen (noted.map unnoted) = some
    ([(c!"instruction 'inv' expects no parameters, but got 1.", line 8), (c!"trying to redeclare variable 'q'", line 12)], [[], []], 1) := by
  decide +kernel

/-- The program is as the theorems assume. -/
example : ShapedProgram (program noted) := by
  intro s hs
  simp only [program, noted, List.mem_cons, List.not_mem_nil, or_false] at hs
  rcases hs with rfl | rfl | rfl | rfl <;>
    simp [ShapedStmt, ShapedAnnotations, ShapedGate, ShapedGateAnnotations, ShapedExpr, note, int, name, modifiers, nonGates]

end Examples

end Qasm
