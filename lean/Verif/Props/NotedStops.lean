import Verif.Lemmas.NotedStops
import Verif.Props.FailsIn
/-!
# When the analysis of a program with annotations ends without a result (C117)

The user makes an analyser in which nothing is registered, and registers, opens and closes scopes and analyses programs in
any order (`Answers fo es a rs b`). The programs are any with the shape that the parser gives them, and may have annotations.
-/

namespace Qasm

open Spec Sem Analyzer

variable {F : Type} {fo : FloatOps F} {v : Version} {ls : List (Level F)}

/-! ## Blocks -/

private theorem block_notedStop (stmts : List (Stmt F)) (hst : ∀ s ∈ stmts, ShapedStmt s) {o : Stop} :
    ∀ {s : Scope F} {ss : List (Scope F)} {r : Level F} (u : Nat) (_ : Forall2 HoldsLevel (s :: ss) (r :: ls)),
      visitBlock fo ⟨v, s :: ss, u⟩ stmts = o.as ↔ NotedBlockStops fo ls r u stmts o := by
  induction stmts with
  | nil =>
    intro s ss r u h
    exact ⟨fun h => absurd h Stop.ne_ok, fun h => by cases h⟩
  | cons st stmts ih =>
    intro s ss r u h
    replace ih := @ih fun s hs => hst s (List.mem_cons_of_mem _ hs)
    have hsh := hst st (List.mem_cons_self ..)
    have hs : HoldsLevel s r := by cases h; assumption
    have hss : Forall2 HoldsLevel ss ls := by cases h; assumption
    have hi := visitStatement_notedStop (fo := fo) (v := v) (u := u) h hsh
    rw [visitBlock, Stop.bind]
    rcases Stop.cases (visitStatement fo ⟨v, s :: ss, u⟩ st) with ⟨⟨es, a'⟩, h1⟩ | ⟨e, _⟩ | ⟨o', h1⟩
    · have hno : ¬∃ o', StmtStops fo (r :: ls) st o' := by
        rintro ⟨o', h2⟩
        have := (hi o').2 h2
        rw [h1] at this
        exact Stop.ne_ok this
      have this : ∀ x, (∃ y, visitStatement fo ⟨v, s :: ss, u⟩ st = .ok y ∧ Log.after y.1 (visitBlock fo y.2 stmts) = x) ↔
          Log.after es (visitBlock fo a' stmts) = x := by
        intro x
        rw [h1]
        exact ⟨fun ⟨y, h1, h2⟩ => by cases h1; exact h2, fun h => ⟨_, rfl, h⟩⟩
      rw [this, after_stop]
      have hno' : ¬ visitStatement fo ⟨v, s :: ss, u⟩ st = o.as := fun h2 => hno ⟨o, (hi o).1 h2⟩
      simp only [hno', false_or]
      by_cases hd : IsDecl st
      · cases st with
        | gate => exact hd.elim
        | nonGate => exact hd.elim
        | asm => exact hd.elim
        | var l as name typ =>
          rcases visitVariable_noted h h1 with ⟨t, sas, ht, hn, _, rfl⟩ | ⟨ht, rfl, _⟩ | ⟨t, sas, es', ht, hn, _, _, rfl⟩
          · rw [ih (u + 1) (.cons (holds_declared hs ⟨u, name.name, t, sas, name.loc⟩ hn) hss)]
            refine ⟨.decl ht hn hno, fun h0 => ?_⟩
            cases h0 with
            | here h0 => exact absurd ⟨_, h0⟩ hno
            | decl h2 _ _ h3 => cases typeOk_det ht h2; exact h3
            | badType h2 => exact absurd ⟨_, ht⟩ h2
            | redeclared _ h2 => exact absurd h2 hn
            | later h2 => exact absurd trivial h2
          · rw [ih u h]
            refine ⟨.badType ht, fun h0 => ?_⟩
            cases h0 with
            | here h0 => exact absurd ⟨_, h0⟩ hno
            | decl h2 => exact absurd ⟨_, h2⟩ ht
            | badType _ h2 => exact h2
            | redeclared h2 => exact absurd ⟨_, h2⟩ ht
            | later h2 => exact absurd trivial h2
          · rw [ih (u + 1) (.cons (a := redeclareIn s ⟨u, name.name, t, sas, name.loc⟩) hs hss)]
            refine ⟨.redeclared ht hn hno, fun h0 => ?_⟩
            cases h0 with
            | here h0 => exact absurd ⟨_, h0⟩ hno
            | decl _ h2 => exact absurd hn h2
            | badType h2 => exact absurd ⟨_, ht⟩ h2
            | redeclared h2 _ _ h3 => exact h3
            | later h2 => exact absurd trivial h2
      · have hb : visitBlock fo a' stmts = o.as ↔ NotedBlockStops fo ls r u stmts o := by
          rcases visitInstruction_noted h rfl hsh hd h1 with ⟨t, a0, _, h4, _⟩ | ⟨e, es', rfl, _⟩
          · cases h4
            exact ih u (.cons (a := { s with block := addTo s.block t }) hs hss)
          · exact ih u h
        rw [hb]
        refine ⟨.later hd hno, fun h0 => ?_⟩
        cases h0 with
        | here h0 => exact absurd ⟨_, h0⟩ hno
        | decl => exact absurd trivial hd
        | badType => exact absurd trivial hd
        | redeclared => exact absurd trivial hd
        | later _ _ h3 => exact h3
    · exact e.elim
    · have hyes := (hi o').1 h1
      have hno' : ¬∃ y, visitStatement fo ⟨v, s :: ss, u⟩ st = .ok y ∧ Log.after y.1 (visitBlock fo y.2 stmts) = o.as := by
        rintro ⟨y, h2, _⟩
        rw [h1] at h2
        exact Stop.ne_ok h2.symm
      simp only [hno', or_false]
      rw [hi]
      refine ⟨.here, fun h0 => ?_⟩
      cases h0 with
      | here h0 => exact h0
      | decl _ _ h2 _ => exact absurd ⟨_, hyes⟩ h2
      | badType h2 _ => exact absurd hyes.1 h2
      | redeclared _ _ h2 _ => exact absurd ⟨_, hyes⟩ h2
      | later _ h2 _ => exact absurd ⟨_, hyes⟩ h2

/-! ## When all scopes have been closed -/

private theorem noScope_notes {as : List (AnnotationData F)} {o : Stop} (h : NotesStop fo [] as o) : o = .undefined := by
  obtain ⟨_, _, _, _, _, h⟩ := h
  exact noScope_expr h

private theorem noScope_notedGate {o : Stop} : ∀ {g : Gate F}, NotedGateStops fo [] g o → o = .undefined
  | .mk l as name none ps, h => by
    rw [NotedGateStops] at h
    rcases h with h | ⟨_, h⟩
    · exact noScope_gate h
    · exact noScope_notes h
  | .mk l as name (some g) ps, h => by
    rw [NotedGateStops] at h
    rcases h with h | ⟨_, h | ⟨_, h⟩⟩
    · exact noScope_notedGate h
    · exact noScope_gate h
    · exact noScope_notes h

private theorem noScope_finish {as : List (AnnotationData F)} {u : Nat} {l : Option Loc} {f : List (SAnnotation F) → SStatement F}
    {o : Stop} (h : ((visitAnnotations fo [] as).bind fun ra =>
      Log.after ra.1 (catchInto (⟨v, [], u⟩ : Analyzer F) l (Analyzer.addStatement ⟨v, [], u⟩ (f ra.2)))) = o.as) : o = .undefined := by
  rw [Stop.bind] at h
  rcases h with h | ⟨r, _, h⟩
  · exact noScope_notes ((visitAnnotations_stop .nil as o).1 h)
  · exact (Stop.inj (o := .undefined) h).symm

private theorem noScope_statement {st : Stmt F} (hs : ShapedStmt st) {u : Nat} {o : Stop}
    (h : visitStatement fo ⟨v, [], u⟩ st = o.as) : o = .undefined := by
  have plain : ¬ IsDecl st → visitStatement fo ⟨v, [], u⟩ (unnoted st) = o.as → o = .undefined := by
    intro hd h
    refine Classical.byContradiction fun hn => hn ?_
    exact noScope_instr ((visitInstruction_stop (a := ⟨v, [], u⟩) (ls := []) .nil (.inr hn) (unnoted_shaped st hs) (unnoted_plain st)
      (by rw [unnoted_decl]; exact hd)).1 h)
  cases st with
  | var l as name typ =>
    simp only [visitStatement, visitVariable] at h
    split at h
    · exact absurd h Stop.ne_ok
    · next hb => rcases buildSemanticType_fails typ with ⟨_, h1, _⟩ | ⟨h1, _⟩ | ⟨_, h1, _⟩ <;> rw [h1] at hb <;> cases hb
    · next hb => rcases buildSemanticType_fails typ with ⟨_, h1, _⟩ | ⟨h1, _⟩ | ⟨_, h1, _⟩ <;> rw [h1] at hb <;> cases hb
    · rw [Stop.bind] at h
      rcases h with h | ⟨r, _, h⟩
      · exact noScope_notes ((visitAnnotations_stop .nil as o).1 h)
      · exact (Stop.inj (o := .undefined) h).symm
  | asm l as name code =>
    simp only [visitStatement, visitAsmDeclaration] at h
    exact noScope_finish (f := fun r => .asm name code r l) h
  | nonGate l as name es ps =>
    replace plain := plain id
    simp only [visitStatement, visitNonGateInstruction, unnoted] at h plain
    revert h plain
    generalize ((visitList fo [] es).bind fun ops =>
      (resolveInstruction fo [] name ops).bind fun i =>
      (visitList fo [] ps).bind fun ps =>
      (resolveParameters fo name ps).bind fun ps =>
      (checkNonGateInstruction name i.2).bind fun _ => .ok (i, ps)) = X
    cases X with
    | err e => exact fun h _ => absurd h Stop.ne_ok
    | exn c => exact fun h hp => hp h
    | ub => exact fun h hp => hp h
    | ok x => exact fun h _ => noScope_finish (f := fun r => .nonGate x.1.1 name x.1.2 x.2 r l) h
  | gate l as g es =>
    replace plain := plain id
    simp only [visitStatement, visitGateInstruction, unnoted] at h plain
    rw [Stop.bind] at h
    rcases h with h | ⟨⟨es1, r⟩, h1, h⟩
    · exact noScope_notedGate ((visitGate_notedStop .nil g hs.2.1 o).1 h)
    · rw [after_stop] at h
      rcases (visitGate_noted (ls := []) .nil g hs.2.1 h1).2 with ⟨s, rfl, h2, _⟩ | ⟨e, rfl, h2⟩
      · simp only [h2, Res.bind_ok, resolution_bare] at h plain
        revert h plain
        generalize ((visitList fo [] es).bind fun ops =>
          (resolveInstruction fo [] (gateResolutionName s) ops).bind fun i =>
          (checkGateInstruction i.2).bind fun _ => .ok i) = X
        cases X with
        | err e => exact fun h _ => absurd h Stop.ne_ok
        | exn c => exact fun h hp => hp (after_stop.2 h)
        | ub => exact fun h hp => hp (after_stop.2 h)
        | ok i => exact fun h _ => noScope_finish (f := fun r => .gate i.1 s i.2 r l) h
      · exact absurd h Stop.ne_ok

private theorem noScope_notedBlock (stmts : List (Stmt F)) (hst : ∀ s ∈ stmts, ShapedStmt s) {u : Nat} {o : Stop}
    (h : visitBlock fo ⟨v, [], u⟩ stmts = o.as) : o = .undefined := by
  induction stmts generalizing v u with
  | nil => exact absurd h Stop.ne_ok
  | cons st stmts ih =>
    replace ih := fun v u => @ih v (fun s hs => hst s (List.mem_cons_of_mem _ hs)) u
    have hsh := hst st (List.mem_cons_self ..)
    rw [visitBlock, Stop.bind] at h
    rcases h with h | ⟨⟨es, a'⟩, h1, h2⟩
    · exact noScope_statement hsh h
    · have hb : visitBlock fo ⟨v, [], u⟩ [st] = .ok (es ++ [], a') := by
        rw [visitBlock, h1]
        rfl
      have hs := block_empty [st] (fun s hs => by cases List.mem_singleton.1 hs; exact hsh) hb
      obtain ⟨w, sc, u'⟩ := a'
      cases hs
      exact ih w u' (after_stop.1 h2)

/-! ## The rules for what is reported and for what ends the analysis exclude each other -/

private theorem notes_noStop {as : List (AnnotationData F)} {sas : List (SAnnotation F)} {errs : List Err}
    (h : NotesIn fo ls as sas errs) {o : Stop} : ¬ NotesStop fo ls as o := by
  have operands : ∀ {l es vs errs}, OperandsIn fo ls l es vs errs → ∀ e ∈ es, ¬∃ o, StopsIn fo ls e o := by
    intro l es vs errs h
    induction h with
    | nil => simp
    | @valid e es v vs errs h1 _ ih =>
      intro x hx
      rcases List.mem_cons.1 hx with rfl | hx
      · rcases C116_expression fo ls x with ⟨_, _, _, _, h2⟩ | ⟨_, _, _, h2, _⟩ | ⟨_, _, _, h2, _⟩
        · exact h2
        · exact absurd ⟨_, h1⟩ h2
        · exact absurd ⟨_, h1⟩ h2
      · exact ih x hx
    | @invalid e es vs y errs _ h1 _ ih =>
      intro x hx
      rcases List.mem_cons.1 hx with rfl | hx
      · rcases C116_expression fo ls x with ⟨_, _, _, h2, _⟩ | ⟨_, _, _, _, h2⟩ | ⟨_, _, _, _, h2⟩
        · exact absurd ⟨_, h1.1⟩ h2
        · exact h2
        · exact absurd ⟨_, h1.1⟩ h2
      · exact ih x hx
  have all : ∀ e ∈ as.flatMap (·.operands), ¬∃ o, StopsIn fo ls e o := by
    induction h with
    | nil => simp
    | cons h1 _ ih =>
      intro e he
      rw [List.flatMap_cons, List.mem_append] at he
      exact he.elim (operands h1 e) (ih e)
  rintro ⟨before, e, after, h1, _, h2⟩
  exact all e (by rw [h1]; simp) ⟨o, h2⟩

private theorem gateHere_noStop {g : Gate F} (hg : ShapedGate g) (hp : PlainGate g) {n : Nat} {s : SGate F} (h : GateHere fo ls g n s)
    {o : Stop} : ¬ GateStops fo ls g o := by
  obtain ⟨ss, hs⟩ := some_scopes ls
  intro h'
  rw [← visitGate_stop hs g hg hp, (visitGate_iff hs g hg s).2 ⟨n, h⟩] at h'
  exact Stop.ne_ok h'

private theorem gateNoted_noStop {o : Stop} : ∀ {g : Gate F} (_ : ShapedGate g) {n : Nat} {s0 s : SGate F} {errs : List Err}
    (_ : GateHere fo ls (unnotedGate g) n s0) (_ : GateNoted fo ls g s errs), ¬ NotedGateStops fo ls g o
  | .mk l as name none ps, hg, n, s0, s, errs, h1, h2 => by
    have h3 := gateHere_noStop (unnotedGate_shaped _ hg) (unnotedGate_plain _) h1 (o := o)
    rw [NotedGateStops]
    cases h2 with
    | named h2 => exact fun h => h.elim h3 fun h => notes_noStop h2 h.2
  | .mk l as name (some g) ps, hg, n, s0, s, errs, h1, h2 => by
    have h3 := gateHere_noStop (unnotedGate_shaped _ hg) (unnotedGate_plain _) h1 (o := o)
    rw [NotedGateStops]
    cases h1 with
    | modified _ h1 _ _ _ =>
      cases h2 with
      | modified h2 h4 =>
        rintro (h | ⟨_, h | ⟨_, h⟩⟩)
        · exact gateNoted_noStop hg.2 h1 h2 h
        · exact h3 h
        · exact notes_noStop h4 h

private theorem gateNotes_noStop {g : Gate F} (hg : ShapedGate g) {errs : List Err} (h : GateNotes fo ls g errs)
    (h0 : ¬∃ o, GateStops fo ls (unnotedGate g) o) {o : Stop} : ¬ NotedGateStops fo ls g o := by
  induction h with
  | valid h1 h2 => exact gateNoted_noStop hg h1 h2
  | named h1 =>
    rw [NotedGateStops]
    exact fun h => h.elim (fun h => h0 ⟨_, h⟩) fun h => h1 h.1
  | modified h1 _ ih =>
    rw [NotedGateStops]
    rintro (h | ⟨_, h | ⟨h, _⟩⟩)
    · exact ih hg.2 (fun ⟨o, h⟩ => h0 ⟨o, .inner h⟩) h
    · exact h0 ⟨_, h⟩
    · exact h1 h

private theorem instrNoted_noStop {r : Level F} {s : Stmt F} (hs : ShapedStmt s) {t : SStatement F} {errs : List Err}
    (h : InstrNoted fo (r :: ls) s t errs) {o : Stop} : ¬ StmtStops fo (r :: ls) s o := by
  have h0 : ¬∃ o, InstrStops fo (r :: ls) (unnoted s) o := by
    rcases C116_instruction fo r ls (unnoted_shaped s hs) (unnoted_plain s) (by rw [unnoted_decl]; exact instr_decl h) with
      ⟨_, _, _, _, h2⟩ | ⟨_, _, _, h2, _⟩ | ⟨_, _, _, h2, _⟩
    · exact h2
    · exact absurd ⟨_, instr_bare h⟩ h2
    · exact absurd ⟨_, instr_bare h⟩ h2
  cases h with
  | gate h1 h2 h3 =>
    cases h1 with
    | gate h1 _ _ _ _ =>
      rintro (h | ⟨_, h | ⟨_, h⟩⟩)
      · exact gateNoted_noStop hs.2.1 h1 h2 h
      · exact h0 ⟨_, h⟩
      · exact notes_noStop h3 h
  | nonGate h1 h2 => exact fun h => h.elim (fun h => h0 ⟨_, h⟩) fun h => notes_noStop h2 h.2
  | asm h1 => exact notes_noStop h1

private theorem invalid_noStop {r : Level F} {s : Stmt F} (hs : ShapedStmt s) (hd : ¬ IsDecl s) {errs : List Err} {e : Err}
    (h1 : ¬∃ t, InstrIn fo (r :: ls) (unnoted s) t) (h2 : NotesOfInvalid fo (r :: ls) s errs)
    (h3 : InstrFailsIn fo (r :: ls) (unnoted s) e) {o : Stop} : ¬ StmtStops fo (r :: ls) s o := by
  have h0 : ¬∃ o, InstrStops fo (r :: ls) (unnoted s) o := by
    rcases C116_instruction fo r ls (unnoted_shaped s hs) (unnoted_plain s) (by rw [unnoted_decl]; exact hd) with
      ⟨_, _, _, _, h2⟩ | ⟨_, _, _, _, h2, _⟩ | ⟨_, _, _, _, h2⟩
    · exact h2
    · exact h2
    · exact absurd ⟨_, h3⟩ h2
  cases s with
  | var => exact absurd trivial hd
  | asm => exact absurd ⟨_, .asm .nil⟩ h1
  | nonGate => exact fun h => h.elim (fun h => h0 ⟨_, h⟩) fun h => h1 h.1
  | gate =>
    rintro (h | ⟨_, h | ⟨h, _⟩⟩)
    · exact gateNotes_noStop hs.2.1 h2 (fun ⟨o, h⟩ => h0 ⟨o, .gate h⟩) h
    · exact h0 ⟨_, h⟩
    · exact h1 h

/-- C117. Statements for which the rules say what is reported do not end the analysis. -/
theorem C117_exclusive {r r' : Level F} {u : Nat} {ss : List (Stmt F)} (hs : ∀ s ∈ ss, ShapedStmt s) {vs : List (SVariable F)}
    {ts : List (SStatement F)} {errs : List Err} (h : NotedIn fo ls r u ss vs ts errs r') : ¬∃ o, NotedBlockStops fo ls r u ss o := by
  induction h with
  | nil => rintro ⟨o, h⟩; cases h
  | decl h1 h2 h3 _ ih =>
    have ih := ih fun s h => hs s (List.mem_cons_of_mem _ h)
    rintro ⟨o, h⟩
    cases h with
    | here h => exact notes_noStop h3 h.2
    | decl h4 _ _ h5 => cases typeOk_det h1 h4; exact ih ⟨_, h5⟩
    | badType h4 => exact h4 ⟨_, h1⟩
    | redeclared _ h4 => exact h2 h4
    | later h4 => exact h4 trivial
  | instr h1 _ ih =>
    have ih := ih fun s h => hs s (List.mem_cons_of_mem _ h)
    have hd := instr_decl h1
    rintro ⟨o, h⟩
    cases h with
    | here h => exact instrNoted_noStop (hs _ (List.mem_cons_self ..)) h1 h
    | decl => exact hd trivial
    | badType => exact hd trivial
    | redeclared => exact hd trivial
    | later _ _ h => exact ih ⟨_, h⟩
  | badType h1 _ _ ih =>
    have ih := ih fun s h => hs s (List.mem_cons_of_mem _ h)
    rintro ⟨o, h⟩
    cases h with
    | here h => exact h1 h.1
    | decl h4 => exact h1 ⟨_, h4⟩
    | badType _ h => exact ih ⟨_, h⟩
    | redeclared h4 => exact h1 ⟨_, h4⟩
    | later h4 => exact h4 trivial
  | redeclared h1 h2 h3 _ ih =>
    have ih := ih fun s h => hs s (List.mem_cons_of_mem _ h)
    rintro ⟨o, h⟩
    cases h with
    | here h => exact notes_noStop h3 h.2
    | decl _ h4 => exact h4 h2
    | badType h4 => exact h4 ⟨_, h1⟩
    | redeclared _ _ _ h => exact ih ⟨_, h⟩
    | later h4 => exact h4 trivial
  | badInstr h1 h2 h3 h4 _ ih =>
    have ih := ih fun s h => hs s (List.mem_cons_of_mem _ h)
    rintro ⟨o, h⟩
    cases h with
    | here h => exact invalid_noStop (hs _ (List.mem_cons_self ..)) h1 h2 h3 h4.1 h
    | decl => exact h1 trivial
    | badType => exact h1 trivial
    | redeclared => exact h1 trivial
    | later _ _ h => exact ih ⟨_, h⟩

/-- C117. For other statements the rules say how they end the analysis. -/
theorem C117_either {r : Level F} (u : Nat) {ss : List (Stmt F)} (hs : ∀ s ∈ ss, ShapedStmt s) :
    (∃ vs ts errs r', NotedIn fo ls r u ss vs ts errs r') ∨ ∃ o, NotedBlockStops fo ls r u ss o := by
  obtain ⟨sc, h1⟩ := some_scope r
  obtain ⟨scs, h2⟩ := some_scopes ls
  have hl : Forall2 HoldsLevel (sc :: scs) (r :: ls) := .cons h1 h2
  rcases Stop.cases (visitBlock fo ⟨[], sc :: scs, u⟩ ss) with ⟨⟨es, a'⟩, h⟩ | ⟨e, _⟩ | ⟨o, h⟩
  · obtain ⟨_, vs, ts, r', _, _, _, _, h⟩ := block_noted ss hs u hl h
    exact .inl ⟨vs, ts, es, r', h⟩
  · exact e.elim
  · exact .inr ⟨o, (block_notedStop ss hs u hl).1 h⟩

/-! ## C117 -/

theorem analyze_notedStop {a : Analyzer F} {m : Memory F} (h : Keeps v a m) {p : ProgramAst F} (hp : ShapedProgram p)
    (o : Stop) : analyze fo a p = o.as ↔ NotedProgramStops fo v m p o := by
  have hl := keeps_levels h
  obtain ⟨w, sc, u⟩ := a
  obtain ⟨fs, n⟩ := m
  obtain ⟨h1, h2, h3⟩ := h
  unfold Memory.levels at hl
  dsimp only at h1 h2 h3 hl
  subst h1 h2
  cases h3 with
  | nil =>
    constructor
    · intro h0
      have : o = .undefined := by
        rw [analyze, Stop.bind] at h0
        rcases h0 with h0 | ⟨⟨a1, r1⟩, h0, _⟩
        · rw [visitProgram, Stop.bind] at h0
          rcases h0 with h0 | ⟨⟨errs, a2⟩, h4, h5⟩
          · exact noScope_notedBlock _ hp h0
          · dsimp only at h5
            rw [block_empty _ hp h4] at h5
            exact (Stop.inj (o := .undefined) h5).symm
        · rw [visitProgram, Res.bind_eq_ok] at h0
          obtain ⟨⟨errs, a2⟩, h4, h5⟩ := h0
          dsimp only at h5
          rw [block_empty _ hp h4] at h5
          cases h5
      subst this
      exact .noScope rfl
    · intro h0
      cases h0 with
      | block h => cases h
      | notClosed h => cases h
      | noScope =>
        rw [analyze, visitProgram, Stop.bind, Stop.bind]
        rcases Stop.cases (visitBlock fo ⟨w, [], u⟩ p.block.statements) with ⟨⟨errs, a2⟩, h4⟩ | ⟨e, _⟩ | ⟨o, h4⟩
        · refine .inl (.inr ⟨_, h4, ?_⟩)
          dsimp only
          rw [block_empty _ hp h4]
          rfl
        · exact e.elim
        · cases noScope_notedBlock _ hp h4
          exact .inl (.inl h4)
  | @cons s f ss fs h4 h5 =>
    have hk : s.block.statements = f.statements := by rw [h4.2.2, blockAfter_statements]; rfl
    have hb := fun o => block_notedStop (fo := fo) (v := w) p.block.statements hp (o := o) u hl
    constructor
    · intro h0
      rw [analyze, Stop.bind] at h0
      rcases h0 with h0 | ⟨⟨a1, r1⟩, h0, h6⟩
      · rw [visitProgram, Stop.bind] at h0
        rcases h0 with h0 | ⟨⟨errs, a2⟩, h7, h8⟩
        · exact .block rfl ((hb o).1 h0)
        · obtain ⟨s', vs, ts, r', rfl, _⟩ := block_noted _ hp u hl h7
          exact absurd h8 Stop.ne_ok
      · rw [visitProgram, Res.bind_eq_ok] at h0
        obtain ⟨⟨errs, a2⟩, h7, h8⟩ := h0
        obtain ⟨s', vs, ts, r', rfl, h9, h10, h11, h12⟩ := block_noted _ hp u hl h7
        dsimp only at h8
        cases h8
        split at h6
        · next hc =>
          have := Stop.inj (o := .throws c!"std::runtime_error") h6
          subst this
          simp only [Bool.and_eq_true, List.isEmpty_iff, List.append_eq_nil_iff, Option.map_some, Option.getD_some,
            Bool.not_eq_true'] at hc
          obtain ⟨⟨hv, rfl⟩, hc⟩ := hc
          refine .notClosed rfl ((visitVersion_nil_iff ..).1 hv) h12 fun hcl => ?_
          rw [← h4.2.1, ← hk, ← h10, ← blockAfter_statements, ← h11] at hcl
          rw [(closed_iff ..).2 hcl] at hc
          cases hc
        · exact absurd h6 Stop.ne_ok
    · intro h0
      cases h0 with
      | block h6 h7 =>
        cases h6
        rw [analyze, Stop.bind, visitProgram, Stop.bind]
        exact .inl (.inl ((hb o).2 h7))
      | @notClosed f' fs' vs ts l h6 hv h7 h8 =>
        cases h6
        rw [← h4.2.1, ← hk] at h8
        rcases Stop.cases (visitBlock fo ⟨w, s :: ss, u⟩ p.block.statements) with ⟨⟨es, a'⟩, h9⟩ | ⟨e, _⟩ | ⟨o, h9⟩
        · obtain ⟨s', vs', ts', r', rfl, _, h10, h11, h12⟩ := block_noted _ hp u hl h9
          obtain ⟨rfl, rfl, rfl, rfl⟩ := C116_unique hp h7 h12
          have hv' := (visitVersion_nil_iff ..).2 hv
          have h13 : SProgram.wellFormed ⟨w, (visitVersion w p.version).2, s'.block, s'.variables⟩ = false := by
            rw [Bool.eq_false_iff]
            intro h13
            have := (closed_iff ..).1 h13
            rw [h10, h11, blockAfter_statements] at this
            exact h8 this
          rw [analyze, visitProgram, h9]
          simp [hv', h13, Stop.as]
        · exact e.elim
        · exact absurd ⟨o, (hb o).1 h9⟩ (C117_exclusive hp h7)
      | noScope h => cases h

/-- C117. After any session, whatever is registered and analysed in whatever order and scopes, the analysis of a program with
annotations throws something that is not an analysis error, or is undefined, exactly if the rules say so. In addition to what
C114 says of programs without them, the operands of annotations are evaluated, those of a construct after all else in it and
only if that is valid. Errors in other operands and other statements do not matter, but errors in the same construct do. -/
theorem C117_stops {a b : Analyzer F} (ha : Analyzer.new v = some a) {es : List (Event F)} {rs : List (Result (SProgram F))}
    (h : Answers fo es a rs b) (hp : ∀ p, .analyze p ∈ es → ShapedProgram p) :
    ∃ m, AnswersNoted fo v es ⟨[⟨⟨[], [], []⟩, [], []⟩], 0⟩ rs m ∧ ∀ p, ShapedProgram p → ∀ o,
      analyze fo b p = o.as ↔ NotedProgramStops fo v m p o := by
  obtain ⟨m, h1, h2⟩ := answers_noted h hp (keeps_new ha)
  exact ⟨m, h1, fun p hp' o => analyze_notedStop h2 hp' o⟩

/-- C117. Nothing is left open: after any session the analysis of a program either returns an answer according to the rules
(`AnalysedNoted`), which no others do, and then the rules do not say that it ends in another way; or it ends in the way that the
rules say, and then the rules have no answer for it. -/
theorem C117_total {a b : Analyzer F} (ha : Analyzer.new v = some a) {es : List (Event F)} {rs : List (Result (SProgram F))}
    (h : Answers fo es a rs b) (hp : ∀ p, .analyze p ∈ es → ShapedProgram p) :
    ∃ m, AnswersNoted fo v es ⟨[⟨⟨[], [], []⟩, [], []⟩], 0⟩ rs m ∧ ∀ p, ShapedProgram p →
      (∃ b' r m', analyze fo b p = .ok (b', r) ∧ AnalysedNoted fo v m p r m' ∧ Keeps v b' m' ∧ ¬∃ o, NotedProgramStops fo v m p o) ∨
      (∃ o, analyze fo b p = o.as ∧ NotedProgramStops fo v m p o ∧ (∀ o', NotedProgramStops fo v m p o' → o' = o) ∧
        ¬∃ r m', AnalysedNoted fo v m p r m') := by
  obtain ⟨m, h1, h2⟩ := answers_noted h hp (keeps_new ha)
  refine ⟨m, h1, fun p hp' => ?_⟩
  have hs := fun o => analyze_notedStop (fo := fo) h2 hp' o
  rcases Stop.cases (analyze fo b p) with ⟨⟨b', r⟩, h3⟩ | ⟨e, _⟩ | ⟨o, h3⟩
  · obtain ⟨m', h4, h5⟩ := keeps_noted h2 hp' h3
    refine .inl ⟨b', r, m', h3, h4, h5, ?_⟩
    rintro ⟨o, h6⟩
    have := (hs o).2 h6
    rw [h3] at this
    exact Stop.ne_ok this
  · exact e.elim
  · refine .inr ⟨o, h3, (hs o).1 h3, fun o' h4 => Stop.inj (((hs o').2 h4).symm.trans h3), ?_⟩
    rintro ⟨r, m', f, fs, l, vs, ts, errs, verrs, e1, e2, _, e3, e4, _, e6⟩
    cases (hs o).1 h3 with
    | block h4 h5 =>
      rw [e1] at h4
      cases h4
      exact C117_exclusive hp' e2 ⟨_, h5⟩
    | notClosed h4 hv h5 h6 =>
      rw [e1] at h4
      cases h4
      obtain ⟨rfl, rfl, rfl, rfl⟩ := C116_unique hp' e2 h5
      refine h6 (e6 ?_)
      rw [e3, ← (versionErrors_iff ..).1 e4, (visitVersion_nil_iff ..).2 hv]
      rfl
    | noScope h4 =>
      rw [e1] at h4
      cases h4

/-- C117. For programs without annotations the rules are those of C114. -/
theorem C117_plain {m : Memory F} {p : ProgramAst F} (hp : ShapedProgram p) (hpl : PlainProgram p) (o : Stop) :
    NotedProgramStops fo v m p o ↔ ProgramStops fo v m p o := by
  obtain ⟨a, ha⟩ := some_analyzer v m
  rw [← analyze_notedStop ha hp, analyze_stop ha hp hpl]

/-! ## Examples -/

section Examples

open Sample

/-- Throws something that is not an analysis error for 0, and an analysis error for 1. -/
private def wild : CoreFn Int
  | [⟨.constInt 0, _⟩] => .exn c!"std::bad_alloc"
  | [⟨.constInt 1, _⟩] => .err ⟨c!"one", none⟩
  | _ => .ub

/-- An annotation whose operands call `f`. -/
private def calls (is : List Int64) : AnnotationData Int := ⟨c!"my", c!"note", is.map fun i => .call none c!"f" [int i], none⟩

/-- `X q` with the annotations, those of the gate first. -/
private def flip (gate stmt : List (AnnotationData Int)) (target : Str) : Stmt Int :=
  .gate none stmt (.mk none gate c!"X" none []) [name target]

private def outcome (ss : List (Stmt Int)) : Option (Res Empty (List Str)) :=
  (Analyzer.new [3, 0]).bind fun a =>
    match registerInstruction a ⟨c!"X", [.bare .qubitArray]⟩ with
    | .ok a =>
      match registerFunction a c!"f" [.bare .int] wild with
      | .ok a => some ((analyze Sample.fo a (program (qubits c!"q" 4 :: ss))).bind fun r => .ok (r.2.errors.map (·.message)))
      | _ => none
    | _ => none

/-- C117: an error in an operand before does not matter. -/
example : outcome [flip [] [calls [1, 0, 2]] c!"q"] = some (.exn c!"std::bad_alloc") := by decide +kernel

/-- The annotations of the gate come before those of the statement. -/
example : outcome [flip [calls [1], calls [2]] [calls [0]] c!"q"] = some .ub := by decide +kernel

/-- Those of a statement that is rejected are not looked at, but those of its gate are. -/
example : outcome [flip [] [calls [1, 0, 2]] c!"r"] = some (.ok [c!"failed to resolve variable 'r'"]) := by decide +kernel
example : outcome [flip [calls [1, 0]] [calls [2]] c!"r"] = some (.exn c!"std::bad_alloc") := by decide +kernel

/-- Those of a declaration are looked at before the name. -/
example : outcome [.var none [calls [0]] ⟨c!"q", none⟩ ⟨c!"bit", none, none⟩] = some (.exn c!"std::bad_alloc") := by decide +kernel
example : outcome [.var none [calls [0]] ⟨c!"q", none⟩ ⟨c!"nibble", none, none⟩] = some (.ok [c!"unknown type \"nibble\""]) := by
  decide +kernel

/-- The programs of the examples are as the theorems assume. -/
example : ShapedProgram (program [qubits c!"q" 4, flip [calls [1], calls [2]] [calls [0]] c!"q"]) := by
  intro s hs
  simp only [program, List.mem_cons, List.not_mem_nil, or_false] at hs
  rcases hs with rfl | rfl <;>
    simp [ShapedStmt, ShapedAnnotations, ShapedGate, ShapedGateAnnotations, ShapedExpr, ShapedExprs, flip, calls, int, name, qubits, modifiers, nonGates]

end Examples

end Qasm
