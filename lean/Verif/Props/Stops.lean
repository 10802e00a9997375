import Verif.Lemmas.Stops
import Verif.Props.Reports
/-!
# When an analysis ends without a result, for analysers with their own registrations (C114)

The user makes an analyser in which nothing is registered, and registers, opens and closes scopes and analyses programs in
any order (`Answers fo es a rs b`). The programs have no annotations, as those that the parser makes.
-/

namespace Qasm

open Spec Sem Analyzer

variable {F : Type} {fo : FloatOps F} {v : Version}

/-! ## Blocks -/

private theorem declare_stop {s : Scope F} {ss : List (Scope F)} {u : Nat} {loc : Option Loc} {name : Ident} {typ : TypeAst}
    {o : Stop} : visitVariable fo ⟨v, s :: ss, u⟩ loc [] name typ ≠ o.as := by
  unfold visitVariable
  split
  · exact Stop.ne_ok
  · next h => rcases buildSemanticType_fails typ with ⟨_, h1, _⟩ | ⟨h1, _⟩ | ⟨_, h1, _⟩ <;> rw [h1] at h <;> cases h
  · next h => rcases buildSemanticType_fails typ with ⟨_, h1, _⟩ | ⟨h1, _⟩ | ⟨_, h1, _⟩ <;> rw [h1] at h <;> cases h
  · simp only [visitAnnotations, Res.bind_ok, addVariable, modifyCurrent, registerVariable, VariableTable.add]
    intro h
    rw [after_stop] at h
    revert h
    split
    · simp only [Res.bind, catchInto]; exact Stop.ne_ok
    · simp only [Res.bind, catchInto]; exact Stop.ne_ok

private theorem block_stop {ls : List (Level F)} (stmts : List (Stmt F)) (hst : ∀ s ∈ stmts, ShapedStmt s ∧ PlainStmt s) {o : Stop} :
    ∀ {s : Scope F} {ss : List (Scope F)} {r : Level F} (u : Nat) (_ : Forall2 HoldsLevel (s :: ss) (r :: ls)),
      visitBlock fo ⟨v, s :: ss, u⟩ stmts = o.as ↔ BlockStops fo ls r u stmts o := by
  induction stmts with
  | nil =>
    intro s ss r u h
    exact ⟨fun h => absurd h Stop.ne_ok, fun h => by cases h⟩
  | cons st stmts ih =>
    intro s ss r u h
    replace ih := @ih fun s hs => hst s (List.mem_cons_of_mem _ hs)
    obtain ⟨hsh, hpl⟩ := hst st (List.mem_cons_self ..)
    have hs : HoldsLevel s r := by cases h; assumption
    have hss : Forall2 HoldsLevel ss ls := by cases h; assumption
    rw [visitBlock, Stop.bind]
    by_cases hd : IsDecl st
    · cases st with
      | gate => exact hd.elim
      | nonGate => exact hd.elim
      | asm => exact hd.elim
      | var l as name typ =>
        cases hpl
        rcases Stop.cases (visitStatement fo ⟨v, s :: ss, u⟩ (.var l [] name typ)) with ⟨⟨es, a'⟩, h1⟩ | ⟨e, _⟩ | ⟨o', h1⟩
        · rw [h1]
          have : ∀ x, (∃ y, (Res.ok (es, a') : Res Empty (Log (Analyzer F))) = .ok y ∧ Log.after y.1 (visitBlock fo y.2 stmts) = x) ↔
              Log.after es (visitBlock fo a' stmts) = x := by
            intro x
            exact ⟨fun ⟨y, h1, h2⟩ => by cases h1; exact h2, fun h => ⟨_, rfl, h⟩⟩
          rw [this, after_stop]
          have hno : ¬ ((Res.ok (es, a') : Res Empty (Log (Analyzer F))) = o.as) := Stop.ne_ok
          simp only [hno, false_or]
          rcases visitVariable_plain hs h1 with ⟨t, ht, hn, rfl, rfl⟩ | ⟨ht, rfl, e, he, rfl⟩ | ⟨t, ht, hn, rfl, rfl⟩
          · rw [ih (u + 1) (.cons (holds_declared hs ⟨u, name.name, t, [], name.loc⟩ hn) hss)]
            refine ⟨.decl ht hn, fun h0 => ?_⟩
            cases h0 with
            | here h0 => cases h0
            | decl h2 _ h3 => cases typeOk_det ht h2; exact h3
            | badType h2 => exact absurd ⟨_, ht⟩ h2
            | redeclared _ h2 => exact absurd h2 hn
            | later h2 => exact absurd trivial h2
          · rw [ih u h]
            refine ⟨.badType ht, fun h0 => ?_⟩
            cases h0 with
            | here h0 => cases h0
            | decl h2 => exact absurd ⟨_, h2⟩ ht
            | badType _ h2 => exact h2
            | redeclared h2 => exact absurd ⟨_, h2⟩ ht
            | later h2 => exact absurd trivial h2
          · rw [ih (u + 1) (.cons (a := redeclareIn s ⟨u, name.name, t, [], name.loc⟩) hs hss)]
            refine ⟨.redeclared ht hn, fun h0 => ?_⟩
            cases h0 with
            | here h0 => cases h0
            | decl _ h2 => exact absurd hn h2
            | badType h2 => exact absurd ⟨_, ht⟩ h2
            | redeclared h2 _ h3 => exact h3
            | later h2 => exact absurd trivial h2
        · exact e.elim
        · exact absurd h1 declare_stop
    · have hi := fun o => visitInstruction_stop (fo := fo) (a := ⟨v, s :: ss, u⟩) (o := o) h (.inl (by simp)) hsh hpl hd
      rw [hi]
      constructor
      · rintro (h1 | ⟨⟨es, a'⟩, h1, h2⟩)
        · exact .here h1
        · refine .later hd ?_ ?_
          · rintro ⟨o', h3⟩
            have := (hi o').2 h3
            rw [h1] at this
            exact Stop.ne_ok this
          · rw [after_stop] at h2
            rcases visitInstruction_errs h rfl hd hpl h1 with rfl | ⟨rfl, _⟩
            · obtain ⟨t, _, h4⟩ := (visitInstruction_iff h hsh hd).1 h1
              cases h4
              exact (ih u (.cons (a := { s with block := addTo s.block t }) hs hss)).1 h2
            · exact (ih u h).1 h2
      · intro h0
        have notHere : ∀ (_ : ¬∃ o', InstrStops fo (r :: ls) st o') (_ : BlockStops fo ls r u stmts o),
            ∃ x, visitStatement fo ⟨v, s :: ss, u⟩ st = .ok x ∧ Log.after x.1 (visitBlock fo x.2 stmts) = o.as := by
          intro h2 h3
          rcases Stop.cases (visitStatement fo ⟨v, s :: ss, u⟩ st) with ⟨⟨es, a'⟩, h1⟩ | ⟨e, _⟩ | ⟨o', h1⟩
          · refine ⟨_, h1, ?_⟩
            rw [after_stop]
            rcases visitInstruction_errs h rfl hd hpl h1 with rfl | ⟨rfl, _⟩
            · obtain ⟨t, _, h4⟩ := (visitInstruction_iff h hsh hd).1 h1
              cases h4
              exact (ih u (.cons (a := { s with block := addTo s.block t }) hs hss)).2 h3
            · exact (ih u h).2 h3
          · exact e.elim
          · exact absurd ⟨o', (hi o').1 h1⟩ h2
        cases h0 with
        | here h1 => exact .inl h1
        | decl => exact absurd trivial hd
        | badType => exact absurd trivial hd
        | redeclared => exact absurd trivial hd
        | later _ h2 h3 => exact .inr (notHere h2 h3)

/-! ## When all scopes have been closed -/

private theorem noScope_eval {e : Expr F} {x : Value F} (h : EvalIn fo [] e x) : (∀ y, x.node ≠ .variableRef y) ∧ ¬ Untyped x := by
  cases h with
  | boolLit => exact ⟨fun _ h => (by cases h), fun h => (by cases h)⟩
  | intLit => exact ⟨fun _ h => (by cases h), fun h => (by cases h)⟩
  | floatLit => exact ⟨fun _ h => (by cases h), fun h => (by cases h)⟩
  | ident h => cases h
  | index h1 => exact absurd rfl ((noScope_eval h1).1 _)
  | call _ h => obtain ⟨_, _, _, h, _⟩ := h; cases h
  | un _ h => obtain ⟨_, _, _, h, _⟩ := h; cases h
  | bin _ _ h => obtain ⟨_, _, _, h, _⟩ := h; cases h
  | tern _ _ _ h => obtain ⟨_, _, _, h, _⟩ := h; cases h

private theorem noScope_call {name : Str} {args : List (Value F)} {o : Stop} (h : CallStops fo [] name args o) : o = .undefined := by
  cases h with
  | noScope => rfl
  | untyped h => cases h
  | function h => cases h

mutual
theorem noScope_expr {o : Stop} : ∀ {e : Expr F}, StopsIn fo [] e o → o = .undefined
  | .boolLit .., h => by cases h
  | .intLit .., h => by cases h
  | .floatLit .., h => by cases h
  | .ident .., h => by cases h
  | .index .., h => by
    cases h with
    | indexed h => exact noScope_expr h
    | notVariable => rfl
    | indices h => exact absurd rfl ((noScope_eval h).1 _)
  | .call .., h => by
    cases h with
    | args h => exact noScope_args h
    | call _ h => exact noScope_call h
  | .un .., h => by
    cases h with
    | operand h => exact noScope_expr h
    | un _ h => exact noScope_call h
  | .bin .., h => by
    cases h with
    | left h => exact noScope_expr h
    | right _ h => exact noScope_expr h
    | bin _ _ h => exact noScope_call h
  | .tern .., h => by
    cases h with
    | cond h => exact noScope_expr h
    | ifTrue _ h => exact noScope_expr h
    | ifFalse _ _ h => exact noScope_expr h
    | tern _ _ _ h => exact noScope_call h
theorem noScope_args {o : Stop} : ∀ {es : List (Expr F)}, ArgsStop fo [] es o → o = .undefined
  | [], h => by cases h
  | _ :: _, h => by
    cases h with
    | head h => exact noScope_expr h
    | tail _ h => exact noScope_args h
end

private theorem noScope_values {es : List (Expr F)} {vs : List (Value F)} (h : ArgsIn fo [] es vs) : ∀ x ∈ vs, ¬ Untyped x := by
  induction es generalizing vs with
  | nil => cases h; simp
  | cons e es ih =>
    cases h with
    | cons h1 h2 =>
      intro x hx
      rcases List.mem_cons.1 hx with rfl | hx
      · exact (noScope_eval h1).2
      · exact ih h2 x hx

private theorem lacks_untyped {vs : List (Value F)} {ks : List Kind} (h : LacksType vs ks) : ∃ x ∈ vs, Untyped x := by
  induction h with
  | here h _ => exact ⟨_, List.mem_cons_self .., h⟩
  | there _ _ _ ih =>
    obtain ⟨x, h1, h2⟩ := ih
    exact ⟨x, List.mem_cons_of_mem _ h1, h2⟩

theorem noScope_gate {g : Gate F} {o : Stop} (h : GateStops fo [] g o) : o = .undefined := by
  induction h with
  | parameters h => exact noScope_args h
  | named h1 _ h2 =>
    obtain ⟨x, h3, h4⟩ := lacks_untyped h2
    exact absurd h4 (noScope_values h1 x h3)
  | inner _ ih => exact ih
  | modifier _ h => exact noScope_args h
  | modified _ h1 h2 =>
    obtain ⟨x, h3, h4⟩ := lacks_untyped h2
    exact absurd h4 (noScope_values h1 x h3)

theorem noScope_instr {s : Stmt F} {o : Stop} (h : InstrStops fo [] s o) : o = .undefined := by
  cases h with
  | gate h => exact noScope_gate h
  | gateArgs _ h => exact noScope_args h
  | gateUntyped _ h1 h2 h3 => exact absurd h3 (noScope_values h1 _ h2)
  | args h => exact noScope_args h
  | argUntyped h1 h2 h3 => exact absurd h3 (noScope_values h1 _ h2)
  | parameters _ h => cases h
  | parameterUntyped _ h => cases h

private theorem noScope_block (stmts : List (Stmt F)) (hst : ∀ s ∈ stmts, ShapedStmt s ∧ PlainStmt s) {u : Nat} {o : Stop}
    (h : visitBlock fo ⟨v, [], u⟩ stmts = o.as) : o = .undefined := by
  induction stmts generalizing v u with
  | nil => exact absurd h Stop.ne_ok
  | cons st stmts ih =>
    replace ih := fun v u => @ih v (fun s hs => hst s (List.mem_cons_of_mem _ hs)) u
    obtain ⟨hsh, hpl⟩ := hst st (List.mem_cons_self ..)
    rw [visitBlock, Stop.bind] at h
    rcases h with h | ⟨⟨es, a'⟩, h1, h2⟩
    · by_cases hd : IsDecl st
      · cases st with
        | gate => exact hd.elim
        | nonGate => exact hd.elim
        | asm => exact hd.elim
        | var l as name typ =>
          cases hpl
          simp only [visitStatement, visitVariable] at h
          split at h
          · exact absurd h Stop.ne_ok
          · next hb => rcases buildSemanticType_fails typ with ⟨_, h1, _⟩ | ⟨h1, _⟩ | ⟨_, h1, _⟩ <;> rw [h1] at hb <;> cases hb
          · next hb => rcases buildSemanticType_fails typ with ⟨_, h1, _⟩ | ⟨h1, _⟩ | ⟨_, h1, _⟩ <;> rw [h1] at hb <;> cases hb
          · exact (Stop.inj (o := .undefined) h).symm
      · refine Classical.byContradiction fun hn => hn ?_
        exact noScope_instr ((visitInstruction_stop (a := ⟨v, [], u⟩) (ls := []) .nil (.inr hn) hsh hpl hd).1 h)
    · have hb : visitBlock fo ⟨v, [], u⟩ [st] = .ok (es ++ [], a') := by
        rw [visitBlock, h1]
        rfl
      have hs := block_noScope [st] (fun s hs => by cases List.mem_singleton.1 hs; exact ⟨hsh, hpl⟩) hb
      obtain ⟨w, sc, u'⟩ := a'
      cases hs
      exact ih w u' (after_stop.1 h2)

/-! ## C114 -/

theorem analyze_stop {a : Analyzer F} {m : Memory F} (h : Keeps v a m) {p : ProgramAst F} (hp : ShapedProgram p)
    (hpl : PlainProgram p) (o : Stop) : analyze fo a p = o.as ↔ ProgramStops fo v m p o := by
  have hst : ∀ s ∈ p.block.statements, ShapedStmt s ∧ PlainStmt s := fun s hs => ⟨hp s hs, hpl s hs⟩
  have hl := keeps_levels h
  obtain ⟨w, sc, u⟩ := a
  obtain ⟨fs, n⟩ := m
  obtain ⟨h1, h2, h3⟩ := h
  unfold Memory.levels at hl
  dsimp only at h1 h2 h3 hl
  subst h1 h2
  cases h3 with
  | nil =>
    constructor
    · intro h0
      have : o = .undefined := by
        rw [analyze, Stop.bind] at h0
        rcases h0 with h0 | ⟨⟨a1, r1⟩, h0, _⟩
        · rw [visitProgram, Stop.bind] at h0
          rcases h0 with h0 | ⟨⟨errs, a2⟩, h4, h5⟩
          · exact noScope_block _ hst h0
          · dsimp only at h5
            rw [block_noScope _ hst h4] at h5
            exact (Stop.inj (o := .undefined) h5).symm
        · rw [visitProgram, Res.bind_eq_ok] at h0
          obtain ⟨⟨errs, a2⟩, h4, h5⟩ := h0
          dsimp only at h5
          rw [block_noScope _ hst h4] at h5
          cases h5
      subst this
      exact .noScope rfl
    · intro h0
      cases h0 with
      | block h => cases h
      | notClosed h => cases h
      | noScope =>
        rw [analyze, visitProgram, Stop.bind, Stop.bind]
        rcases Stop.cases (visitBlock fo ⟨w, [], u⟩ p.block.statements) with ⟨⟨errs, a2⟩, h4⟩ | ⟨e, _⟩ | ⟨o, h4⟩
        · refine .inl (.inr ⟨_, h4, ?_⟩)
          dsimp only
          rw [block_noScope _ hst h4]
          rfl
        · exact e.elim
        · cases noScope_block _ hst h4
          exact .inl (.inl h4)
  | @cons s f ss fs h4 h5 =>
    have hk : s.block.statements = f.statements := by rw [h4.2.2, blockAfter_statements]; rfl
    have hb := fun o => block_stop (fo := fo) (v := w) p.block.statements hst (o := o) u hl
    constructor
    · intro h0
      rw [analyze, Stop.bind] at h0
      rcases h0 with h0 | ⟨⟨a1, r1⟩, h0, h6⟩
      · rw [visitProgram, Stop.bind] at h0
        rcases h0 with h0 | ⟨⟨errs, a2⟩, h7, h8⟩
        · exact .block rfl ((hb o).1 h0)
        · obtain ⟨s', vs, ts, bad, r', rfl, _⟩ := block_in _ hst u hl h7
          exact absurd h8 Stop.ne_ok
      · rw [visitProgram, Res.bind_eq_ok] at h0
        obtain ⟨⟨errs, a2⟩, h7, h8⟩ := h0
        obtain ⟨s', vs, ts, bad, r', rfl, h9, h10, h11, rfl, h12⟩ := block_in _ hst u hl h7
        dsimp only at h8
        cases h8
        split at h6
        · next hc =>
          have := Stop.inj (o := .throws c!"std::runtime_error") h6
          subst this
          simp only [Bool.and_eq_true, List.isEmpty_iff, List.append_eq_nil_iff, List.map_eq_nil_iff, Option.map_some, Option.getD_some,
            Bool.not_eq_true'] at hc
          obtain ⟨⟨hv, rfl⟩, hc⟩ := hc
          refine .notClosed rfl ((visitVersion_nil_iff ..).1 hv) ((C113_valid fun s hs => hpl s hs).1 ⟨r', h12⟩) fun hcl => ?_
          rw [← h4.2.1, ← hk, ← h10, ← blockAfter_statements, ← h11] at hcl
          rw [(closed_iff ..).2 hcl] at hc
          cases hc
        · exact absurd h6 Stop.ne_ok
    · intro h0
      cases h0 with
      | block h6 h7 =>
        cases h6
        rw [analyze, Stop.bind, visitProgram, Stop.bind]
        exact .inl (.inl ((hb o).2 h7))
      | @notClosed f' fs' vs ts h6 hv h7 h8 =>
        cases h6
        rw [← h4.2.1, ← hk] at h8
        exact analyze_open w u hl hp hv h7 h8
      | noScope h => cases h

/-- C114. After any session, the analysis of a program throws something that is not an analysis error, or is undefined, exactly
if the rules say so: an instruction is reached whose evaluation, from left to right and before any error, calls a registered
function that does that, or that gives a function or an instruction a value without a type (a `std::runtime_error`), or that
indexes something that is not a variable, or that has an index range up to the largest integer; or the program is valid and
the tree refers to variables that are not in it. -/
theorem C114_stops {a b : Analyzer F} (ha : Analyzer.new v = some a) {es : List (Event F)} {rs : List (Result (SProgram F))}
    (h : Answers fo es a rs b) (hp : ∀ p, .analyze p ∈ es → ShapedProgram p ∧ PlainProgram p) :
    ∃ m, AnswersIn fo v es ⟨[⟨⟨[], [], []⟩, [], []⟩], 0⟩ rs m ∧ ∀ p, ShapedProgram p → PlainProgram p → ∀ o,
      analyze fo b p = o.as ↔ ProgramStops fo v m p o := by
  obtain ⟨m, h1, h2⟩ := keeps_answers h hp (keeps_new ha)
  exact ⟨m, h1, fun p hp' hpl o => analyze_stop h2 hp' hpl o⟩

/-- C114. Otherwise the analysis returns. -/
theorem C114_returns {a b : Analyzer F} (ha : Analyzer.new v = some a) {es : List (Event F)} {rs : List (Result (SProgram F))}
    (h : Answers fo es a rs b) (hp : ∀ p, .analyze p ∈ es → ShapedProgram p ∧ PlainProgram p) :
    ∃ m, AnswersIn fo v es ⟨[⟨⟨[], [], []⟩, [], []⟩], 0⟩ rs m ∧ ∀ p, ShapedProgram p → PlainProgram p →
      ((∃ b' r, analyze fo b p = .ok (b', r)) ↔ ¬∃ o, ProgramStops fo v m p o) := by
  obtain ⟨m, h1, h2⟩ := C114_stops ha h hp
  refine ⟨m, h1, fun p hp' hpl => ?_⟩
  rcases Stop.cases (analyze fo b p) with ⟨⟨b', r⟩, h3⟩ | ⟨e, _⟩ | ⟨o, h3⟩
  · refine ⟨fun _ ⟨o, ho⟩ => ?_, fun _ => ⟨b', r, h3⟩⟩
    have := (h2 p hp' hpl o).2 ho
    rw [h3] at this
    exact Stop.ne_ok this
  · exact e.elim
  · refine ⟨fun ⟨b', r, h4⟩ => ?_, fun hn => absurd ⟨o, (h2 p hp' hpl o).1 h3⟩ hn⟩
    rw [h3] at h4
    exact absurd h4.symm Stop.ne_ok

theorem some_analyzer (v : Version) (m : Memory F) : ∃ a : Analyzer F, Keeps v a m := by
  obtain ⟨fs, n⟩ := m
  have : ∃ ss : List (Scope F), Forall2 (fun s f => HoldsLevel s f.level ∧ s.variables = f.variables ∧
      s.block = blockAfter ⟨[], none⟩ f.statements) ss fs := by
    induction fs with
    | nil => exact ⟨[], .nil⟩
    | cons f fs ih =>
      obtain ⟨s, hs⟩ := some_scope f.level
      obtain ⟨ss, hss⟩ := ih
      exact ⟨{ s with block := blockAfter ⟨[], none⟩ f.statements, variables := f.variables } :: ss, .cons ⟨hs, rfl, rfl⟩ hss⟩
  obtain ⟨ss, hss⟩ := this
  exact ⟨⟨v, ss, n⟩, rfl, rfl, hss⟩

/-- C114. The rules say at most one way in which the analysis ends without a result. -/
theorem C114_unique {m : Memory F} {p : ProgramAst F} (hp : ShapedProgram p) (hpl : PlainProgram p) {o o' : Stop}
    (h : ProgramStops fo v m p o) (h' : ProgramStops fo v m p o') : o = o' := by
  obtain ⟨a, ha⟩ := some_analyzer v m
  exact Stop.inj (((analyze_stop ha hp hpl o).2 h).symm.trans ((analyze_stop ha hp hpl o').2 h'))

/-! ## Calm registrations -/

section Calm

variable {ls : List (Level F)} {names : List Str}

private theorem seen_mem {name : Str} {x : Value F} (h : Seen name x ls) : ∃ l ∈ ls, (name, x) ∈ l.vars := by
  induction h with
  | here h _ => exact ⟨_, List.mem_cons_self .., by rw [h]; simp⟩
  | outer _ _ ih =>
    obtain ⟨l, h1, h2⟩ := ih
    exact ⟨l, List.mem_cons_of_mem _ h1, h2⟩

private theorem fitting_mem {T : Type} {regs : List (Registration T)} {name : Str} {args ws : List (Value F)} {t : T}
    (h : LastFitting fo regs name args t ws) : ∃ r ∈ regs, r.2.1 = t := by
  obtain ⟨o, p, n, h, _⟩ := h
  exact ⟨(name, t, p), by rw [h]; simp, rfl⟩

private theorem calm_returns (hc : Calm ls) {name : Str} {args : List (Value F)} {r : Value F} (h : Returns fo ls name args r) :
    ¬ Untyped r := by
  obtain ⟨g, f, ws, h1, h2, h3⟩ := h
  obtain ⟨x, h4, rfl⟩ := fitting_mem h2
  exact ((hc g (List.mem_of_getLast? h1)).2 x h4 ws).2 r h3

private theorem calm_eval (hc : Calm ls) {e : Expr F} {x : Value F} (h : EvalIn fo ls e x) : ¬ Untyped x := by
  cases h with
  | boolLit => exact fun h => by cases h
  | intLit => exact fun h => by cases h
  | floatLit => exact fun h => by cases h
  | ident h =>
    obtain ⟨l, h1, h2⟩ := seen_mem h
    exact (hc l h1).1 _ h2
  | @index l e ixs y lx is h1 h2 h3 h4 =>
    intro hu
    match is, hu with
    | [i], hu =>
      have hu : elementKind y.typ.kind = none := hu
      rcases h2 with h2 | h2 <;> rw [h2] at hu <;> cases hu
    | [], hu => cases hu
    | _ :: _ :: _, hu => cases hu
  | call _ h => exact calm_returns hc h
  | un _ h => exact calm_returns hc h
  | bin _ _ h => exact calm_returns hc h
  | tern _ _ _ h => exact calm_returns hc h

private theorem calm_call (hl : ls ≠ []) (hc : Calm ls) {name : Str} {args : List (Value F)} (ha : ∀ x ∈ args, ¬ Untyped x) {o : Stop} :
    ¬ CallStops fo ls name args o := by
  intro h
  cases h with
  | noScope h => exact hl h
  | untyped _ _ _ h1 h2 => exact ha _ h1 h2
  | function h1 h2 h3 =>
    obtain ⟨x, h4, rfl⟩ := fitting_mem h2
    exact ((hc _ (List.mem_of_getLast? h1)).2 x h4 _).1 _ h3

private theorem calm_args (hc : Calm ls) {es : List (Expr F)} {vs : List (Value F)} (h : ArgsIn fo ls es vs) : ∀ x ∈ vs, ¬ Untyped x := by
  induction es generalizing vs with
  | nil => cases h; simp
  | cons e es ih =>
    cases h with
    | cons h1 h2 =>
      intro x hx
      rcases List.mem_cons.1 hx with rfl | hx
      · exact fun h => calm_eval hc h1 h
      · exact ih h2 x hx

mutual
private theorem calm_expr (hl : ls ≠ []) (hc : Calm ls) (hn : VariablesOnly ls names) {o : Stop} :
    ∀ {e : Expr F}, Indexes names e → ¬ StopsIn fo ls e o
  | .boolLit .., _, h => by cases h
  | .intLit .., _, h => by cases h
  | .floatLit .., _, h => by cases h
  | .ident .., _, h => by cases h
  | .index .., hi, h => by
    rw [Indexes] at hi
    obtain ⟨⟨l, n, rfl, hnn⟩, hix⟩ := hi
    cases h with
    | indexed h => cases h
    | notVariable h1 h2 =>
      cases h1 with
      | ident h1 =>
        obtain ⟨l, h3, h4⟩ := seen_mem h1
        obtain ⟨y, hy⟩ := hn l h3 _ h4 hnn
        exact h2 y hy
    | indices _ _ h => exact calm_entries hl hc hn hix h
  | .call .., hi, h => by
    rw [Indexes] at hi
    cases h with
    | args h => exact calm_list hl hc hn hi h
    | call h1 h => exact calm_call hl hc (calm_args hc h1) h
  | .un .., hi, h => by
    rw [Indexes] at hi
    cases h with
    | operand h => exact calm_expr hl hc hn hi h
    | un h1 h =>
      refine calm_call hl hc ?_ h
      intro x hx
      cases List.mem_singleton.1 hx
      exact fun h => calm_eval hc h1 h
  | .bin .., hi, h => by
    rw [Indexes] at hi
    cases h with
    | left h => exact calm_expr hl hc hn hi.1 h
    | right _ h => exact calm_expr hl hc hn hi.2 h
    | bin h1 h2 h =>
      refine calm_call hl hc ?_ h
      simpa using ⟨fun h => calm_eval hc h1 h, fun h => calm_eval hc h2 h⟩
  | .tern .., hi, h => by
    rw [Indexes] at hi
    cases h with
    | cond h => exact calm_expr hl hc hn hi.1 h
    | ifTrue _ h => exact calm_expr hl hc hn hi.2.1 h
    | ifFalse _ _ h => exact calm_expr hl hc hn hi.2.2 h
    | tern h1 h2 h3 h =>
      refine calm_call hl hc ?_ h
      simpa using ⟨fun h => calm_eval hc h1 h, fun h => calm_eval hc h2 h, fun h => calm_eval hc h3 h⟩
private theorem calm_list (hl : ls ≠ []) (hc : Calm ls) (hn : VariablesOnly ls names) {o : Stop} :
    ∀ {es : List (Expr F)}, IndexesArgs names es → ¬ ArgsStop fo ls es o
  | [], _, h => by cases h
  | _ :: _, hi, h => by
    rw [IndexesArgs] at hi
    cases h with
    | head h => exact calm_expr hl hc hn hi.1 h
    | tail _ h => exact calm_list hl hc hn hi.2 h
private theorem calm_entries (hl : ls ≠ []) (hc : Calm ls) (hn : VariablesOnly ls names) {o : Stop} :
    ∀ {xs : List (IndexEntry F)}, IndexesEntries names xs → ¬ IndicesStop fo ls xs o
  | [], _, h => by cases h
  | .item _ _ :: _, hi, h => by
    rw [IndexesEntries] at hi
    cases h with
    | head h =>
      cases h with
      | item h => exact calm_expr hl hc hn hi.1 h
      | itemUntyped h1 h2 => exact calm_eval hc h1 h2
    | tail _ h => exact calm_entries hl hc hn hi.2 h
  | .range _ _ _ :: _, hi, h => by
    rw [IndexesEntries] at hi
    obtain ⟨hi1, ⟨l, j, rfl, hj⟩, hi2⟩ := hi
    cases h with
    | head h =>
      cases h with
      | first h => exact calm_expr hl hc hn hi1 h
      | firstUntyped h1 h2 => exact calm_eval hc h1 h2
      | last _ _ h => cases h
      | lastUntyped _ _ h1 h2 => exact calm_eval hc h1 h2
      | range _ _ h1 h2 _ h3 =>
        cases h1
        have h4 : Values.promote fo ⟨.constInt j, none⟩ (.bare .int) = _ := promote_iff.2 h2
        have h5 : Values.promote fo ⟨.constInt j, none⟩ (.bare .int) = .ok (some ⟨.constInt j, none⟩) := rfl
        rw [h5] at h4
        cases h4
        omega
    | tail _ h => exact calm_entries hl hc hn hi2 h
end

private theorem calm_gate (hl : ls ≠ []) (hc : Calm ls) (hn : VariablesOnly ls names) {g : Gate F} (hi : IndexesGate names g)
    {o : Stop} : ¬ GateStops fo ls g o := by
  intro h
  induction h with
  | parameters h => exact calm_list hl hc hn hi h
  | named h1 _ h2 =>
    obtain ⟨x, h3, h4⟩ := lacks_untyped h2
    exact calm_args hc h1 x h3 h4
  | inner _ ih => exact ih hi.1
  | modifier _ h => exact calm_list hl hc hn hi.2 h
  | modified _ h1 h2 =>
    obtain ⟨x, h3, h4⟩ := lacks_untyped h2
    exact calm_args hc h1 x h3 h4

private theorem calm_instr (hl : ls ≠ []) (hc : Calm ls) (hn : VariablesOnly ls names) {s : Stmt F} (hi : IndexesStmt names s)
    {o : Stop} : ¬ InstrStops fo ls s o := by
  intro h
  cases h with
  | gate h => exact calm_gate hl hc hn hi.1 h
  | gateArgs _ h => exact calm_list hl hc hn hi.2 h
  | gateUntyped _ h1 h2 h3 => exact calm_args hc h1 _ h2 h3
  | args h => exact calm_list hl hc hn hi.1 h
  | argUntyped h1 h2 h3 => exact calm_args hc h1 _ h2 h3
  | parameters _ _ h => exact calm_list hl hc hn hi.2 h
  | parameterUntyped _ _ h1 _ h2 =>
    obtain ⟨x, h3, h4⟩ := lacks_untyped h2
    exact calm_args hc h1 x h3 h4

private theorem calm_block {r : Level F} {u : Nat} {ss : List (Stmt F)} {o : Stop} (h : BlockStops fo ls r u ss o)
    (hc : Calm (r :: ls)) (hn : VariablesOnly (r :: ls) names) (hi : ∀ s ∈ ss, IndexesStmt names s) : False := by
  induction h with
  | here h => exact calm_instr (by simp) hc hn (hi _ (List.mem_cons_self ..)) h
  | decl _ _ _ ih =>
    refine ih ?_ ?_ fun s hs => hi s (List.mem_cons_of_mem _ hs)
    · intro l hl
      rcases List.mem_cons.1 hl with rfl | hl
      · refine ⟨fun x hx => ?_, (hc _ (List.mem_cons_self ..)).2⟩
        rcases List.mem_append.1 hx with hx | hx
        · exact (hc _ (List.mem_cons_self ..)).1 x hx
        · cases List.mem_singleton.1 hx
          exact fun h => by cases h
      · exact hc l (List.mem_cons_of_mem _ hl)
    · intro l hl
      rcases List.mem_cons.1 hl with rfl | hl
      · intro x hx hxn
        rcases List.mem_append.1 hx with hx | hx
        · exact hn _ (List.mem_cons_self ..) x hx hxn
        · cases List.mem_singleton.1 hx
          exact ⟨_, rfl⟩
      · exact hn l (List.mem_cons_of_mem _ hl)
  | badType _ _ ih => exact ih hc hn fun s hs => hi s (List.mem_cons_of_mem _ hs)
  | redeclared _ _ _ ih => exact ih hc hn fun s hs => hi s (List.mem_cons_of_mem _ hs)
  | later _ _ _ ih => exact ih hc hn fun s hs => hi s (List.mem_cons_of_mem _ hs)

/-- C114. Where the functions that are registered return or throw analysis errors, and values have types, a program that indexes
only names of variables, with ranges that end with a literal other than the largest integer, is analysed to the end: the only
thing that can be thrown is the `std::runtime_error` for a valid program whose tree is not in order. -/
theorem C114_calm {m : Memory F} (hf : m.frames ≠ []) (hc : Calm m.levels) (hn : VariablesOnly m.levels names) {p : ProgramAst F}
    (hi : ∀ s ∈ p.block.statements, IndexesStmt names s) {o : Stop} (h : ProgramStops fo v m p o) :
    o = .throws c!"std::runtime_error" ∧ ∃ f fs vs ts, m.frames = f :: fs ∧ VersionOk v p.version.items ∧
      ExecIn fo m.levels m.count p.block.statements vs ts ∧ ¬ ClosedProgram (f.variables ++ vs) (f.statements ++ ts) := by
  cases h with
  | @block f fs _ h1 h2 =>
    unfold Memory.levels at hc hn
    rw [h1] at hc hn
    exact (calm_block h2 hc hn hi).elim
  | notClosed h1 h2 h3 h4 => exact ⟨rfl, _, _, _, _, h1, h2, h3, h4⟩
  | noScope h => exact absurd h hf

end Calm

/-! ## Examples -/

section Examples

open Sample

/-- A function that throws something that is not an analysis error for 0, and is undefined for 1; for 2 it returns one element
of a single qubit, which has no type. -/
private def rough : CoreFn Int
  | [⟨.constInt 0, _⟩] => .exn c!"std::bad_alloc"
  | [⟨.constInt 1, _⟩] => .ub
  | [⟨.constInt 2, _⟩] => .ok (some ⟨.indexRef ⟨7, c!"z", ⟨.qubit, 1⟩⟩ [(0, none)], none⟩)
  | [⟨.constInt 3, _⟩] => .err ⟨c!"three", none⟩
  | [⟨.constInt i, _⟩] => .ok (some ⟨.constInt i, none⟩)
  | _ => .ok none

private def fOf (i : Int64) : Expr Int := .call none c!"f" [int i]

/-- `X q[f(i)]`. -/
private def flipAt (i : Int64) : Stmt Int := .gate none [] (.mk none [] c!"X" none []) [.index none (name c!"q") [.item none (fOf i)]]

/-- `X e`. -/
private def flip (e : Expr Int) : Stmt Int := .gate none [] (.mk none [] c!"X" none []) [e]

/-- What the analyser with `X` and `f` does with the statements after `qubit[5] q`. -/
private def outcome (ss : List (Stmt Int)) : Option (Res Empty (List Str)) :=
  (Analyzer.new [3, 0]).map fun a =>
    match ((Call.instruction ⟨c!"X", [.bare .qubit]⟩).on a).bind (Call.function c!"f" [.bare .int] rough).on with
    | .ok a => (analyze Sample.fo a (program (qubits c!"q" 5 :: ss))).bind fun r => .ok (r.2.errors.map (·.message))
    | _ => .ub

/-- C114: whatever a function throws comes out of the analysis, unless it is an analysis error. -/
example : outcome [flipAt 4] = some (.ok []) ∧ outcome [flipAt 3] = some (.ok [c!"three"]) ∧
    outcome [flipAt 0] = some (.exn c!"std::bad_alloc") ∧ outcome [flipAt 1] = some .ub := by
  decide +kernel

/-- C114: a value without a type as an index, an operand or an argument, and an error before it. -/
example : outcome [flipAt 2] = some (.exn c!"std::runtime_error") ∧ outcome [flip (fOf 2)] = some (.exn c!"std::runtime_error") ∧
    outcome [flip (.call none c!"f" [fOf 2])] = some (.exn c!"std::runtime_error") ∧
    outcome [flip (.call none c!"g" [fOf 2])] = some (.ok [c!"failed to resolve 'g'"]) ∧
    outcome [flip (.index none (name c!"q") [.item none (fOf 3), .item none (fOf 2)])] = some (.ok [c!"three"]) := by
  decide +kernel

/-- The rules apply: the function is called, in the second statement, after one that is rejected. -/
example : BlockStops Sample.fo [] ⟨[(c!"q", ⟨.variableRef ⟨0, c!"q", ⟨.qubitArray, 5⟩⟩, none⟩)], [(c!"f", rough, [.bare .int])],
    [(c!"X", ⟨c!"X", [.bare .qubit]⟩, [.bare .qubit])]⟩ 1 [qubits c!"q" 2, flipAt 0] (.throws c!"std::bad_alloc") := by
  have hseen : Seen c!"q" (⟨.variableRef ⟨0, c!"q", ⟨.qubitArray, 5⟩⟩, none⟩ : Value Int)
      [⟨[(c!"q", ⟨.variableRef ⟨0, c!"q", ⟨.qubitArray, 5⟩⟩, none⟩)], [(c!"f", rough, [.bare .int])],
        [(c!"X", ⟨c!"X", [.bare .qubit]⟩, [.bare .qubit])]⟩] := .here (older := []) (newer := []) rfl (by simp)
  refine .redeclared (.qubits (n := 2) (by decide)) (by simp) (.here ?_)
  refine .gateArgs (.named (n := 1) (ks := []) (by decide) .nil .nil .nil) (.head ?_)
  refine .indices (.ident hseen) (.inl rfl) (.head (.item (.call (.cons (.intLit _ 0) .nil) ?_)))
  exact .function rfl ⟨[], [.bare .int], [], rfl, .cons (.same rfl) .nil, by simp⟩ rfl

/-- The analyser of the language without its functions is calm, and the program indexes as `C114_calm` assumes. -/
example : Calm [(⟨[(c!"pi", ⟨.constFloat 3, none⟩)], [], []⟩ : Level Int)] ∧
    VariablesOnly [(⟨[(c!"pi", ⟨.constFloat 3, none⟩)], [], []⟩ : Level Int)] [c!"pi"] ∧
    IndexesStmt [c!"pi"] (flip (.index none (name c!"q") [.range none (int 0) (int 3)])) := by
  refine ⟨fun l hl => ?_, fun l hl x hx hn => ?_, trivial, ⟨⟨none, c!"q", rfl, by decide⟩, trivial, ⟨none, 3, rfl, by decide⟩, trivial⟩,
    trivial⟩
  · cases List.mem_singleton.1 hl
    refine ⟨fun x hx => ?_, fun f hf => by cases hf⟩
    cases List.mem_singleton.1 hx
    exact fun h => by cases h
  · cases List.mem_singleton.1 hl
    cases List.mem_singleton.1 hx
    exact absurd (List.mem_singleton.2 rfl) hn

end Examples

end Qasm
