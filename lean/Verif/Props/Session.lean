import Verif.Model.Session
import Verif.Lemmas.Declare
import Verif.Lemmas.Reach
import Verif.Spec.Sample
/-!
# Properties of an analyser that is used more than once (C06, C57) or extended (C37)
-/

namespace Qasm

open Spec Sem

variable {F : Type} {fo : FloatOps F}

attribute [local irreducible] defaultInstrs defaultFns defaultVars

/-- Analysis, taken apart. -/
theorem analyze_parts {a a' : Analyzer F} {p : ProgramAst F} {r : Result (SProgram F)}
    (h : analyze fo a p = .ok (a', r)) : ∃ errs sc rest, visitBlock fo a p.block.statements = .ok (errs, a') ∧
      a'.scopes = sc :: rest ∧ r = ⟨some ⟨a.apiVersion, (visitVersion a.apiVersion p.version).2, sc.block, sc.variables⟩,
        (visitVersion a.apiVersion p.version).1 ++ errs⟩ := by
  unfold analyze visitProgram at h
  cases hb : visitBlock fo a p.block.statements with
  | err e => cases e
  | exn => rw [hb] at h; cases h
  | ub => rw [hb] at h; cases h
  | ok x =>
    obtain ⟨es, a1⟩ := x
    rw [hb, Res.bind_ok] at h
    dsimp only at h
    cases hsc : a1.scopes with
    | nil => rw [hsc] at h; cases h
    | cons sc rest =>
      rw [hsc] at h
      dsimp only at h
      rw [Res.bind_ok] at h
      split at h
      · cases h
      · cases h
        exact ⟨es, sc, rest, rfl, hsc, rfl⟩

/-- A statement changes neither the functions nor the instructions, and only adds to the statements. -/
theorem visitStatement_keeps {v : Version} {sc : Scope F} {u : Nat} {s : Stmt F} {errs : List Err}
    {a' : Analyzer F} (h : visitStatement fo ⟨v, [sc], u⟩ s = .ok (errs, a')) :
    ∃ sc' u', a' = ⟨v, [sc'], u'⟩ ∧ sc'.fnTable = sc.fnTable ∧ sc'.instructionTable = sc.instructionTable ∧
      ∃ ts, sc'.block.statements = sc.block.statements ++ ts := by
  by_cases hd : IsDecl s
  · cases s with
    | gate => exact hd.elim
    | nonGate => exact hd.elim
    | asm => exact hd.elim
    | var l as name typ =>
      rw [visitStatement, visitVariable] at h
      cases hb : buildSemanticType typ with
      | err e => rw [hb] at h; cases h; exact ⟨_, _, rfl, rfl, rfl, [], by simp⟩
      | exn => rw [hb] at h; cases h
      | ub => rw [hb] at h; cases h
      | ok t =>
        rw [hb] at h
        dsimp only at h
        cases hv : visitAnnotations fo [sc] as with
        | err e => cases e
        | exn => rw [hv] at h; cases h
        | ub => rw [hv] at h; cases h
        | ok r =>
          obtain ⟨es, sas⟩ := r
          rw [hv, Res.bind_ok] at h
          simp only [Analyzer.addVariable, Analyzer.modifyCurrent, Res.bind_ok, Analyzer.registerVariable] at h
          cases ht : sc.variableTable.add name.name ⟨.variableRef (SVariable.link ⟨u, name.name, t, sas, name.loc⟩), none⟩ with
          | ok tbl => rw [ht] at h; cases h; exact ⟨_, _, rfl, rfl, rfl, [], by simp⟩
          | err e => rw [ht] at h; cases h; exact ⟨_, _, rfl, rfl, rfl, [], by simp⟩
          | exn => rw [ht] at h; cases h
          | ub => rw [ht] at h; cases h
  · obtain ⟨r, hr⟩ := visitStatement_frame fo (bare sc) s hd
    rw [hr v sc u rfl] at h
    cases r with
    | err e => cases e
    | exn => cases h
    | ub => cases h
    | ok x =>
      cases h
      refine ⟨_, _, rfl, ?_⟩
      cases x.2 with
      | none => exact ⟨rfl, rfl, [], by simp [addOpt]⟩
      | some t => exact ⟨rfl, rfl, [t], rfl⟩

theorem visitBlock_keeps {v : Version} (ss : List (Stmt F)) : ∀ {sc : Scope F} {u : Nat} {errs : List Err}
    {a' : Analyzer F}, visitBlock fo ⟨v, [sc], u⟩ ss = .ok (errs, a') →
    ∃ sc' u', a' = ⟨v, [sc'], u'⟩ ∧ sc'.fnTable = sc.fnTable ∧ sc'.instructionTable = sc.instructionTable ∧
      ∃ ts, sc'.block.statements = sc.block.statements ++ ts := by
  induction ss with
  | nil => intro sc u errs a' h; cases h; exact ⟨_, _, rfl, rfl, rfl, [], by simp⟩
  | cons s ss ih =>
    intro sc u errs a' h
    rw [visitBlock] at h
    cases h1 : visitStatement fo ⟨v, [sc], u⟩ s with
    | err e => cases e
    | exn => rw [h1] at h; cases h
    | ub => rw [h1] at h; cases h
    | ok r =>
      obtain ⟨es, a1⟩ := r
      obtain ⟨sc1, u1, rfl, k1, k2, ts1, k3⟩ := visitStatement_keeps h1
      rw [h1, Res.bind_ok] at h
      cases h2 : visitBlock fo ⟨v, [sc1], u1⟩ ss with
      | err e => cases e
      | exn => rw [h2] at h; cases h
      | ub => rw [h2] at h; cases h
      | ok r =>
        obtain ⟨es', a2⟩ := r
        obtain ⟨sc2, u2, rfl, j1, j2, ts2, j3⟩ := ih h2
        rw [h2] at h
        cases h
        exact ⟨_, _, rfl, j1.trans k1, j2.trans k2, ts1 ++ ts2, by rw [j3, k3, List.append_assoc]⟩

theorem analyze_keeps {a a' : Analyzer F} {sc : Scope F} (hsc : a.scopes = [sc]) {p : ProgramAst F}
    {r : Result (SProgram F)} (h : analyze fo a p = .ok (a', r)) : a'.apiVersion = a.apiVersion ∧
    ∃ sc', a'.scopes = [sc'] ∧ sc'.fnTable = sc.fnTable ∧ sc'.instructionTable = sc.instructionTable ∧
      (∃ ts, sc'.block.statements = sc.block.statements ++ ts) ∧
      r.root = some ⟨a.apiVersion, (visitVersion a.apiVersion p.version).2, sc'.block, sc'.variables⟩ := by
  obtain ⟨errs, s1, rest, h1, h2, rfl⟩ := analyze_parts h
  obtain ⟨v, scs, u⟩ := a
  cases hsc
  obtain ⟨sc', u', rfl, k1, k2, k3⟩ := visitBlock_keeps _ h1
  obtain ⟨rfl, _⟩ := List.cons.inj h2
  exact ⟨rfl, sc', rfl, k1, k2, k3, rfl⟩

/-! ## C06 -/

/-- C06 is false: with a default analyser, no accepted program that declares a variable is accepted a second time. -/
theorem C06_refuted {v : Version} {a a' : Analyzer F} (ha : Analyzer.default fo v = .ok a) {p : ProgramAst F}
    (hs : ShapedProgram p) {r : SProgram F} (h : analyze fo a p = .ok (a', ⟨some r, []⟩)) (hv : r.variables ≠ []) :
    ¬∃ r', Accepts fo a' p r' := by
  rintro ⟨r', a'', h'⟩
  have hval := (accepts_valid ha hs ⟨_, h⟩).1
  rw [analyze_valid ha hs hval] at h
  injection h with h
  injection h with h _
  subst h
  obtain ⟨errs, sc, rest, g1, _, g3⟩ := analyze_parts h'
  have he : errs = [] := by
    have := congrArg Result.errors g3
    simp only at this
    exact (List.append_eq_nil_iff.mp this.symm).2
  subst he
  have hl : (r.variables.map SVariable.link).reverse.length = r.variables.length := by simp
  have hD : DeclsOk (r.variables.map SVariable.link).reverse := by
    have := exec_declsOk hval.2 declsOk_nil
    rwa [List.append_nil] at this
  rw [← hl] at g1
  obtain ⟨vs', ts', hex⟩ := visitBlock_noErrors v _ hs _ _ _ _ hD g1
  have hvars := (exec_variables hval.2).1
  have hvars' := (exec_variables hex).1
  have hfresh : ∀ {D ss} {vs : List (SVariable F)} {ts}, Exec fo D ss vs ts → ∀ x ∈ vs, Fresh D x.name := by
    intro D ss vs ts h
    induction h with
    | nil => simp
    | decl h1 h2 _ _ ih =>
      intro x hx
      rcases List.mem_cons.mp hx with rfl | hx
      · exact h2
      · have := ih x hx
        exact ⟨this.1, fun y hy => this.2 y (List.mem_cons_of_mem _ hy)⟩
    | instr _ _ ih => exact ih
  match hr : r.variables with
  | [] => exact hv hr
  | x :: xs =>
    rw [hr] at hvars
    generalize declarations p.block.statements = ds at hvars hvars'
    cases hvars with
    | cons g _ =>
      cases hvars' with
      | @cons _ y _ _ g' _ =>
        have := (hfresh hex y (List.mem_cons_self ..)).2 x.link (by rw [hr]; simp)
        exact this (g.1.trans g'.1.symm)

/-- C06, what holds instead. After an accepted program, another one is analysed as if its statements followed those of
the first. (The analyser may have any registrations; it has only its global scope.) -/
theorem C06_continues_partial {a a' : Analyzer F} (hsc : ∃ sc, a.scopes = [sc]) {p : ProgramAst F} {r : SProgram F}
    (h : analyze fo a p = .ok (a', ⟨some r, []⟩)) (q : ProgramAst F) :
    analyze fo a' q = analyze fo a (withStatements q (p.block.statements ++ q.block.statements)) := by
  obtain ⟨sc, hsc⟩ := hsc
  have hv := (analyze_keeps hsc h).1
  obtain ⟨errs, s1, rest, h1, h2, h3⟩ := analyze_parts h
  have he : errs = [] := by
    have := congrArg Result.errors h3
    simp only at this
    exact (List.append_eq_nil_iff.mp this.symm).2
  subst he
  unfold analyze visitProgram
  have hb : visitBlock fo a (withStatements q (p.block.statements ++ q.block.statements)).block.statements =
      visitBlock fo a' q.block.statements := by
    rw [withStatements, visitBlock_append, h1, Res.bind_ok]
    cases visitBlock fo a' q.block.statements <;> rfl
  rw [hb, hv]
  rfl

/-- C06, what holds instead. Analysing a program changes neither the version nor what functions, instructions and
already declared names mean. -/
theorem C06_tables_partial {a a' : Analyzer F} (hsc : ∃ sc, a.scopes = [sc]) {p : ProgramAst F} {r : Result (SProgram F)}
    (h : analyze fo a p = .ok (a', r)) :
    a'.apiVersion = a.apiVersion ∧
    (∀ name args, Analyzer.resolveFunction fo a'.scopes name args = Analyzer.resolveFunction fo a.scopes name args) ∧
    (∀ name args, Analyzer.resolveInstruction fo a'.scopes name args = Analyzer.resolveInstruction fo a.scopes name args) ∧
    (∀ name w, Analyzer.resolveVariable a.scopes name = .ok w → Analyzer.resolveVariable a'.scopes name = .ok w) := by
  obtain ⟨sc, hsc⟩ := hsc
  obtain ⟨h1, sc', h2, h3, h4, _⟩ := analyze_keeps hsc h
  obtain ⟨sc2, h5, h6⟩ := analyze_find hsc h
  rw [h2] at h5
  cases h5
  refine ⟨h1, fun name args => ?_, fun name args => ?_, fun name w => ?_⟩
  · rw [h2, hsc]; simp [Analyzer.resolveFunction, h3]
  · rw [h2, hsc]; simp [Analyzer.resolveInstruction, h4]
  · rw [h2, hsc, resolveVariable_one, resolveVariable_one]; exact h6 name w

/-- C06, what holds instead. For a program without declarations every further analysis that returns reports the same
errors. -/
theorem C06_no_declarations_partial {a a' a'' : Analyzer F} (hsc : ∃ sc, a.scopes = [sc]) {p : ProgramAst F}
    (hd : ∀ s ∈ p.block.statements, ¬ IsDecl s) {r r' : Result (SProgram F)}
    (h : analyze fo a p = .ok (a', r)) (h' : analyze fo a' p = .ok (a'', r')) : r'.errors = r.errors := by
  obtain ⟨sc, hsc⟩ := hsc
  obtain ⟨e1, s1, r1, g1, _, rfl⟩ := analyze_parts h
  obtain ⟨e2, s2, r2, g2, _, rfl⟩ := analyze_parts h'
  obtain ⟨v, scs, u⟩ := a
  cases hsc
  obtain ⟨x, hx⟩ := visitBlock_frame fo (bare sc) _ hd
  rw [hx v sc u rfl] at g1
  cases x with
  | err e => cases e
  | exn => cases g1
  | ub => cases g1
  | ok x =>
    cases g1
    rw [hx v (addAll sc x.2) u rfl] at g2
    cases g2
    rfl

/-! ## C57 -/

/-- Right after the call, reading the result gives the result. -/
theorem C57_returned {a a' : Analyzer F} {p : ProgramAst F} {r : Result (SProgram F)} (h : analyze fo a p = .ok (a', r)) :
    r.readIn a' = r := by
  obtain ⟨errs, sc, rest, _, h2, rfl⟩ := analyze_parts h
  simp [Result.readIn, SProgram.readIn, h2]

/-- C57 is false: after any accepted program, analysing a program that consists of an assembly declaration changes the
program returned earlier: the assembly declaration appears in it. -/
theorem C57_refuted {v : Version} {a a' : Analyzer F} (ha : Analyzer.default fo v = .ok a) {p : ProgramAst F}
    (hs : ShapedProgram p) {r : SProgram F} (h : analyze fo a p = .ok (a', ⟨some r, []⟩)) (name code : Str) :
    ∃ q a'' r', analyze fo a' q = .ok (a'', ⟨some r', []⟩) ∧ q.block.statements = [.asm none [] name code] ∧
      (r.readIn a'').block.statements = r.block.statements ++ [.asm name code [] none] := by
  have hst := default_state ha
  have hsc : ∃ sc, a.scopes = [sc] := by subst hst; exact ⟨_, rfl⟩
  have hs' : ShapedStmt (.asm none [] name code : Stmt F) := fun a ha => nomatch ha
  obtain ⟨r', a'', h'⟩ := andThen_of_ok ha hs ⟨_, h⟩ hs' (.asm .nil)
  have hq := C06_continues_partial hsc h (withStatements p [.asm none [] name code])
  have hw : withStatements (withStatements p [.asm none [] name code])
      (p.block.statements ++ (withStatements p [.asm none [] name code]).block.statements) =
      andThen p (.asm none [] name code) := rfl
  rw [hw, h'] at hq
  refine ⟨_, a'', r', hq, rfl, ?_⟩
  obtain ⟨errs, sc, rest, k1, k2, k3⟩ := analyze_parts h'
  obtain ⟨t, ht, hr'⟩ := andThen_iff ha hs ⟨_, h⟩ hs' (by simp [IsDecl]) ⟨_, h'⟩
  have hb : r'.block.statements = r.block.statements ++ [t] := hr'.1
  cases ht with
  | asm hn =>
    cases hn
    rw [SProgram.readIn, k2]
    have : r' = _ := Option.some.inj (congrArg Result.root k3)
    rw [this] at hb
    exact hb

/-- C57, what holds instead. Whatever is analysed later, the errors, versions and variables of an earlier result stay
the same, and its statements are only added to. -/
theorem C57_rest_partial {a a1 a2 : Analyzer F} (hsc : ∃ sc, a.scopes = [sc]) {p q : ProgramAst F}
    {r r' : Result (SProgram F)} (h : analyze fo a p = .ok (a1, r)) (h' : analyze fo a1 q = .ok (a2, r')) :
    (r.readIn a2).errors = r.errors ∧
    ∃ x y, r.root = some x ∧ (r.readIn a2).root = some y ∧ y.apiVersion = x.apiVersion ∧ y.version = x.version ∧
      y.variables = x.variables ∧ ∃ ts, y.block.statements = x.block.statements ++ ts := by
  obtain ⟨sc, hsc⟩ := hsc
  obtain ⟨_, sc1, k1, _, _, _, k2⟩ := analyze_keeps hsc h
  obtain ⟨_, sc2, j1, _, _, j2, _⟩ := analyze_keeps k1 h'
  exact ⟨rfl, _, _, k2, by rw [Result.readIn, k2]; rfl, by simp [SProgram.readIn, j1], by simp [SProgram.readIn, j1],
    by simp [SProgram.readIn, j1], by simpa [SProgram.readIn, j1] using j2⟩

/-! ## C37 -/

private theorem visitBlock_mem (ss : List (Stmt F)) (s : Stmt F) (hs : s ∈ ss) : ∀ {a a' : Analyzer F},
    visitBlock fo a ss = .ok ([], a') → ∃ b b', visitStatement fo b s = .ok ([], b') := by
  induction ss with
  | nil => cases hs
  | cons t ss ih =>
    intro a a' h
    rw [visitBlock] at h
    cases h1 : visitStatement fo a t with
    | err e => cases e
    | exn => rw [h1] at h; cases h
    | ub => rw [h1] at h; cases h
    | ok r =>
      rw [h1, Res.bind_ok] at h
      obtain ⟨g1, g2⟩ := after_nil_inv h
      rcases List.mem_cons.mp hs with rfl | hs
      · obtain ⟨es, b⟩ := r
        simp only at g1
        subst g1
        exact ⟨_, _, h1⟩
      · exact ih hs g2

/-- C37 is false: a gate whose name is not in the standard set is rejected by every analyser, whatever has been
registered with it. -/
theorem C37_refuted (a : Analyzer F) {p : ProgramAst F} {l l' : Option Loc} {as as' : List (AnnotationData F)} {name : Str}
    {ps es : List (Expr F)} (hp : .gate l as (.mk l' as' name none ps) es ∈ p.block.statements)
    (h1 : ∀ n ks, (name, n, ks) ∉ namedGates) (h2 : name ∉ modifiers) (h3 : name ∉ nonGates) : ¬∃ r, Accepts fo a p r := by
  rintro ⟨r, a', h⟩
  obtain ⟨errs, sc, rest, g1, _, g3⟩ := analyze_parts h
  have he : errs = [] := by
    have := congrArg Result.errors g3
    simp only at this
    exact (List.append_eq_nil_iff.mp this.symm).2
  subst he
  obtain ⟨b, b', hb⟩ := visitBlock_mem _ _ hp g1
  rw [visitStatement, visitGateInstruction, visitGate, visitGateRest] at hb
  cases hv : visitList fo b.scopes ps with
  | ub => rw [hv] at hb; cases hb
  | exn => rw [hv] at hb; cases hb
  | err e => rw [hv] at hb; cases hb
  | ok vs =>
    obtain ⟨e, _, he⟩ := resolveParameters_unknown fo (fun ⟨n, ks, h⟩ => h1 n ks h) h2 h3 vs
    rw [hv, Res.bind_ok, he] at hb
    cases hb

/-- Declarations do not depend on the instructions. -/
theorem decl_instructions (tbl : OverloadTable Instruction) {v : Version} {sc : Scope F} {u : Nat} {s : Stmt F}
    (hd : IsDecl s) {errs : List Err} {a' : Analyzer F} (h : visitStatement fo ⟨v, [sc], u⟩ s = .ok (errs, a')) :
    ∃ sc' u', a' = ⟨v, [sc'], u'⟩ ∧ visitStatement fo ⟨v, [{ sc with instructionTable := tbl }], u⟩ s =
      .ok (errs, ⟨v, [{ sc' with instructionTable := tbl }], u'⟩) := by
  cases s with
  | gate => exact hd.elim
  | nonGate => exact hd.elim
  | asm => exact hd.elim
  | var l as name typ =>
    rw [visitStatement, visitVariable] at h ⊢
    cases hb : buildSemanticType typ with
    | err e => rw [hb] at h; cases h; exact ⟨_, _, rfl, rfl⟩
    | exn => rw [hb] at h; cases h
    | ub => rw [hb] at h; cases h
    | ok t =>
      rw [hb] at h
      dsimp only at h ⊢
      rw [visitAnnotations_tables fo (s := { sc with instructionTable := tbl }) (s' := sc) rfl rfl]
      cases hv : visitAnnotations fo [sc] as with
      | err e => cases e
      | exn => rw [hv] at h; cases h
      | ub => rw [hv] at h; cases h
      | ok r =>
        obtain ⟨es, sas⟩ := r
        rw [hv, Res.bind_ok] at h
        rw [Res.bind_ok]
        simp only [Analyzer.addVariable, Analyzer.modifyCurrent, Res.bind_ok, Analyzer.registerVariable] at h ⊢
        cases ht : sc.variableTable.add name.name ⟨.variableRef (SVariable.link ⟨u, name.name, t, sas, name.loc⟩), none⟩ with
        | ok tbl => rw [ht] at h; cases h; exact ⟨_, _, rfl, rfl⟩
        | err e => rw [ht] at h; cases h; exact ⟨_, _, rfl, rfl⟩
        | exn => rw [ht] at h; cases h
        | ub => rw [ht] at h; cases h

theorem decls_instructions (t : OverloadTable Instruction) {v : Version} (ss : List (Stmt F))
    (hd : ∀ s ∈ ss, IsDecl s) : ∀ {sc : Scope F} {u : Nat} {errs : List Err} {a' : Analyzer F},
    visitBlock fo ⟨v, [sc], u⟩ ss = .ok (errs, a') →
    ∃ sc' u', a' = ⟨v, [sc'], u'⟩ ∧ visitBlock fo ⟨v, [{ sc with instructionTable := t }], u⟩ ss =
      .ok (errs, ⟨v, [{ sc' with instructionTable := t }], u'⟩) := by
  induction ss with
  | nil => intro sc u errs a' h; cases h; exact ⟨_, _, rfl, rfl⟩
  | cons s ss ih =>
    intro sc u errs a' h
    rw [visitBlock] at h ⊢
    cases h1 : visitStatement fo ⟨v, [sc], u⟩ s with
    | err e => cases e
    | exn => rw [h1] at h; cases h
    | ub => rw [h1] at h; cases h
    | ok r =>
      obtain ⟨es, a1⟩ := r
      obtain ⟨sc1, u1, rfl, k1⟩ := decl_instructions t (hd s (List.mem_cons_self ..)) h1
      rw [h1, Res.bind_ok] at h
      rw [k1, Res.bind_ok]
      cases h2 : visitBlock fo ⟨v, [sc1], u1⟩ ss with
      | err e => cases e
      | exn => rw [h2] at h; cases h
      | ub => rw [h2] at h; cases h
      | ok r =>
        obtain ⟨es', a2⟩ := r
        obtain ⟨sc2, u2, rfl, j1⟩ := ih (fun s hs => hd s (List.mem_cons_of_mem _ hs)) h2
        rw [h2] at h
        cases h
        exact ⟨_, _, rfl, by rw [j1]; rfl⟩

private theorem fits_kinds {vs : List (Value F)} {ts : List Ty} (h : Forall2 (fun v t => IsQubits v.node t.kind) vs ts) :
    Fits fo vs ts vs := by
  induction h with
  | nil => exact .nil
  | cons h1 _ ih => exact .cons (.same h1.1) ih

private theorem kinds_map {vs : List (Value F)} {ts : List Ty} (h : Forall2 (fun v t => IsQubits v.node t.kind) vs ts) :
    Forall2 (fun v k => IsQubits v.node k) vs (ts.map (·.kind)) := by
  induction h with
  | nil => exact .nil
  | cons h1 _ ih => exact .cons h1 ih

private theorem no_instructions (ss : List (Stmt F)) (hd : ∀ s ∈ ss, IsDecl s) : instructions ss = 0 := by
  induction ss with
  | nil => rfl
  | cons s ss ih =>
    have h1 := hd s (List.mem_cons_self ..)
    have h2 := ih fun s hs => hd s (List.mem_cons_of_mem _ hs)
    cases s with
    | var => exact h2
    | _ => exact h1.elim

/-- C37, what holds. An instruction registered under the name of a standard gate is usable: after any declarations, the
gate applied to qubits of the registered kinds is accepted and refers to the registered instruction. -/
theorem C37_overload_partial {v : Version} {a a1 : Analyzer F} (ha : Analyzer.default fo v = .ok a) {i : Instruction}
    (hreg : a.registerInstruction i = .ok a1) {p : ProgramAst F} (hs : ShapedProgram p)
    (hd : ∀ s ∈ p.block.statements, IsDecl s) {r : SProgram F} (h : Accepts fo a p r) {l l' : Option Loc} {n : Nat}
    {ks : List Kind} (hn : (i.name, n, ks) ∈ namedGates) {ps es : List (Expr F)} {pvs vs : List (Value F)}
    (hps : EvalParams fo (declared r) ps ks pvs) (hes : ∀ e ∈ es, ShapedExpr e) (hev : EvalAll fo (declared r) es vs)
    (hq : Forall2 (fun v t => IsQubits v.node t.kind) vs i.operandTypes)
    (hsame : ∀ v ∈ vs, ∀ w ∈ vs, elements v.node = elements w.node) :
    ∃ r', Accepts fo a1 (andThen p (.gate l [] (.mk l' [] i.name none ps) es)) r' ∧
      r'.block.statements = [.gate i (.mk i.name none pvs [] l') vs [] l] := by
  have hval := (accepts_valid ha hs h).1
  have hD := declared_ok ha hs h
  have hst := default_state ha
  subst hst
  have hts : r.block.statements = [] := by
    have := (exec_variables hval.2).2.2
    have hz := no_instructions _ hd
    rw [hz] at this
    exact List.length_eq_zero_iff.mp this
  have hb := visitBlock_of_exec v hval.2 ⟨[], none⟩ [] declsOk_nil
  simp only [List.length_nil, Nat.zero_add, List.append_nil, List.nil_append, hts] at hb
  simp only [Analyzer.registerInstruction, Analyzer.modifyCurrent, stateOf, Res.bind_ok] at hreg
  cases hreg
  obtain ⟨sc', u', e1, hb'⟩ := decls_instructions (InstrTable.add defaultInstrs i) _ hd hb
  rw [stateOf] at e1
  injection e1 with _ e1 e2
  injection e1 with e1 _
  subst e1 e2
  have henv := stateOf_env (fo := fo) hD v r.variables.length (blockAfter ⟨[], none⟩ []) r.variables
  have hg := visitGate_of_ok henv (g := .mk l' [] i.name none ps) (.named (as := []) (sas := []) (l := l') hn hps .nil)
  have hl := visitList_of_evalAll henv hev
  have hg' : visitGate fo [⟨(r.variables.map SVariable.link).reverse.map (fun x => (x.name, ⟨.variableRef x, none⟩)) ++ defaultVars fo,
      defaultFns fo, InstrTable.add defaultInstrs i, blockAfter ⟨[], none⟩ [], r.variables⟩] (.mk l' [] i.name none ps) =
      .ok ([], .ok (.mk i.name none pvs [] l')) := by
    rw [← hg]; refine visitGate_tables fo ?_ ?_ _ <;> rfl
  have hl' : visitList fo [⟨(r.variables.map SVariable.link).reverse.map (fun x => (x.name, ⟨.variableRef x, none⟩)) ++ defaultVars fo,
      defaultFns fo, InstrTable.add defaultInstrs i, blockAfter ⟨[], none⟩ [], r.variables⟩] es = .ok vs := by
    rw [← hl]; refine visitList_tables fo ?_ ?_ _ <;> rfl
  have hT : InstrTable.add defaultInstrs i = tableOf (instrRegs ++ [(i.name, i, i.operandTypes)]) := by
    rw [← tableOf_instrRegs]; simp [tableOf, InstrTable.add]
  have hgood : ∀ v ∈ vs, kindOf v.node ≠ none := by
    intro v hv
    obtain ⟨t, _, h1⟩ := forall2_left hq v hv
    rw [h1.1]; simp
  have hlast : LastFitting fo (instrRegs ++ [(i.name, i, i.operandTypes)]) i.name vs i vs :=
    ⟨instrRegs, _, [], rfl, fits_kinds hq, fun _ h => nomatch h⟩
  have hres : OverloadTable.resolve fo (InstrTable.add defaultInstrs i) i.name vs = .ok (i, vs) := by
    rw [hT]
    rcases resolve_spec fo (instrRegs ++ [(i.name, i, i.operandTypes)]) i.name vs hgood with ⟨t, ws, h1, h2⟩ | ⟨h1, _⟩
    · obtain ⟨rfl, rfl⟩ := lastFitting_det hlast h2
      exact h1
    · exact absurd ⟨_, fits_kinds hq⟩ (h1 (i.name, i, i.operandTypes) (by simp) rfl)
  have hq' := kinds_map hq
  have hck : checkGateInstruction vs = .ok () := by
    rcases checkGateInstruction_spec hD hev hq' with ⟨h1, _⟩ | ⟨_, _, _, h1⟩
    · exact h1
    · exact absurd hsame h1
  have hstep : visitBlock fo ⟨v, [⟨[] ++ defaultVars fo, defaultFns fo, InstrTable.add defaultInstrs i, ⟨[], none⟩, []⟩], 0⟩
      (p.block.statements ++ [.gate l [] (.mk l' [] i.name none ps) es]) =
      .ok ([], ⟨v, [⟨(declared r).map (fun x => (x.name, ⟨.variableRef x, none⟩)) ++ defaultVars fo, defaultFns fo,
        InstrTable.add defaultInstrs i, addTo ⟨[], none⟩ (.gate i (.mk i.name none pvs [] l') vs [] l), r.variables⟩],
        r.variables.length⟩) := by
    rw [visitBlock_append]
    simp only [List.map_nil] at hb'
    rw [hb', Res.bind_ok]
    rw [visitBlock, visitStatement, visitGateInstruction]
    dsimp only
    rw [hg', Res.bind_ok]
    dsimp only
    rw [hl', Res.bind_ok]
    simp only [gateResolutionName, Analyzer.resolveInstruction, hres, Res.bind_ok, hck, visitAnnotations,
      Analyzer.addStatement, Analyzer.modifyCurrent, catchInto, after_ok, visitBlock, declared_eq, blockAfter]
    simp [addTo]
  have hw : SProgram.wellFormed (F := F) ⟨v, ⟨p.version.items, p.version.loc⟩,
      addTo ⟨[], none⟩ (.gate i (.mk i.name none pvs [] l') vs [] l), r.variables⟩ = true := by
    have hx := exec_refIn hval.2 hs
    simp only [List.append_nil] at hx
    simp only [SProgram.wellFormed, SProgram.values, List.all_eq_true, List.mem_append, List.mem_flatMap]
    rintro x (⟨t, ht, hx'⟩ | ⟨y, hy, hx'⟩)
    · have : t = .gate i (.mk i.name none pvs [] l') vs [] l := by simpa [addTo] using ht
      subst this
      apply valueOk_of_refIn
      simp only [SProgram.statementValues, SProgram.gateValues, SProgram.annotationValues, List.nil_append, List.flatMap_nil,
        List.append_nil, List.mem_append] at hx'
      rcases hx' with hx' | hx'
      · exact evalParams_refIn hps x hx'
      · exact evalAll_refIn hes hev x hx'
    · exact valueOk_of_refIn (hx.2 y hy x hx')
  refine ⟨⟨v, ⟨p.version.items, p.version.loc⟩, addTo ⟨[], none⟩ (.gate i (.mk i.name none pvs [] l') vs [] l), r.variables⟩,
    ⟨⟨v, [⟨(declared r).map (fun x => (x.name, ⟨.variableRef x, none⟩)) ++ defaultVars fo, defaultFns fo,
      InstrTable.add defaultInstrs i, addTo ⟨[], none⟩ (.gate i (.mk i.name none pvs [] l') vs [] l), r.variables⟩],
      r.variables.length⟩, ?_⟩, rfl⟩
  unfold analyze visitProgram
  rw [show (andThen p (.gate l [] (.mk l' [] i.name none ps) es)).block.statements = p.block.statements ++ [_] from rfl]
  simp only [List.map_nil]
  rw [hstep]
  dsimp only [Res.bind_ok]
  rw [show (andThen p (.gate l [] (.mk l' [] i.name none ps) es)).version = p.version from rfl, visitVersion_of_ok hval.1]
  simp [hw]

/-! ## Examples -/

-- a program with a declaration is accepted once, and rejected the second time
example : (match Analyzer.default Sample.fo [3, 0] with
    | .ok a => match analyze Sample.fo a (Sample.program [Sample.qubits c!"q" 2]) with
      | .ok (a', ⟨some r, []⟩) => !r.variables.isEmpty && match analyze Sample.fo a' (Sample.program [Sample.qubits c!"q" 2]) with
        | .ok (_, ⟨_, es⟩) => es.length == 1
        | _ => false
      | _ => false
    | _ => false) = true := by decide +kernel
-- the instruction `X` registered for two qubits, used after a declaration
example : (match Analyzer.default Sample.fo [3, 0] with
    | .ok a => match a.registerInstruction ⟨c!"X", [.bare .qubit, .bare .qubit]⟩ with
      | .ok a1 => match analyze Sample.fo a1 (Sample.program [Sample.qubits c!"q" 2,
          Sample.gate c!"X" [] [Sample.at_ c!"q" 0, Sample.at_ c!"q" 1]]) with
        | .ok (_, ⟨some r, []⟩) => r.block.statements.length == 1
        | _ => false
      | _ => false
    | _ => false) = true := by decide +kernel
-- the same with the name `foo` is rejected
example : (∀ n ks, (c!"foo", n, ks) ∉ namedGates) ∧ c!"foo" ∉ modifiers ∧ c!"foo" ∉ nonGates := by
  refine ⟨fun n ks h => ?_, by decide, by decide⟩
  have : ∀ e ∈ namedGates, e.1 ≠ c!"foo" := by decide
  exact this _ h rfl
-- programs without declarations
example : ∀ s ∈ (Sample.program [Sample.gate c!"X" [] [Sample.name c!"q"]]).block.statements, ¬ IsDecl s := by
  simp [Sample.program, Sample.gate, IsDecl]

end Qasm
