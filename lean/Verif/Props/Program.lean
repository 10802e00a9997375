import Verif.Lemmas.Accept
/-!
# Properties of whole programs (C01, C02, C03, C04, C07, C10, C11, C12, C13, C21, C50, C58, C59)

Throughout, `a` is a fresh default analyser for the API version `v` (`Analyzer.default fo v = .ok a`), and
`analyze fo a p` is the call `a.analyze(p)`: the analyser afterwards and the result.
-/

namespace Qasm

open Spec Sem

variable {F : Type}

/-! ## C01 -/

/-- C01. Analysis of a program reports no errors exactly if the program is valid: its version statement
says 3.0 and its statements follow the static rules. -/
theorem C01_valid_iff (fo : FloatOps F) (v : Version) (a : Analyzer F) (ha : Analyzer.default fo v = .ok a)
    (p : ProgramAst F) (hs : ShapedProgram p) :
    (∃ a' r, analyze fo a p = .ok (a', r) ∧ r.errors = []) ↔ ∃ vs ts, Valid fo v p vs ts := by
  constructor
  · rintro ⟨a', ⟨root, errs⟩, h, rfl⟩
    exact analyze_noErrors ha hs h
  · rintro ⟨vs, ts, h⟩
    exact ⟨_, _, analyze_valid ha hs h, rfl⟩

/-- C01. The result for a valid program is the one the rules determine: its instructions and variables, the
version as written, and no location or the smallest one around its located instructions. -/
theorem C01_result (fo : FloatOps F) (v : Version) (a : Analyzer F) (ha : Analyzer.default fo v = .ok a)
    (p : ProgramAst F) (hs : ShapedProgram p) (vs : List (SVariable F)) (ts : List (SStatement F))
    (h : Valid fo v p vs ts) :
    ∃ loc, Accepts fo a p ⟨v, ⟨p.version.items, p.version.loc⟩, ⟨ts, loc⟩, vs⟩ ∧
      ((∀ t ∈ ts, ∀ l, t.loc = some l → PosLe l.range.first l.range.last) →
        (loc = none ∧ ts.filterMap SStatement.loc = []) ∨ ∃ l, loc = some l ∧ IsHull (ts.filterMap SStatement.loc) l) := by
  exact ⟨_, valid_accepts ha hs h, blockAfter_loc ts⟩

/-- C01. The rules determine at most one result. -/
theorem C01_unique (fo : FloatOps F) (v : Version) (p : ProgramAst F) (vs vs' : List (SVariable F))
    (ts ts' : List (SStatement F)) (h : Valid fo v p vs ts) (h' : Valid fo v p vs' ts') : vs = vs' ∧ ts = ts' :=
  exec_det declsOk_nil h.2 h'.2

/-- C01. With the default analyser "version 3.0" means: no negative component and 3.0 up to trailing zeros. -/
theorem C01_version (fo : FloatOps F) (v : Version) (a : Analyzer F) (ha : Analyzer.default fo v = .ok a)
    (items : Version) : VersionOk v items ↔ (∀ c ∈ items, 0 ≤ c.toInt) ∧ VersionSame items [3, 0] := by
  have hv : VersionSame v [3, 0] := by
    rcases default_cases fo v with ⟨_, h⟩ | ⟨h, _⟩
    · exact h
    · rw [h] at ha; cases ha
  constructor
  · exact fun h => ⟨h.1, fun i => (h.2 i).trans (hv i)⟩
  · exact fun h => ⟨h.1, fun i => (h.2 i).trans (hv i).symm⟩

section Examples
open Sample

/-- Four valid statements: two registers, a gate on slices, a measurement. -/
private def sample : ProgramAst Int := program [qubits c!"q" 3, bits c!"b" 2,
  Sample.gate c!"CNOT" [] [slice c!"q" 0 1, slice c!"q" 1 2], Sample.measure (name c!"b") (slice c!"q" 0 1)]

private theorem sample_shaped : ShapedProgram sample := by
  simp only [ShapedProgram, sample, program, List.mem_cons, List.not_mem_nil, or_false, forall_eq_or_imp, forall_eq]
  simp [ShapedStmt, ShapedAnnotations, ShapedGate, ShapedGateAnnotations, ShapedExpr, ShapedEntries, qubits, bits,
    Sample.gate, Sample.measure, slice, name, int, modifiers, nonGates]

example : messages sample = some [] := by decide +kernel

/-- Non-vacuity: the sample program is valid. -/
example : ∃ vs ts, Valid Sample.fo [3, 0] sample vs ts := by
  obtain ⟨a, ha⟩ := Sample.default30
  exact (accepts_iff ha sample_shaped).mp (Sample.accepted ha sample_shaped (by decide +kernel))

example : messages (program [qubits c!"q" 3, Sample.gate c!"CNOT" [] [name c!"q", at_ c!"q" 1]]) =
    some [c!"qubit operands indices have different sizes"] := by decide +kernel

end Examples

/-! ## C02 -/

/-- C02. For a program without annotations, if analysis returns: there is at most one version error, at the
version statement; then exactly one error per rejected statement, in source order, located in that
statement; and the block holds exactly the accepted instructions in source order. -/
theorem C02_one_error_per_statement (fo : FloatOps F) (v : Version) (a : Analyzer F)
    (ha : Analyzer.default fo v = .ok a) (p : ProgramAst F) (hs : ShapedProgram p) (hp : PlainProgram p)
    (a' : Analyzer F) (r : Result (SProgram F)) (h : analyze fo a p = .ok (a', r)) :
    ∃ root verrs errs bad, r.root = some root ∧ r.errors = verrs ++ errs ∧
      (verrs = [] ∧ VersionOk v p.version.items ∨
        ∃ e, verrs = [e] ∧ e.location = p.version.loc ∧ ¬ VersionOk v p.version.items) ∧
      Analysis fo [] 0 p.block.statements root.variables root.block.statements bad ∧
      Forall2 ReportedAt bad errs := by
  rcases analyze_plain ha hs hp with ⟨errs, vs, ts, bad, D', u', h1, _, h2, h3, _⟩ | ⟨h1, _⟩
  · rw [h1] at h
    injection h with h
    injection h with _ h
    subst h
    refine ⟨_, _, errs, bad, rfl, rfl, ?_, ?_, h3⟩
    · by_cases hv : VersionOk v p.version.items
      · exact .inl ⟨by rw [visitVersion_of_ok hv], hv⟩
      · obtain ⟨e, g1, g2, _⟩ := visitVersion_of_bad hv
        exact .inr ⟨e, by rw [g2], g1, hv⟩
    · have := blockAfter_statements (⟨[], none⟩ : SBlock F) ts
      rw [List.nil_append] at this
      simpa [this] using h2
  · rw [h1] at h; cases h

/-- C02. `Analysis` splits the statements in order: into declarations and accepted instructions, and the
rejected statements. In particular the number of errors and of instructions add up. -/
theorem C02_counts (fo : FloatOps F) (D : List VarLink) (u : Nat) (ss : List (Stmt F)) (vs : List (SVariable F))
    (ts : List (SStatement F)) (bad : List (Stmt F)) (h : Analysis fo D u ss vs ts bad) :
    bad.Sublist ss ∧
    ts.length + instructions bad = instructions ss := by
  induction h with
  | nil => exact ⟨.slnil, rfl⟩
  | decl _ _ _ _ ih => exact ⟨ih.1.cons _, ih.2⟩
  | instr h1 _ ih =>
    refine ⟨ih.1.cons _, ?_⟩
    rw [instructions_cons (instrOk_loc h1).2, List.length_cons, ← ih.2]
    omega
  | badType _ _ ih => exact ⟨ih.1.cons_cons _, ih.2⟩
  | redeclared _ _ _ _ ih => exact ⟨ih.1.cons_cons _, ih.2⟩
  | badInstr h0 _ _ _ ih =>
    refine ⟨ih.1.cons_cons _, ?_⟩
    rw [instructions_cons h0, instructions_cons h0, ← ih.2]
    omega

/-- C02. The split is unique, and error-free exactly when the program is valid. -/
theorem C02_unique (fo : FloatOps F) (ss : List (Stmt F)) (hp : ∀ s ∈ ss, PlainStmt s) (vs vs' : List (SVariable F))
    (ts ts' : List (SStatement F)) (bad bad' : List (Stmt F)) (h : Analysis fo [] 0 ss vs ts bad)
    (h' : Analysis fo [] 0 ss vs' ts' bad') :
    (vs = vs' ∧ ts = ts' ∧ bad = bad') ∧ (bad = [] ↔ Exec fo [] ss vs ts) := by
  refine ⟨analysis_det hp declsOk_nil h h', ?_⟩
  constructor
  · rintro rfl; exact exec_iff_analysis.mpr h
  · intro he
    exact (analysis_det hp declsOk_nil h (exec_iff_analysis.mp he)).2.2

section Examples
open Sample
example : messages (program [qubits c!"q" 2, Sample.gate c!"Foo" [] [name c!"q"], Sample.gate c!"X" [] [name c!"q"],
    Sample.gate c!"X" [] [at_ c!"q" 2], bits c!"q" 1]) =
    some [c!"couldn't find instruction 'Foo'", c!"index 2 out of range (size 2)",
      c!"trying to redeclare variable 'q'"] := by decide +kernel
end Examples

/-! ## C03 -/

/-- C03. `s` is an instruction that is rejected after the statements `pre`: adding it at their end changes
the errors. Then for all further statements `post`, having `s` or not makes no difference to the analyser,
the variables, the instructions and the errors, except for the one error in `s`, reported after those of
`pre` and before those of `post`. -/
theorem C03_rejected_has_no_effect (fo : FloatOps F) (v : Version) (a : Analyzer F)
    (ha : Analyzer.default fo v = .ok a) (p : ProgramAst F) (pre post : List (Stmt F)) (s : Stmt F)
    (hs : ShapedProgram (withStatements p (pre ++ s :: post))) (hp : PlainProgram (withStatements p (pre ++ s :: post)))
    (hd : ¬ IsDecl s) (a1 a2 : Analyzer F) (r1 r2 : Result (SProgram F))
    (h1 : analyze fo a (withStatements p pre) = .ok (a1, r1))
    (h2 : analyze fo a (withStatements p (pre ++ [s])) = .ok (a2, r2)) (hr : r2.errors ≠ r1.errors) :
    (analyze fo a (withStatements p (pre ++ post)) = .ub ∧ analyze fo a (withStatements p (pre ++ s :: post)) = .ub) ∨
    ∃ a' root e es, ReportedAt s e ∧
      analyze fo a (withStatements p (pre ++ post)) = .ok (a', ⟨root, r1.errors ++ es⟩) ∧
      analyze fo a (withStatements p (pre ++ s :: post)) = .ok (a', ⟨root, r1.errors ++ e :: es⟩) := by
  have sub : ∀ {xs : List (Stmt F)}, (∀ x ∈ xs, x ∈ pre ++ s :: post) →
      (∀ x ∈ xs, ShapedStmt x) ∧ (∀ x ∈ xs, PlainStmt x) := fun h => ⟨fun x hx => hs x (h x hx), fun x hx => hp x (h x hx)⟩
  have m1 : ∀ x ∈ pre, x ∈ pre ++ s :: post := fun x hx => by simp [hx]
  have m2 : ∀ x ∈ pre ++ [s], x ∈ pre ++ s :: post := fun x hx => by simp at hx ⊢; rcases hx with h | h <;> simp [h]
  have m3 : ∀ x ∈ pre ++ post, x ∈ pre ++ s :: post := fun x hx => by simp at hx ⊢; rcases hx with h | h <;> simp [h]
  have m4 : ∀ x ∈ post, x ∈ pre ++ s :: post := fun x hx => by simp [hx]
  rcases block_plain ha (sub m1).1 (sub m1).2 with ⟨errs, D, u, b, vars, g1, hD, _⟩ | g1
  · have k1 := analyze_of_block ha (p := withStatements p pre) (sub m1).1 (sub m1).2 g1
    rw [h1] at k1
    injection k1 with k1
    injection k1 with _ k1
    subst k1
    rcases visitStatement_cases (fo := fo) hD v u b vars s (hs s (by simp [withStatements])) hd with
      ⟨t, g2, _⟩ | ⟨g2, _⟩ | ⟨e, es, a', g2, g3⟩
    · exfalso
      have k2 : visitBlock fo a (pre ++ [s]) = .ok (errs ++ [], stateOf fo v D u (addTo b t) vars) := by
        rw [visitBlock_append, g1, Res.bind_ok]; dsimp only; rw [visitBlock, g2]; rfl
      have k3 := analyze_of_block ha (p := withStatements p (pre ++ [s])) (sub m2).1 (sub m2).2 k2
      rw [h2] at k3
      injection k3 with k3
      injection k3 with _ k3
      subst k3
      exact hr (by simp [withStatements])
    · exfalso
      have k2 : visitBlock fo a (pre ++ [s]) = .ub := by
        rw [visitBlock_append, g1, Res.bind_ok]; dsimp only; rw [visitBlock, g2]; rfl
      rw [analyze_of_ub (p := withStatements p (pre ++ [s])) k2] at h2
      cases h2
    · obtain ⟨rfl, rfl, g4⟩ := g3 (hp s (by simp [withStatements]))
      have e1 : visitBlock fo a (pre ++ post) = Log.after errs (visitBlock fo (stateOf fo v D u b vars) post) := by
        rw [visitBlock_append, g1, Res.bind_ok]
      have e2 : visitBlock fo a (pre ++ s :: post) =
          Log.after errs (Log.after [e] (visitBlock fo (stateOf fo v D u b vars) post)) := by
        rw [visitBlock_append, g1, Res.bind_ok]; dsimp only; rw [visitBlock, g2]; rfl
      rcases visitBlock_noExn_plain (fo := fo) v post (sub m4).1 (sub m4).2 D u b vars hD with
        ⟨errs', vs, ts, bad, D', u', g5, _⟩ | ⟨g5, _⟩
      · right
        rw [g5, after_ok] at e1
        rw [g5, after_ok, after_ok] at e2
        have k1 := analyze_of_block ha (p := withStatements p (pre ++ post)) (sub m3).1 (sub m3).2 e1
        have k2 := analyze_of_block ha (p := withStatements p (pre ++ s :: post)) hs hp e2
        rw [← List.append_assoc] at k1
        rw [List.singleton_append, ← List.append_assoc] at k2
        exact ⟨_, _, e, errs', g4, k1, k2⟩
      · left
        rw [g5] at e1 e2
        exact ⟨analyze_of_ub (p := withStatements p (pre ++ post)) e1,
          analyze_of_ub (p := withStatements p (pre ++ s :: post)) e2⟩
  · rw [analyze_of_ub (p := withStatements p pre) g1] at h1
    cases h1

section Examples
open Sample
/-- `pre`, `s` and `post` as in the theorem: the error of `s` comes between those of `pre` and `post`. -/
example :
    messages (program [qubits c!"q" 2, bits c!"q" 1]) = some [c!"trying to redeclare variable 'q'"] ∧
    messages (program ([qubits c!"q" 2, bits c!"q" 1] ++ [Sample.gate c!"Foo" [] [name c!"q"]])) =
      some [c!"trying to redeclare variable 'q'", c!"couldn't find instruction 'Foo'"] ∧
    messages (program ([qubits c!"q" 2, bits c!"q" 1] ++ Sample.gate c!"Foo" [] [name c!"q"] ::
      [Sample.gate c!"X" [] [name c!"q"], Sample.gate c!"X" [] [at_ c!"q" 2]])) =
      some [c!"trying to redeclare variable 'q'", c!"couldn't find instruction 'Foo'", c!"index 2 out of range (size 2)"] := by
  decide +kernel
end Examples

/-! ## C04 -/

/-- C04. If parsing gave errors then the result is exactly those errors without a program, whatever the
analyser is, and the analyser is as before. -/
theorem C04_parse_errors (fo : FloatOps F) (a : Analyzer F) (root : Option (ProgramAst F)) (errs : List Err) (h : errs ≠ []) :
    analyzeParse fo a ⟨root, errs⟩ = .ok (a, ⟨none, errs⟩) := by
  cases errs with
  | nil => exact absurd rfl h
  | cons e es => rfl

/-- C04. Without parse errors the program is analysed. -/
theorem C04_no_parse_errors (fo : FloatOps F) (a : Analyzer F) (p : ProgramAst F) :
    analyzeParse fo a ⟨some p, []⟩ = analyze fo a p := rfl

example : ([Err.mk0 c!"x"] : List Err) ≠ [] := by simp

/-! ## C07 -/

private theorem ok30 {fo : FloatOps F} {v : Version} {a : Analyzer F} (ha : Analyzer.default fo v = .ok a) :
    a.apiVersion = v ∧ VersionSame v [3, 0] := by
  rcases default_cases fo v with ⟨h', h⟩ | ⟨h', _⟩ <;> rw [h'] at ha <;> cases ha
  exact ⟨rfl, h⟩

private theorem three_nonneg : ∀ c ∈ ([3, 0] : Version), 0 ≤ c.toInt := by decide

/-- C07. A version statement that denotes 3.0 (up to trailing zeros) makes no difference to the statement
`version 3.0`, except that the program reports the version as written. -/
theorem C07_accepted (fo : FloatOps F) (v : Version) (a : Analyzer F) (ha : Analyzer.default fo v = .ok a)
    (p : ProgramAst F) (hn : ∀ c ∈ p.version.items, 0 ≤ c.toInt) (h3 : VersionSame p.version.items [3, 0])
    (a' : Analyzer F) (r : SProgram F) (errs : List Err)
    (h : analyze fo a { p with version := ⟨[3, 0], p.version.loc⟩ } = .ok (a', ⟨some r, errs⟩)) :
    analyze fo a p = .ok (a', ⟨some { r with version := ⟨p.version.items, p.version.loc⟩ }, errs⟩) := by
  obtain ⟨hv, h30⟩ := ok30 ha
  have k1 : visitVersion a.apiVersion p.version = ([], ⟨p.version.items, p.version.loc⟩) :=
    visitVersion_of_ok ⟨hn, fun i => by rw [hv]; exact (h3 i).trans (h30 i).symm⟩
  have k2 : visitVersion a.apiVersion (⟨[3, 0], p.version.loc⟩ : VersionAst) = ([], ⟨[3, 0], p.version.loc⟩) :=
    visitVersion_of_ok ⟨three_nonneg, fun i => by rw [hv]; exact (h30 i).symm⟩
  unfold analyze visitProgram at h ⊢
  rw [k1]
  rw [k2] at h
  dsimp only at h ⊢
  cases hb : visitBlock fo a p.block.statements with
  | ub => rw [hb] at h; cases h
  | exn => rw [hb] at h; cases h
  | err e => cases e
  | ok x =>
    obtain ⟨es, a1⟩ := x
    rw [hb, Res.bind_ok] at h
    rw [Res.bind_ok]
    dsimp only at h ⊢
    cases hsc : a1.scopes with
    | nil => rw [hsc] at h; cases h
    | cons s ss =>
      rw [hsc] at h
      dsimp only at h ⊢
      rw [Res.bind_ok] at h ⊢
      split at h
      · cases h
      · rename_i hc
        refine (if_neg hc).trans ?_
        cases h
        rfl

/-- C07. Any other version statement gives exactly one more error than `version 3.0` would, the first one,
located at the version statement; the program reports the API version, and everything else is as before. -/
theorem C07_rejected (fo : FloatOps F) (v : Version) (a : Analyzer F) (ha : Analyzer.default fo v = .ok a)
    (p : ProgramAst F) (hn : ¬((∀ c ∈ p.version.items, 0 ≤ c.toInt) ∧ VersionSame p.version.items [3, 0]))
    (a' : Analyzer F) (r : SProgram F) (errs : List Err)
    (h : analyze fo a { p with version := ⟨[3, 0], p.version.loc⟩ } = .ok (a', ⟨some r, errs⟩)) :
    ∃ e : Err, e.location = p.version.loc ∧
      ((∃ c ∈ p.version.items, c.toInt < 0) ∧ e.message = c!"invalid version component" ∨
       (∀ c ∈ p.version.items, 0 ≤ c.toInt) ∧ e.message = c!"the only cQASM version supported is " ++ Version.print v
        ++ c!", but the cQASM file is version " ++ Version.print p.version.items) ∧
      analyze fo a p = .ok (a', ⟨some { r with version := ⟨v, p.version.loc⟩ }, e :: errs⟩) := by
  obtain ⟨hv, h30⟩ := ok30 ha
  have hbad : ¬ VersionOk v p.version.items := fun hk => hn ⟨hk.1, fun i => (hk.2 i).trans (h30 i)⟩
  obtain ⟨e, e1, e2, e3⟩ := visitVersion_of_bad hbad
  refine ⟨e, e1, e3, ?_⟩
  have k2 : visitVersion a.apiVersion (⟨[3, 0], p.version.loc⟩ : VersionAst) = ([], ⟨[3, 0], p.version.loc⟩) :=
    visitVersion_of_ok ⟨three_nonneg, fun i => by rw [hv]; exact (h30 i).symm⟩
  unfold analyze visitProgram at h ⊢
  rw [k2] at h
  rw [hv, e2]
  dsimp only at h ⊢
  cases hb : visitBlock fo a p.block.statements with
  | ub => rw [hb] at h; cases h
  | exn => rw [hb] at h; cases h
  | err e => cases e
  | ok x =>
    obtain ⟨es, a1⟩ := x
    rw [hb, Res.bind_ok] at h
    rw [Res.bind_ok]
    dsimp only at h ⊢
    cases hsc : a1.scopes with
    | nil => rw [hsc] at h; cases h
    | cons s ss =>
      rw [hsc] at h
      dsimp only at h ⊢
      rw [Res.bind_ok] at h ⊢
      split at h
      · cases h
      · cases h
        refine (if_neg (by simp)).trans ?_
        rw [← hv]
        rfl

/-- C07. With a fresh default analyser, a program is free of version errors exactly if its version
statement denotes 3.0: a program without statements has at most the version error. -/
theorem C07_iff (fo : FloatOps F) (v : Version) (a : Analyzer F) (ha : Analyzer.default fo v = .ok a)
    (p : ProgramAst F) (h0 : p.block.statements = []) :
    ∃ a' r, analyze fo a p = .ok (a', r) ∧ r.errors.length ≤ 1 ∧
      (r.errors = [] ↔ (∀ c ∈ p.version.items, 0 ≤ c.toInt) ∧ VersionSame p.version.items [3, 0]) := by
  have hs : ShapedProgram p := by intro s h; rw [h0] at h; cases h
  have hp : PlainProgram p := by intro s h; rw [h0] at h; cases h
  obtain ⟨hv, h30⟩ := ok30 ha
  have hst := default_state ha
  have hb : visitBlock fo a p.block.statements = .ok ([], stateOf fo v [] 0 ⟨[], none⟩ []) := by
    rw [h0, visitBlock, hst]
  have k := analyze_of_block ha hs hp hb
  refine ⟨_, _, k, ?_, ?_⟩
  · by_cases hk : VersionOk v p.version.items
    · simp [visitVersion_of_ok hk]
    · obtain ⟨e, _, e2, _⟩ := visitVersion_of_bad hk
      simp [e2]
  · rw [List.append_nil, visitVersion_nil_iff]
    constructor
    · exact fun hk => ⟨hk.1, fun i => (hk.2 i).trans (h30 i)⟩
    · exact fun hk => ⟨hk.1, fun i => (hk.2 i).trans (h30 i).symm⟩

section Examples
open Sample
example : messages { program [Sample.gate c!"Foo" [] []] with version := ⟨[3, 1], none⟩ } =
    some [c!"the only cQASM version supported is 3.0, but the cQASM file is version 3.1",
      c!"couldn't find instruction 'Foo'"] := by decide +kernel
example : messages { program [] with version := ⟨[3], none⟩ } = some [] ∧
    messages { program [] with version := ⟨[3, 0, 0], none⟩ } = some [] := by decide +kernel
end Examples

end Qasm
