import Verif.Props.FailsIn
/-!
# Analyses that return and analyses that do not (C114)

The rules for analyses that return and those for analyses that end in another way exclude each other.
-/

namespace Qasm

open Spec Sem Analyzer

variable {F : Type} {fo : FloatOps F} {v : Version}

theorem instrIn_decl {ls : List (Level F)} {s : Stmt F} {t : SStatement F} (h : InstrIn fo ls s t) : ¬ IsDecl s := by
  cases h <;> exact id

private theorem instrIn_noStop {r : Level F} {ls : List (Level F)} {s : Stmt F} (hs : ShapedStmt s) (hp : PlainStmt s)
    {t : SStatement F} (h : InstrIn fo (r :: ls) s t) : ¬∃ o, InstrStops fo (r :: ls) s o := by
  rcases C116_instruction fo r ls hs hp (instrIn_decl h) with ⟨_, _, _, _, h'⟩ | ⟨_, _, _, h', _⟩ | ⟨_, _, _, h', _⟩
  · exact h'
  · exact absurd ⟨t, h⟩ h'
  · exact absurd ⟨t, h⟩ h'

private theorem instrFails_noStop {r : Level F} {ls : List (Level F)} {s : Stmt F} (hs : ShapedStmt s) (hp : PlainStmt s)
    (hd : ¬ IsDecl s) {e : Err} (h : InstrFailsIn fo (r :: ls) s e) : ¬∃ o, InstrStops fo (r :: ls) s o := by
  rcases C116_instruction fo r ls hs hp hd with ⟨_, _, _, h', _⟩ | ⟨_, _, _, _, h', _⟩ | ⟨_, _, _, _, h'⟩
  · exact absurd ⟨e, h⟩ h'
  · exact h'
  · exact absurd ⟨e, h⟩ h'

/-- C114. Statements for which the rules have a result do not end the analysis. -/
theorem C114_block {ls : List (Level F)} {r r' : Level F} {u : Nat} {ss : List (Stmt F)} (hs : ∀ s ∈ ss, ShapedStmt s)
    (hp : ∀ s ∈ ss, PlainStmt s) {vs : List (SVariable F)} {ts : List (SStatement F)} {bad : List (Stmt F × Err)}
    (h : AnalysisIn fo ls r u ss vs ts bad r') : ¬∃ o, BlockStops fo ls r u ss o := by
  induction h with
  | nil => rintro ⟨o, h⟩; cases h
  | decl h1 h2 _ ih =>
    have ih := ih (fun s h => hs s (List.mem_cons_of_mem _ h)) fun s h => hp s (List.mem_cons_of_mem _ h)
    rintro ⟨o, h⟩
    cases h with
    | here h => cases h
    | decl h4 _ h5 => cases typeOk_det h1 h4; exact ih ⟨_, h5⟩
    | badType h4 => exact h4 ⟨_, h1⟩
    | redeclared _ h4 => exact h2 h4
    | later h4 => exact h4 trivial
  | instr h1 _ ih =>
    have ih := ih (fun s h => hs s (List.mem_cons_of_mem _ h)) fun s h => hp s (List.mem_cons_of_mem _ h)
    have hd := instrIn_decl h1
    rintro ⟨o, h⟩
    cases h with
    | here h => exact instrIn_noStop (hs _ (List.mem_cons_self ..)) (hp _ (List.mem_cons_self ..)) h1 ⟨_, h⟩
    | decl => exact hd trivial
    | badType => exact hd trivial
    | redeclared => exact hd trivial
    | later _ _ h => exact ih ⟨_, h⟩
  | badType h1 _ _ ih =>
    have ih := ih (fun s h => hs s (List.mem_cons_of_mem _ h)) fun s h => hp s (List.mem_cons_of_mem _ h)
    rintro ⟨o, h⟩
    cases h with
    | here h => cases h
    | decl h4 => exact h1 ⟨_, h4⟩
    | badType _ h => exact ih ⟨_, h⟩
    | redeclared h4 => exact h1 ⟨_, h4⟩
    | later h4 => exact h4 trivial
  | redeclared h1 h2 _ ih =>
    have ih := ih (fun s h => hs s (List.mem_cons_of_mem _ h)) fun s h => hp s (List.mem_cons_of_mem _ h)
    rintro ⟨o, h⟩
    cases h with
    | here h => cases h
    | decl _ h4 => exact h4 h2
    | badType h4 => exact h4 ⟨_, h1⟩
    | redeclared _ _ h => exact ih ⟨_, h⟩
    | later h4 => exact h4 trivial
  | badInstr h1 h2 h3 _ ih =>
    have ih := ih (fun s h => hs s (List.mem_cons_of_mem _ h)) fun s h => hp s (List.mem_cons_of_mem _ h)
    rintro ⟨o, h⟩
    cases h with
    | here h => exact instrFails_noStop (hs _ (List.mem_cons_self ..)) (hp _ (List.mem_cons_self ..)) h1 h3.1 ⟨_, h⟩
    | decl => exact h1 trivial
    | badType => exact h1 trivial
    | redeclared => exact h1 trivial
    | later _ _ h => exact ih ⟨_, h⟩

/-- C114. The rules for analyses that return and those for analyses that end in another way exclude each other. -/
theorem C114_exclusive {m m' : Memory F} {p : ProgramAst F} (hs : ShapedProgram p) (hp : PlainProgram p)
    {r : Result (SProgram F)} (h : AnalysedIn fo v m p r m') : ¬∃ o, ProgramStops fo v m p o := by
  obtain ⟨f, fs, l, vs, ts, bad, verrs, h1, h2, _, h4, h5, _, h7⟩ := h
  rintro ⟨o, h⟩
  cases h with
  | block h8 h9 =>
    rw [h1] at h8; cases h8
    exact C114_block hs hp h2 ⟨_, h9⟩
  | notClosed h8 h9 h10 h11 =>
    have e : m.levels = f.level :: fs.map (·.level) := by unfold Memory.levels; rw [h1]; rfl
    rw [h1] at h8; cases h8
    rw [e] at h10
    obtain ⟨r', h12⟩ := (C113_valid hp).2 h10
    obtain ⟨rfl, rfl, rfl, _⟩ := C113_unique hs hp h2 h12
    refine h11 (h7 ?_)
    rw [h4, ← (versionErrors_iff v p.version verrs).1 h5, visitVersion_of_ok h9]
    rfl
  | noScope h8 => rw [h1] at h8; cases h8

/-- C114. The analysis returns, with the result that the rules give, or ends as they say: exactly one of these. -/
theorem C114_either (fo : FloatOps F) (v : Version) (m : Memory F) {p : ProgramAst F} (hs : ShapedProgram p) (hp : PlainProgram p) :
    (∃ r m', AnalysedIn fo v m p r m') ↔ ¬∃ o, ProgramStops fo v m p o := by
  refine ⟨fun ⟨r, m', h⟩ => C114_exclusive hs hp h, fun h => ?_⟩
  obtain ⟨a, ha⟩ := some_analyzer v m
  rcases Stop.cases (analyze fo a p) with ⟨⟨b, r⟩, h1⟩ | ⟨e, _⟩ | ⟨o, h1⟩
  · obtain ⟨m', h2, _⟩ := keeps_analyze ha hs hp h1
    exact ⟨r, m', h2⟩
  · exact e.elim
  · exact absurd ⟨o, (analyze_stop ha hs hp o).1 h1⟩ h

/-- C114. An analyser that keeps `m` gives the result that the rules give, if they give one. -/
theorem C114_result {a : Analyzer F} {m m' : Memory F} (ha : Keeps v a m) {p : ProgramAst F} (hs : ShapedProgram p)
    (hp : PlainProgram p) {r : Result (SProgram F)} (h : AnalysedIn fo v m p r m') :
    ∃ b r', analyze fo a p = .ok (b, r') ∧ AnalysedIn fo v m p r' m' ∧ Keeps v b m' ∧ r'.errors = r.errors := by
  rcases Stop.cases (analyze fo a p) with ⟨⟨b, r'⟩, h1⟩ | ⟨e, _⟩ | ⟨o, h1⟩
  · obtain ⟨m1, h2, h3⟩ := keeps_analyze ha hs hp h1
    obtain ⟨rfl, h5⟩ := C113_determined (es := [.analyze p]) (fun q h => by cases List.mem_singleton.1 h; exact ⟨hs, hp⟩)
      (.analyze h .nil) (.analyze h2 .nil)
    cases h5 with
    | cons h5 _ => exact ⟨b, r', h1, h2, h3, h5.1.symm⟩
  · exact e.elim
  · exact absurd ⟨o, (analyze_stop ha hs hp o).1 h1⟩ (C114_exclusive hs hp h)

/-- C114. Conversely, if the rules have a result for the statements, the analysis of the program returns it, unless there are no
errors and a value in the tree is not in order. -/
theorem C114_analysed {m : Memory F} {f : Frame F} {fs : List (Frame F)} (hm : m.frames = f :: fs) {p : ProgramAst F}
    (hs : ShapedProgram p) (hp : PlainProgram p) {vs : List (SVariable F)} {ts : List (SStatement F)} {bad : List (Stmt F × Err)}
    {l : Level F} (h : AnalysisIn fo (fs.map (·.level)) f.level m.count p.block.statements vs ts bad l)
    (hc : VersionOk v p.version.items → bad = [] → ClosedProgram (f.variables ++ vs) (f.statements ++ ts)) :
    ∃ r verrs, AnalysedIn fo v m p r ⟨⟨l, f.variables ++ vs, f.statements ++ ts⟩ :: fs, m.count + vs.length⟩ ∧
      VersionErrors v p.version verrs ∧ r.errors = verrs ++ bad.map (·.2) := by
  have hn : ¬∃ o, ProgramStops fo v m p o := by
    rintro ⟨o, h'⟩
    cases h' with
    | block h8 h9 =>
      rw [hm] at h8; cases h8
      exact C114_block hs hp h ⟨_, h9⟩
    | notClosed h8 h9 h10 h11 =>
      have e : m.levels = f.level :: fs.map (·.level) := by unfold Memory.levels; rw [hm]; rfl
      rw [hm] at h8; cases h8
      rw [e] at h10
      obtain ⟨r', h12⟩ := (C113_valid hp).2 h10
      obtain ⟨rfl, rfl, rfl, _⟩ := C113_unique hs hp h h12
      exact h11 (hc h9 rfl)
    | noScope h8 => rw [hm] at h8; cases h8
  obtain ⟨r, m', h1⟩ := (C114_either fo v m hs hp).2 hn
  have h2 := h1
  obtain ⟨f', fs', l', vs', ts', bad', verrs, h3, h4, rfl, h6, h7, _⟩ := h1
  rw [hm] at h3; cases h3
  obtain ⟨rfl, rfl, rfl, rfl⟩ := C113_unique hs hp h h4
  exact ⟨r, verrs, h2, h7, h6⟩

end Qasm
