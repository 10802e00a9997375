import Verif.Lemmas.Declare
/-!
# Helper lemmas: one more statement, and the instructions of a result
-/

namespace Qasm

open Spec Sem

attribute [local irreducible] defaultInstrs defaultFns defaultVars

variable {F : Type}

theorem declared_eq (r : SProgram F) : declared r = (r.variables.map SVariable.link).reverse := rfl

theorem shaped_andThen {p : ProgramAst F} (hs : ShapedProgram p) {s : Stmt F} (h : ShapedStmt s) : ShapedProgram (andThen p s) := by
  intro x hx
  rcases List.mem_append.mp hx with hx | hx
  · exact hs x hx
  · rw [List.mem_singleton.mp hx]; exact h

/-- One more instruction after an accepted program. -/
theorem andThen_iff {fo : FloatOps F} {v : Version} {a : Analyzer F} (ha : Analyzer.default fo v = .ok a)
    {p : ProgramAst F} (hs : ShapedProgram p) {r : SProgram F} (h : Accepts fo a p r) {s : Stmt F} (hs' : ShapedStmt s)
    (hd : ¬ IsDecl s) {r' : SProgram F} (h' : Accepts fo a (andThen p s) r') :
    ∃ t, InstrOk fo (declared r) s t ∧ r'.block.statements = r.block.statements ++ [t] ∧ r'.variables = r.variables := by
  have h1 := (accepts_valid ha hs h).1
  have h2 := (accepts_valid ha (shaped_andThen hs hs') h').1
  obtain ⟨g1, t, g2, g3⟩ := (exec_snoc h1.2 hd).mp h2.2
  exact ⟨t, g3, g2, g1⟩

theorem andThen_of_ok {fo : FloatOps F} {v : Version} {a : Analyzer F} (ha : Analyzer.default fo v = .ok a)
    {p : ProgramAst F} (hs : ShapedProgram p) {r : SProgram F} (h : Accepts fo a p r) {s : Stmt F} (hs' : ShapedStmt s)
    {t : SStatement F} (ht : InstrOk fo (declared r) s t) : ∃ r', Accepts fo a (andThen p s) r' := by
  have h1 := (accepts_valid ha hs h).1
  exact (accepts_iff ha (shaped_andThen hs hs')).mpr
    ⟨_, _, h1.1, (exec_snoc h1.2 (instrOk_loc ht).2).mpr ⟨rfl, t, rfl, ht⟩⟩

theorem declared_ok {fo : FloatOps F} {v : Version} {a : Analyzer F} (ha : Analyzer.default fo v = .ok a)
    {p : ProgramAst F} (hs : ShapedProgram p) {r : SProgram F} (h : Accepts fo a p r) : DeclsOk (declared r) := by
  have := exec_declsOk (accepts_valid ha hs h).1.2 declsOk_nil
  rwa [List.append_nil] at this

theorem andThen_ok_iff {fo : FloatOps F} {v : Version} {a : Analyzer F} (ha : Analyzer.default fo v = .ok a)
    {p : ProgramAst F} (hs : ShapedProgram p) {r : SProgram F} (h : Accepts fo a p r) {s : Stmt F} (hs' : ShapedStmt s)
    (hd : ¬ IsDecl s) : (∃ r', Accepts fo a (andThen p s) r') ↔ ∃ t, InstrOk fo (declared r) s t :=
  ⟨fun ⟨_, h'⟩ => let ⟨t, ht, _⟩ := andThen_iff ha hs h hs' hd h'; ⟨t, ht⟩, fun ⟨_, ht⟩ => andThen_of_ok ha hs h hs' ht⟩

/-- What one more plain instruction after an accepted program does. -/
theorem andThen_outcome {fo : FloatOps F} {v : Version} {a : Analyzer F} (ha : Analyzer.default fo v = .ok a)
    {p : ProgramAst F} (hs : ShapedProgram p) {r : SProgram F} (h : Accepts fo a p r) {s : Stmt F} (hs' : ShapedStmt s)
    (hpl : PlainStmt s) (hd : ¬ IsDecl s) :
    (∃ t r', InstrOk fo (declared r) s t ∧ Accepts fo a (andThen p s) r') ∨
    (analyze fo a (andThen p s) = .ub ∧ UndefStmt fo (declared r) s) ∨
    (∃ a' e, analyze fo a (andThen p s) = .ok (a', ⟨some r, [e]⟩) ∧ ReportedAt s e ∧
      (¬∃ t, InstrOk fo (declared r) s t) ∧ ¬ UndefStmt fo (declared r) s) := by
  obtain ⟨hv, h1, h2, h3⟩ := accepts_valid ha hs h
  have hD := declared_ok ha hs h
  have hst := default_state ha
  subst hst
  have hb := visitBlock_of_exec v hv.2 ⟨[], none⟩ [] declsOk_nil
  simp only [List.length_nil, Nat.zero_add, List.append_nil, List.nil_append, ← h3] at hb
  rw [← declared_eq] at hb
  have key : visitBlock fo (stateOf fo v [] 0 ⟨[], none⟩ []) (andThen p s).block.statements =
      visitBlock fo (stateOf fo v (declared r) r.variables.length r.block r.variables) [s] := by
    have : (andThen p s).block.statements = p.block.statements ++ [s] := rfl
    rw [this, visitBlock_append, hb, Res.bind_ok]
    dsimp only
    cases visitBlock fo (stateOf fo v (declared r) r.variables.length r.block r.variables) [s] <;> rfl
  rw [visitBlock] at key
  rcases visitStatement_cases hD v r.variables.length r.block r.variables s hs' hd with
    ⟨t, g1, g2⟩ | ⟨g1, g2⟩ | ⟨e, errs, a', g1, g2⟩
  · obtain ⟨r', h'⟩ := andThen_of_ok ha hs h hs' g2
    exact .inl ⟨t, r', g2, h'⟩
  · rw [g1] at key
    exact .inr (.inl ⟨analyze_of_ub key, g2 hpl⟩)
  · obtain ⟨rfl, rfl, g3⟩ := g2 hpl
    rw [g1] at key
    refine .inr (.inr ⟨stateOf fo v (declared r) r.variables.length r.block r.variables, e, ?_, g3, ?_, ?_⟩)
    · have hk := visitProgram_state fo (stateOf fo v [] 0 ⟨[], none⟩ []) (andThen p s) key
      have h6 : (stateOf fo v [] 0 ⟨[], none⟩ []).apiVersion = v := rfl
      have h7 : (andThen p s).version = p.version := rfl
      rw [h6, h7, visitVersion_of_ok hv.1] at hk
      unfold analyze
      rw [hk, Res.bind_ok]
      obtain ⟨ra, rv, rb, rvs⟩ := r
      dsimp only at h1 h2
      subst h1 h2
      rfl
    · rintro ⟨t, ht⟩
      rw [visitStatement_of_ok hD v _ _ _ ht] at g1
      cases g1
    · intro hu
      rw [visitStatement_of_undef hD v _ _ _ hs' hu] at g1
      cases g1

/-- A rejected instruction is reported by exactly one error in it. -/
theorem andThen_reported {fo : FloatOps F} {v : Version} {a : Analyzer F} (ha : Analyzer.default fo v = .ok a)
    {p : ProgramAst F} (hs : ShapedProgram p) {r : SProgram F} (h : Accepts fo a p r) {s : Stmt F} (hs' : ShapedStmt s)
    (hpl : PlainStmt s) (hd : ¬ IsDecl s) (h1 : ¬∃ t, InstrOk fo (declared r) s t) (h2 : ¬ UndefStmt fo (declared r) s) :
    ∃ a' e, analyze fo a (andThen p s) = .ok (a', ⟨some r, [e]⟩) ∧ ReportedAt s e := by
  rcases andThen_outcome ha hs h hs' hpl hd with ⟨t, _, g, _⟩ | ⟨_, g⟩ | ⟨a', e, g1, g2, _⟩
  · exact absurd ⟨t, g⟩ h1
  · exact absurd g h2
  · exact ⟨a', e, g1, g2⟩

theorem analysis_instr {fo : FloatOps F} {D : List VarLink} {u : Nat} {ss : List (Stmt F)} {vs : List (SVariable F)}
    {ts : List (SStatement F)} {bad : List (Stmt F)} (h : Analysis fo D u ss vs ts bad) :
    DeclsOk D → ∀ t ∈ ts, ∃ s D', s ∈ ss ∧ DeclsOk D' ∧ InstrOk fo D' s t ∧ ∀ x ∈ D', x ∈ D ∨ x ∈ vs.map SVariable.link := by
  have step : ∀ {q : Stmt F} {ss : List (Stmt F)} {t} {D : List VarLink} {w : SVariable F} {vs : List (SVariable F)},
      (∃ s D', s ∈ ss ∧ DeclsOk D' ∧ InstrOk fo D' s t ∧ ∀ x ∈ D', x ∈ D ∨ x ∈ vs.map SVariable.link) →
      ∃ s D', s ∈ q :: ss ∧ DeclsOk D' ∧ InstrOk fo D' s t ∧ ∀ x ∈ D', x ∈ D ∨ x ∈ (w :: vs).map SVariable.link := by
    rintro q ss t D w vs ⟨s, D', h1, h2, h3, h4⟩
    refine ⟨s, D', List.mem_cons_of_mem _ h1, h2, h3, fun x hx => (h4 x hx).imp id ?_⟩
    intro h
    rw [List.map_cons]
    exact List.mem_cons_of_mem _ h
  have step' : ∀ {q : Stmt F} {ss : List (Stmt F)} {t} {D : List VarLink} {vs : List (SVariable F)},
      (∃ s D', s ∈ ss ∧ DeclsOk D' ∧ InstrOk fo D' s t ∧ ∀ x ∈ D', x ∈ D ∨ x ∈ vs.map SVariable.link) →
      ∃ s D', s ∈ q :: ss ∧ DeclsOk D' ∧ InstrOk fo D' s t ∧ ∀ x ∈ D', x ∈ D ∨ x ∈ vs.map SVariable.link := by
    rintro q ss t D vs ⟨s, D', h1, h2, h3, h4⟩
    exact ⟨s, D', List.mem_cons_of_mem _ h1, h2, h3, h4⟩
  induction h with
  | nil => simp
  | decl h1 h2 _ _ ih =>
    intro hD t ht
    obtain ⟨s, D', k1, k2, k3, k4⟩ := ih (declsOk_cons hD h1 h2) t ht
    refine ⟨s, D', List.mem_cons_of_mem _ k1, k2, k3, ?_⟩
    intro x hx
    rw [List.map_cons]
    rcases k4 x hx with h | h
    · rcases List.mem_cons.mp h with rfl | h
      · exact .inr (List.mem_cons_self ..)
      · exact .inl h
    · exact .inr (List.mem_cons_of_mem _ h)
  | instr h1 _ ih =>
    intro hD t ht
    rcases List.mem_cons.mp ht with rfl | ht
    · exact ⟨_, _, List.mem_cons_self .., hD, h1, fun x hx => .inl hx⟩
    · exact step' (ih hD t ht)
  | badType _ _ ih => exact fun hD t ht => step' (ih hD t ht)
  | redeclared _ _ _ _ ih => exact fun hD t ht => step (ih hD t ht)
  | badInstr _ _ _ _ ih => exact fun hD t ht => step' (ih hD t ht)

/-- Every instruction in a result, with or without errors, comes from a valid statement of the program. -/
theorem result_instr {fo : FloatOps F} {v : Version} {a a' : Analyzer F} (ha : Analyzer.default fo v = .ok a)
    {p : ProgramAst F} (hs : ShapedProgram p) {r : SProgram F} {errs : List Err}
    (h : analyze fo a p = .ok (a', ⟨some r, errs⟩)) (hp : errs = [] ∨ PlainProgram p) :
    ∀ t ∈ r.block.statements, ∃ s D, s ∈ p.block.statements ∧ ShapedStmt s ∧ DeclsOk D ∧ InstrOk fo D s t ∧
      ∀ x ∈ D, ∃ y ∈ r.variables, x = ⟨y.uid, y.name, y.typ⟩ := by
  have key : ∃ bad u, Analysis fo [] u p.block.statements r.variables r.block.statements bad := by
    rcases hp with rfl | hp
    · exact ⟨_, _, exec_iff_analysis.mp (accepts_valid ha hs ⟨a', h⟩).1.2⟩
    · rcases analyze_plain ha hs hp with ⟨errs, vs, ts, bad, D', u', h1, _, h2, _⟩ | ⟨h1, _⟩
      · rw [h1] at h
        cases h
        refine ⟨bad, 0, ?_⟩
        have := blockAfter_statements (⟨[], none⟩ : SBlock F) ts
        rw [List.nil_append] at this
        dsimp only
        rw [this]
        exact h2
      · rw [h1] at h; cases h
  obtain ⟨bad, u, key⟩ := key
  intro t ht
  obtain ⟨s, D, k1, k2, k3, k4⟩ := analysis_instr key declsOk_nil t ht
  refine ⟨s, D, k1, hs s k1, k2, k3, fun x hx => ?_⟩
  rcases k4 x hx with h | h
  · cases h
  · obtain ⟨y, hy, rfl⟩ := List.mem_map.mp h
    exact ⟨y, hy, rfl⟩

end Qasm
