import Verif.Spec.Pieces
import Verif.Props.Tidy
/-!
# Programs that are given in pieces (C123)

The user analyses programs one after another with the same analyser, or one program that has all their statements.
-/

namespace Qasm

open Spec Sem Syn

attribute [local irreducible] defaultInstrs defaultFns defaultVars

variable {F : Type} {fo : FloatOps F} {v : Version} {an : Antlr F}

/-- C123. Statements after others: the rules go on with what the others have registered. -/
theorem C123_append {ls : List (Level F)} {r r1 r2 : Level F} {u : Nat} {ss1 ss2 : List (Stmt F)} {vs1 vs2 : List (SVariable F)}
    {ts1 ts2 : List (SStatement F)} {bad1 bad2 : List (Stmt F × Err)} (h1 : AnalysisIn fo ls r u ss1 vs1 ts1 bad1 r1)
    (h2 : AnalysisIn fo ls r1 (u + vs1.length) ss2 vs2 ts2 bad2 r2) :
    AnalysisIn fo ls r u (ss1 ++ ss2) (vs1 ++ vs2) (ts1 ++ ts2) (bad1 ++ bad2) r2 := by
  induction h1 with
  | nil => exact h2
  | decl g1 g2 _ ih =>
    refine .decl g1 g2 (ih ?_)
    rwa [List.length_cons, Nat.add_comm _ 1, ← Nat.add_assoc] at h2
  | instr g _ ih => exact .instr g (ih h2)
  | badType g1 g2 _ ih => exact .badType g1 g2 (ih h2)
  | redeclared g1 g2 _ ih =>
    refine .redeclared g1 g2 (ih ?_)
    rwa [List.length_cons, Nat.add_comm _ 1, ← Nat.add_assoc] at h2
  | badInstr g1 g2 g3 _ ih => exact .badInstr g1 g2 g3 (ih h2)

/-- C123. And this is the only way in which statements after others are analysed. -/
theorem C123_parts {ls : List (Level F)} {r r2 : Level F} {u : Nat} {ss1 ss2 : List (Stmt F)} {vs : List (SVariable F)}
    {ts : List (SStatement F)} {bad : List (Stmt F × Err)} (h : AnalysisIn fo ls r u (ss1 ++ ss2) vs ts bad r2) :
    ∃ vs1 vs2 ts1 ts2 bad1 bad2 r1, vs = vs1 ++ vs2 ∧ ts = ts1 ++ ts2 ∧ bad = bad1 ++ bad2 ∧
      AnalysisIn fo ls r u ss1 vs1 ts1 bad1 r1 ∧ AnalysisIn fo ls r1 (u + vs1.length) ss2 vs2 ts2 bad2 r2 := by
  generalize hss : ss1 ++ ss2 = ss at h
  induction h generalizing ss1 with
  | nil =>
    obtain ⟨rfl, rfl⟩ := List.append_eq_nil_iff.1 hss
    exact ⟨[], [], [], [], [], [], _, rfl, rfl, rfl, .nil, .nil⟩
  | @decl r u l as name typ ss t vs ts bad r' g1 g2 g3 ih =>
    rcases ss1 with _ | ⟨s, ss1⟩
    · subst hss
      exact ⟨[], _, [], _, [], _, _, rfl, rfl, rfl, .nil, .decl g1 g2 g3⟩
    · cases hss
      obtain ⟨vs1, vs2, ts1, ts2, bad1, bad2, r1, rfl, rfl, rfl, i1, i2⟩ := ih rfl
      refine ⟨_ :: vs1, vs2, ts1, ts2, bad1, bad2, r1, rfl, rfl, rfl, .decl g1 g2 i1, ?_⟩
      rwa [List.length_cons, Nat.add_comm _ 1, ← Nat.add_assoc]
  | @instr r u s ss t vs ts bad r' g g3 ih =>
    rcases ss1 with _ | ⟨s, ss1⟩
    · subst hss
      exact ⟨[], _, [], _, [], _, _, rfl, rfl, rfl, .nil, .instr g g3⟩
    · cases hss
      obtain ⟨vs1, vs2, ts1, ts2, bad1, bad2, r1, rfl, rfl, rfl, i1, i2⟩ := ih rfl
      exact ⟨vs1, vs2, t :: ts1, ts2, bad1, bad2, r1, rfl, rfl, rfl, .instr g i1, i2⟩
  | @badType r u l as name typ ss vs ts bad r' m g1 g2 g3 ih =>
    rcases ss1 with _ | ⟨s, ss1⟩
    · subst hss
      exact ⟨[], _, [], _, [], _, _, rfl, rfl, rfl, .nil, .badType g1 g2 g3⟩
    · cases hss
      obtain ⟨vs1, vs2, ts1, ts2, bad1, bad2, r1, rfl, rfl, rfl, i1, i2⟩ := ih rfl
      exact ⟨vs1, vs2, ts1, ts2, _ :: bad1, bad2, r1, rfl, rfl, rfl, .badType g1 g2 i1, i2⟩
  | @redeclared r u l as name typ ss t vs ts bad r' g1 g2 g3 ih =>
    rcases ss1 with _ | ⟨s, ss1⟩
    · subst hss
      exact ⟨[], _, [], _, [], _, _, rfl, rfl, rfl, .nil, .redeclared g1 g2 g3⟩
    · cases hss
      obtain ⟨vs1, vs2, ts1, ts2, bad1, bad2, r1, rfl, rfl, rfl, i1, i2⟩ := ih rfl
      refine ⟨_ :: vs1, vs2, ts1, ts2, _ :: bad1, bad2, r1, rfl, rfl, rfl, .redeclared g1 g2 i1, ?_⟩
      rwa [List.length_cons, Nat.add_comm _ 1, ← Nat.add_assoc]
  | @badInstr r u s ss vs ts bad r' e g1 g2 g3 g4 ih =>
    rcases ss1 with _ | ⟨s, ss1⟩
    · subst hss
      exact ⟨[], _, [], _, [], _, _, rfl, rfl, rfl, .nil, .badInstr g1 g2 g3 g4⟩
    · cases hss
      obtain ⟨vs1, vs2, ts1, ts2, bad1, bad2, r1, rfl, rfl, rfl, i1, i2⟩ := ih rfl
      exact ⟨vs1, vs2, ts1, ts2, _ :: bad1, bad2, r1, rfl, rfl, rfl, .badInstr g1 g2 g3 i1, i2⟩

namespace Pieces

theorem version_clean {p : ProgramAst F} (hv : VersionOk v p.version.items) {verrs : List Err} (h : VersionErrors v p.version verrs) :
    verrs = [] := by
  rw [← (versionErrors_iff v p.version verrs).1 h, visitVersion_of_ok hv]

/-- What the answers to the pieces are. -/
theorem answers {ps : List (ProgramAst F)} {m m' : Memory F} {rs : List (Result (SProgram F))}
    (h : AnswersIn fo v (ps.map .analyze) m rs m') (hv : ∀ p ∈ ps, VersionOk v p.version.items) (hne : ps ≠ []) :
    ∃ f fs l vs ts bad, m.frames = f :: fs ∧
      AnalysisIn fo (fs.map (·.level)) f.level m.count (ps.flatMap (·.block.statements)) vs ts bad l ∧
      m' = ⟨⟨l, f.variables ++ vs, f.statements ++ ts⟩ :: fs, m.count + vs.length⟩ ∧ rs.flatMap (·.errors) = bad.map (·.2) ∧
      (bad = [] → ClosedProgram (f.variables ++ vs) (f.statements ++ ts)) ∧
      ∃ x q, rs.getLast? = some x ∧ x.root = some q ∧ q.apiVersion = v ∧ q.variables = f.variables ++ vs ∧
        q.block.statements = f.statements ++ ts := by
  induction ps generalizing m rs with
  | nil => exact absurd rfl hne
  | cons p ps ih =>
    cases h with
    | @analyze _ _ _ r rs m1 _ h1 h2 =>
      obtain ⟨f, fs, l, vs, ts, bad, verrs, g1, g2, rfl, g3, g4, ⟨q, g5, g6, g7, g8, _⟩, g9⟩ := h1
      cases version_clean (hv p (List.mem_cons_self ..)) g4
      rw [List.nil_append] at g3
      cases ps with
      | nil =>
        cases h2
        refine ⟨f, fs, l, vs, ts, bad, g1, by simpa using g2, rfl, by simpa using g3, fun hb => g9 (by rw [g3, hb]; rfl), r, q, rfl, g5, g6, g7, g8⟩
      | cons p' ps =>
        obtain ⟨f', fs', l', vs', ts', bad', i1, i2, rfl, i3, i4, x, q', i5, i6, i7, i8, i9⟩ :=
          ih h2 (fun p h => hv p (List.mem_cons_of_mem _ h)) (by simp)
        cases i1
        refine ⟨f, fs, l', vs ++ vs', ts ++ ts', bad ++ bad', g1, C123_append g2 i2, ?_, ?_, fun hb => ?_, x, q', ?_, i6, i7, ?_, ?_⟩
        · simp [List.append_assoc, Nat.add_assoc]
        · rw [List.flatMap_cons, g3, i3, List.map_append]
        · rw [← List.append_assoc, ← List.append_assoc]
          exact i4 (List.append_eq_nil_iff.1 hb).2
        · cases rs with
          | nil => cases i5
          | cons y ys => rw [List.getLast?_cons_cons]; exact i5
        · rw [i8]; simp [List.append_assoc]
        · rw [i9]; simp [List.append_assoc]

theorem shaped_joined {ps : List (ProgramAst F)} {p : ProgramAst F} (hj : IsJoined ps p)
    (hs : ∀ p ∈ ps, ShapedProgram p ∧ PlainProgram p) : ShapedProgram p ∧ PlainProgram p := by
  have mem : ∀ s ∈ p.block.statements, ∃ p' ∈ ps, s ∈ p'.block.statements := fun s h => by
    rw [hj] at h; exact List.mem_flatMap.1 h
  refine ⟨fun s h => ?_, fun s h => ?_⟩ <;> obtain ⟨p', h1, h2⟩ := mem s h
  · exact (hs p' h1).1 s h2
  · exact (hs p' h1).2 s h2

end Pieces

/-- C123. If programs of an accepted version are analysed one after another, then the analysis of the joined program, instead of
them, returns with all their errors and with the tree of the last one, and leaves the analyser with what it keeps after them. -/
theorem C123_join {ps : List (ProgramAst F)} {m m' : Memory F} {rs : List (Result (SProgram F))}
    (h : AnswersIn fo v (ps.map .analyze) m rs m') (hne : ps ≠ []) (hs : ∀ p ∈ ps, ShapedProgram p ∧ PlainProgram p)
    (hv : ∀ p ∈ ps, VersionOk v p.version.items) {p : ProgramAst F} (hj : IsJoined ps p) (hvp : VersionOk v p.version.items) :
    ∃ r, AnalysedIn fo v m p r m' ∧ JoinedAnswer rs r := by
  obtain ⟨f, fs, l, vs, ts, bad, h1, h2, rfl, h3, h4, x, q', h5, h6, h7, h8, h9⟩ := Pieces.answers h hv hne
  obtain ⟨hsp, hpp⟩ := Pieces.shaped_joined hj hs
  rw [← hj] at h2
  obtain ⟨r, verrs, g1, g2, g3⟩ := C114_analysed h1 hsp hpp h2 (v := v) (fun _ hb => h4 hb)
  cases Pieces.version_clean hvp g2
  refine ⟨r, g1, by rw [g3, h3]; rfl, ?_⟩
  obtain ⟨_, _, _, _, _, _, _, e1, e2, _, _, _, ⟨q, g5, g6, g7, g8, _⟩, _⟩ := g1
  rw [h1] at e1; cases e1
  obtain ⟨rfl, rfl, rfl, rfl⟩ := C113_unique hsp hpp h2 e2
  exact ⟨x, q, q', h5, h6, g5, g6.trans h7.symm, g7.trans h8.symm, g8.trans h9.symm⟩

/-- C123. If things are in order, the other direction holds too: a program that is analysed can be given in pieces. -/
theorem C123_split {ps : List (ProgramAst F)} {m m' : Memory F} {r : Result (SProgram F)} (ht : Tidy m) (hne : ps ≠ [])
    (hs : ∀ p ∈ ps, ShapedProgram p ∧ PlainProgram p) (hv : ∀ p ∈ ps, VersionOk v p.version.items) {p : ProgramAst F}
    (hj : IsJoined ps p) (hvp : VersionOk v p.version.items) (h : AnalysedIn fo v m p r m') :
    ∃ rs, AnswersIn fo v (ps.map .analyze) m rs m' ∧ JoinedAnswer rs r := by
  have split : ∀ (ps : List (ProgramAst F)) (m : Memory F) (f : Frame F) (fs : List (Frame F)) (l : Level F)
      (vs : List (SVariable F)) (ts : List (SStatement F)) (bad : List (Stmt F × Err)), Tidy m → m.frames = f :: fs →
      (∀ p ∈ ps, ShapedProgram p ∧ PlainProgram p) →
      AnalysisIn fo (fs.map (·.level)) f.level m.count (ps.flatMap (·.block.statements)) vs ts bad l →
      ∃ rs, AnswersIn fo v (ps.map .analyze) m rs ⟨⟨l, f.variables ++ vs, f.statements ++ ts⟩ :: fs, m.count + vs.length⟩ := by
    intro ps
    induction ps with
    | nil =>
      intro m f fs l vs ts bad _ hm _ h
      cases h
      refine ⟨[], ?_⟩
      obtain ⟨frames, n⟩ := m
      obtain rfl : frames = f :: fs := hm
      simpa using AnswersIn.nil
    | cons p ps ih =>
      intro m f fs l vs ts bad ht hm hs h
      obtain ⟨vs1, vs2, ts1, ts2, bad1, bad2, l1, rfl, rfl, rfl, h1, h2⟩ := C123_parts h
      obtain ⟨hs1, hp1⟩ := hs p (List.mem_cons_self ..)
      obtain ⟨r, verrs, g1, _⟩ := C114_analysed (v := v) hm hs1 hp1 h1 (fun _ _ => (Tidying.statements hm ht hs1 h1).2)
      obtain ⟨rs, i1⟩ := ih _ ⟨l1, f.variables ++ vs1, f.statements ++ ts1⟩ fs l vs2 ts2 bad2 (C122_tree ht hs1 g1).1 rfl
        (fun p h => hs p (List.mem_cons_of_mem _ h)) h2
      refine ⟨r :: rs, .analyze g1 ?_⟩
      simpa [List.append_assoc, Nat.add_assoc] using i1
  have h0 := h
  obtain ⟨f, fs, l, vs, ts, bad, verrs, h1, h2, rfl, _⟩ := h
  rw [hj] at h2
  obtain ⟨rs, g⟩ := split ps m f fs l vs ts bad ht h1 hs h2
  refine ⟨rs, g, ?_⟩
  obtain ⟨r', g1, g2, x, q, q', g3, g4, g5, g6⟩ := C123_join g hne hs hv hj hvp
  obtain ⟨hsp, hpp⟩ := Pieces.shaped_joined hj hs
  obtain ⟨_, hd⟩ := C113_determined (es := [.analyze p]) (fun q h => by cases List.mem_singleton.1 h; exact ⟨hsp, hpp⟩)
    (.analyze h0 .nil) (.analyze g1 .nil)
  cases hd with
  | cons hd _ =>
    obtain ⟨e1, t, t', e2, e3, e4, _, e5, e6⟩ := hd
    rw [g5] at e3; cases e3
    exact ⟨e1.trans g2, x, t, q', g3, g4, e2, e4.trans g6.1, e5.trans g6.2.1, e6.trans g6.2.2⟩

namespace Pieces

/-- The analyses of the programs return, for an analyser that keeps what the rules begin with. -/
theorem run {ps : List (ProgramAst F)} {m m' : Memory F} {rs : List (Result (SProgram F))}
    (h : AnswersIn fo v (ps.map .analyze) m rs m') (hs : ∀ p ∈ ps, ShapedProgram p ∧ PlainProgram p) {a : Analyzer F}
    (ha : Keeps v a m) : ∃ b rs', Answers fo (ps.map .analyze) a rs' b ∧ AnswersIn fo v (ps.map .analyze) m rs' m' ∧ Keeps v b m' := by
  induction ps generalizing m rs a with
  | nil => cases h; exact ⟨a, [], .nil, .nil, ha⟩
  | cons p ps ih =>
    cases h with
    | analyze h1 h2 =>
      obtain ⟨hs1, hp1⟩ := hs p (List.mem_cons_self ..)
      obtain ⟨b, r', g1, g2, g3, _⟩ := C114_result ha hs1 hp1 h1
      obtain ⟨d, rs', i1, i2, i3⟩ := ih h2 (fun p h => hs p (List.mem_cons_of_mem _ h)) g3
      exact ⟨d, r' :: rs', .analyze g1 i1, .analyze g2 i2, i3⟩

theorem is_mem {ps : List (ProgramAst F)} (hs : ∀ p ∈ ps, ShapedProgram p ∧ PlainProgram p) :
    ∀ p, Event.analyze p ∈ ps.map Event.analyze → ShapedProgram p ∧ PlainProgram p := fun p h => by
  obtain ⟨p', h1, h2⟩ := List.mem_map.1 h
  cases h2
  exact hs p h1

/-- Analysers that keep the same give the same answers. -/
theorem same {ps : List (ProgramAst F)} {a b d : Analyzer F} {rs : List (Result (SProgram F))} {m : Memory F} (ha : Keeps v a m)
    (hd : Keeps v d m) (hs : ∀ p ∈ ps, ShapedProgram p ∧ PlainProgram p) (h : Answers fo (ps.map .analyze) a rs b) :
    ∃ e rs', Answers fo (ps.map .analyze) d rs' e ∧ Forall2 (fun r r' => r.errors = r'.errors ∧ ∃ t t', r.root = some t ∧
      r'.root = some t' ∧ t.apiVersion = t'.apiVersion ∧ t.version = t'.version ∧ t.variables = t'.variables ∧
      t.block.statements = t'.block.statements) rs rs' := by
  obtain ⟨m', h1, _⟩ := keeps_answers h (is_mem hs) ha
  obtain ⟨e, rs', g1, g2, _⟩ := run h1 hs hd
  exact ⟨e, rs', g1, (C113_determined (is_mem hs) h1 g2).2⟩

theorem joins {b b' : Analyzer F} {m : Memory F} (hk : Keeps v b m) {ps : List (ProgramAst F)} {rs : List (Result (SProgram F))}
    (h : Answers fo (ps.map .analyze) b rs b') (hne : ps ≠ []) (hs : ∀ p ∈ ps, ShapedProgram p ∧ PlainProgram p)
    (hv : ∀ p ∈ ps, VersionOk v p.version.items) {p : ProgramAst F} (hj : IsJoined ps p) (hvp : VersionOk v p.version.items) :
    ∃ d r, analyze fo b p = .ok (d, r) ∧ JoinedAnswer rs r ∧
      ∀ qs : List (ProgramAst F), (∀ q ∈ qs, ShapedProgram q ∧ PlainProgram q) → ∀ rs' e, Answers fo (qs.map .analyze) b' rs' e →
        ∃ e' rs'', Answers fo (qs.map .analyze) d rs'' e' ∧ Forall2 (fun r r' => r.errors = r'.errors ∧ ∃ t t', r.root = some t ∧
          r'.root = some t' ∧ t.apiVersion = t'.apiVersion ∧ t.version = t'.version ∧ t.variables = t'.variables ∧
          t.block.statements = t'.block.statements) rs' rs'' := by
  obtain ⟨m', h1, hb'⟩ := keeps_answers h (is_mem hs) hk
  obtain ⟨hsp, hpp⟩ := shaped_joined hj hs
  obtain ⟨r, g1, g2, x, q, q', g3, g4, g5, g6, g7, g8⟩ := C123_join h1 hne hs hv hj hvp
  obtain ⟨d, r', g9, g10, g11, g12⟩ := C114_result hk hsp hpp g1
  refine ⟨d, r', g9, ?_, fun qs hqs rs' e h' => same hb' g11 hqs h'⟩
  obtain ⟨_, hd⟩ := C113_determined (es := [.analyze p]) (fun q h => by cases List.mem_singleton.1 h; exact ⟨hsp, hpp⟩)
    (.analyze g10 .nil) (.analyze g1 .nil)
  cases hd with
  | cons hd _ =>
    obtain ⟨e1, t, t', e2, e3, e4, _, e5, e6⟩ := hd
    rw [g5] at e3; cases e3
    exact ⟨e1.trans g2, x, t, q', g3, g4, e2, e4.trans g6, e5.trans g7, e6.trans g8⟩

theorem answer_same {rs rs' : List (Result (SProgram F))} (h : Forall2 (fun r r' => r.errors = r'.errors ∧ ∃ t t', r.root = some t ∧
      r'.root = some t' ∧ t.apiVersion = t'.apiVersion ∧ t.version = t'.version ∧ t.variables = t'.variables ∧
      t.block.statements = t'.block.statements) rs rs') {r : Result (SProgram F)} (hj : JoinedAnswer rs r) : JoinedAnswer rs' r := by
  obtain ⟨h1, x, q, q', h2, h3, h4, h5, h6, h7⟩ := hj
  have he : rs.flatMap (·.errors) = rs'.flatMap (·.errors) := by
    clear h1 h2
    induction h with
    | nil => rfl
    | cons g _ ih => rw [List.flatMap_cons, List.flatMap_cons, g.1, ih]
  have hl : ∃ x' t t', rs'.getLast? = some x' ∧ x.root = some t ∧ x'.root = some t' ∧ t.apiVersion = t'.apiVersion ∧
      t.variables = t'.variables ∧ t.block.statements = t'.block.statements := by
    clear h1 he
    induction h with
    | nil => cases h2
    | @cons a b as bs g gs ih =>
      cases gs with
      | nil =>
        cases h2
        obtain ⟨_, t, t', e1, e2, e3, _, e4, e5⟩ := g
        exact ⟨b, t, t', rfl, e1, e2, e3, e4, e5⟩
      | cons g' gs =>
        rw [List.getLast?_cons_cons] at h2 ⊢
        exact ih h2
  obtain ⟨x', t, t', e1, e2, e3, e4, e5, e6⟩ := hl
  rw [h3] at e2; cases e2
  exact ⟨h1.trans he, x', q, t', e1, e3, h4, h5.trans e4, h6.trans e5, h7.trans e6⟩

end Pieces

/-- C123. At any time of a session with an analyser in which only what the user wants is registered: instead of analysing programs
one after another, the joined program can be analysed, and further programs are then answered in the same way. -/
theorem C123_session {a b b' : Analyzer F} (ha : Analyzer.new v = some a) {es : List (TextEvent F)} {rs0 : List (Result (SProgram F))}
    (h0 : TextAnswers fo an es a rs0 b) {ps : List (ProgramAst F)} {rs : List (Result (SProgram F))}
    (h : Answers fo (ps.map .analyze) b rs b') (hne : ps ≠ []) (hs : ∀ p ∈ ps, ShapedProgram p ∧ PlainProgram p)
    (hv : ∀ p ∈ ps, VersionOk v p.version.items) {p : ProgramAst F} (hj : IsJoined ps p) (hvp : VersionOk v p.version.items) :
    ∃ d r, analyze fo b p = .ok (d, r) ∧ JoinedAnswer rs r ∧
      ∀ qs : List (ProgramAst F), (∀ q ∈ qs, ShapedProgram q ∧ PlainProgram q) → ∀ rs' e, Answers fo (qs.map .analyze) b' rs' e →
        ∃ e' rs'', Answers fo (qs.map .analyze) d rs'' e' ∧ Forall2 (fun r r' => r.errors = r'.errors ∧ ∃ t t', r.root = some t ∧
          r'.root = some t' ∧ t.apiVersion = t'.apiVersion ∧ t.version = t'.version ∧ t.variables = t'.variables ∧
          t.block.statements = t'.block.statements) rs' rs'' := by
  obtain ⟨m, _, hk⟩ := keeps_texts h0 (keeps_new ha)
  exact Pieces.joins hk h hne hs hv hj hvp

/-- C123. The same for the analysers of the library. -/
theorem C123_library {a b b' : Analyzer F} (ha : Analyzer.default fo v = .ok a) {es : List (TextEvent F)} {rs0 : List (Result (SProgram F))}
    (h0 : TextAnswers fo an es a rs0 b) {ps : List (ProgramAst F)} {rs : List (Result (SProgram F))}
    (h : Answers fo (ps.map .analyze) b rs b') (hne : ps ≠ []) (hs : ∀ p ∈ ps, ShapedProgram p ∧ PlainProgram p)
    (hv : ∀ p ∈ ps, VersionOk v p.version.items) {p : ProgramAst F} (hj : IsJoined ps p) (hvp : VersionOk v p.version.items) :
    ∃ d r, analyze fo b p = .ok (d, r) ∧ JoinedAnswer rs r ∧
      ∀ qs : List (ProgramAst F), (∀ q ∈ qs, ShapedProgram q ∧ PlainProgram q) → ∀ rs' e, Answers fo (qs.map .analyze) b' rs' e →
        ∃ e' rs'', Answers fo (qs.map .analyze) d rs'' e' ∧ Forall2 (fun r r' => r.errors = r'.errors ∧ ∃ t t', r.root = some t ∧
          r'.root = some t' ∧ t.apiVersion = t'.apiVersion ∧ t.version = t'.version ∧ t.variables = t'.variables ∧
          t.block.statements = t'.block.statements) rs' rs'' := by
  obtain ⟨m, _, hk⟩ := keeps_texts h0 (Again.keeps_default ha)
  exact Pieces.joins hk h hne hs hv hj hvp

/-- C123. For an analyser of the library to which the user adds what keeps things in order, it makes no difference at all whether a
program is analysed at once or in pieces: one returns if and only if the other does, with the same errors and tree. -/
theorem C123_iff {a b : Analyzer F} (ha : Analyzer.default fo v = .ok a) {es : List (TextEvent F)} {rs0 : List (Result (SProgram F))}
    (h0 : TextAnswers fo an es a rs0 b) (he : ∀ e ∈ es, TidyEvent e) {ps : List (ProgramAst F)} (hne : ps ≠ [])
    (hs : ∀ p ∈ ps, ShapedProgram p ∧ PlainProgram p) (hv : ∀ p ∈ ps, VersionOk v p.version.items) {p : ProgramAst F}
    (hj : IsJoined ps p) (hvp : VersionOk v p.version.items) :
    (∀ rs b', Answers fo (ps.map .analyze) b rs b' → ∃ d r, analyze fo b p = .ok (d, r) ∧ JoinedAnswer rs r) ∧
      ∀ d r, analyze fo b p = .ok (d, r) → ∃ rs b', Answers fo (ps.map .analyze) b rs b' ∧ JoinedAnswer rs r := by
  obtain ⟨m, h1, hk⟩ := keeps_texts h0 (Again.keeps_default ha)
  have ht := (Tidying.session h1 he (Nat.le_refl _) (Tidying.tidy_default fo)).1
  obtain ⟨hsp, hpp⟩ := Pieces.shaped_joined hj hs
  refine ⟨fun rs b' h => ?_, fun d r h => ?_⟩
  · obtain ⟨d, r, g1, g2, _⟩ := Pieces.joins hk h hne hs hv hj hvp
    exact ⟨d, r, g1, g2⟩
  · obtain ⟨m', h2, _⟩ := keeps_analyze hk hsp hpp h
    obtain ⟨rs, g1, g2⟩ := C123_split ht hne hs hv hj hvp h2
    obtain ⟨b', rs', g3, g4, _⟩ := Pieces.run g1 hs hk
    exact ⟨rs', b', g3, Pieces.answer_same ((C113_determined (Pieces.is_mem hs) g1 g4).2) g2⟩

/-! ## Examples -/

section Examples

open Sample

/-- The answers of an analyser of the library with one more registration: the messages, the numbers of the variables and how many
instructions there are; `none` if something is thrown. -/
private def answersTo (ps : List (ProgramAst Int)) : List (Option (List Str × List Nat × Nat)) :=
  let rec go : List (ProgramAst Int) → Analyzer Int → List (Option (List Str × List Nat × Nat))
    | [], _ => []
    | p :: ps, a =>
      match analyze Sample.fo a p with
      | .ok (b, r) => some (r.errors.map (·.message), (r.root.map fun q => q.variables.map (·.uid)).getD [],
          (r.root.map fun q => q.block.statements.length).getD 0) :: go ps b
      | _ => [none]
  match Analyzer.default Sample.fo [3, 0] with
  | .ok a => match a.registerVariable c!"z" ⟨.variableRef ⟨9, c!"z", ⟨.qubit, 1⟩⟩, none⟩ with | .ok a => go ps a | _ => []
  | _ => []

private def part1 : ProgramAst Int := program [qubits c!"q" 2, gate c!"X" [] [at_ c!"q" 0], gate c!"X" [] [name c!"y"]]
private def part2 : ProgramAst Int := program [qubits c!"q" 2, gate c!"X" [] [name c!"q"]]
private def whole : ProgramAst Int := program [qubits c!"q" 2, gate c!"X" [] [at_ c!"q" 0], gate c!"X" [] [name c!"y"],
  qubits c!"q" 2, gate c!"X" [] [name c!"q"]]

/-- C123: two programs and the joined one. -/
example : IsJoined [part1, part2] whole ∧
    answersTo [part1, part2] = [some ([c!"failed to resolve variable 'y'"], [0], 1), some ([c!"trying to redeclare variable 'q'"], [0, 1], 2)] ∧
    answersTo [whole] = [some ([c!"failed to resolve variable 'y'", c!"trying to redeclare variable 'q'"], [0, 1], 2)] := by
  refine ⟨rfl, ?_, ?_⟩ <;> decide +kernel

/-- C123: where things are not in order, the joined program can be analysed and the pieces can not. The first piece has no
errors, and `z` is in no tree. -/
example : answersTo [program [gate c!"X" [] [name c!"z"]], program [gate c!"X" [] [name c!"y"]]] = [none] ∧
    answersTo [program [gate c!"X" [] [name c!"z"], gate c!"X" [] [name c!"y"]]] =
      [some ([c!"failed to resolve variable 'y'"], [], 1)] := by
  constructor <;> decide +kernel

end Examples

end Qasm
