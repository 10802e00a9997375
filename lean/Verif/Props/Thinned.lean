import Verif.Spec.Thinned
import Verif.Props.Shuffled
import Verif.Props.Tidy
/-!
# Leaving out instructions (C127)

Whatever is registered: what one instruction contributes to an answer is its own.
-/

namespace Qasm

open Spec Sem Analyzer

attribute [local irreducible] defaultInstrs defaultFns defaultVars

variable {F : Type} {fo : FloatOps F} {v : Version} {ls : List (Level F)}

/-- C127. By the rules, without some instructions there are the same variables, the same is registered, and the errors and
instructions that remain are in the same order. -/
theorem C127_statements {ss ss' : List (Stmt F)} (ht : Thinned ss ss') {r r' : Level F} {u : Nat} {vs : List (SVariable F)}
    {ts : List (SStatement F)} {errs : List Err} (h : NotedIn fo ls r u ss vs ts errs r') :
    ∃ ts' errs', NotedIn fo ls r u ss' vs ts' errs' r' ∧ ts'.Sublist ts ∧ errs'.Sublist errs := by
  induction ht generalizing r u vs ts errs with
  | nil => exact ⟨ts, errs, h, .refl _, .refl _⟩
  | keep _ ih =>
    cases h with
    | decl h1 h2 h3 h4 =>
      obtain ⟨ts', errs', i1, i2, i3⟩ := ih h4
      exact ⟨_, _, .decl h1 h2 h3 i1, i2, i3.append_left _⟩
    | instr h1 h2 =>
      obtain ⟨ts', errs', i1, i2, i3⟩ := ih h2
      exact ⟨_, _, .instr h1 i1, i2.cons_cons _, i3.append_left _⟩
    | badType h1 h2 h3 =>
      obtain ⟨ts', errs', i1, i2, i3⟩ := ih h3
      exact ⟨_, _, .badType h1 h2 i1, i2, i3.cons_cons _⟩
    | redeclared h1 h2 h3 h4 =>
      obtain ⟨ts', errs', i1, i2, i3⟩ := ih h4
      exact ⟨_, _, .redeclared h1 h2 h3 i1, i2, (i3.cons_cons _).append_left _⟩
    | badInstr h1 h2 h3 h4 h5 =>
      obtain ⟨ts', errs', i1, i2, i3⟩ := ih h5
      exact ⟨_, _, .badInstr h1 h2 h3 h4 i1, i2, (i3.cons_cons _).append_left _⟩
  | drop hs _ ih =>
    obtain ⟨t1, e1, ts1, errs1, rfl, rfl, h1, -⟩ := Shuffling.head hs h
    obtain ⟨ts', errs', i1, i2, i3⟩ := ih h1
    exact ⟨ts', errs', i1, i2.trans (List.sublist_append_right ..), i3.trans (List.sublist_append_right ..)⟩

namespace Thinning

/-- The frames are the same, the second without some of the instructions. -/
def FrameAlike (f f' : Frame F) : Prop :=
  f'.level = f.level ∧ f'.variables = f.variables ∧ f'.statements.Sublist f.statements

/-- The same is kept, without some of the instructions. -/
def Alike (m m' : Memory F) : Prop := m.count = m'.count ∧ Forall2 FrameAlike m.frames m'.frames

theorem refl (m : Memory F) : Alike m m := by
  refine ⟨rfl, ?_⟩
  generalize m.frames = fs
  induction fs with
  | nil => exact .nil
  | cons f fs ih => exact .cons ⟨rfl, rfl, .refl _⟩ ih

theorem levels {m m' : Memory F} (h : Alike m m') : m'.levels = m.levels := by
  obtain ⟨fs, n⟩ := m
  obtain ⟨fs', n'⟩ := m'
  obtain ⟨-, h⟩ := h
  dsimp only [Memory.levels] at h ⊢
  induction h with
  | nil => rfl
  | cons h _ ih => simp [h.1, ih]

private theorem zip {fs fs' : List (Frame F)} (h : Forall2 FrameAlike fs fs') (ls : List (Level F)) :
    Forall2 FrameAlike (List.zipWith (fun f l => ⟨l, f.variables, f.statements⟩) fs ls)
      (List.zipWith (fun f l => ⟨l, f.variables, f.statements⟩) fs' ls) := by
  induction h generalizing ls with
  | nil => exact .nil
  | cons h _ ih =>
    cases ls with
    | nil => exact .nil
    | cons l ls => exact .cons ⟨rfl, h.2⟩ (ih ls)

theorem keep {m m' : Memory F} (h : Alike m m') (c : Call F) : Alike (c.keep m) (c.keep m') := by
  have hl := levels h
  obtain ⟨h1, h2⟩ := h
  cases c with
  | push => exact ⟨h1, .cons ⟨rfl, rfl, .refl _⟩ h2⟩
  | pop =>
    refine ⟨h1, ?_⟩
    dsimp only [Call.keep]
    revert h2
    generalize m.frames = x, m'.frames = y
    intro h2
    cases h2 with
    | nil => exact .nil
    | cons _ h => exact h
  | var => simp only [Call.keep, hl]; exact ⟨h1, zip h2 _⟩
  | instruction => simp only [Call.keep, hl]; exact ⟨h1, zip h2 _⟩
  | function => simp only [Call.keep, hl]; exact ⟨h1, zip h2 _⟩

theorem empty {a a' : Analyzer F} {m m' : Memory F} (h : Keeps v a m) (h' : Keeps v a' m') (hm : Alike m m') :
    a.scopes = [] ↔ a'.scopes = [] := by
  obtain ⟨-, -, h1⟩ := h
  obtain ⟨-, -, h2⟩ := h'
  obtain ⟨-, h3⟩ := hm
  revert h1 h2 h3
  generalize a.scopes = x, a'.scopes = y, m.frames = z, m'.frames = w
  intro h1 h2 h3
  cases h1 <;> cases h3 <;> cases h2 <;> simp

theorem mem {ss ss' : List (Stmt F)} (h : Thinned ss ss') (s : Stmt F) (hs : s ∈ ss') : s ∈ ss := by
  induction h with
  | nil => exact hs
  | keep _ ih => exact (List.mem_cons.1 hs).elim (fun e => e ▸ List.mem_cons_self ..) fun h => List.mem_cons_of_mem _ (ih h)
  | drop _ _ ih => exact List.mem_cons_of_mem _ (ih hs)

/-- One analysis of a program without some of the instructions, by an analyser that keeps fewer instructions. -/
theorem analysis {a a' b : Analyzer F} {m m' : Memory F} (h : Keeps v a m) (h' : Keeps v a' m') (hm : Alike m m')
    {p p' : ProgramAst F} (hp : ShapedProgram p) (hv : p'.version = p.version) (hs : Thinned p.block.statements p'.block.statements)
    {r : Result (SProgram F)} (ha : analyze fo a p = .ok (b, r)) :
    (∃ b' r' m1 m1', analyze fo a' p' = .ok (b', r') ∧ ThinnedAnswer r r' ∧ Keeps v b m1 ∧ Keeps v b' m1' ∧ Alike m1 m1') ∨
      (r.errors ≠ [] ∧ ∃ q, r.root = some q ∧ ¬ ClosedProgram q.variables q.block.statements) ∧
        analyze fo a' p' = .exn c!"std::runtime_error" := by
  have hp' : ShapedProgram p' := fun s h => hp s (mem hs s h)
  obtain ⟨m1, hn, hk⟩ := keeps_noted h hp ha
  obtain ⟨f, fs, l, vs, ts, errs, verrs, e1, e2, rfl, e3, e4, ⟨q, e5, e6, e7, e8, -, e9⟩, e10⟩ := hn
  obtain ⟨fs0, n⟩ := m
  obtain ⟨fs0', n'⟩ := m'
  have hl := levels hm
  obtain ⟨hm1, hm2⟩ := hm
  dsimp only at hm1 hm2 e1 e2
  subst hm1 e1
  cases hm2 with
  | @cons _ f' _ fs' g1 g2 =>
    have hl' : fs'.map (·.level) = fs.map (·.level) := by simpa [Memory.levels, g1.1] using hl
    obtain ⟨ts', errs', n1, n2, n3⟩ := C127_statements hs e2
    have hstmts : (f'.statements ++ ts').Sublist (f.statements ++ ts) := g1.2.2.append n2
    rcases Stop.cases (analyze fo a' p') with ⟨⟨b', r'⟩, h3⟩ | ⟨e, _⟩ | ⟨o, h3⟩
    · obtain ⟨m1', ⟨f1, fs1, l1, vs1, ts1, errs1, verrs1, k1, k2, rfl, k3, k4, ⟨q', k5, k6, k7, k8, -, k9⟩, -⟩, hk'⟩ :=
        keeps_noted h' hp' h3
      cases k1
      dsimp only at k2
      rw [hl', g1.1] at k2
      obtain ⟨rfl, rfl, rfl, rfl⟩ := C116_unique hp' n1 k2
      rw [hv] at k4 k9
      refine .inl ⟨b', r', _, _, h3, ⟨?_, q, q', e5, k5, k6.trans e6.symm, ?_, ?_, ?_⟩, hk, hk', rfl, .cons ⟨rfl, ?_, hstmts⟩ g2⟩
      · rw [e3, k3, ← (versionErrors_iff ..).1 e4, ← (versionErrors_iff ..).1 k4]
        exact n3.append_left _
      · exact versionNode_unique k9 e9
      · rw [k7, e7, g1.2.1]
      · rw [e8, k8]; exact hstmts
      · dsimp only; rw [g1.2.1]
    · exact e.elim
    · have ho := (analyze_notedStop h' hp' o).1 h3
      cases ho with
      | block k1 k2 =>
        cases k1
        rw [hl', g1.1] at k2
        exact (C117_exclusive hp' n1 ⟨_, k2⟩).elim
      | notClosed k1 k2 k3 k4 =>
        cases k1
        rw [hl', g1.1] at k3
        obtain ⟨rfl, rfl, rfl, rfl⟩ := C116_unique hp' n1 k3
        rw [g1.2.1] at k4
        have no : ¬ ClosedProgram (f.variables ++ vs) (f.statements ++ ts) := fun hc =>
          k4 ⟨fun t ht => hc.1 t (hstmts.subset ht), hc.2⟩
        exact .inr ⟨⟨fun he => no (e10 he), q, e5, by rwa [e7, e8]⟩, h3⟩
      | noScope k => cases k

end Thinning

/-- C127. Two sessions that differ only in that the programs of the second lack some instructions of those of the first. The
answers of the second are those of the first without some errors and instructions; unless an analysis of the second throws a
`std::runtime_error`, which is possible only where the first reports errors together with a tree that is not in order. -/
theorem C127_session {a b : Analyzer F} (ha : Analyzer.new v = some a) {es es' : List (Event F)} {rs : List (Result (SProgram F))}
    (h : Answers fo es a rs b) (hp : ∀ p, .analyze p ∈ es → ShapedProgram p) (hs : Forall2 ThinnedEvent es es') :
    (∃ rs' b', Answers fo es' a rs' b' ∧ Forall2 ThinnedAnswer rs rs') ∨
      ∃ es1 p es2 rs1 b1 r, es' = es1 ++ .analyze p :: es2 ∧ Answers fo es1 a rs1 b1 ∧
        analyze fo b1 p = .exn c!"std::runtime_error" ∧ rs[rs1.length]? = some r ∧ r.errors ≠ [] ∧
        ∃ q, r.root = some q ∧ ¬ ClosedProgram q.variables q.block.statements := by
  have key : ∀ {a b : Analyzer F} {es : List (Event F)} {rs : List (Result (SProgram F))}, Answers fo es a rs b →
      (∀ p, .analyze p ∈ es → ShapedProgram p) → ∀ {es'}, Forall2 ThinnedEvent es es' → ∀ {a' m m'}, Keeps v a m → Keeps v a' m' →
      Thinning.Alike m m' → (∃ rs' b', Answers fo es' a' rs' b' ∧ Forall2 ThinnedAnswer rs rs') ∨
        ∃ es1 p es2 rs1 b1 r, es' = es1 ++ .analyze p :: es2 ∧ Answers fo es1 a' rs1 b1 ∧
          analyze fo b1 p = .exn c!"std::runtime_error" ∧ rs[rs1.length]? = some r ∧ r.errors ≠ [] ∧
        ∃ q, r.root = some q ∧ ¬ ClosedProgram q.variables q.block.statements := by
    intro a b es rs h
    have step : ∀ {c : Call F} {a a1 : Analyzer F} {es : List (Event F)} {rs : List (Result (SProgram F))},
        (c.on a = .ok a1 ∨ (∃ e, c.on a = .err e) ∧ a1 = a) →
        (∀ {es'}, Forall2 ThinnedEvent es es' → ∀ {a' m m'}, Keeps v a1 m → Keeps v a' m' →
          Thinning.Alike m m' → (∃ rs' b', Answers fo es' a' rs' b' ∧ Forall2 ThinnedAnswer rs rs') ∨
          ∃ es1 p es2 rs1 b1 r, es' = es1 ++ .analyze p :: es2 ∧ Answers fo es1 a' rs1 b1 ∧
            analyze fo b1 p = .exn c!"std::runtime_error" ∧ rs[rs1.length]? = some r ∧ r.errors ≠ [] ∧
        ∃ q, r.root = some q ∧ ¬ ClosedProgram q.variables q.block.statements) →
        ∀ {es'}, Forall2 ThinnedEvent (.call c :: es) es' → ∀ {a' m m'}, Keeps v a m → Keeps v a' m' →
          Thinning.Alike m m' → (∃ rs' b', Answers fo es' a' rs' b' ∧ Forall2 ThinnedAnswer rs rs') ∨
          ∃ es1 p es2 rs1 b1 r, es' = es1 ++ .analyze p :: es2 ∧ Answers fo es1 a' rs1 b1 ∧
            analyze fo b1 p = .exn c!"std::runtime_error" ∧ rs[rs1.length]? = some r ∧ r.errors ≠ [] ∧
        ∃ q, r.root = some q ∧ ¬ ClosedProgram q.variables q.block.statements := by
      intro c a a1 es rs hc ih es' hs a' m m' hk hk' hm
      cases hs with
      | cons h1 hs =>
        cases h1
        have ho : a.scopes = [] → c = .push := (Shuffling.outcome c a).1 (hc.elim (fun h => .inl ⟨_, h⟩) fun h => .inr h.1)
        rcases (Shuffling.outcome c a').2 fun h => ho ((Thinning.empty hk hk' hm).2 h) with ⟨b', h'⟩ | ⟨e, h'⟩
        · rcases ih hs (keeps_call hk hc) (keeps_call hk' (.inl h')) (Thinning.keep hm c) with
            ⟨rs', d', i1, i2⟩ | ⟨es1, p, es2, rs1, b1, r, rfl, i1, i2⟩
          · exact .inl ⟨rs', d', .ok h' i1, i2⟩
          · exact .inr ⟨_ :: es1, p, es2, rs1, b1, r, rfl, .ok h' i1, i2⟩
        · rcases ih hs (keeps_call hk hc) (keeps_call hk' (.inr ⟨⟨e, h'⟩, rfl⟩)) (Thinning.keep hm c) with
            ⟨rs', d', i1, i2⟩ | ⟨es1, p, es2, rs1, b1, r, rfl, i1, i2⟩
          · exact .inl ⟨rs', d', .error h' i1, i2⟩
          · exact .inr ⟨_ :: es1, p, es2, rs1, b1, r, rfl, .error h' i1, i2⟩
    induction h with
    | nil => intro _ es' hs a' m m' _ _ _; cases hs; exact .inl ⟨[], a', .nil, .nil⟩
    | ok h _ ih => exact fun hp => step (.inl h) (ih fun p h => hp p (List.mem_cons_of_mem _ h))
    | error h _ ih => exact fun hp => step (.inr ⟨⟨_, h⟩, rfl⟩) (ih fun p h => hp p (List.mem_cons_of_mem _ h))
    | @analyze p es a b r rs d h _ ih =>
      intro hp es' hs a' m m' hk hk' hm
      cases hs with
      | cons h1 hs =>
        cases h1 with
        | @analyze _ p' hv hsh =>
          rcases Thinning.analysis hk hk' hm (hp _ (List.mem_cons_self ..)) hv hsh h with
            ⟨b', r', m1, m1', j1, j2, j3, j4, j5⟩ | ⟨j1, j2⟩
          · rcases ih (fun p h => hp p (List.mem_cons_of_mem _ h)) hs j3 j4 j5 with
              ⟨rs', d', i1, i2⟩ | ⟨es1, q, es2, rs1, b1, x, rfl, i1, i2, i3, i4⟩
            · exact .inl ⟨_, _, .analyze j1 i1, .cons j2 i2⟩
            · exact .inr ⟨_ :: es1, q, es2, r' :: rs1, b1, x, rfl, .analyze j1 i1, i2, by simpa using i3, i4⟩
          · exact .inr ⟨[], p', _, [], a', r, rfl, .nil, j2, rfl, j1⟩
  exact key h hp hs (keeps_new ha) (keeps_new ha) (Thinning.refl _)

/-- C127. In particular, a session without errors stays one if instructions are left out. -/
theorem C127_valid {a b : Analyzer F} (ha : Analyzer.new v = some a) {es es' : List (Event F)} {rs : List (Result (SProgram F))}
    (h : Answers fo es a rs b) (hp : ∀ p, .analyze p ∈ es → ShapedProgram p) (hs : Forall2 ThinnedEvent es es')
    (hr : ∀ r ∈ rs, r.errors = []) :
    ∃ rs' b', Answers fo es' a rs' b' ∧ Forall2 ThinnedAnswer rs rs' ∧ ∀ r ∈ rs', r.errors = [] := by
  rcases C127_session ha h hp hs with ⟨rs', b', h1, h2⟩ | ⟨_, _, _, _, _, r, _, _, _, h3, h4, _⟩
  · refine ⟨rs', b', h1, h2, ?_⟩
    clear h1 h
    induction h2 with
    | nil => simp
    | cons h _ ih =>
      intro r hr'
      rcases List.mem_cons.1 hr' with rfl | hr'
      · exact List.sublist_nil.1 (hr _ (List.mem_cons_self ..) ▸ h.1)
      · exact ih (fun r h => hr r (List.mem_cons_of_mem _ h)) r hr'
  · exact absurd (hr r (List.mem_of_getElem? h3)) h4

/-- C127. Where things are in order, instructions can be left out of a program and its analysis still returns. -/
theorem C127_tidy {a b : Analyzer F} {m : Memory F} (h : Keeps v a m) (ht : Tidy m) {p p' : ProgramAst F} (hp : ShapedProgram p)
    (hpl : PlainProgram p) (hv : p'.version = p.version) (hs : Thinned p.block.statements p'.block.statements)
    {r : Result (SProgram F)} (ha : analyze fo a p = .ok (b, r)) :
    ∃ b' r', analyze fo a p' = .ok (b', r') ∧ ThinnedAnswer r r' := by
  rcases Thinning.analysis h h (Thinning.refl m) hp hv hs ha with ⟨b', r', _, _, h1, h2, _⟩ | ⟨⟨_, q, h1, h2⟩, _⟩
  · exact ⟨b', r', h1, h2⟩
  · obtain ⟨m', h3, _⟩ := keeps_analyze h hp hpl ha
    obtain ⟨_, q', h4, h5⟩ := C122_tree ht hp h3
    rw [h1] at h4
    cases h4
    exact absurd h5 h2

/-! ## Examples -/

section Examples

open Sample

/-- `X e`. -/
private def flip (e : Expr Int) : Stmt Int := .gate none [] (.mk none [] c!"X" none []) [e]

/-- The first program declares qubits `q`; the second is analysed in a scope of its own. -/
private def events (ss ss' : List (Stmt Int)) : List (Event Int) :=
  [.call (.instruction ⟨c!"X", [.bare .qubitArray]⟩), .analyze (program ss), .call .push, .analyze (program ss')]

private def whole : List (Stmt Int) := [flip (name c!"r"), qubits c!"q" 2, flip (name c!"q"), flip (name c!"s")]

private def part : List (Stmt Int) := [flip (name c!"r"), qubits c!"q" 2, flip (name c!"q")]

/-- What the two analyses answer: messages, and the number of instructions; or the class of what is thrown. -/
private def answers (ss ss' : List (Stmt Int)) : Option (List Str × Nat × (List Str × Nat ⊕ Str)) :=
  (Analyzer.new [3, 0]).bind fun a =>
    match registerInstruction a ⟨c!"X", [.bare .qubitArray]⟩ with
    | .ok a =>
      match analyze Sample.fo a (program ss) with
      | .ok (a, r) =>
        let first := r.errors.map (·.message)
        let count := (r.root.map (·.block.statements.length)).getD 0
        match analyze Sample.fo a.pushScope (program ss') with
        | .ok (_, r) => some (first, count, .inl (r.errors.map (·.message), (r.root.map (·.block.statements.length)).getD 0))
        | .exn c => some (first, count, .inr c)
        | _ => none
      | _ => none
    | _ => none

/-- C127: without the last instruction of the first program its error is missing, and nothing else changes. -/
example : answers whole [flip (name c!"t")] =
      some ([c!"failed to resolve variable 'r'", c!"failed to resolve variable 's'"], 1, .inl ([c!"failed to resolve variable 't'"], 0)) ∧
    answers part [flip (name c!"t")] =
      some ([c!"failed to resolve variable 'r'"], 1, .inl ([c!"failed to resolve variable 't'"], 0)) := by
  constructor <;> decide +kernel

/-- C127: the second case of the theorem does occur. The second program uses `q` of the outer scope, which its tree does not
declare; that is noticed only if there is no error. To leave out the instruction with the error makes the analysis throw. -/
example : answers part [flip (name c!"q"), flip (name c!"t")] =
      some ([c!"failed to resolve variable 'r'"], 1, .inl ([c!"failed to resolve variable 't'"], 1)) ∧
    answers part [flip (name c!"q")] = some ([c!"failed to resolve variable 'r'"], 1, .inr c!"std::runtime_error") := by
  constructor <;> decide +kernel

/-- These sessions are as the theorems assume. -/
example : Forall2 ThinnedEvent (events whole [flip (name c!"t")]) (events part [flip (name c!"t")]) ∧
    Forall2 ThinnedEvent (events part [flip (name c!"q"), flip (name c!"t")]) (events part [flip (name c!"q")]) := by
  have no : ∀ e, ¬ IsDecl (flip e) := fun i h => h
  exact ⟨.cons .call (.cons (.analyze rfl (.keep (.keep (.keep (.drop (no _) .nil))))) (.cons .call (.cons (.analyze rfl (.keep .nil)) .nil))),
    .cons .call (.cons (.analyze rfl (.keep (.keep (.keep .nil)))) (.cons .call (.cons (.analyze rfl (.keep (.drop (no _) .nil))) .nil)))⟩

/-- So are the programs. -/
example : ShapedProgram (program whole) := by
  intro s hs
  simp only [program, whole, List.mem_cons, List.not_mem_nil, or_false] at hs
  rcases hs with rfl | rfl | rfl | rfl <;>
    simp [ShapedStmt, ShapedAnnotations, ShapedGate, ShapedGateAnnotations, ShapedExpr, flip, name, qubits, modifiers, nonGates]

end Examples

end Qasm
