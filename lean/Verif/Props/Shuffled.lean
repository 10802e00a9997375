import Verif.Spec.Shuffled
import Verif.Props.NotedStops
import Verif.Props.FailsIn
/-!
# Instructions in another order (C126)

Whatever is registered, with annotations or without, valid or not: the order of the instructions between two declarations
decides only the order of what is returned.
-/

namespace Qasm

open Spec Sem Analyzer

attribute [local irreducible] defaultInstrs defaultFns defaultVars

variable {F : Type} {fo : FloatOps F} {v : Version} {ls : List (Level F)}

namespace Shuffling

/-- One statement that is not a declaration: it changes nothing that is registered. -/
theorem head {r r' : Level F} {u : Nat} {s : Stmt F} (hs : ¬ IsDecl s) {ss : List (Stmt F)} {vs : List (SVariable F)}
    {ts : List (SStatement F)} {errs : List Err} (h : NotedIn fo ls r u (s :: ss) vs ts errs r') :
    ∃ t1 e1 ts' errs', ts = t1 ++ ts' ∧ errs = e1 ++ errs' ∧ NotedIn fo ls r u ss vs ts' errs' r' ∧
      ∀ {u' ss' vs' ts' errs' r'}, NotedIn fo ls r u' ss' vs' ts' errs' r' →
        NotedIn fo ls r u' (s :: ss') vs' (t1 ++ ts') (e1 ++ errs') r' := by
  cases h with
  | decl => exact absurd trivial hs
  | badType => exact absurd trivial hs
  | redeclared => exact absurd trivial hs
  | @instr _ _ _ _ t es _ _ _ _ h1 h2 => exact ⟨[t], es, _, _, rfl, rfl, h2, fun h => .instr h1 h⟩
  | @badInstr _ _ _ _ es _ _ _ _ e h1 h2 h3 h4 h5 =>
    refine ⟨[], es ++ [e], _, _, rfl, by simp, h5, fun h => ?_⟩
    rw [List.append_assoc]
    exact .badInstr h1 h2 h3 h4 h

theorem mem {ss ss' : List (Stmt F)} (h : Shuffled ss ss') (s : Stmt F) : s ∈ ss' ↔ s ∈ ss := by
  induction h with
  | nil => rfl
  | cons _ ih => simp [ih]
  | swap => simp only [List.mem_cons]; exact or_left_comm
  | trans _ _ ih1 ih2 => exact ih2.trans ih1

end Shuffling

/-- C126. By the rules, statements with the instructions in another order give the same variables, register the same, and give
the same instructions and errors in another order. -/
theorem C126_statements {ss ss' : List (Stmt F)} (hr : Shuffled ss ss') {r r' : Level F} {u : Nat} {vs : List (SVariable F)}
    {ts : List (SStatement F)} {errs : List Err} (h : NotedIn fo ls r u ss vs ts errs r') :
    ∃ ts' errs', NotedIn fo ls r u ss' vs ts' errs' r' ∧ ts.Perm ts' ∧ errs.Perm errs' := by
  induction hr generalizing r u vs ts errs with
  | nil => exact ⟨ts, errs, h, .refl _, .refl _⟩
  | cons _ ih =>
    cases h with
    | decl h1 h2 h3 h4 =>
      obtain ⟨ts', errs', i1, i2, i3⟩ := ih h4
      exact ⟨_, _, .decl h1 h2 h3 i1, i2, i3.append_left _⟩
    | instr h1 h2 =>
      obtain ⟨ts', errs', i1, i2, i3⟩ := ih h2
      exact ⟨_, _, .instr h1 i1, i2.cons _, i3.append_left _⟩
    | badType h1 h2 h3 =>
      obtain ⟨ts', errs', i1, i2, i3⟩ := ih h3
      exact ⟨_, _, .badType h1 h2 i1, i2, i3.cons _⟩
    | redeclared h1 h2 h3 h4 =>
      obtain ⟨ts', errs', i1, i2, i3⟩ := ih h4
      exact ⟨_, _, .redeclared h1 h2 h3 i1, i2, (i3.cons _).append_left _⟩
    | badInstr h1 h2 h3 h4 h5 =>
      obtain ⟨ts', errs', i1, i2, i3⟩ := ih h5
      exact ⟨_, _, .badInstr h1 h2 h3 h4 i1, i2, (i3.cons _).append_left _⟩
  | swap hs ht =>
    obtain ⟨t1, e1, ts1, errs1, rfl, rfl, h1, k1⟩ := Shuffling.head hs h
    obtain ⟨t2, e2, ts2, errs2, rfl, rfl, h2, k2⟩ := Shuffling.head ht h1
    refine ⟨_, _, k2 (k1 h2), ?_, ?_⟩
    · rw [← List.append_assoc, ← List.append_assoc]
      exact List.perm_append_comm.append_right _
    · rw [← List.append_assoc, ← List.append_assoc]
      exact List.perm_append_comm.append_right _
  | trans _ _ ih1 ih2 =>
    obtain ⟨ts1, errs1, i1, i2, i3⟩ := ih1 h
    obtain ⟨ts2, errs2, j1, j2, j3⟩ := ih2 i1
    exact ⟨ts2, errs2, j1, i2.trans j2, i3.trans j3⟩

namespace Shuffling

/-- The same is kept, except for the order of instructions. -/
def Alike (m m' : Memory F) : Prop :=
  m.count = m'.count ∧ Forall2 (fun f f' : Frame F => f'.level = f.level ∧ f'.variables = f.variables ∧ f.statements.Perm f'.statements) m.frames m'.frames

theorem levels {m m' : Memory F} (h : Alike m m') : m'.levels = m.levels := by
  obtain ⟨fs, n⟩ := m
  obtain ⟨fs', n'⟩ := m'
  obtain ⟨-, h⟩ := h
  dsimp only [Memory.levels] at h ⊢
  induction h with
  | nil => rfl
  | cons h _ ih => simp [h.1, ih]

private theorem zip {fs fs' : List (Frame F)} (h : Forall2 (fun f f' : Frame F => f'.level = f.level ∧ f'.variables = f.variables ∧
    f.statements.Perm f'.statements) fs fs') (ls : List (Level F)) :
    Forall2 (fun f f' : Frame F => f'.level = f.level ∧ f'.variables = f.variables ∧ f.statements.Perm f'.statements)
      (List.zipWith (fun f l => ⟨l, f.variables, f.statements⟩) fs ls)
      (List.zipWith (fun f l => ⟨l, f.variables, f.statements⟩) fs' ls) := by
  induction h generalizing ls with
  | nil => exact .nil
  | cons h _ ih =>
    cases ls with
    | nil => exact .nil
    | cons l ls => exact .cons ⟨rfl, h.2⟩ (ih ls)

theorem keep {m m' : Memory F} (h : Alike m m') (c : Call F) : Alike (c.keep m) (c.keep m') := by
  have hl := levels h
  obtain ⟨h1, h2⟩ := h
  cases c with
  | push => exact ⟨h1, .cons ⟨rfl, rfl, .refl _⟩ h2⟩
  | pop =>
    refine ⟨h1, ?_⟩
    dsimp only [Call.keep]
    revert h2
    generalize m.frames = x, m'.frames = y
    intro h2
    cases h2 with
    | nil => exact .nil
    | cons _ h => exact h
  | var => simp only [Call.keep, hl]; exact ⟨h1, zip h2 _⟩
  | instruction => simp only [Call.keep, hl]; exact ⟨h1, zip h2 _⟩
  | function => simp only [Call.keep, hl]; exact ⟨h1, zip h2 _⟩

/-- A call returns or throws unless it needs a scope and there is none. -/
theorem outcome (c : Call F) (a : Analyzer F) :
    ((∃ b, c.on a = .ok b) ∨ ∃ e, c.on a = .err e) ↔ a.scopes = [] → c = .push := by
  obtain ⟨w, ss, u⟩ := a
  cases c with
  | push => simp [Call.on]
  | pop => cases ss <;> simp [Call.on, popScope]
  | var name value =>
    cases ss with
    | nil => simp [Call.on, registerVariable, modifyCurrent]
    | cons s ss =>
      simp only [Call.on, registerVariable, modifyCurrent, VariableTable.add]
      split <;> simp [Res.bind]
  | instruction i => cases ss <;> simp [Call.on, registerInstruction, modifyCurrent, Res.bind]
  | function name params f =>
    have : ∀ (g : Scope F → Scope F) s ss, ∃ ss', modifyLast g (s :: ss) = .ok ss' := by
      intro g s ss
      induction ss generalizing s with
      | nil => exact ⟨_, rfl⟩
      | cons t ss ih =>
        obtain ⟨ss', h⟩ := ih t
        exact ⟨_, by rw [modifyLast, h]; rfl⟩
    cases ss with
    | nil => simp [Call.on, registerFunction, modifyLast, Res.bind]
    | cons s ss =>
      obtain ⟨ss', h⟩ := this (fun s => { s with fnTable := FnTable.add s.fnTable name params f }) s ss
      simp [Call.on, registerFunction, h, Res.bind]

theorem empty {a a' : Analyzer F} {m m' : Memory F} (h : Keeps v a m) (h' : Keeps v a' m') (hm : Alike m m') :
    a.scopes = [] ↔ a'.scopes = [] := by
  obtain ⟨-, -, h1⟩ := h
  obtain ⟨-, -, h2⟩ := h'
  obtain ⟨-, h3⟩ := hm
  revert h1 h2 h3
  generalize a.scopes = x, a'.scopes = y, m.frames = z, m'.frames = w
  intro h1 h2 h3
  cases h1 <;> cases h3 <;> cases h2 <;> simp

theorem closed {vs : List (SVariable F)} {ts ts' : List (SStatement F)} (h : ts.Perm ts') (hc : ClosedProgram vs ts) :
    ClosedProgram vs ts' := ⟨fun t ht => hc.1 t (h.mem_iff.2 ht), hc.2⟩

/-- One analysis of programs that are the same but for the order, by analysers that are. -/
theorem analysis {a a' b : Analyzer F} {m m' : Memory F} (h : Keeps v a m) (h' : Keeps v a' m') (hm : Alike m m')
    {p p' : ProgramAst F} (hp : ShapedProgram p) (hv : p'.version = p.version) (hs : Shuffled p.block.statements p'.block.statements)
    {r : Result (SProgram F)} (ha : analyze fo a p = .ok (b, r)) :
    ∃ b' r' m1 m1', analyze fo a' p' = .ok (b', r') ∧ ShuffledAnswer r r' ∧ Keeps v b m1 ∧ Keeps v b' m1' ∧ Alike m1 m1' := by
  have hp' : ShapedProgram p' := fun s h => hp s ((mem hs s).1 h)
  obtain ⟨m1, hn, hk⟩ := keeps_noted h hp ha
  obtain ⟨f, fs, l, vs, ts, errs, verrs, e1, e2, rfl, e3, e4, ⟨q, e5, e6, e7, e8, -, e9⟩, e10⟩ := hn
  obtain ⟨fs0, n⟩ := m
  obtain ⟨fs0', n'⟩ := m'
  have hl := levels hm
  obtain ⟨hm1, hm2⟩ := hm
  dsimp only at hm1 hm2 e1 e2
  subst hm1 e1
  cases hm2 with
  | @cons _ f' _ fs' g1 g2 =>
    have hl' : fs'.map (·.level) = fs.map (·.level) := by simpa [Memory.levels, g1.1] using hl
    obtain ⟨ts', errs', n1, n2, n3⟩ := C126_statements hs e2
    have hstmts : (f.statements ++ ts).Perm (f'.statements ++ ts') := g1.2.2.append n2
    have hno : ¬∃ o, NotedProgramStops fo v ⟨f' :: fs', n⟩ p' o := by
      rintro ⟨o, ho⟩
      cases ho with
      | block k1 k2 =>
        cases k1
        rw [hl', g1.1] at k2
        exact C117_exclusive hp' n1 ⟨_, k2⟩
      | notClosed k1 k2 k3 k4 =>
        cases k1
        rw [hl', g1.1] at k3
        obtain ⟨rfl, rfl, rfl, rfl⟩ := C116_unique hp' n1 k3
        rw [g1.2.1] at k4
        refine k4 (closed hstmts (e10 ?_))
        rw [hv] at k2
        rw [e3, ← (versionErrors_iff ..).1 e4, (visitVersion_nil_iff ..).2 k2, n3.eq_nil]
        rfl
      | noScope k => cases k
    rcases Stop.cases (analyze fo a' p') with ⟨⟨b', r'⟩, h3⟩ | ⟨e, _⟩ | ⟨o, h3⟩
    · obtain ⟨m1', ⟨f1, fs1, l1, vs1, ts1, errs1, verrs1, k1, k2, rfl, k3, k4, ⟨q', k5, k6, k7, k8, -, k9⟩, -⟩, hk'⟩ :=
        keeps_noted h' hp' h3
      cases k1
      dsimp only at k2
      rw [hl', g1.1] at k2
      obtain ⟨rfl, rfl, rfl, rfl⟩ := C116_unique hp' n1 k2
      rw [hv] at k4 k9
      refine ⟨b', r', _, _, h3, ⟨?_, q, q', e5, k5, k6.trans e6.symm, ?_, ?_, ?_⟩, hk, hk', rfl, .cons ⟨rfl, ?_, hstmts⟩ g2⟩
      · rw [e3, k3, ← (versionErrors_iff ..).1 e4, ← (versionErrors_iff ..).1 k4]
        exact n3.append_left _
      · exact versionNode_unique k9 e9
      · rw [k7, e7, g1.2.1]
      · rw [e8, k8]; exact hstmts
      · dsimp only; rw [g1.2.1]
    · exact e.elim
    · exact absurd ⟨o, (analyze_notedStop h' hp' o).1 h3⟩ hno

end Shuffling

/-- C126. Two sessions of calls and analyses that differ only in the order of instructions between declarations: if one is
possible then so is the other, and each answer is the same except for the order of errors and instructions. -/
theorem C126_session {a b : Analyzer F} (ha : Analyzer.new v = some a) {es es' : List (Event F)} {rs : List (Result (SProgram F))}
    (h : Answers fo es a rs b) (hp : ∀ p, .analyze p ∈ es → ShapedProgram p) (hs : Forall2 ShuffledEvent es es') :
    ∃ rs' b', Answers fo es' a rs' b' ∧ Forall2 ShuffledAnswer rs rs' := by
  have key : ∀ {a b : Analyzer F} {es : List (Event F)} {rs : List (Result (SProgram F))}, Answers fo es a rs b →
      (∀ p, .analyze p ∈ es → ShapedProgram p) → ∀ {es'}, Forall2 ShuffledEvent es es' → ∀ {a' m m'}, Keeps v a m → Keeps v a' m' →
      Shuffling.Alike m m' → ∃ rs' b', Answers fo es' a' rs' b' ∧ Forall2 ShuffledAnswer rs rs' := by
    intro a b es rs h
    induction h with
    | nil => intro _ es' hs a' m m' _ _ _; cases hs; exact ⟨[], a', .nil, .nil⟩
    | @ok c es a b rs d h _ ih =>
      intro hp es' hs a' m m' hk hk' hm
      cases hs with
      | cons h1 hs =>
        cases h1
        have ih := @ih (fun p h => hp p (List.mem_cons_of_mem _ h)) _ hs
        have ho : a.scopes = [] → c = .push := (Shuffling.outcome c a).1 (.inl ⟨_, h⟩)
        rcases (Shuffling.outcome c a').2 fun h => ho ((Shuffling.empty hk hk' hm).2 h) with ⟨b', h'⟩ | ⟨e, h'⟩
        · obtain ⟨rs', d', i1, i2⟩ := ih (keeps_call hk (.inl h)) (keeps_call hk' (.inl h')) (Shuffling.keep hm c)
          exact ⟨rs', d', .ok h' i1, i2⟩
        · obtain ⟨rs', d', i1, i2⟩ := ih (keeps_call hk (.inl h)) (keeps_call hk' (.inr ⟨⟨e, h'⟩, rfl⟩)) (Shuffling.keep hm c)
          exact ⟨rs', d', .error h' i1, i2⟩
    | @error c es a e rs d h _ ih =>
      intro hp es' hs a' m m' hk hk' hm
      cases hs with
      | cons h1 hs =>
        cases h1
        have ih := @ih (fun p h => hp p (List.mem_cons_of_mem _ h)) _ hs
        have ho : a.scopes = [] → c = .push := (Shuffling.outcome c a).1 (.inr ⟨_, h⟩)
        rcases (Shuffling.outcome c a').2 fun h => ho ((Shuffling.empty hk hk' hm).2 h) with ⟨b', h'⟩ | ⟨e', h'⟩
        · obtain ⟨rs', d', i1, i2⟩ := ih (keeps_call hk (.inr ⟨⟨e, h⟩, rfl⟩)) (keeps_call hk' (.inl h')) (Shuffling.keep hm c)
          exact ⟨rs', d', .ok h' i1, i2⟩
        · obtain ⟨rs', d', i1, i2⟩ := ih (keeps_call hk (.inr ⟨⟨e, h⟩, rfl⟩)) (keeps_call hk' (.inr ⟨⟨e', h'⟩, rfl⟩)) (Shuffling.keep hm c)
          exact ⟨rs', d', .error h' i1, i2⟩
    | analyze h _ ih =>
      intro hp es' hs a' m m' hk hk' hm
      cases hs with
      | cons h1 hs =>
        cases h1 with
        | analyze hv hsh =>
          obtain ⟨b', r', m1, m1', j1, j2, j3, j4, j5⟩ := Shuffling.analysis hk hk' hm (hp _ (List.mem_cons_self ..)) hv hsh h
          obtain ⟨rs', d', i1, i2⟩ := ih (fun p h => hp p (List.mem_cons_of_mem _ h)) hs j3 j4 j5
          exact ⟨_, _, .analyze j1 i1, .cons j2 i2⟩
  exact key h hp hs (keeps_new ha) (keeps_new ha) ⟨rfl, .cons ⟨rfl, rfl, .refl _⟩ .nil⟩

/-- C126. If one ends without a result then so does the other: to be in another order is symmetric. -/
theorem C126_ends {a : Analyzer F} {m : Memory F} (h : Keeps v a m) {p p' : ProgramAst F} (hp : ShapedProgram p)
    (hv : p'.version = p.version) (hs : Shuffled p.block.statements p'.block.statements) :
    (∃ o, analyze fo a p = Stop.as o) ↔ ∃ o, analyze fo a p' = Stop.as o := by
  have symm : ∀ {ss ss' : List (Stmt F)}, Shuffled ss ss' → Shuffled ss' ss := by
    intro ss ss' h
    induction h with
    | nil => exact .nil
    | cons _ ih => exact .cons ih
    | swap h1 h2 => exact .swap h2 h1
    | trans _ _ ih1 ih2 => exact ih2.trans ih1
  have refl : Shuffling.Alike m m := by
    refine ⟨rfl, ?_⟩
    generalize m.frames = fs
    induction fs with
    | nil => exact .nil
    | cons f fs ih => exact .cons ⟨rfl, rfl, .refl _⟩ ih
  have one : ∀ {p p' : ProgramAst F}, ShapedProgram p → p'.version = p.version → Shuffled p.block.statements p'.block.statements →
      (∃ o, analyze fo a p' = Stop.as o) → ∃ o, analyze fo a p = Stop.as o := by
    rintro p p' hp hv hs ⟨o, ho⟩
    rcases Stop.cases (analyze fo a p) with ⟨⟨b, r⟩, h3⟩ | ⟨e, _⟩ | h3
    · obtain ⟨b', r', _, _, h4, _⟩ := Shuffling.analysis h h refl hp hv hs h3
      rw [ho] at h4
      exact (Stop.ne_ok h4.symm).elim
    · exact e.elim
    · exact h3
  exact ⟨one (fun s h => hp s ((Shuffling.mem hs s).1 h)) hv.symm (symm hs), one hp hv hs⟩

/-! ## Examples -/

section Examples

open Sample

/-- Throws for 0, and else returns its argument. -/
private def picky : CoreFn Int
  | [⟨.constInt 0, _⟩] => .err ⟨c!"zero", none⟩
  | [⟨.constInt i, _⟩] => .ok (some ⟨.constInt i, none⟩)
  | _ => .ok none

/-- `X q[f(i)]`. -/
private def flip (i : Int64) : Stmt Int :=
  .gate none [] (.mk none [] c!"X" none []) [.index none (name c!"q") [.item none (.call none c!"f" [int i])]]

private def first : List (Stmt Int) := [flip 1, qubits c!"q" 4, flip 0, flip 2, flip 9]

private def second : List (Stmt Int) := [flip 1, qubits c!"q" 4, flip 9, flip 2, flip 0]

private def events (ss : List (Stmt Int)) : List (Event Int) :=
  [.call (.instruction ⟨c!"X", [.bare .qubit]⟩), .call (.function c!"f" [.bare .int] picky), .analyze (program ss),
   .analyze (program [flip 3])]

/-- The sessions differ in the order of instructions. -/
example : Forall2 ShuffledEvent (events first) (events second) := by
  have no : ∀ i, ¬ IsDecl (flip i) := fun i h => h
  refine .cons .call (.cons .call (.cons (.analyze rfl ?_) (.cons (.analyze rfl (.cons .nil)) .nil)))
  exact .cons (.cons ((Shuffled.swap (no _) (no _)).trans ((Shuffled.cons (.swap (no _) (no _))).trans (.swap (no _) (no _)))))

private def answers (ss : List (Stmt Int)) : Option (List (List Str × Nat)) :=
  (Analyzer.new [3, 0]).bind fun a =>
    match registerInstruction a ⟨c!"X", [.bare .qubit]⟩ with
    | .ok a =>
      match registerFunction a c!"f" [.bare .int] picky with
      | .ok a =>
        match analyze Sample.fo a (program ss) with
        | .ok (a, r) =>
          match analyze Sample.fo a (program [flip 3]) with
          | .ok (_, r') => some ([r, r'].map fun r => (r.errors.map (·.message), (r.root.map (·.block.statements.length)).getD 0))
          | _ => none
        | _ => none
      | _ => none
    | _ => none

/-- C126: the errors are in the order of the instructions; that of the instruction before the declaration stays in front, and the
later analysis is the same. -/
example : answers first = some [([c!"failed to resolve variable 'q'", c!"zero", c!"index 9 out of range (size 4)"], 1), ([], 2)] ∧
    answers second = some [([c!"failed to resolve variable 'q'", c!"index 9 out of range (size 4)", c!"zero"], 1), ([], 2)] := by
  constructor <;> decide +kernel

/-- Across a declaration the order matters: the first instruction is valid behind it. -/
example : answers [qubits c!"q" 4, flip 1, flip 0, flip 2, flip 9] =
    some [([c!"zero", c!"index 9 out of range (size 4)"], 2), ([], 3)] := by decide +kernel

/-- The programs are as the theorems assume. -/
example : ShapedProgram (program first) := by
  intro s hs
  simp only [program, first, List.mem_cons, List.not_mem_nil, or_false] at hs
  rcases hs with rfl | rfl | rfl | rfl | rfl <;>
    simp [ShapedStmt, ShapedAnnotations, ShapedGate, ShapedGateAnnotations, ShapedExpr, ShapedExprs, ShapedEntries, flip, int, name, qubits, modifiers, nonGates]

end Examples

end Qasm
