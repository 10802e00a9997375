import Verif.Lemmas.Again
import Verif.Props.Standard
/-!
# Analysing the same program again (C120)

An analyser keeps the variables and instructions of the programs it has analysed. The user gives it the same text again.
-/

namespace Qasm

open Spec Sem Syn

attribute [local irreducible] defaultInstrs defaultFns defaultVars

variable {F : Type} {fo : FloatOps F} {v : Version} {an : Antlr F}

/-- C120. The rules for statements that are analysed again, where their variables are still registered: the instructions are the
same, each declaration is an error, its variable is in the tree again with a new number, and nothing is registered. -/
theorem C120_statements {ls : List (Level F)} {r r' : Level F} {u : Nat} {ss : List (Stmt F)} {vs : List (SVariable F)}
    {ts : List (SStatement F)} (h : AnalysisIn fo ls r u ss vs ts [] r')
    (hn : ∀ name ∈ declaredNames ss, ∀ x, ¬ Seen name x ls) (w : Nat) :
    ∃ bad, AnalysisIn fo ls r' w ss (numbered w vs) ts bad r' ∧ bad.map (·.2) = redeclarations ss :=
  Again.again h hn w

namespace Again

theorem numbered_append (u : Nat) (xs ys : List (SVariable F)) :
    numbered u (xs ++ ys) = numbered u xs ++ numbered (u + xs.length) ys := by
  induction xs generalizing u with
  | nil => rfl
  | cons x xs ih =>
    simp only [List.cons_append, numbered, ih, List.length_cons]
    rw [Nat.add_right_comm, Nat.add_assoc]

theorem numbered_length (u : Nat) (xs : List (SVariable F)) : (numbered u xs).length = xs.length := by
  induction xs generalizing u with
  | nil => rfl
  | cons x xs ih => simp [numbered, ih]

theorem numbered_plain {xs : List (SVariable F)} (h : ∀ x ∈ xs, x.annotations = []) (u : Nat) :
    ∀ x ∈ numbered u xs, x.annotations = [] := by
  induction xs generalizing u with
  | nil => intro x hx; cases hx
  | cons y ys ih =>
    intro x hx
    rcases List.mem_cons.1 hx with rfl | hx
    · exact h y (List.mem_cons_self ..)
    · exact ih (fun z hz => h z (List.mem_cons_of_mem _ hz)) _ x hx

theorem variables_plain {ls : List (Level F)} {r r' : Level F} {u : Nat} {ss : List (Stmt F)} {vs : List (SVariable F)}
    {ts : List (SStatement F)} {bad : List (Stmt F × Err)} (h : AnalysisIn fo ls r u ss vs ts bad r') :
    ∀ x ∈ vs, x.annotations = [] := by
  induction h with
  | nil => intro x hx; cases hx
  | decl _ _ _ ih | redeclared _ _ _ ih =>
    intro x hx
    rcases List.mem_cons.1 hx with rfl | hx
    · rfl
    · exact ih x hx
  | instr _ _ ih | badType _ _ _ ih | badInstr _ _ _ _ ih => exact ih

theorem variables_numbered {ls : List (Level F)} {r r' : Level F} {u : Nat} {ss : List (Stmt F)} {vs : List (SVariable F)}
    {ts : List (SStatement F)} {bad : List (Stmt F × Err)} (h : AnalysisIn fo ls r u ss vs ts bad r') : vs = numbered u vs := by
  induction h with
  | nil => rfl
  | decl _ _ _ ih | redeclared _ _ _ ih => exact congrArg (List.cons _) ih
  | instr _ _ ih | badType _ _ _ ih | badInstr _ _ _ _ ih => exact ih

theorem closed_more {vs ws : List (SVariable F)} {ts us : List (SStatement F)} (h : ClosedProgram vs ts)
    (hw : ∀ x ∈ ws, x.annotations = []) (hu : ∀ t ∈ us, t ∈ ts) : ClosedProgram (vs ++ ws) (ts ++ us) := by
  have more : ∀ {x : Value F}, ClosedValue vs x → ClosedValue (vs ++ ws) x := fun hx =>
    ⟨fun y hy => by obtain ⟨z, hz, e⟩ := hx.1 y hy; exact ⟨z, List.mem_append_left _ hz, e⟩, hx.2⟩
  refine ⟨fun t ht x hx => more (h.1 t ?_ x hx), fun x hx a ha y hy => ?_⟩
  · rcases List.mem_append.1 ht with ht | ht
    · exact ht
    · exact hu t ht
  · rcases List.mem_append.1 hx with hx | hx
    · exact more (h.2 x hx a ha y hy)
    · rw [hw x hx] at ha; cases ha

/-- What is kept after `k` further analyses. -/
def kept (l : Level F) (vs0 vs : List (SVariable F)) (ts0 ts : List (SStatement F)) (fs : List (Frame F)) (c k : Nat) : Memory F :=
  ⟨⟨l, vs0 ++ numbered c (List.replicate k vs).flatten, ts0 ++ (List.replicate k ts).flatten⟩ :: fs,
    c + (List.replicate k vs).flatten.length⟩

theorem flatten_succ {α : Type} (k : Nat) (xs : List α) :
    (List.replicate (k + 1) xs).flatten = (List.replicate k xs).flatten ++ xs := by
  rw [List.replicate_succ', List.flatten_append]; simp

/-- What an analysis has for its tree is what is kept. -/
theorem tree {m m' : Memory F} {p : ProgramAst F} {r : Result (SProgram F)} (h : AnalysedIn fo v m p r m') :
    ∃ f fs q, m'.frames = f :: fs ∧ r.root = some q ∧ q.variables = f.variables ∧ q.block.statements = f.statements := by
  obtain ⟨f, fs, l, vs, ts, bad, verrs, h1, h2, rfl, _, _, ⟨q, h3, _, h4, h5, _⟩, _⟩ := h
  exact ⟨_, _, q, rfl, h3, h4, h5⟩

theorem step {l r : Level F} {vs0 vs : List (SVariable F)} {ts0 ts ts1 : List (SStatement F)} {fs : List (Frame F)} {u : Nat}
    {p : ProgramAst F} (hs : ShapedProgram p) (hp : PlainProgram p)
    (h : AnalysisIn fo (fs.map (·.level)) r u p.block.statements vs ts [] l)
    (hn : ∀ name ∈ declaredNames p.block.statements, ∀ x, ¬ Seen name x (fs.map (·.level)))
    (hv : VersionOk v p.version.items) (hts : ts0 = ts1 ++ ts) (hc : ClosedProgram vs0 ts0) (c k : Nat) :
    ∃ x, AnalysedIn fo v (kept l vs0 vs ts0 ts fs c k) p x (kept l vs0 vs ts0 ts fs c (k + 1)) ∧
      x.errors = redeclarations p.block.statements := by
  obtain ⟨bad, h1, h2⟩ := again h hn (kept l vs0 vs ts0 ts fs c k).count
  have hrep : ∀ j, ∀ x ∈ (List.replicate j vs).flatten, x.annotations = [] := fun j x hx => by
    obtain ⟨xs, hxs, hx⟩ := List.mem_flatten.1 hx
    rw [List.eq_of_mem_replicate hxs] at hx
    exact variables_plain h x hx
  obtain ⟨x, verrs, h3, h4, h5⟩ := C114_analysed (v := v) (m := kept l vs0 vs ts0 ts fs c k) rfl hs hp h1 (fun _ _ => by
    have := closed_more (ws := numbered c (List.replicate (k + 1) vs).flatten) (us := (List.replicate (k + 1) ts).flatten) hc
      (numbered_plain (hrep _) _) (fun t ht => by
        obtain ⟨xs, hxs, hx⟩ := List.mem_flatten.1 ht
        rw [List.eq_of_mem_replicate hxs] at hx
        rw [hts]; exact List.mem_append_right _ hx)
    rw [flatten_succ, flatten_succ, numbered_append] at this
    simpa [kept, List.append_assoc] using this)
  refine ⟨x, ?_, ?_⟩
  · have e : kept l vs0 vs ts0 ts fs c (k + 1) =
        ⟨⟨l, (vs0 ++ numbered c (List.replicate k vs).flatten) ++ numbered (kept l vs0 vs ts0 ts fs c k).count vs,
          (ts0 ++ (List.replicate k ts).flatten) ++ ts⟩ :: fs,
          (kept l vs0 vs ts0 ts fs c k).count + (numbered (kept l vs0 vs ts0 ts fs c k).count vs).length⟩ := by
      simp only [kept, flatten_succ, numbered_append, numbered_length, List.append_assoc, List.length_append, Nat.add_assoc]
    rw [e]
    exact h3
  · rw [h5, ← h2, ← (versionErrors_iff v p.version verrs).1 h4, visitVersion_of_ok hv]
    rfl

/-- The answers to the repeated text. -/
def Answered (f : Frame F) (vs : List (SVariable F)) (ts : List (SStatement F)) (p : ProgramAst F) (c j : Nat)
    (rs : List (Result (SProgram F))) : Prop :=
  ∀ k x, rs[k]? = some x → x.errors = redeclarations p.block.statements ∧ ∃ q, x.root = some q ∧
    q.block.statements = f.statements ++ (List.replicate (j + k + 1) ts).flatten ∧
    q.variables = f.variables ++ numbered c (List.replicate (j + k + 1) vs).flatten

theorem times {l r : Level F} {f : Frame F} {vs : List (SVariable F)} {ts ts1 : List (SStatement F)} {fs : List (Frame F)} {u : Nat}
    {p : ProgramAst F} {t : Str} {file : Option Str} (ht : HasAst an file t p)
    (h : AnalysisIn fo (fs.map (·.level)) r u p.block.statements vs ts [] l)
    (hn : ∀ name ∈ declaredNames p.block.statements, ∀ x, ¬ Seen name x (fs.map (·.level)))
    (hv : VersionOk v p.version.items) (hts : f.statements = ts1 ++ ts)
    (hc : ClosedProgram f.variables f.statements) (c n : Nat) (j : Nat) {b : Analyzer F}
    (hb : Keeps v b (kept l f.variables vs f.statements ts fs c j)) :
    ∃ rs d, TextAnswers fo an (List.replicate n (.text t file)) b rs d ∧ rs.length = n ∧ Answered f vs ts p c j rs ∧
      Keeps v d (kept l f.variables vs f.statements ts fs c (j + n)) := by
  obtain ⟨hs, hp⟩ := C48_shaped an t file p (hasAst_iff.1 ht)
  induction n generalizing j b with
  | zero => exact ⟨[], b, .nil, rfl, fun k x hx => by simp at hx, hb⟩
  | succ n ih =>
    obtain ⟨x, h1, h2⟩ := step hs hp h hn hv hts hc c j
    obtain ⟨b', x', h3, h4, h5, h6⟩ := C114_result hb hs hp h1
    obtain ⟨rs, d, i1, i2, i3, i4⟩ := ih (j + 1) h5
    refine ⟨x' :: rs, d, .text (b := b') ?_ i1, by simp [i2], ?_, ?_⟩
    · simp [Syn.analyzeString, hasAst_iff.1 ht, Res.bind, analyzeParse, h3, Res.mapErr]
    · intro k y hy
      cases k with
      | zero =>
        simp only [List.getElem?_cons_zero, Option.some.injEq] at hy
        subst hy
        obtain ⟨f', fs', q, g1, g2, g3, g4⟩ := tree h4
        simp only [kept, List.cons.injEq] at g1
        obtain ⟨rfl, rfl⟩ := g1
        exact ⟨h6.trans h2, q, g2, g4, g3⟩
      | succ k =>
        have := i3 k y (by simpa using hy)
        rwa [show j + 1 + k + 1 = j + (k + 1) + 1 by omega] at this
    · rwa [show j + 1 + n = j + (n + 1) by omega] at i4

theorem is_program {a b : Analyzer F} {t : Str} {file : Option Str} {r : Result (SProgram F)}
    (h : Syn.analyzeString fo an a t file = .ok (b, r)) (hr : r.errors = []) : ∃ p, HasAst an file t p := by
  rcases C48_outcome an t file with ⟨p, h'⟩ | ⟨e, h'⟩
  · exact ⟨p, hasAst_iff.2 h'⟩
  · simp [Syn.analyzeString, h', Res.bind, analyzeParse, Res.mapErr] at h
    rw [← h.2] at hr
    cases hr

/-- After an analysis without errors, the text can be analysed again as often as one likes. -/
theorem often {a b : Analyzer F} {m : Memory F} (ha : Keeps v a m) {t : Str} {file : Option Str} {r : Result (SProgram F)}
    {q : SProgram F} (h : Syn.analyzeString fo an a t file = .ok (b, r)) (hr : r.errors = []) (hq : r.root = some q)
    {p : ProgramAst F} (ht : HasAst an file t p) (hn : ∀ name ∈ declaredNames p.block.statements, ∀ x, ¬ Seen name x m.levels.tail) :
    ∃ f fs vs ts, m.frames = f :: fs ∧ q.variables = f.variables ++ vs ∧ q.block.statements = f.statements ++ ts ∧
      vs = numbered m.count vs ∧
      ∀ n, ∃ rs d, TextAnswers fo an (List.replicate n (.text t file)) b rs d ∧ rs.length = n ∧
        Repeats p.block.statements q (m.count + vs.length) vs ts rs := by
  obtain ⟨hs, hp⟩ := C48_shaped an t file p (hasAst_iff.1 ht)
  have e : analyze fo a p = .ok (b, r) := by
    simp only [Syn.analyzeString, hasAst_iff.1 ht, Res.bind, analyzeParse] at h
    generalize analyze fo a p = y at h
    rcases y with _ | e | _ | _ <;> simp [Res.mapErr] at h
    · rw [h]
  obtain ⟨m1, h1, hk⟩ := keeps_analyze ha hs hp e
  obtain ⟨f, fs, l, vs, ts, bad, verrs, g1, g2, rfl, g3, g4, ⟨q', g5, _, g6, g7, _⟩, g8⟩ := h1
  rw [hq] at g5; cases g5
  rw [hr] at g3
  obtain ⟨e1, e2⟩ := List.append_eq_nil_iff.1 g3.symm
  have e2 := List.map_eq_nil_iff.1 e2
  subst e1 e2
  have hv : VersionOk v p.version.items := by
    rcases Classical.em (VersionOk v p.version.items) with h | h
    · exact h
    · cases g4; assumption
  rw [show m.levels.tail = fs.map (·.level) by unfold Memory.levels; rw [g1]; rfl] at hn
  refine ⟨f, fs, vs, ts, g1, g6, g7, variables_numbered g2, fun n => ?_⟩
  obtain ⟨rs, d, i1, i2, i3, _⟩ := times (f := ⟨l, f.variables ++ vs, f.statements ++ ts⟩) ht g2 hn hv rfl (g8 hr)
    (m.count + vs.length) n 0 (b := b) (by simpa [kept, numbered] using hk)
  refine ⟨rs, d, i1, i2, fun k x hx => ?_⟩
  obtain ⟨j1, y, j2, j3, j4⟩ := i3 k x hx
  rw [Nat.zero_add] at j3 j4
  exact ⟨j1, y, j2, by rw [g7]; exact j3, by rw [g6]; exact j4⟩

theorem keeps_default {a : Analyzer F} (ha : Analyzer.default fo v = .ok a) :
    Keeps v a ⟨[⟨standardLevel fo, [], []⟩], 0⟩ := by
  rcases default_cases fo v with ⟨h, _⟩ | ⟨h, _⟩ <;> rw [h] at ha <;> cases ha
  exact ⟨rfl, rfl, .cons ⟨holds_standard fo, rfl, rfl⟩ .nil⟩

/-- Without new scopes there is at most one. -/
theorem one_scope {es : List (TextEvent F)} {m m' : Memory F} {rs : List (Result (SProgram F))}
    (h : AnswersTexts fo an v es m rs m') (hp : TextEvent.call .push ∉ es) (hm : m.frames.length ≤ 1) : m'.frames.length ≤ 1 := by
  induction h with
  | nil => exact hm
  | @call c es m rs m' _ ih =>
    refine ih (fun h => hp (List.mem_cons_of_mem _ h)) ?_
    cases c with
    | push => exact absurd (List.mem_cons_self ..) hp
    | pop => simp only [Call.keep, List.length_tail]; omega
    | _ => simp only [Call.keep, List.length_zipWith]; omega
  | wrong _ _ _ ih => exact ih (fun h => hp (List.mem_cons_of_mem _ h)) hm
  | program _ h1 _ ih =>
    refine ih (fun h => hp (List.mem_cons_of_mem _ h)) ?_
    obtain ⟨f, fs, l, _, _, _, _, h1, _, rfl, _⟩ := h1
    rw [h1] at hm
    exact hm

end Again

/-- C120. After any session with an analyser in which only what the user wants is registered: if the analysis of a text has no
errors, and none of the variables that it declares is also the name of something in a scope further out, the text can be analysed
again as often as one likes. Each time the errors are one for each declaration, in order, and the tree has the instructions once
more. -/
theorem C120_session {a b b' : Analyzer F} (ha : Analyzer.new v = some a) {es : List (TextEvent F)} {rs : List (Result (SProgram F))}
    (h : TextAnswers fo an es a rs b) {t : Str} {file : Option Str} {r : Result (SProgram F)} {q : SProgram F}
    (ht : Syn.analyzeString fo an b t file = .ok (b', r)) (hr : r.errors = []) (hq : r.root = some q) :
    ∃ m p, AnswersTexts fo an v es ⟨[⟨⟨[], [], []⟩, [], []⟩], 0⟩ rs m ∧ HasAst an file t p ∧
      ((∀ name ∈ declaredNames p.block.statements, ∀ x, ¬ Seen name x m.levels.tail) →
        ∃ f fs vs ts, m.frames = f :: fs ∧ q.variables = f.variables ++ vs ∧ q.block.statements = f.statements ++ ts ∧
          ∀ n, ∃ rs' d, TextAnswers fo an (List.replicate n (.text t file)) b' rs' d ∧ rs'.length = n ∧
            Repeats p.block.statements q (m.count + vs.length) vs ts rs') := by
  obtain ⟨m, h1, h2⟩ := keeps_texts h (keeps_new ha)
  obtain ⟨p, hp⟩ := Again.is_program ht hr
  refine ⟨m, p, h1, hp, fun hn => ?_⟩
  obtain ⟨f, fs, vs, ts, g1, g2, g3, _, g4⟩ := Again.often h2 ht hr hq hp hn
  exact ⟨f, fs, vs, ts, g1, g2, g3, g4⟩

/-- C120. The same for the analysers of the library, with whatever the user registers and analyses in addition, as long as no
scope is opened. -/
theorem C120_library {a b b' : Analyzer F} (ha : Analyzer.default fo v = .ok a) {es : List (TextEvent F)}
    {rs : List (Result (SProgram F))} (h : TextAnswers fo an es a rs b) (hs : TextEvent.call .push ∉ es) {t : Str} {file : Option Str}
    {r : Result (SProgram F)} {q : SProgram F} (ht : Syn.analyzeString fo an b t file = .ok (b', r)) (hr : r.errors = [])
    (hq : r.root = some q) :
    ∃ p vs0 vs ts0 ts c, HasAst an file t p ∧ q.variables = vs0 ++ vs ∧ q.block.statements = ts0 ++ ts ∧
      ∀ n, ∃ rs' d, TextAnswers fo an (List.replicate n (.text t file)) b' rs' d ∧ rs'.length = n ∧
        Repeats p.block.statements q c vs ts rs' := by
  obtain ⟨m, h1, h2⟩ := keeps_texts h (Again.keeps_default ha)
  obtain ⟨p, hp⟩ := Again.is_program ht hr
  have hl := Again.one_scope h1 hs (Nat.le_refl _)
  have hn : ∀ name ∈ declaredNames p.block.statements, ∀ x, ¬ Seen name x m.levels.tail := by
    have : m.levels.tail = [] := by
      unfold Memory.levels
      rcases hm : m.frames with _ | ⟨f, _ | ⟨g, fs⟩⟩
      · rfl
      · rfl
      · rw [hm] at hl; simp at hl
    rw [this]
    intro _ _ _ h
    cases h
  obtain ⟨f, fs, vs, ts, g1, g2, g3, _, g4⟩ := Again.often h2 ht hr hq hp hn
  exact ⟨p, f.variables, vs, f.statements, ts, _, hp, g2, g3, g4⟩

/-- C120. If the first text that an analyser of the library is given has no errors, then the further analyses of it have one error
for each declaration, and their trees have the variables and instructions of the text once for each analysis, where the variables
are numbered anew. -/
theorem C120_first {a b : Analyzer F} (ha : Analyzer.default fo v = .ok a) {t : Str} {file : Option Str} {r : Result (SProgram F)}
    {q : SProgram F} (ht : Syn.analyzeString fo an a t file = .ok (b, r)) (hr : r.errors = []) (hq : r.root = some q) :
    ∃ p, HasAst an file t p ∧ ∀ n, ∃ rs d, TextAnswers fo an (List.replicate n (.text t file)) b rs d ∧ rs.length = n ∧
      ∀ k x, rs[k]? = some x → x.errors = redeclarations p.block.statements ∧ ∃ y, x.root = some y ∧
        y.block.statements = (List.replicate (k + 2) q.block.statements).flatten ∧
        y.variables = numbered 0 (List.replicate (k + 2) q.variables).flatten := by
  obtain ⟨p, hp⟩ := Again.is_program ht hr
  obtain ⟨f, fs, vs, ts, g1, g2, g3, g5, g4⟩ := Again.often (Again.keeps_default ha) ht hr hq hp (fun _ _ _ h => by cases h)
  cases g1
  rw [List.nil_append] at g2 g3
  subst g2 g3
  refine ⟨p, hp, fun n => ?_⟩
  obtain ⟨rs, d, i1, i2, i3⟩ := g4 n
  refine ⟨rs, d, i1, i2, fun k x hx => ?_⟩
  obtain ⟨j1, y, j2, j3, j4⟩ := i3 k x hx
  refine ⟨j1, y, j2, j3, ?_⟩
  rw [j4, List.replicate_succ (n := k + 1), List.flatten_cons, Again.numbered_append, ← g5]

/-- C120. In particular, a further analysis has no errors if and only if the text declares nothing. -/
theorem C120_clean (ss : List (Stmt F)) : redeclarations ss = [] ↔ declaredNames ss = [] := by
  induction ss with
  | nil => exact ⟨fun _ => rfl, fun _ => rfl⟩
  | cons s ss ih =>
    cases s with
    | var => constructor <;> intro h <;> cases h
    | _ => exact ih

/-! ## Examples -/

section Examples

/-- The answers of an analyser of the library: errors with the column they are at, the numbers of the variables, and how many
instructions there are. -/
private def answers (es : List (TextEvent Int)) : Option (List (List (Str × Nat) × List Nat × Nat)) :=
  let rec go : List (TextEvent Int) → Analyzer Int → Option (List (List (Str × Nat) × List Nat × Nat))
    | [], _ => some []
    | .call c :: es, a => match c.on a with | .ok b => go es b | .err _ => go es a | _ => none
    | .text t file :: es, a =>
      match Syn.analyzeString Sample.fo Sample.antlr a t file with
      | .ok (b, r) => (go es b).map ((r.errors.map fun e => (e.message, (e.location.map (·.range.first.column)).getD 0),
          (r.root.map fun q => q.variables.map (·.uid)).getD [], (r.root.map fun q => q.block.statements.length).getD 0) :: ·)
      | _ => none
  match Analyzer.default Sample.fo [3, 0] with
  | .ok a => go es a
  | _ => none

/-- C120: the second and the third time each declaration is an error, and the instructions are in the tree twice and three times. -/
example : answers (List.replicate 3 (.text c!"version 3; qubit[2] q; X q[1]; bit b; b = measure q[0]" none)) =
    some [([], [0, 1], 2),
      ([(c!"trying to redeclare variable 'q'", 21), (c!"trying to redeclare variable 'b'", 36)], [0, 1, 2, 3], 4),
      ([(c!"trying to redeclare variable 'q'", 21), (c!"trying to redeclare variable 'b'", 36)], [0, 1, 2, 3, 4, 5], 6)] := by
  decide +kernel

/-- C120: the condition about the scopes further out is necessary. The second time `pi` is the bit. -/
example : answers [.call .push, .text c!"version 3; qubit q; Rx(pi) q; bit pi" none, .text c!"version 3; qubit q; Rx(pi) q; bit pi" none] =
    some [([], [0, 1], 1),
      ([(c!"trying to redeclare variable 'q'", 18), (c!"failed to resolve 'Rx' with parameter type (bit)", 21),
        (c!"trying to redeclare variable 'pi'", 35)], [0, 1, 2, 3], 1)] := by
  decide +kernel

end Examples

end Qasm
