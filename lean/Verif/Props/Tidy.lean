import Verif.Lemmas.Mild
import Verif.Props.Again
/-!
# Trees are in order, and analyses do not throw (C122)
-/

namespace Qasm

open Spec Sem Syn

attribute [local irreducible] defaultInstrs defaultFns defaultVars

variable {F : Type} {fo : FloatOps F} {v : Version} {an : Antlr F}

namespace Tidying

theorem levels_of {m : Memory F} {f : Frame F} {fs : List (Frame F)} (h : m.frames = f :: fs) :
    m.levels = f.level :: fs.map (·.level) := by unfold Memory.levels; rw [h]; rfl

theorem statements {m : Memory F} {f : Frame F} {fs : List (Frame F)} (h : m.frames = f :: fs) (ht : Tidy m) {ss : List (Stmt F)}
    (hs : ∀ s ∈ ss, ShapedStmt s) {u : Nat} {vs : List (SVariable F)} {ts : List (SStatement F)} {bad : List (Stmt F × Err)}
    {l : Level F} (ha : AnalysisIn fo (fs.map (·.level)) f.level u ss vs ts bad l) :
    TidyLevels (f.variables ++ vs) (l :: fs.map (·.level)) ∧ ClosedProgram (f.variables ++ vs) (f.statements ++ ts) := by
  obtain ⟨h1, h2⟩ := ht f fs h
  rw [levels_of h] at h1
  obtain ⟨h3, h4, h5⟩ := analysis ha hs h1
  exact ⟨h3, closed h2 h4 h5⟩

end Tidying

/-- C122. If the current scope is in order, it is so after an analysis, and the tree of the analysis is in order, whether or not
there are errors. -/
theorem C122_tree {m m' : Memory F} (ht : Tidy m) {p : ProgramAst F} (hs : ShapedProgram p) {r : Result (SProgram F)}
    (h : AnalysedIn fo v m p r m') : Tidy m' ∧ ∃ q, r.root = some q ∧ ClosedProgram q.variables q.block.statements := by
  obtain ⟨f, fs, l, vs, ts, bad, verrs, h1, h2, rfl, _, _, ⟨q, h3, _, h4, h5, _⟩, _⟩ := h
  obtain ⟨h6, h7⟩ := Tidying.statements h1 ht hs h2
  refine ⟨fun g gs hg => ?_, q, h3, by rw [h4, h5]; exact h7⟩
  cases hg
  exact ⟨h6, h7⟩

/-- C122. Then an analysis ends without a result only where an instruction ends it, or if all scopes have been closed: it is not
ended by the check of the tree. -/
theorem C122_stops {m : Memory F} (ht : Tidy m) {p : ProgramAst F} (hs : ShapedProgram p) (hp : PlainProgram p) (o : Stop) :
    ProgramStops fo v m p o ↔
      (∃ f fs, m.frames = f :: fs ∧ BlockStops fo (fs.map (·.level)) f.level m.count p.block.statements o) ∨
        m.frames = [] ∧ o = .undefined := by
  constructor
  · intro h
    cases h with
    | block h1 h2 => exact .inl ⟨_, _, h1, h2⟩
    | notClosed h1 h2 h3 h4 =>
      rw [Tidying.levels_of h1] at h3
      obtain ⟨r', h5⟩ := (C113_valid hp).2 h3
      exact absurd (Tidying.statements h1 ht hs h5).2 h4
    | noScope h => exact .inr ⟨h, rfl⟩
  · rintro (⟨f, fs, h1, h2⟩ | ⟨h, rfl⟩)
    · exact .block h1 h2
    · exact .noScope h

namespace Tidying

theorem keep {m : Memory F} (hl : m.frames.length ≤ 1) (ht : Tidy m) {c : Call F} (hc : TidyEvent (.call c)) :
    Tidy (c.keep m) ∧ (c.keep m).frames.length ≤ 1 := by
  obtain ⟨fs, n⟩ := m
  rcases fs with _ | ⟨f, _ | ⟨g, fs⟩⟩
  · cases c with
    | push => exact hc.elim
    | _ => exact ⟨fun f fs h => (by cases h), Nat.zero_le _⟩
  · obtain ⟨h1, h2⟩ := ht f [] rfl
    obtain ⟨h1, h3⟩ := h1 f.level (List.mem_singleton.2 rfl)
    have one : ∀ l : Level F, (∀ x ∈ l.vars, ClosedValue f.variables x.2) → (∀ x ∈ l.functions, Honest x.2.1) →
        Tidy (⟨[⟨l, f.variables, f.statements⟩], n⟩ : Memory F) := by
      intro l hv hf g gs hg
      cases hg
      exact ⟨fun l' hl' => by cases List.mem_singleton.1 hl'; exact ⟨hv, hf⟩, h2⟩
    cases c with
    | push => exact hc.elim
    | pop => exact ⟨fun f fs h => (by cases h), Nat.zero_le _⟩
    | var name x =>
      simp only [Call.keep, Memory.levels, List.map_cons, List.map_nil, Call.see]
      split
      · exact ⟨one _ h1 h3, Nat.le_refl _⟩
      · refine ⟨one _ (fun y hy => ?_) h3, Nat.le_refl _⟩
        rcases List.mem_append.1 hy with hy | hy
        · exact h1 y hy
        · cases List.mem_singleton.1 hy
          exact closed_mono (vs := []) hc
    | instruction i => exact ⟨one _ h1 h3, Nat.le_refl _⟩
    | function name params g =>
      refine ⟨one _ h1 fun x hx => ?_, Nat.le_refl _⟩
      rcases List.mem_append.1 hx with hx | hx
      · exact h3 x hx
      · cases List.mem_singleton.1 hx
        exact hc
  · simp at hl

theorem session {es : List (TextEvent F)} {m m' : Memory F} {rs : List (Result (SProgram F))} (h : AnswersTexts fo an v es m rs m')
    (he : ∀ e ∈ es, TidyEvent e) (hl : m.frames.length ≤ 1) (ht : Tidy m) :
    Tidy m' ∧ ∀ r ∈ rs, ∀ q, r.root = some q → ClosedProgram q.variables q.block.statements := by
  induction h with
  | nil => exact ⟨ht, fun r hr => (by cases hr)⟩
  | call _ ih =>
    obtain ⟨h1, h2⟩ := keep hl ht (he _ (List.mem_cons_self ..))
    exact ih (fun e h => he e (List.mem_cons_of_mem _ h)) h2 h1
  | wrong _ _ _ ih =>
    obtain ⟨h1, h2⟩ := ih (fun e h => he e (List.mem_cons_of_mem _ h)) hl ht
    refine ⟨h1, fun r hr q hq => ?_⟩
    rcases List.mem_cons.1 hr with rfl | hr
    · cases hq
    · exact h2 r hr q hq
  | program h1 h2 _ ih =>
    obtain ⟨h3, q', h4, h5⟩ := C122_tree ht (C48_shaped _ _ _ _ (hasAst_iff.1 h1)).1 h2
    obtain ⟨h6, h7⟩ := ih (fun e h => he e (List.mem_cons_of_mem _ h)) (by
      obtain ⟨f, fs, l, _, _, _, _, h8, _, rfl, _⟩ := h2
      rw [h8] at hl
      exact hl) h3
    refine ⟨h6, fun r hr q hq => ?_⟩
    rcases List.mem_cons.1 hr with rfl | hr
    · rw [h4] at hq; cases hq; exact h5
    · exact h7 r hr q hq

theorem tidy_default (fo : FloatOps F) : Tidy (⟨[⟨standardLevel fo, [], []⟩], 0⟩ : Memory F) := by
  intro f fs h
  cases h
  refine ⟨fun l hl => ?_, ⟨fun t ht => (by cases ht), fun x hx => (by cases hx)⟩⟩
  cases List.mem_singleton.1 hl
  exact ⟨fun x hx => (Milding.standard_vars fo x hx).1, fun f hf => (Milding.standard_functions fo f hf).1⟩

theorem tidy_new : Tidy (⟨[⟨⟨[], [], []⟩, [], []⟩], 0⟩ : Memory F) := by
  intro f fs h
  cases h
  refine ⟨fun l hl => ?_, ⟨fun t ht => (by cases ht), fun x hx => (by cases hx)⟩⟩
  cases List.mem_singleton.1 hl
  exact ⟨fun x hx => (by cases hx), fun x hx => (by cases hx)⟩

end Tidying

/-- C122. Over a whole session with an analyser in which only what the user wants is registered: as long as no scopes are opened,
the values that are registered refer to nothing, and the functions are honest, all trees are in order, and an analysis that does
not return is ended by an instruction, or all scopes have been closed. -/
theorem C122_session {a b : Analyzer F} (ha : Analyzer.new v = some a) {es : List (TextEvent F)} {rs : List (Result (SProgram F))}
    (h : TextAnswers fo an es a rs b) (he : ∀ e ∈ es, TidyEvent e) :
    (∀ r ∈ rs, ∀ q, r.root = some q → ClosedProgram q.variables q.block.statements) ∧
      ∃ m, AnswersTexts fo an v es ⟨[⟨⟨[], [], []⟩, [], []⟩], 0⟩ rs m ∧ ∀ t file o,
        Syn.analyzeString fo an b t file = o.as ↔ ∃ p, HasAst an file t p ∧
          ((∃ f fs, m.frames = f :: fs ∧ BlockStops fo (fs.map (·.level)) f.level m.count p.block.statements o) ∨
            m.frames = [] ∧ o = .undefined) := by
  obtain ⟨m, h1, h2⟩ := keeps_texts h (keeps_new ha)
  obtain ⟨h3, h4⟩ := Tidying.session h1 he (Nat.le_refl _) Tidying.tidy_new
  refine ⟨h4, m, h1, fun t file o => ?_⟩
  rw [text_stop h2]
  refine exists_congr fun p => and_congr_right fun hp => ?_
  obtain ⟨hs, hpl⟩ := C48_shaped _ _ _ _ (hasAst_iff.1 hp)
  exact C122_stops h3 hs hpl o

/-- C122. The same for the analysers of the library. -/
theorem C122_library {a b : Analyzer F} (ha : Analyzer.default fo v = .ok a) {es : List (TextEvent F)}
    {rs : List (Result (SProgram F))} (h : TextAnswers fo an es a rs b) (he : ∀ e ∈ es, TidyEvent e) :
    (∀ r ∈ rs, ∀ q, r.root = some q → ClosedProgram q.variables q.block.statements) ∧
      ∃ l m, Standard fo l ∧ AnswersTexts fo an v es ⟨[⟨l, [], []⟩], 0⟩ rs m ∧ ∀ t file o,
        Syn.analyzeString fo an b t file = o.as ↔ ∃ p, HasAst an file t p ∧
          ((∃ f fs, m.frames = f :: fs ∧ BlockStops fo (fs.map (·.level)) f.level m.count p.block.statements o) ∨
            m.frames = [] ∧ o = .undefined) := by
  obtain ⟨m, h1, h2⟩ := keeps_texts h (Again.keeps_default ha)
  obtain ⟨h3, h4⟩ := Tidying.session h1 he (Nat.le_refl _) (Tidying.tidy_default fo)
  refine ⟨h4, _, m, standard_level fo, h1, fun t file o => ?_⟩
  rw [text_stop h2]
  refine exists_congr fun p => and_congr_right fun hp => ?_
  obtain ⟨hs, hpl⟩ := C48_shaped _ _ _ _ (hasAst_iff.1 hp)
  exact C122_stops h3 hs hpl o

namespace Milding

theorem onLast_mem {f : Level F → Level F} {ls : List (Level F)} {l : Level F} (h : l ∈ onLast f ls) :
    l ∈ ls ∨ ∃ k ∈ ls, l = f k := by
  induction ls with
  | nil => cases h
  | cons x xs ih =>
    cases xs with
    | nil => exact .inr ⟨x, List.mem_cons_self .., List.mem_singleton.1 h⟩
    | cons y ys =>
      rcases List.mem_cons.1 h with rfl | h
      · exact .inl (List.mem_cons_self ..)
      · rcases ih h with h | ⟨k, hk, e⟩
        · exact .inl (List.mem_cons_of_mem _ h)
        · exact .inr ⟨k, List.mem_cons_of_mem _ hk, e⟩

theorem see {ls : List (Level F)} (hm : MildLevels ls) {c : Call F} (hc : MildEvent (.call c)) : MildLevels (c.see ls) := by
  cases c with
  | push =>
    intro l hl
    rcases List.mem_cons.1 hl with rfl | hl
    · exact ⟨fun x hx => (by cases hx), fun x hx => (by cases hx)⟩
    · exact hm l hl
  | pop => exact fun l hl => hm l (List.mem_of_mem_tail hl)
  | var name x =>
    cases ls with
    | nil => exact hm
    | cons k ls =>
      simp only [Call.see]
      split
      · exact hm
      · intro l hl
        rcases List.mem_cons.1 hl with rfl | hl
        · refine ⟨fun y hy => ?_, (hm k (List.mem_cons_self ..)).2⟩
          rcases List.mem_append.1 hy with hy | hy
          · exact (hm k (List.mem_cons_self ..)).1 y hy
          · cases List.mem_singleton.1 hy
            exact hc
        · exact hm l (List.mem_cons_of_mem _ hl)
  | instruction i =>
    cases ls with
    | nil => exact hm
    | cons k ls =>
      intro l hl
      rcases List.mem_cons.1 hl with rfl | hl
      · exact hm k (List.mem_cons_self ..)
      · exact hm l (List.mem_cons_of_mem _ hl)
  | function name params g =>
    intro l hl
    rcases onLast_mem (by simpa [Call.see] using hl) with hl | ⟨k, hk, rfl⟩
    · exact hm l hl
    · refine ⟨(hm k hk).1, fun x hx => ?_⟩
      rcases List.mem_append.1 hx with hx | hx
      · exact (hm k hk).2 x hx
      · cases List.mem_singleton.1 hx
        exact hc

theorem session {es : List (TextEvent F)} {m m' : Memory F} {rs : List (Result (SProgram F))} (h : AnswersTexts fo an v es m rs m')
    (he : ∀ e ∈ es, MildEvent e) (hm : MildLevels m.levels) : MildLevels m'.levels := by
  induction h with
  | nil => exact hm
  | call _ ih =>
    exact ih (fun e h => he e (List.mem_cons_of_mem _ h)) (by rw [levels_keep]; exact see hm (he _ (List.mem_cons_self ..)))
  | wrong _ _ _ ih => exact ih (fun e h => he e (List.mem_cons_of_mem _ h)) hm
  | program _ h2 _ ih =>
    refine ih (fun e h => he e (List.mem_cons_of_mem _ h)) ?_
    obtain ⟨f, fs, l, _, _, _, _, h1, h2, rfl, _⟩ := h2
    rw [Tidying.levels_of h1] at hm
    exact analysis h2 hm

end Milding

/-- C122. Where the values that are registered have types, and the functions throw analysis errors only, an instruction does not
throw: it can end an analysis by undefined behaviour only. -/
theorem C122_mild {m : Memory F} (hm : MildLevels m.levels) {p : ProgramAst F} {o : Stop} {f : Frame F} {fs : List (Frame F)}
    (h1 : m.frames = f :: fs) (h : BlockStops fo (fs.map (·.level)) f.level m.count p.block.statements o) : o = .undefined := by
  rw [Tidying.levels_of h1] at hm
  exact Milding.block h hm

/-- C122. So the analysers of the library, to which the user adds what keeps things in order, has types and throws analysis errors
only, do not throw: the analysis of a text returns, or its behaviour is undefined. -/
theorem C122_returns {a b : Analyzer F} (ha : Analyzer.default fo v = .ok a) {es : List (TextEvent F)}
    {rs : List (Result (SProgram F))} (h : TextAnswers fo an es a rs b) (he : ∀ e ∈ es, TidyEvent e ∧ MildEvent e) (t : Str)
    (file : Option Str) : (∃ d r, Syn.analyzeString fo an b t file = .ok (d, r)) ∨ Syn.analyzeString fo an b t file = .ub := by
  obtain ⟨m, h1, h2⟩ := keeps_texts h (Again.keeps_default ha)
  have h3 := (Tidying.session h1 (fun e h => (he e h).1) (Nat.le_refl _) (Tidying.tidy_default fo)).1
  have h4 := Milding.session h1 (fun e h => (he e h).2) (fun l hl => by
    cases List.mem_singleton.1 hl
    exact ⟨fun x hx => (Milding.standard_vars fo x hx).2, fun f hf => (Milding.standard_functions fo f hf).2⟩)
  rcases Stop.cases (Syn.analyzeString fo an b t file) with ⟨⟨d, r⟩, h5⟩ | ⟨e, h5⟩ | ⟨o, h5⟩
  · exact .inl ⟨d, r, h5⟩
  · rcases text_outcome (fo := fo) (an := an) b t file with ⟨p, _, _, _, h6⟩ | ⟨_, e', _, h6⟩
    · rw [h5] at h6
      generalize analyze fo b p = y at h6
      rcases y with _ | y | _ | _ <;> first | exact y.elim | cases h6
    · rw [h5] at h6; cases h6
  · obtain ⟨p, hp, h6⟩ := (text_stop h2).1 h5
    obtain ⟨hs, hpl⟩ := C48_shaped _ _ _ _ (hasAst_iff.1 hp)
    rcases (C122_stops h3 hs hpl o).1 h6 with ⟨f, fs, h7, h8⟩ | ⟨_, rfl⟩
    · cases C122_mild h4 h7 h8
      exact .inr h5
    · exact .inr h5

/-! ## Examples -/

section Examples

/-- How the last of the texts ends: with errors, by something that is thrown, or by undefined behaviour. -/
private def last (es : List (TextEvent Int)) : Option (Sum (List Str) (Option Str)) :=
  let rec go : List (TextEvent Int) → Analyzer Int → Option (Sum (List Str) (Option Str)) → Option (Sum (List Str) (Option Str))
    | [], _, x => x
    | .call c :: es, a, x => match c.on a with | .ok b => go es b x | _ => go es a x
    | .text t file :: es, a, _ =>
      match Syn.analyzeString Sample.fo Sample.antlr a t file with
      | .ok (b, r) => go es b (some (.inl (r.errors.map (·.message))))
      | .err _ => none
      | .exn c => some (.inr (some c))
      | .ub => some (.inr none)
  match Analyzer.default Sample.fo [3, 0] with
  | .ok a => go es a none
  | _ => none

/-- A qubit of nobody. -/
private def stray : Value Int := ⟨.variableRef ⟨9, c!"z", ⟨.qubit, 1⟩⟩, none⟩

/-- Its second argument. -/
private def second : CoreFn Int
  | [_, y] => .ok (some y)
  | _ => .ok none

/-- C122: without scopes the variable of an earlier text can be used. -/
example : last [.text c!"version 3; qubit q" none, .text c!"version 3; X q" none] = some (.inl []) := by decide +kernel

/-- C122: in a new scope it can not: the tree does not have the variable, and `std::runtime_error` is thrown. -/
example : last [.text c!"version 3; qubit q" none, .call .push, .text c!"version 3; X q" none] =
    some (.inr (some c!"std::runtime_error")) := by decide +kernel

/-- C122: the same for a variable that the user registers and that is in no tree, unless there are other errors. -/
example : last [.call (.var c!"z" stray), .text c!"version 3; X z" none] = some (.inr (some c!"std::runtime_error")) ∧
    last [.call (.var c!"z" stray), .text c!"version 3; X z; Z y" none] = some (.inl [c!"failed to resolve variable 'y'"]) := by decide +kernel

/-- C122: undefined behaviour is possible. -/
example : last [.text c!"version 3; qubit[2] q; X q[1 / 0]" none] = some (.inr none) := by decide +kernel

/-- C122: functions that return one of their arguments are honest. -/
example : Honest second := by
  rintro (_ | ⟨x, _ | ⟨y, _ | ⟨z, zs⟩⟩⟩) r h <;> cases h
  exact ⟨fun z hz => ⟨y, by simp, hz⟩, fun z hz => ⟨y, by simp, hz⟩⟩

example : TidyEvent (.call (.var c!"n" ⟨.constInt 3, none⟩) : TextEvent Int) ∧ MildEvent (.call (.var c!"n" ⟨.constInt 3, none⟩) : TextEvent Int) ∧
    ¬ TidyEvent (.call (.var c!"z" stray)) := by
  refine ⟨⟨fun x hx => (by cases hx), nofun⟩, fun h => (by cases h), fun h => ?_⟩
  obtain ⟨y, hy, _⟩ := h.1 _ .whole
  cases hy

/-- C122: such a function can be used for operands. -/
example : last [.call (.function c!"second" [⟨.int, 1⟩, ⟨.qubit, 1⟩] second),
    .text c!"version 3; qubit[3] q; X second(1, q[2])" none] = some (.inl []) := by decide +kernel

end Examples

end Qasm
