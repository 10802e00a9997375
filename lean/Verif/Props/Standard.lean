import Verif.Lemmas.Standard
import Verif.Props.Texts
import Verif.Props.Messages
import Verif.Props.Exclusive
/-!
# What users add to the registrations of the library (C119)

The user makes an analyser of the library, in which the constants, functions and instructions of the language are registered,
and registers more.
-/

namespace Qasm

open Spec Sem Syn

attribute [local irreducible] defaultInstrs defaultFns defaultVars

variable {F : Type} {fo : FloatOps F} {v : Version} {an : Antlr F}

private theorem keeps_default {a : Analyzer F} (ha : Analyzer.default fo v = .ok a) :
    Keeps v a ⟨[⟨standardLevel fo, [], []⟩], 0⟩ := by
  rcases default_cases fo v with ⟨h, _⟩ | ⟨h, _⟩ <;> rw [h] at ha <;> cases ha
  exact ⟨rfl, rfl, .cons ⟨holds_standard fo, rfl, rfl⟩ .nil⟩

/-- C119. Over a whole session with an analyser of the library, whatever the user registers and analyses, the answers are those
of the rules, where at first exactly the constants, functions and instructions of the language are registered; and the rules say
which analyses do not return. -/
theorem C119_session {a b : Analyzer F} (ha : Analyzer.default fo v = .ok a) {es : List (TextEvent F)} {rs : List (Result (SProgram F))}
    (h : TextAnswers fo an es a rs b) :
    ∃ l m, Standard fo l ∧ AnswersTexts fo an v es ⟨[⟨l, [], []⟩], 0⟩ rs m ∧ ∀ t file o,
      Syn.analyzeString fo an b t file = o.as ↔ ∃ p, HasAst an file t p ∧ ProgramStops fo v m p o := by
  obtain ⟨m, h1, h2⟩ := keeps_texts h (keeps_default ha)
  exact ⟨standardLevel fo, m, standard_level fo, h1, fun t file o => text_stop h2⟩

private theorem onLast_concat (f : Level F → Level F) (xs : List (Level F)) (l : Level F) : onLast f (xs ++ [l]) = xs ++ [f l] := by
  induction xs with
  | nil => rfl
  | cons x xs ih =>
    cases xs with
    | nil => rfl
    | cons y ys => simpa [onLast] using ih

private theorem onLast_length (f : Level F → Level F) (xs : List (Level F)) : (onLast f xs).length = xs.length := by
  induction xs with
  | nil => rfl
  | cons x xs ih =>
    cases xs with
    | nil => rfl
    | cons y ys => simpa [onLast] using ih

private theorem levels_zip (fs : List (Frame F)) (ls : List (Level F)) (h : ls.length = fs.length) :
    (List.zipWith (fun (f : Frame F) l => (⟨l, f.variables, f.statements⟩ : Frame F)) fs ls).map (·.level) = ls := by
  induction fs generalizing ls with
  | nil => cases ls <;> simp_all
  | cons f fs ih =>
    cases ls with
    | nil => simp at h
    | cons l ls => simpa using ih ls (by simpa using h)

theorem levels_keep (c : Call F) (m : Memory F) : (c.keep m).levels = c.see m.levels := by
  cases c with
  | push => rfl
  | pop => simp [Call.keep, Call.see, Memory.levels]
  | var n w =>
    refine levels_zip _ _ ?_
    unfold Memory.levels
    cases m.frames with
    | nil => rfl
    | cons f fs => simp only [Call.see, List.map_cons]; split <;> simp
  | instruction i =>
    refine levels_zip _ _ ?_
    unfold Memory.levels
    cases m.frames with
    | nil => rfl
    | cons f fs => simp [Call.see]
  | function n ps f =>
    refine levels_zip _ _ ?_
    simp [Memory.levels, Call.see, onLast_length]

/-- The outermost level, with `n` scopes within it: the functions, instructions and the first variables. -/
private def Outer (n : Nat) (fs : List (Registration (CoreFn F))) (is : List (Registration Instruction)) (vs : List (Str × Value F))
    (ls : List (Level F)) : Prop :=
  ∃ inner g, ls = inner ++ [g] ∧ inner.length = n ∧ g.functions = fs ∧ g.instructions = is ∧ vs <+: g.vars

private theorem analysisIn_level {ls : List (Level F)} {r r' : Level F} {u : Nat} {ss : List (Stmt F)} {vs : List (SVariable F)}
    {ts : List (SStatement F)} {bad : List (Stmt F × Err)} (h : AnalysisIn fo ls r u ss vs ts bad r') :
    r'.functions = r.functions ∧ r'.instructions = r.instructions ∧ r.vars <+: r'.vars := by
  induction h with
  | nil => exact ⟨rfl, rfl, List.prefix_refl _⟩
  | decl _ _ _ ih => exact ⟨ih.1, ih.2.1, (List.prefix_append ..).trans ih.2.2⟩
  | instr _ _ ih => exact ih
  | badType _ _ _ ih => exact ih
  | redeclared _ _ _ ih => exact ih
  | badInstr _ _ _ _ ih => exact ih

private theorem outer_analysed {n : Nat} {fs : List (Registration (CoreFn F))} {is : List (Registration Instruction)}
    {vs : List (Str × Value F)} {m m' : Memory F} {p : ProgramAst F} {r : Result (SProgram F)} (h : Outer n fs is vs m.levels)
    (ha : AnalysedIn fo v m p r m') : Outer n fs is vs m'.levels := by
  obtain ⟨f, fr, l, _, _, _, _, h1, h2, rfl, _⟩ := ha
  obtain ⟨inner, g, e1, e2, e3, e4, e5⟩ := h
  simp only [Memory.levels, h1, List.map_cons] at e1 ⊢
  obtain ⟨g1, g2, g3⟩ := analysisIn_level h2
  cases inner with
  | nil =>
    simp only [List.nil_append, List.cons.injEq] at e1
    obtain ⟨rfl, e1⟩ := e1
    exact ⟨[], l, by simp [e1], e2, g1.trans e3, g2.trans e4, e5.trans g3⟩
  | cons x xs =>
    simp only [List.cons_append, List.cons.injEq] at e1
    exact ⟨l :: xs, g, by simp [e1.2], by simpa using e2, e3, e4, e5⟩

private theorem outer_texts {es : List (TextEvent F)} {m m' : Memory F} {rs : List (Result (SProgram F))}
    (h : AnswersTexts fo an v es m rs m') {n : Nat} {fs : List (Registration (CoreFn F))} {is : List (Registration Instruction)}
    {vs : List (Str × Value F)} (hk : TextEvent.Kept n es) (ho : Outer n fs is vs m.levels) :
    ∃ n', Outer n' (fs ++ TextEvent.functions es) (is ++ TextEvent.instructions n es) vs m'.levels := by
  induction h generalizing n fs is with
  | nil => exact ⟨n, by simpa [TextEvent.functions, TextEvent.instructions] using ho⟩
  | @call c es m rs m' _ ih =>
    rw [levels_keep] at ih
    obtain ⟨inner, g, e1, e2, e3, e4, e5⟩ := ho
    rw [e1] at ih
    cases c with
    | push => exact ih hk ⟨⟨[], [], []⟩ :: inner, g, rfl, by simp [e2], e3, e4, e5⟩
    | pop =>
      cases inner with
      | nil => cases e2; exact hk.elim
      | cons x xs => cases e2; exact ih (n := xs.length) hk ⟨xs, g, rfl, rfl, e3, e4, e5⟩
    | var name w =>
      have hk : TextEvent.Kept n es := by cases n <;> exact hk
      have hi : TextEvent.instructions n (.call (.var name w) :: es) = TextEvent.instructions n es := by cases n <;> rfl
      rw [hi]
      refine ih (fs := fs) hk ?_
      cases inner with
      | nil =>
        simp only [List.nil_append, Call.see]
        split
        · exact ⟨[], g, rfl, e2, e3, e4, e5⟩
        · exact ⟨[], _, rfl, e2, e3, e4, e5.trans (List.prefix_append ..)⟩
      | cons x xs =>
        simp only [List.cons_append, Call.see]
        split
        · exact ⟨x :: xs, g, rfl, e2, e3, e4, e5⟩
        · exact ⟨_ :: xs, g, rfl, by simpa using e2, e3, e4, e5⟩
    | instruction i =>
      have hk : TextEvent.Kept n es := by cases n <;> exact hk
      cases inner with
      | nil =>
        cases e2
        change ∃ n', Outer n' _ (is ++ _ :: TextEvent.instructions 0 es) vs m'.levels
        rw [List.append_cons]
        exact ih (fs := fs) hk ⟨[], _, rfl, rfl, e3, by simp [e4], e5⟩
      | cons x xs =>
        cases e2
        exact ih (n := xs.length + 1) (fs := fs) hk ⟨_ :: xs, g, rfl, by simp, e3, e4, e5⟩
    | function name ps f =>
      have hk : TextEvent.Kept n es := by cases n <;> exact hk
      have hi : TextEvent.instructions n (.call (.function name ps f) :: es) = TextEvent.instructions n es := by cases n <;> rfl
      rw [hi]
      simp only [TextEvent.functions]
      rw [List.append_cons]
      refine ih hk ?_
      simp only [Call.see, onLast_concat]
      exact ⟨inner, _, rfl, e2, by simp [e3], e4, e5⟩
  | @wrong t file e es m rs m' _ _ _ ih =>
    have hk : TextEvent.Kept n es := by cases n <;> exact hk
    have hi : TextEvent.instructions n (.text t file :: es) = TextEvent.instructions n es := by cases n <;> rfl
    rw [hi]
    exact ih (fs := fs) hk ho
  | @program t file p es m r rs m1 m' _ h1 _ ih =>
    have hk : TextEvent.Kept n es := by cases n <;> exact hk
    have hi : TextEvent.instructions n (.text t file :: es) = TextEvent.instructions n es := by cases n <;> rfl
    rw [hi]
    exact ih (fs := fs) hk (outer_analysed ho h1)

/-- C119. As long as the user does not close the outermost scope, what the library registered stays, and what the user registered
comes after it: the functions, wherever they were registered, and the instructions of the outermost scope. The constants stay the
first values of the outermost scope, whatever is declared or registered. -/
theorem C119_kept {l : Level F} {es : List (TextEvent F)} {m : Memory F} {rs : List (Result (SProgram F))}
    (h : AnswersTexts fo an v es ⟨[⟨l, [], []⟩], 0⟩ rs m) (hk : TextEvent.Kept 0 es) :
    ∃ g, m.levels.getLast? = some g ∧ g.functions = l.functions ++ TextEvent.functions es ∧
      g.instructions = l.instructions ++ TextEvent.instructions 0 es ∧ l.vars <+: g.vars := by
  obtain ⟨n, inner, g, h1, _, h2, h3, h4⟩ := outer_texts h hk (fs := l.functions) (is := l.instructions) (vs := l.vars)
    ⟨[], l, rfl, rfl, rfl, rfl, List.prefix_refl _⟩
  exact ⟨g, by simp [h1], h2, h3, h4⟩

/-- If a registration fits, there is a last one that does. -/
private theorem last_exists {T : Type} {regs : List (Registration T)} {name : Str} {args : List (Value F)} {r : Registration T}
    (hr : r ∈ regs) (hn : r.1 = name) (hw : ∃ ws, Fits fo args r.2.2 ws) : ∃ t ws, LastFitting fo regs name args t ws := by
  induction regs generalizing r with
  | nil => cases hr
  | cons x xs ih =>
    by_cases h : ∃ r ∈ xs, r.1 = name ∧ ∃ ws, Fits fo args r.2.2 ws
    · obtain ⟨y, h1, h2, h3⟩ := h
      obtain ⟨t, ws, h4⟩ := ih h1 h2 h3
      exact ⟨t, ws, (lastFitting_append (old := [x])).2 (.inl h4)⟩
    · rcases List.mem_cons.1 hr with rfl | hr
      · obtain ⟨n, t, ps⟩ := r
        cases hn
        obtain ⟨ws, hw⟩ := hw
        exact ⟨t, ws, [], ps, xs, rfl, hw, fun r hr h1 h2 => h ⟨r, hr, h1, h2⟩⟩
      · exact absurd ⟨r, hr, hn, hw⟩ h

/-! ## Functions -/

section Functions

variable {ls : List (Level F)} {g l : Level F} {mine : List (Registration (CoreFn F))} {name : Str} {args : List (Value F)}

/-- C119. If the arguments fit a function of the user, the one among those that was registered last is called, and no function of
the language: what it returns is the value, and its errors and exceptions are those of the call. -/
theorem C119_own (hg : ls.getLast? = some g) (hf : g.functions = l.functions ++ mine) {f : CoreFn F} {args' : List (Value F)}
    (h : LastFitting fo mine name args f args') :
    (∀ r, Returns fo ls name args r ↔ f args' = .ok (some r)) ∧
    (∀ o, CallStops fo ls name args o ↔ f args' = o.as) ∧
    (∀ e, CallFailsIn fo ls name args e ↔
      f args' = .err e ∨ f args' = .ok none ∧ e = ⟨c!"function implementation returned empty value", none⟩) := by
  have h1 : LastFitting fo g.functions name args f args' := by rw [hf]; exact lastFitting_append.2 (.inl h)
  have hn := lastFitting_kinds h1
  refine ⟨fun r => ⟨?_, fun h => ⟨g, f, args', hg, h1, h⟩⟩, fun o => ⟨?_, fun h => .function hg h1 h⟩, fun e => ⟨?_, ?_⟩⟩
  · rintro ⟨g', f', a', e1, e2, e3⟩
    rw [hg] at e1; cases e1
    obtain ⟨rfl, rfl⟩ := lastFitting_det h1 e2
    exact e3
  · intro h
    cases h with
    | noScope h => subst h; cases hg
    | untyped _ _ _ h2 h3 => exact absurd h3 (hn _ h2)
    | function e1 e2 e3 =>
      rw [hg] at e1; cases e1
      obtain ⟨rfl, rfl⟩ := lastFitting_det h1 e2
      exact e3
  · intro h
    obtain ⟨r, hr, hrn, ws, hw⟩ : ∃ r ∈ g.functions, r.1 = name ∧ ∃ ws, Fits fo args r.2.2 ws := by
      obtain ⟨o, ps, n, e1, e2, _⟩ := h1
      exact ⟨(name, f, ps), by rw [e1]; simp, rfl, _, e2⟩
    cases h with
    | unknown e1 e2 => rw [hg] at e1; cases e1; exact absurd hrn (e2 r hr)
    | overload e1 _ _ e2 => rw [hg] at e1; cases e1; exact absurd ⟨ws, hw⟩ (e2 r hr hrn)
    | thrown e1 e2 e3 =>
      rw [hg] at e1; cases e1
      obtain ⟨rfl, rfl⟩ := lastFitting_det h1 e2
      exact .inl e3
    | empty e1 e2 e3 =>
      rw [hg] at e1; cases e1
      obtain ⟨rfl, rfl⟩ := lastFitting_det h1 e2
      exact .inr ⟨e3, rfl⟩
  · rintro (h | ⟨h, rfl⟩)
    · exact .thrown hg h1 h
    · exact .empty hg h1 h

/-- C119. If the arguments fit no function of the user with this name, the call is as in the language: it has the value of the
function of the language, or undefined behaviour, or the error that no function fits. Only the message of this error knows of the
user's functions: it is the one for unknown names only if neither the language nor the user has a function with this name. -/
theorem C119_language (hl : Standard fo l) (hg : ls.getLast? = some g) (hf : g.functions = l.functions ++ mine)
    (hn : ∀ r ∈ mine, r.1 = name → ¬∃ ws, Fits fo args r.2.2 ws) (hx : ∀ x ∈ args, Ordinary x) :
    (∀ r, Returns fo ls name args r ↔ ∃ c, Calculates fo name args (some c) ∧ r = ⟨c.node, none⟩) ∧
    (∀ o, CallStops fo ls name args o ↔ o = .undefined ∧ Calculates fo name args none) ∧
    (∀ e, CallFailsIn fo ls name args e ↔ (¬∃ out, Calculates fo name args out) ∧
      ((∀ fn : Fn, fn.name ≠ name) ∧ (∀ r ∈ mine, r.1 ≠ name) ∧ e = ⟨c!"failed to resolve '" ++ name ++ c!"'", none⟩ ∨
        ((∃ fn : Fn, fn.name = name) ∨ ∃ r ∈ mine, r.1 = name) ∧
          e = ⟨c!"failed to resolve overload for '" ++ name ++ c!"' with argument pack (" ++ kindsText (args.map (·.node)) ++ c!")", none⟩)) := by
  have hfit : ∀ f ws, LastFitting fo g.functions name args f ws ↔ LastFitting fo l.functions name args f ws := by
    intro f ws
    rw [hf, lastFitting_append]
    refine ⟨fun h => h.elim (fun h => ?_) (·.2), fun h => .inr ⟨hn, h⟩⟩
    obtain ⟨o, ps, n, rfl, h2, _⟩ := h
    exact absurd ⟨_, h2⟩ (hn (name, f, ps) (by simp) rfl)
  have hty : ∀ x ∈ args, kindOf x.node ≠ none := fun x h => good_typed (ordinary_good (hx x h))
  have hl1 : [l].getLast? = some l := rfl
  have hnofn : (∀ fn : Fn, fn.name ≠ name) ↔ ∀ r ∈ l.functions, r.1 ≠ name := by
    constructor
    · intro h r hr he
      obtain ⟨fn, h2⟩ := (hl.functions name).1 ⟨r, hr, he⟩
      exact h fn h2
    · intro h fn he
      obtain ⟨r, hr, h2⟩ := (hl.functions name).2 ⟨fn, he⟩
      exact h r hr h2
  have hstop : ∀ o, CallStops fo ls name args o ↔ CallStops fo [l] name args o := by
    intro o
    constructor
    · intro h
      cases h with
      | noScope h => subst h; cases hg
      | untyped _ _ _ h2 h3 => exact absurd h3 (hty _ h2)
      | function e1 e2 e3 => rw [hg] at e1; cases e1; exact .function hl1 ((hfit _ _).1 e2) e3
    · intro h
      cases h with
      | noScope h => cases h
      | untyped _ _ _ h2 h3 => exact absurd h3 (hty _ h2)
      | function e1 e2 e3 => cases e1; exact .function hg ((hfit _ _).2 e2) e3
  have hret : ∀ r, Returns fo ls name args r ↔ Returns fo [l] name args r := by
    intro r
    constructor
    · rintro ⟨g', f, ws, e1, e2, e3⟩
      rw [hg] at e1; cases e1
      exact ⟨l, f, ws, rfl, (hfit _ _).1 e2, e3⟩
    · rintro ⟨g', f, ws, e1, e2, e3⟩
      cases e1
      exact ⟨g, f, ws, hg, (hfit _ _).2 e2, e3⟩
  have hval : ∀ f ws, LastFitting fo l.functions name args f ws → (∃ r, f ws = .ok (some r)) ∨ f ws = .ub := by
    intro f ws h
    obtain ⟨_ | c, hc⟩ := (hl.fits name args hx).1 ⟨f, ws, h⟩
    · cases (hl.undefined name args hx .undefined).2 ⟨rfl, hc⟩ with
      | noScope h => cases h
      | function h1 h2 h3 =>
        cases h1
        obtain ⟨rfl, rfl⟩ := lastFitting_det h h2
        exact .inr h3
    · obtain ⟨g', f', ws', h1, h2, h3⟩ := (hl.returns name args hx _).2 ⟨c, hc, rfl⟩
      cases h1
      obtain ⟨rfl, rfl⟩ := lastFitting_det h h2
      exact .inl ⟨_, h3⟩
  refine ⟨fun r => (hret r).trans (hl.returns name args hx r), fun o => (hstop o).trans (hl.undefined name args hx o), fun e => ?_⟩
  rw [← hl.fits name args hx]
  constructor
  · intro h
    cases h with
    | unknown e1 e2 =>
      rw [hg] at e1; cases e1
      rw [hf] at e2
      refine ⟨?_, .inl ⟨hnofn.2 fun r hr => e2 r (by simp [hr]), fun r hr => e2 r (by simp [hr]), rfl⟩⟩
      rintro ⟨f, ws, o, ps, n, h1, _⟩
      exact e2 (name, f, ps) (by rw [h1]; simp) rfl
    | overload e1 e2 _ e3 =>
      rw [hg] at e1; cases e1
      rw [hf] at e2 e3
      refine ⟨?_, .inr ⟨?_, rfl⟩⟩
      · rintro ⟨f, ws, o, ps, n, h1, h2, _⟩
        exact e3 (name, f, ps) (by rw [h1]; simp) rfl ⟨_, h2⟩
      · obtain ⟨r, hr, h1⟩ := e2
        rcases List.mem_append.1 hr with hr | hr
        · exact .inl ((hl.functions name).1 ⟨r, hr, h1⟩)
        · exact .inr ⟨r, hr, h1⟩
    | thrown e1 e2 e3 =>
      rw [hg] at e1; cases e1
      rcases hval _ _ ((hfit _ _).1 e2) with ⟨r, h⟩ | h <;> rw [e3] at h <;> cases h
    | empty e1 e2 e3 =>
      rw [hg] at e1; cases e1
      rcases hval _ _ ((hfit _ _).1 e2) with ⟨r, h⟩ | h <;> rw [e3] at h <;> cases h
  · rintro ⟨h1, ⟨h2, h3, rfl⟩ | ⟨h2, rfl⟩⟩
    · refine .unknown hg fun r hr => ?_
      rw [hf] at hr
      rcases List.mem_append.1 hr with hr | hr
      · exact hnofn.1 h2 r hr
      · exact h3 r hr
    · refine .overload hg ?_ hty ?_
      · rw [hf]
        rcases h2 with h2 | ⟨r, hr, h2⟩
        · obtain ⟨r, hr, h2⟩ := (hl.functions name).2 h2
          exact ⟨r, by simp [hr], h2⟩
        · exact ⟨r, by simp [hr], h2⟩
      · intro r hr hn' hw
        have := last_exists hr hn' hw
        obtain ⟨f, ws, h⟩ := this
        exact h1 ⟨f, ws, (hfit _ _).1 h⟩

end Functions

/-! ## Instructions and constants -/

section Instructions

variable {inner : List (Level F)} {g l : Level F} {mine : List (Registration Instruction)} {name : Str} {args : List (Value F)}

private theorem chosen_outermost (hi : ∀ x ∈ inner, ∀ r ∈ x.instructions, r.1 = name → ¬∃ ws, Fits fo args r.2.2 ws) {i : Instruction}
    {ws : List (Value F)} : ChosenInstr fo name args i ws (inner ++ [g]) ↔ LastFitting fo g.instructions name args i ws := by
  induction inner with
  | nil =>
    refine ⟨fun h => ?_, .here⟩
    cases h with
    | here h => exact h
    | outer _ h => cases h
  | cons x xs ih =>
    rw [← ih fun y hy => hi y (List.mem_cons_of_mem _ hy)]
    refine ⟨fun h => ?_, .outer (hi x (List.mem_cons_self ..))⟩
    cases h with
    | here h =>
      obtain ⟨o, ps, n, h1, h2, _⟩ := h
      exact absurd ⟨_, h2⟩ (hi x (List.mem_cons_self ..) (name, i, ps) (by rw [h1]; simp) rfl)
    | outer _ h => exact h

/-- C119. Where the operands fit no instruction of an inner scope: if they fit one that the user registered in the outermost scope,
the last of those is meant, and else the instruction of the language with the kinds of the operands, if there is one. -/
theorem C119_instructions (hl : Standard fo l) (hf : g.instructions = l.instructions ++ mine)
    (hi : ∀ x ∈ inner, ∀ r ∈ x.instructions, r.1 = name → ¬∃ ws, Fits fo args r.2.2 ws) :
    (∀ i ws, LastFitting fo mine name args i ws →
      ∀ i' ws', ChosenInstr fo name args i' ws' (inner ++ [g]) ↔ i' = i ∧ ws' = ws) ∧
    ((∀ r ∈ mine, r.1 = name → ¬∃ ws, Fits fo args r.2.2 ws) → (∀ x ∈ args, Ordinary x) →
      ∀ i ws, ChosenInstr fo name args i ws (inner ++ [g]) ↔ ws = args ∧ ∃ ks, StandardOperands name ks ∧
        Forall2 (fun x k => kindOf x.node = some k) args ks ∧ i = refOf name ks) := by
  refine ⟨fun i ws h i' ws' => ?_, fun hn hx i ws => ?_⟩
  · rw [chosen_outermost hi, hf]
    have h1 : LastFitting fo (l.instructions ++ mine) name args i ws := lastFitting_append.2 (.inl h)
    constructor
    · intro h2
      obtain ⟨rfl, rfl⟩ := lastFitting_det h1 h2
      exact ⟨rfl, rfl⟩
    · rintro ⟨rfl, rfl⟩
      exact h1
  · rw [← hl.chosen name args hx, chosen_outermost hi, hf, lastFitting_append]
    have := chosen_outermost (fo := fo) (inner := []) (g := l) (name := name) (args := args) (by simp) (i := i) (ws := ws)
    rw [List.nil_append] at this
    rw [this]
    refine ⟨fun h => h.elim (fun h => ?_) (·.2), fun h => .inr ⟨hn, h⟩⟩
    obtain ⟨o, ps, n, rfl, h2, _⟩ := h
    exact absurd ⟨_, h2⟩ (hn (name, i, ps) (by simp) rfl)

/-- C119. In the outermost scope the constants of the language always have their values. -/
theorem C119_constants (hl : Standard fo l) (hg : l.vars <+: g.vars) {c : Const F} (hc : builtin fo name = some c) :
    g.vars.find? (fun x => x.1 = name) = some (name, ⟨c.node, none⟩) := by
  obtain ⟨rest, hr⟩ := hg
  rw [← hr, hl.vars]
  unfold builtin at hc
  split at hc
  · rename_i h; subst h; cases hc; rfl
  split at hc
  · rename_i h; subst h; cases hc; rfl
  split at hc
  · rename_i h; subst h; cases hc; rfl
  split at hc
  · rename_i h; subst h; cases hc; rfl
  split at hc
  · rename_i h; subst h; cases hc; rfl
  · cases hc

end Instructions

/-- C119. Where nothing but the language is registered, the rules for analysers with their own registrations are those of the
language: they report the same errors. -/
theorem C119_errors {a : Analyzer F} (ha : Analyzer.default fo v = .ok a) : ∃ l, Standard fo l ∧
    ∀ p, ShapedProgram p → PlainProgram p → ∀ es,
      (∃ r m', AnalysedIn fo v ⟨[⟨l, [], []⟩], 0⟩ p r m' ∧ r.errors = es) ↔ ProgramErrors fo v p es := by
  refine ⟨standardLevel fo, standard_level fo, fun p hs hp es => ?_⟩
  have hk := keeps_default ha
  rw [← C72_errors ha hs hp]
  constructor
  · rintro ⟨r, m', h1, rfl⟩
    obtain ⟨b, r', h2, _, _, h3⟩ := C114_result hk hs hp h1
    exact ⟨b, r'.root, by rw [h2, ← h3]⟩
  · rintro ⟨b, root, h⟩
    obtain ⟨m1, h1, _⟩ := keeps_analyze hk hs hp h
    exact ⟨_, m1, h1, rfl⟩

/-! ## Examples -/

section Examples

/-- An overload of `sin` for integers. -/
private def three : CoreFn Int := fun _ => .ok (some ⟨.constInt 3, none⟩)

/-- A text before and after the user registers an overload of `sin`, and an instruction. -/
private def session : List (TextEvent Int) :=
  [.text c!"version 3; qubit[4] q; X q[sin(2)]; reset q" none,
   .call .push, .call (.function c!"sin" [.bare .int] three), .call (.instruction ⟨c!"X", [.bare .bit]⟩), .call .pop,
   .call (.instruction ⟨c!"reset", [.bare .qubitArray, .bare .qubitArray]⟩),
   .text c!"version 3; qubit[4] r; X r[sin(2)]; X r[sin(pi)]; reset r" none]

private def observed : Option (List (List Str × Nat)) :=
  let rec go : List (TextEvent Int) → Analyzer Int → Option (List (List Str × Nat))
    | [], _ => some []
    | .call c :: es, a => match c.on a with | .ok b => go es b | .err _ => go es a | _ => none
    | .text t file :: es, a =>
      match Syn.analyzeString Sample.fo Sample.antlr a t file with
      | .ok (b, r) => (go es b).map ((r.errors.map (·.message), (r.root.map fun t => t.block.statements.length).getD 0) :: ·)
      | _ => none
  match Analyzer.default Sample.fo [3, 0] with
  | .ok a => go session a
  | _ => none

/-- C119: before, `sin` of an integer is the function of the language, and its value is no index; afterwards it is the user's, while
`sin(pi)` is still that of the language, and so are the instructions with other operands. -/
example : observed = some [([c!"expected an integer"], 1), ([c!"expected an integer"], 3)] := by
  decide +kernel

example : TextEvent.Kept 0 session ∧ (TextEvent.functions session).map (·.1) = [c!"sin"] ∧
    (TextEvent.instructions 0 session).map (·.1) = [c!"reset"] := ⟨trivial, by decide, by decide⟩

/-- The hypotheses of `C119_own` and of `C119_language` can be met. -/
example : LastFitting Sample.fo (TextEvent.functions session) c!"sin" [⟨.constInt 2, none⟩] three [⟨.constInt 2, none⟩] :=
  ⟨[], [.bare .int], [], rfl, .cons (.same rfl) .nil, by simp⟩

example : ∃ l : Level Int, Standard Sample.fo l := ⟨_, standard_level _⟩

example : Ordinary (⟨.constFloat 3, none⟩ : Value Int) ∧ Ordinary (⟨.variableRef ⟨0, c!"q", ⟨.qubitArray, 4⟩⟩, none⟩ : Value Int) :=
  ⟨.inl ⟨.float 3, rfl⟩, .inr ⟨.qubitArray, by simp, rfl⟩⟩

example : StandardOperands c!"2q_X" [.qubit, .qubitArray] ∧ ¬ StandardOperands c!"2q_CNOT" [.qubit, .qubitArray] := by
  decide +kernel

end Examples

end Qasm
