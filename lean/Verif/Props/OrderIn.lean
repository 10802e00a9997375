import Verif.Props.Order
import Verif.Props.Again
/-!
# Errors and instructions are in the order of the text, whatever is registered (C121)

As C96, but for analysers with their own registrations, at any time of a session. Functions that are registered can throw errors
with locations of their own, about which nothing can be said.
-/

namespace Qasm

open Spec Sem Syn

attribute [local irreducible] defaultInstrs defaultFns defaultVars

variable {F : Type} {fo : FloatOps F} {v : Version} {an : Antlr F}

namespace Order

theorem spot_in {ls : List (Level F)} {s : Stmt F} {t : SStatement F} (h : InstrIn fo ls s t) (hn : s.loc ≠ none ∨ IsAsm s) :
    spots [t] = [] ∨ spots [t] = [s.loc] ∧ s.loc ≠ none := by
  cases h with
  | asm _ => exact .inl rfl
  | gate | nonGate =>
    rcases hn with h | h
    · exact .inr ⟨rfl, h⟩
    · exact h.elim

theorem analysisIn_order {ls : List (Level F)} {r r' : Level F} {u : Nat} {ss : List (Stmt F)} {vs : List (SVariable F)}
    {ts : List (SStatement F)} {bad : List (Stmt F × Err)} (h : AnalysisIn fo ls r u ss vs ts bad r') (ho : ss.Pairwise Earlier)
    (hk : Known ss) {T : Err → Prop}
    (hb : ∀ b ∈ bad, (∀ l as name code, b.1 ≠ .asm l as name code) ∧ (ReportedAt b.1 b.2 ∨ T b.2)) :
    (∀ l ∈ spots ts, l ≠ none ∧ ∃ s ∈ ss, l ∈ stmtLocs s) ∧
      (∀ e ∈ bad.map (·.2), T e ∨ e.location ≠ none ∧ ∃ s ∈ ss, e.location ∈ stmtLocs s) ∧
      (spots ts).Pairwise Before ∧ (bad.map (·.2)).Pairwise (fun e e' => T e ∨ T e' ∨ Before e.location e'.location) ∧
      ∀ e ∈ bad.map (·.2), ∀ l ∈ spots ts, T e ∨ Before e.location l ∨ Before l e.location := by
  have wide : ∀ {s : Stmt F} {ss : List (Stmt F)} {l : Option Loc}, (l ≠ none ∧ ∃ w ∈ ss, l ∈ stmtLocs w) →
      l ≠ none ∧ ∃ w ∈ s :: ss, l ∈ stmtLocs w :=
    fun ⟨h, w, hw, hl⟩ => ⟨h, w, List.mem_cons_of_mem _ hw, hl⟩
  -- a rejected statement in front
  have reject : ∀ {s : Stmt F} {e0 : Err} {ss : List (Stmt F)} {ts : List (SStatement F)} {bad : List (Stmt F × Err)},
      (s :: ss).Pairwise Earlier → (s.loc ≠ none ∨ IsAsm s) → (∀ l as name code, s ≠ .asm l as name code) ∧ (ReportedAt s e0 ∨ T e0) →
      ((∀ l ∈ spots ts, l ≠ none ∧ ∃ s ∈ ss, l ∈ stmtLocs s) ∧
        (∀ e ∈ bad.map (·.2), T e ∨ e.location ≠ none ∧ ∃ s ∈ ss, e.location ∈ stmtLocs s) ∧
        (spots ts).Pairwise Before ∧ (bad.map (·.2)).Pairwise (fun e e' => T e ∨ T e' ∨ Before e.location e'.location) ∧
        ∀ e ∈ bad.map (·.2), ∀ l ∈ spots ts, T e ∨ Before e.location l ∨ Before l e.location) →
      (∀ l ∈ spots ts, l ≠ none ∧ ∃ w ∈ s :: ss, l ∈ stmtLocs w) ∧
        (∀ e ∈ ((s, e0) :: bad).map (·.2), T e ∨ e.location ≠ none ∧ ∃ w ∈ s :: ss, e.location ∈ stmtLocs w) ∧
        (spots ts).Pairwise Before ∧ (((s, e0) :: bad).map (·.2)).Pairwise (fun e e' => T e ∨ T e' ∨ Before e.location e'.location) ∧
        ∀ e ∈ ((s, e0) :: bad).map (·.2), ∀ l ∈ spots ts, T e ∨ Before e.location l ∨ Before l e.location := by
    rintro s e0 ss ts bad ho hn ⟨ha, hr⟩ ⟨i1, i2, i3, i4, i5⟩
    have hs : s.loc ≠ none := hn.resolve_right fun h => by
      cases s with
      | asm l as name code => exact ha _ _ _ _ rfl
      | _ => exact h.elim
    have ho' := (List.pairwise_cons.1 ho).1
    have he : T e0 ∨ e0.location ≠ none ∧ e0.location ∈ stmtLocs s := by
      rcases hr with ⟨h1, h2⟩ | h
      · refine .inr ⟨fun h => ?_, h1⟩
        have := h2 (by cases hl : s.loc with | none => exact absurd hl hs | some => rfl)
        rw [h] at this; cases this
      · exact .inl h
    refine ⟨fun l hl => wide (i1 l hl), fun x hx => ?_, i3, List.pairwise_cons.2 ⟨fun x hx => ?_, i4⟩, fun x hx l hl => ?_⟩
    · rcases List.mem_cons.1 hx with rfl | hx
      · exact he.imp id fun ⟨h1, h2⟩ => ⟨h1, s, List.mem_cons_self .., h2⟩
      · exact (i2 x hx).imp id wide
    · rcases he with he | ⟨h1, h2⟩
      · exact .inl he
      · rcases i2 x hx with h | ⟨h3, w, hw, h4⟩
        · exact .inr (.inl h)
        · exact .inr (.inr (earlier_before (ho' w hw) h2 h4 h1 h3))
    · rcases List.mem_cons.1 hx with rfl | hx
      · rcases he with he | ⟨h1, h2⟩
        · exact .inl he
        · obtain ⟨h3, w, hw, h4⟩ := i1 l hl
          exact .inr (.inl (earlier_before (ho' w hw) h2 h4 h1 h3))
      · exact i5 x hx l hl
  induction h with
  | nil => simp [spots]
  | decl _ _ _ ih =>
    obtain ⟨i1, i2, i3⟩ := ih (List.pairwise_cons.1 ho).2 (fun s hs => hk s (List.mem_cons_of_mem _ hs)) hb
    exact ⟨fun l hl => wide (i1 l hl), fun e he => (i2 e he).imp id wide, i3⟩
  | @instr r u s ss t vs ts bad r' hi _ ih =>
    obtain ⟨i1, i2, i3, i4, i5⟩ := ih (List.pairwise_cons.1 ho).2 (fun s hs => hk s (List.mem_cons_of_mem _ hs)) hb
    have ho' := (List.pairwise_cons.1 ho).1
    have e : spots (t :: ts) = spots [t] ++ spots ts := by
      show spots ([t] ++ ts) = _
      simp only [spots, List.filterMap_append]
    rw [e]
    rcases spot_in hi (hk s (List.mem_cons_self ..)) with h0 | ⟨h0, hn⟩
    · rw [h0]
      exact ⟨fun l hl => wide (i1 l hl), fun e he => (i2 e he).imp id wide, i3, i4, i5⟩
    · rw [h0]
      refine ⟨fun l hl => ?_, fun e he => (i2 e he).imp id wide, List.pairwise_cons.2 ⟨fun m hm => ?_, i3⟩, i4, fun e he l hl => ?_⟩
      · rcases List.mem_cons.1 hl with rfl | hl
        · exact ⟨hn, s, List.mem_cons_self .., loc_mem s⟩
        · exact wide (i1 l hl)
      · obtain ⟨hm0, w, hw, hm'⟩ := i1 m hm
        exact earlier_before (ho' w hw) (loc_mem s) hm' hn hm0
      · rcases List.mem_cons.1 hl with rfl | hl
        · rcases i2 e he with h | ⟨hm0, w, hw, hm'⟩
          · exact .inl h
          · exact .inr (.inr (earlier_before (ho' w hw) (loc_mem s) hm' hn hm0))
        · exact i5 e he l hl
  | badType _ _ _ ih | redeclared _ _ _ ih | badInstr _ _ _ _ ih =>
    exact reject ho (hk _ (List.mem_cons_self ..)) (hb _ (List.mem_cons_self ..)) (ih (List.pairwise_cons.1 ho).2
      (fun s hs => hk s (List.mem_cons_of_mem _ hs)) fun b hb' => hb b (List.mem_cons_of_mem _ hb'))

end Order

/-- C121. The rules for a program of a text, whatever is registered: the errors are in the order of the text, at places that do
not overlap, except for errors that registered functions throw with locations of their own. The instructions that the program adds
to the tree are in the order of the text as well, with or without errors, and no error is at the place of one of them. -/
theorem C121_order {m m' : Memory F} {t : Str} {file : Option Str} {p : ProgramAst F} {r : Result (SProgram F)}
    (hp : HasAst an file t p) (h : AnalysedIn fo v m p r m') :
    r.errors.Pairwise (fun e e' => ThrownBy m.levels e ∨ ThrownBy m.levels e' ∨ Before e.location e'.location) ∧
      ∃ q f fs new, r.root = some q ∧ m.frames = f :: fs ∧ q.block.statements = f.statements ++ new.block.statements ∧
        (instructionPlaces new).Pairwise Before ∧
        ∀ e ∈ r.errors, ∀ l ∈ instructionPlaces new, ThrownBy m.levels e ∨ Before e.location l ∨ Before l e.location := by
  obtain ⟨f, fs, l, vs, ts, bad, verrs, h1, h2, _, h3, h4, ⟨q, h5, _, _, h6, _⟩, _⟩ := h
  have hs := hasAst_iff.1 hp
  obtain ⟨ho, hv⟩ := Order.text_order hs
  have el : m.levels = f.level :: fs.map (·.level) := by unfold Memory.levels; rw [h1]; rfl
  rw [el]
  obtain ⟨i1, i2, i3, i4, i5⟩ := Order.analysisIn_order h2 ho (Order.text_known hs) (T := ThrownBy (f.level :: fs.map (·.level)))
    fun b hb => ⟨(bad_at h2 b hb).1, (bad_at h2 b hb).2.2⟩
  have hve : verrs.length ≤ 1 ∧ ∀ e ∈ verrs, e.location = p.version.loc := by
    cases h4 <;> simp
  have vb : ∀ {x : Option Loc}, (x ≠ none ∧ ∃ s ∈ p.block.statements, x ∈ stmtLocs s) → Before p.version.loc x :=
    fun ⟨hn, s, hs, hm⟩ => (hv s hs _ hm).resolve_left hn
  rw [h3]
  refine ⟨List.pairwise_append.2 ⟨?_, i4, fun e he e' he' => ?_⟩, q, f, fs, { q with block := { q.block with statements := ts } }, h5, h1, h6, i3, fun e he x hx => ?_⟩
  · rcases verrs with _ | ⟨e, _ | _⟩
    · exact .nil
    · exact List.pairwise_singleton ..
    · simp at hve
  · rw [hve.2 e he]
    rcases i2 e' he' with h | h
    · exact .inr (.inl h)
    · exact .inr (.inr (vb h))
  · rcases List.mem_append.1 he with he | he
    · rw [hve.2 e he]
      exact .inr (.inl (vb (i1 x hx)))
    · exact i5 e he x hx

/-- C121. If no registered function throws errors with locations of their own, all errors are in the order of the text. -/
theorem C121_quiet {m m' : Memory F} {t : Str} {file : Option Str} {p : ProgramAst F} {r : Result (SProgram F)}
    (hp : HasAst an file t p) (h : AnalysedIn fo v m p r m') (hq : ∀ e, ¬ ThrownBy m.levels e) : (errorPlaces r).Pairwise Before := by
  refine List.pairwise_map.2 ((C121_order hp h).1.imp ?_)
  rintro e e' (h | h | h)
  · exact absurd h (hq e)
  · exact absurd h (hq e')
  · exact h

/-- C121. At any time of a session, for analysers in which only what the user wants is registered. -/
theorem C121_session {a b b' : Analyzer F} (ha : Analyzer.new v = some a) {es : List (TextEvent F)} {rs : List (Result (SProgram F))}
    (h : TextAnswers fo an es a rs b) {t : Str} {file : Option Str} {r : Result (SProgram F)}
    (ht : Syn.analyzeString fo an b t file = .ok (b', r)) :
    ∃ m, AnswersTexts fo an v es ⟨[⟨⟨[], [], []⟩, [], []⟩], 0⟩ rs m ∧
      r.errors.Pairwise fun e e' => ThrownBy m.levels e ∨ ThrownBy m.levels e' ∨ Before e.location e'.location := by
  obtain ⟨m, h1, h2⟩ := keeps_texts h (keeps_new ha)
  obtain ⟨m', h3, _⟩ := keeps_texts (.text ht .nil) h2
  refine ⟨m, h1, ?_⟩
  cases h3 with
  | wrong => exact List.pairwise_singleton ..
  | program hp h4 => exact (C121_order hp h4).1

/-- C121. The same for the analysers of the library. -/
theorem C121_library {a b b' : Analyzer F} (ha : Analyzer.default fo v = .ok a) {es : List (TextEvent F)}
    {rs : List (Result (SProgram F))} (h : TextAnswers fo an es a rs b) {t : Str} {file : Option Str} {r : Result (SProgram F)}
    (ht : Syn.analyzeString fo an b t file = .ok (b', r)) :
    ∃ l m, Standard fo l ∧ AnswersTexts fo an v es ⟨[⟨l, [], []⟩], 0⟩ rs m ∧
      r.errors.Pairwise fun e e' => ThrownBy m.levels e ∨ ThrownBy m.levels e' ∨ Before e.location e'.location := by
  obtain ⟨m, h1, h2⟩ := keeps_texts h (Again.keeps_default ha)
  obtain ⟨m', h3, _⟩ := keeps_texts (.text ht .nil) h2
  refine ⟨_, m, standard_level fo, h1, ?_⟩
  cases h3 with
  | wrong => exact List.pairwise_singleton ..
  | program hp h4 => exact (C121_order hp h4).1

/-! ## Examples -/

section Examples

/-- A function that throws an error with a location of its own. -/
private def elsewhere : CoreFn Int := fun _ => .err ⟨c!"elsewhere", some ⟨none, ⟨⟨7, 1⟩, ⟨7, 2⟩⟩⟩⟩

private def places : Option (List (Str × Nat × Nat)) :=
  match Analyzer.default Sample.fo [3, 0] with
  | .ok a =>
    match (Call.function c!"f" [] elsewhere).on a with
    | .ok b =>
      match Syn.analyzeString Sample.fo Sample.antlr b c!"version 3; qubit[2] q; HH q; X q[f()]; X q[2]; bit q" none with
      | .ok (_, r) => some (r.errors.map fun e => (e.message, (e.location.map fun l => (l.range.first.line, l.range.first.column)).getD (0, 0)))
      | _ => none
    | _ => none
  | _ => none

/-- C121: the errors are in order, except for the one that the function throws. -/
example : places = some [(c!"couldn't find instruction 'HH'", 1, 24), (c!"elsewhere", 7, 1),
    (c!"index 2 out of range (size 2)", 1, 42), (c!"trying to redeclare variable 'q'", 1, 52)] := by
  decide +kernel

/-- The hypothesis of `C121_quiet` can be met. -/
example (vars : List (Str × Value Int)) (is : List (Registration Instruction)) :
    ∀ e, ¬ ThrownBy [⟨vars, [(c!"f", fun _ => .err ⟨c!"failed", none⟩, [])], is⟩] e := by
  rintro e ⟨h, g, h1, f, h2, args, h3⟩
  cases h1
  cases List.mem_singleton.1 h2
  cases h3
  cases h

end Examples

end Qasm
