import Verif.Lemmas.Order
import Verif.Props.Located
import Verif.Props.Size
/-!
# C96: errors and instructions are in the order of the text
-/

namespace Qasm

open Spec Sem Syn

variable {F : Type} {fo : FloatOps F}

attribute [local irreducible] defaultInstrs defaultFns defaultVars

namespace Order

/-- The statements of the tree of a text are in order. -/
theorem text_order {an : Antlr F} {text : Str} {file : Option Str} {p : ProgramAst F}
    (h : parseString an text file = .ok ⟨some p, []⟩) :
    p.block.statements.Pairwise Earlier ∧ ∀ v ∈ p.block.statements, ∀ m ∈ stmtLocs v, m = none ∨ Before p.version.loc m := by
  obtain ⟨ts, pr, h1, h2, h3⟩ := hasAst_iff.2 h
  exact program_order (program_derives h2) (placed h1) (apart h1) h3

/-- The statement is an assembly declaration. -/
def IsAsm : Stmt F → Prop
  | .asm _ _ _ _ => True
  | _ => False

theorem loc_mem (s : Stmt F) : s.loc ∈ stmtLocs s := by cases s <;> simp [Stmt.loc, stmtLocs]

/-- The statements have locations, except for the assembly declarations. -/
def Known (ss : List (Stmt F)) : Prop := ∀ s ∈ ss, s.loc ≠ none ∨ IsAsm s

theorem text_known {an : Antlr F} {text : Str} {file : Option Str} {p : ProgramAst F}
    (h : parseString an text file = .ok ⟨some p, []⟩) : Known p.block.statements := by
  intro s hs
  rcases locatedStmt_loc ((C85_tree h).2.2.2 s hs) with h8 | ⟨l, as, name, code, rfl⟩
  · refine .inl fun e => ?_
    rw [e] at h8; cases h8
  · exact .inr trivial

theorem earlier_before {s w : Stmt F} (h : Earlier s w) {l m : Option Loc} (hl : l ∈ stmtLocs s) (hm : m ∈ stmtLocs w)
    (hl' : l ≠ none) (hm' : m ≠ none) : Before l m := by
  rcases h l hl m hm with h | h | h
  · exact absurd h hl'
  · exact absurd h hm'
  · exact h

/-- The locations of the instructions that have one. -/
def spots (ts : List (SStatement F)) : List (Option Loc) :=
  ts.filterMap fun
    | .gate _ _ _ _ l => some l
    | .nonGate _ _ _ _ _ l => some l
    | .asm _ _ _ _ => none

theorem spot_of {D : List VarLink} {s : Stmt F} {t : SStatement F} (h : InstrOk fo D s t) (hn : s.loc ≠ none ∨ IsAsm s) :
    spots [t] = [] ∨ spots [t] = [s.loc] ∧ s.loc ≠ none := by
  cases h with
  | asm _ => exact .inl rfl
  | gate | measure | simple | wait =>
    rcases hn with h | h
    · exact .inr ⟨rfl, h⟩
    · exact h.elim

theorem analysis_order {D : List VarLink} {u : Nat} {ss : List (Stmt F)} {vs : List (SVariable F)}
    {ts : List (SStatement F)} {bad : List (Stmt F)} (h : Analysis fo D u ss vs ts bad) (ho : ss.Pairwise Earlier) (hk : Known ss)
    {errs : List Err} (he : Forall2 ReportedAt bad errs) (hb : ∀ s ∈ bad, s.loc ≠ none) :
    (∀ l ∈ spots ts, l ≠ none ∧ ∃ s ∈ ss, l ∈ stmtLocs s) ∧ (∀ e ∈ errs, e.location ≠ none ∧ ∃ s ∈ ss, e.location ∈ stmtLocs s) ∧
      (spots ts).Pairwise Before ∧ (errs.map fun e => e.location).Pairwise Before ∧
      ∀ e ∈ errs, ∀ l ∈ spots ts, Before e.location l ∨ Before l e.location := by
  have wide : ∀ {s : Stmt F} {ss : List (Stmt F)} {l : Option Loc}, (l ≠ none ∧ ∃ w ∈ ss, l ∈ stmtLocs w) →
      l ≠ none ∧ ∃ w ∈ s :: ss, l ∈ stmtLocs w :=
    fun ⟨h, w, hw, hl⟩ => ⟨h, w, List.mem_cons_of_mem _ hw, hl⟩
  have isSome_ne : ∀ {l : Option Loc}, l.isSome → l ≠ none := by rintro _ h rfl; cases h
  have isSome_of : ∀ {l : Option Loc}, l ≠ none → l.isSome := by
    intro l h
    cases l with
    | none => exact absurd rfl h
    | some => rfl
  -- a rejected statement in front
  have reject : ∀ {s : Stmt F} {ss : List (Stmt F)} {ts : List (SStatement F)} {bad : List (Stmt F)} {errs : List Err},
      (s :: ss).Pairwise Earlier → Forall2 ReportedAt (s :: bad) errs → s.loc ≠ none →
      (∀ {errs : List Err}, Forall2 ReportedAt bad errs →
        (∀ l ∈ spots ts, l ≠ none ∧ ∃ s ∈ ss, l ∈ stmtLocs s) ∧ (∀ e ∈ errs, e.location ≠ none ∧ ∃ s ∈ ss, e.location ∈ stmtLocs s) ∧
        (spots ts).Pairwise Before ∧ (errs.map fun e => e.location).Pairwise Before ∧
        ∀ e ∈ errs, ∀ l ∈ spots ts, Before e.location l ∨ Before l e.location) →
      (∀ l ∈ spots ts, l ≠ none ∧ ∃ w ∈ s :: ss, l ∈ stmtLocs w) ∧ (∀ e ∈ errs, e.location ≠ none ∧ ∃ w ∈ s :: ss, e.location ∈ stmtLocs w) ∧
        (spots ts).Pairwise Before ∧ (errs.map fun e => e.location).Pairwise Before ∧
        ∀ e ∈ errs, ∀ l ∈ spots ts, Before e.location l ∨ Before l e.location := by
    intro s ss ts bad errs ho he hs ih
    cases he with
    | @cons _ e _ errs h1 h2 =>
      obtain ⟨i1, i2, i3, i4, i5⟩ := ih h2
      have hs' := isSome_ne (h1.2 (isSome_of hs))
      have ho' := (List.pairwise_cons.1 ho).1
      refine ⟨fun l hl => wide (i1 l hl), fun x hx => ?_, i3, ?_, fun x hx l hl => ?_⟩
      · rcases List.mem_cons.1 hx with rfl | hx
        · exact ⟨hs', s, List.mem_cons_self .., h1.1⟩
        · exact wide (i2 x hx)
      · refine List.pairwise_cons.2 ⟨fun m hm => ?_, i4⟩
        obtain ⟨x, hx, rfl⟩ := List.mem_map.1 hm
        obtain ⟨hn, w, hw, hm'⟩ := i2 x hx
        exact earlier_before (ho' w hw) h1.1 hm' hs' hn
      · rcases List.mem_cons.1 hx with rfl | hx
        · obtain ⟨hn, w, hw, hm'⟩ := i1 l hl
          exact .inl (earlier_before (ho' w hw) h1.1 hm' hs' hn)
        · exact i5 x hx l hl
  induction h generalizing errs with
  | nil => cases he; simp [spots]
  | decl _ _ _ _ ih =>
    obtain ⟨i1, i2, i3⟩ := ih (List.pairwise_cons.1 ho).2 (fun s hs => hk s (List.mem_cons_of_mem _ hs)) he hb
    exact ⟨fun l hl => wide (i1 l hl), fun e he => wide (i2 e he), i3⟩
  | @instr D u s ss t vs ts bad hi _ ih =>
    obtain ⟨i1, i2, i3, i4, i5⟩ := ih (List.pairwise_cons.1 ho).2 (fun s hs => hk s (List.mem_cons_of_mem _ hs)) he hb
    have ho' := (List.pairwise_cons.1 ho).1
    have e : spots (t :: ts) = spots [t] ++ spots ts := by
      show spots ([t] ++ ts) = _
      simp only [spots, List.filterMap_append]
    rw [e]
    rcases spot_of hi (hk s (List.mem_cons_self ..)) with h0 | ⟨h0, hn⟩
    · rw [h0]
      exact ⟨fun l hl => wide (i1 l hl), fun e he => wide (i2 e he), i3, i4, i5⟩
    · rw [h0]
      refine ⟨fun l hl => ?_, fun e he => wide (i2 e he), List.pairwise_cons.2 ⟨fun m hm => ?_, i3⟩, i4, fun e he l hl => ?_⟩
      · rcases List.mem_cons.1 hl with rfl | hl
        · exact ⟨hn, s, List.mem_cons_self .., loc_mem s⟩
        · exact wide (i1 l hl)
      · obtain ⟨hm0, w, hw, hm'⟩ := i1 m hm
        exact earlier_before (ho' w hw) (loc_mem s) hm' hn hm0
      · rcases List.mem_cons.1 hl with rfl | hl
        · obtain ⟨hm0, w, hw, hm'⟩ := i2 e he
          exact .inr (earlier_before (ho' w hw) (loc_mem s) hm' hn hm0)
        · exact i5 e he l hl
  | badType _ _ ih | redeclared _ _ _ _ ih | badInstr _ _ _ _ ih =>
    exact reject ho he (hb _ (List.mem_cons_self ..)) fun he' => ih (List.pairwise_cons.1 ho).2
      (fun s hs => hk s (List.mem_cons_of_mem _ hs)) he' fun s hs => hb s (List.mem_cons_of_mem _ hs)

theorem result_order {v : Version} {a a' : Analyzer F} (ha : Analyzer.default fo v = .ok a) (an : Antlr F) {text : Str}
    {file : Option Str} {r : Result (SProgram F)} (h : analyzeString fo an a text file = .ok (a', r)) :
    (errorPlaces r).Pairwise Before ∧ ∀ p, r.root = some p → (instructionPlaces p).Pairwise Before ∧
      ∀ l ∈ errorPlaces r, ∀ m ∈ instructionPlaces p, Before l m ∨ Before m l := by
  rcases Size.text_cases an h with ⟨e, rfl⟩ | ⟨p, hp, hr⟩
  · exact ⟨List.pairwise_singleton .., fun p hp => by cases hp⟩
  obtain ⟨hs, hpl⟩ := C48_shaped an text file p hp
  obtain ⟨root, verrs, errs, bad, h1, h2, h3, h4, h5⟩ := C02_one_error_per_statement fo v a ha p hs hpl a' r hr
  obtain ⟨ho, hv⟩ := text_order hp
  have hk := text_known hp
  have hb : ∀ s ∈ bad, s.loc ≠ none := fun s hs => by
    rcases locatedStmt_loc ((C85_tree hp).2.2.2 s ((C02_counts fo _ _ _ _ _ _ h4).1.subset hs)) with h8 | ⟨l, as, name, code, rfl⟩
    · intro e; rw [e] at h8; cases h8
    · have hl := (C85_tree hp).2.2.2 _ ((C02_counts fo _ _ _ _ _ _ h4).1.subset hs)
      cases hl; exact absurd hs (analysis_bad h4 _ _ _)
  obtain ⟨i1, i2, i3, i4, i5⟩ := analysis_order h4 ho hk h5 hb
  have vb : ∀ {m : Option Loc}, (m ≠ none ∧ ∃ s ∈ p.block.statements, m ∈ stmtLocs s) → Before p.version.loc m :=
    fun ⟨hn, s, hs, hm⟩ => (hv s hs _ hm).resolve_left hn
  have hve : ∀ e ∈ verrs, e.location = p.version.loc := by
    rcases h3 with ⟨rfl, _⟩ | ⟨e, rfl, h6, _⟩
    · simp
    · intro x hx; rw [List.mem_singleton.1 hx]; exact h6
  have e0 : errorPlaces r = verrs.map (fun e => e.location) ++ errs.map fun e => e.location := by
    simp [errorPlaces, h2]
  refine ⟨?_, fun q hq => ?_⟩
  · rw [e0]
    refine List.pairwise_append.2 ⟨?_, i4, fun l hl m hm => ?_⟩
    · rcases h3 with ⟨rfl, _⟩ | ⟨e, rfl, h6, _⟩
      · exact .nil
      · exact List.pairwise_singleton ..
    · obtain ⟨x, hx, rfl⟩ := List.mem_map.1 hl
      obtain ⟨y, hy, rfl⟩ := List.mem_map.1 hm
      rw [hve x hx]
      exact vb (i2 y hy)
  · rw [h1] at hq
    cases hq
    refine ⟨i3, fun l hl m hm => ?_⟩
    rw [e0] at hl
    rcases List.mem_append.1 hl with hl | hl
    · obtain ⟨x, hx, rfl⟩ := List.mem_map.1 hl
      rw [hve x hx]
      exact .inl (vb (i1 m hm))
    · obtain ⟨x, hx, rfl⟩ := List.mem_map.1 hl
      exact i5 x hx m hm

end Order

/-- C96. The errors of the analysis of a text are reported in the order of the text, at places that do not overlap. -/
theorem C96_errors {v : Version} {a a' : Analyzer F} (ha : Analyzer.default fo v = .ok a) (an : Antlr F) {text : Str}
    {file : Option Str} {r : Result (SProgram F)} (h : analyzeString fo an a text file = .ok (a', r)) :
    (errorPlaces r).Pairwise Before := (Order.result_order ha an h).1

/-- C96. The instructions of the result are in the order of the text, with or without errors, and no error is at the place of
an instruction. -/
theorem C96_instructions {v : Version} {a a' : Analyzer F} (ha : Analyzer.default fo v = .ok a) (an : Antlr F) {text : Str}
    {file : Option Str} {r : Result (SProgram F)} (h : analyzeString fo an a text file = .ok (a', r)) {p : SProgram F}
    (hp : r.root = some p) :
    (instructionPlaces p).Pairwise Before ∧ ∀ l ∈ errorPlaces r, ∀ m ∈ instructionPlaces p, Before l m ∨ Before m l :=
  (Order.result_order ha an h).2 p hp

/-- C96. The version and the statements of a syntax tree are in the order of the text. -/
theorem C96_statements (an : Antlr F) {text : Str} {file : Option Str} {p : ProgramAst F}
    (h : parseString an text file = .ok ⟨some p, []⟩) : (p.version.loc :: statementPlaces p).Pairwise Before := by
  obtain ⟨ho, hv⟩ := Order.text_order h
  have hk := Order.text_known h
  have mem : ∀ {ss : List (Stmt F)}, Order.Known ss → ∀ m ∈ ss.filterMap (fun
      | .var l _ _ _ => some l
      | .gate l _ _ _ => some l
      | .nonGate l _ _ _ _ => some l
      | .asm _ _ _ _ => none), m ≠ none ∧ ∃ s ∈ ss, m ∈ stmtLocs s := by
    intro ss hk m hm
    obtain ⟨s, hs, e⟩ := List.mem_filterMap.1 hm
    have : m = s.loc ∧ ¬ Order.IsAsm s := by
      cases s <;> simp only [Option.some.injEq, reduceCtorEq] at e
      all_goals exact ⟨e.symm, fun h => h⟩
    exact ⟨this.1 ▸ (hk s hs).resolve_right this.2, s, hs, this.1 ▸ Order.loc_mem s⟩
  refine List.pairwise_cons.2 ⟨fun m hm => ?_, ?_⟩
  · obtain ⟨hn, s, hs, hm'⟩ := mem hk m hm
    exact (hv s hs m hm').resolve_left hn
  · refine List.pairwise_filterMap.2 (ho.imp_of_mem fun {s w} hs hw hsw l hl m hm => ?_)
    obtain ⟨hn, s', hs', hl'⟩ := mem (ss := [s]) (fun x hx => hk x (List.mem_singleton.1 hx ▸ hs)) l
      (List.mem_filterMap.2 ⟨s, List.mem_singleton.2 rfl, hl⟩)
    obtain ⟨hn', w', hw', hm'⟩ := mem (ss := [w]) (fun x hx => hk x (List.mem_singleton.1 hx ▸ hw)) m
      (List.mem_filterMap.2 ⟨w, List.mem_singleton.2 rfl, hm⟩)
    rw [List.mem_singleton.1 hs'] at hl'
    rw [List.mem_singleton.1 hw'] at hm'
    exact Order.earlier_before hsw hl' hm' hn hn'

/-- A program with a wrong version and three wrong statements. -/
def Sample.wrongText : Str := c!"version 3.1\nqubit q; H x; X q; HH q\nasm(A) '''\n'''; bit q; Z q"

/-- The line and column of the errors, and of the instructions of the tree. -/
def Sample.outline (text : Str) : Option (List (Nat × Nat) × List (Nat × Nat)) :=
  let at_ := fun l : Option Loc => match l with
    | some l => (l.range.first.line, l.range.first.column)
    | none => (0, 0)
  match Analyzer.default Sample.fo [3, 0] with
  | .ok a =>
    match analyzeString Sample.fo Sample.antlr a text none with
    | .ok (_, ⟨some p, es⟩) => some ((errorPlaces ⟨some p, es⟩).map at_, (instructionPlaces p).map at_)
    | _ => none
  | _ => none

/-- The errors and the instructions take turns in the text. -/
example : Sample.outline Sample.wrongText = some ([(1, 9), (2, 12), (2, 20), (4, 10)], [(2, 15), (4, 13)]) := by
  decide +kernel

/-- The hypotheses of the theorems above hold in this example. -/
example : ∃ a a' r p, Analyzer.default Sample.fo [3, 0] = .ok a ∧
    analyzeString Sample.fo Sample.antlr a Sample.wrongText none = .ok (a', r) ∧ r.root = some p ∧
    (errorPlaces r).length = 4 ∧ (instructionPlaces p).length = 2 := by
  have h : Sample.outline Sample.wrongText = some ([(1, 9), (2, 12), (2, 20), (4, 10)], [(2, 15), (4, 13)]) := by decide +kernel
  unfold Sample.outline at h
  split at h
  · rename_i a ha
    split at h
    · rename_i a' p es hr
      injection h with h
      injection h with h1 h2
      refine ⟨a, a', _, p, ha, hr, rfl, ?_, ?_⟩
      · simpa using congrArg List.length h1
      · simpa using congrArg List.length h2
    · cases h
  · cases h

end Qasm
