import Verif.Lemmas.LegalStrip
import Verif.Props.Written
/-!
# Property C93: which trees an analysis returns
-/

namespace Qasm

open Spec Sem Syn

attribute [local irreducible] defaultInstrs defaultFns defaultVars

variable {F : Type} {fo : FloatOps F}

theorem Legal.of_accepts {stod : Str → Option F} {v : Version} {a : Analyzer F} (ha : Analyzer.default fo v = .ok a) {p : ProgramAst F}
    (hw : WritableProgram stod p) {r : SProgram F} (h : Accepts fo a p r) : LegalProgram fo stod v r := by
  obtain ⟨h1, h2, h3, -⟩ := accepts_valid ha (fun s hs => Legal.shaped_stmt (hw.2.2 s hs)) h
  obtain ⟨g1, g2, g3, g4⟩ := Legal.legal_exec h1.2 hw.2.2
  refine ⟨h2, by rw [h3]; exact ⟨h1.1, hw.1⟩, ⟨?_, g2, fun x hx => ?_⟩, fun t ht => ?_⟩
  · rw [g1]; simp
  · obtain ⟨c1, c2, c3, c4, -⟩ := g3 x hx
    exact ⟨c1, c2, c3, c4⟩
  · have := g4 t ht
    rw [List.append_nil] at this
    exact this

/-- C93. Whatever text is analysed, a result without errors is a legal tree. -/
theorem C93_legal {v : Version} {a a' : Analyzer F} (ha : Analyzer.default fo v = .ok a) (an : Antlr F) {text : Str} {file : Option Str}
    {r : SProgram F} (h : analyzeString fo an a text file = .ok (a', ⟨some r, []⟩)) : LegalProgram fo an.stod v r := by
  unfold analyzeString at h
  obtain ⟨pr, h1, h2⟩ := Res.bind_eq_ok.1 h
  obtain ⟨root, errs⟩ := pr
  cases errs with
  | cons e es => simp [analyzeParse, Res.mapErr] at h2
  | nil =>
    cases root with
    | none => simp [analyzeParse, Res.mapErr] at h2
    | some p =>
      have hw := ((C79_written an p).1).1 ⟨file, text, p, h1, rfl⟩
      refine Legal.of_accepts ha hw ⟨a', ?_⟩
      simp only [analyzeParse, List.isEmpty_nil, Bool.not_true, Bool.false_eq_true, if_false] at h2
      revert h2
      generalize analyze fo a p = x
      cases x with
      | ok y => intro h2; simpa [Res.mapErr] using h2
      | err e => exact e.elim
      | exn m => intro h2; cases h2
      | ub => intro h2; cases h2

/-- C93. Every legal tree is, up to positions, the result of analysing some text. -/
theorem C93_every {v : Version} {a : Analyzer F} (ha : Analyzer.default fo v = .ok a) (an : Antlr F) {r : SProgram F}
    (h : LegalProgram fo an.stod v r) :
    ∃ text, ∀ file, ∃ a' r', analyzeString fo an a text file = .ok (a', ⟨some r', []⟩) ∧ stripSProgram r' = stripSProgram r := by
  obtain ⟨h1, ⟨h2, h3⟩, ⟨h4, h5, h6⟩, h7⟩ := h
  obtain ⟨ss, vs, w1, x1, e1⟩ := Legal.variables_written (fo := fo) (stod := an.stod) (D := []) (by rw [h4]; simp) h5 fun v hv => by
    obtain ⟨c1, c2, c3, c4⟩ := h6 v hv
    exact ⟨c1, c2, c3, c4, by simp⟩
  have links : vs.map SVariable.link = r.variables.map fun x => ⟨x.uid, x.name, x.typ⟩ := by
    have : (SVariable.link : SVariable F → VarLink) = SVariable.link ∘ stripSVariable := by funext x; rfl
    rw [this, ← List.map_map, e1, List.map_map]
    rfl
  obtain ⟨ss', ts, w2, x2, e2⟩ := Legal.statements_written (fo := fo) (stod := an.stod) (D := (vs.map SVariable.link).reverse) (ts := r.block.statements) (by
    intro x hx
    rw [links] at hx
    obtain ⟨y, hy, rfl⟩ := List.mem_map.1 (List.mem_reverse.1 hx)
    exact ⟨(h6 y hy).1, (h6 y hy).2.1⟩) fun t ht =>
      Legal.legalStatement_mono (fun x hx => List.mem_reverse.2 (links ▸ hx)) (h7 t ht)
  have x3 : Exec fo [] (ss ++ ss') vs ts := exec_append.2 ⟨vs, [], [], ts, by simp, by simp, x1, by simpa using x2⟩
  have hw : WritableProgram an.stod ⟨⟨r.version.items, none⟩, ⟨ss ++ ss', none⟩, none⟩ := by
    refine ⟨h3, h2.1, fun s hs => ?_⟩
    rcases List.mem_append.1 hs with hs | hs
    · exact w1 s hs
    · exact w2 s hs
  obtain ⟨a1, hacc⟩ := valid_accepts ha (p := ⟨⟨r.version.items, none⟩, ⟨ss ++ ss', none⟩, none⟩)
    (fun s hs => Legal.shaped_stmt (hw.2.2 s hs)) (vs := vs) (ts := ts) ⟨h2, x3⟩
  obtain ⟨text, ht⟩ := C79_analysis (.fresh ha) an hw
  refine ⟨text, fun file => ?_⟩
  have := ht file
  rw [hacc] at this
  revert this
  generalize analyzeString fo an a text file = x
  intro hx
  cases x with
  | err => exact hx.elim
  | exn => exact hx.elim
  | ub => exact hx.elim
  | ok y =>
    obtain ⟨a', root, errs⟩ := y
    obtain ⟨hx1, hx2⟩ := hx
    have hx1 : errs = [] := List.map_eq_nil_iff.1 hx1
    subst hx1
    cases root with
    | none => cases hx2
    | some r' =>
      refine ⟨a', r', rfl, ?_⟩
      have hx2 : stripSProgram r' = _ := Option.some.inj hx2
      rw [hx2]
      simp only [stripSProgram, e1, e2, h1]

/-- C93. Up to positions, the trees an analysis returns without errors are exactly the legal trees. -/
theorem C93_exactly {v : Version} {a : Analyzer F} (ha : Analyzer.default fo v = .ok a) (an : Antlr F) (r : SProgram F) :
    (∃ text file a' r', analyzeString fo an a text file = .ok (a', ⟨some r', []⟩) ∧ stripSProgram r' = stripSProgram r) ↔
      LegalProgram fo an.stod v r := by
  constructor
  · rintro ⟨text, file, a', r', h, e⟩
    exact Legal.program_strip (C93_legal ha an h) e.symm
  · intro h
    obtain ⟨text, h⟩ := C93_every ha an h
    obtain ⟨a', r', h1, h2⟩ := h none
    exact ⟨text, none, a', r', h1, h2⟩

namespace Sample

/-- A qubit register and a bit. -/
def legalVariables : List (SVariable Int) := [⟨0, c!"q", ⟨.qubitArray, 3⟩, [], none⟩, ⟨1, c!"b", ⟨.bit, 1⟩, [], none⟩]

/-- The register. -/
def legalQ : VarLink := ⟨0, c!"q", ⟨.qubitArray, 3⟩⟩

/-- The bit. -/
def legalB : VarLink := ⟨1, c!"b", ⟨.bit, 1⟩⟩

/-- `pow(2).Rx(2)` on the given element of the register. -/
def legalGate (i : Int64) : SStatement Int :=
  .gate (refOf c!"1q_Rx" [.qubit])
    (.mk c!"pow" (some (.mk c!"Rx" none [⟨.constFloat 2, none⟩] [] none)) [⟨.constFloat 2, none⟩] [] none)
    [⟨.indexRef legalQ [(i, none)], none⟩] [] none

/-- `wait` on the register with the smallest integer, which no literal denotes. -/
def legalWait : SStatement Int :=
  .nonGate (refOf c!"wait" [.qubitArray]) c!"wait" [⟨.variableRef legalQ, none⟩] [⟨.constInt Int64.minValue, none⟩] [] none

/-- `b = measure q[1]` -/
def legalMeasure : SStatement Int :=
  .nonGate (refOf c!"measure" [.bit, .qubit]) c!"measure" [⟨.variableRef legalB, none⟩, ⟨.indexRef legalQ [(1, none)], none⟩] [] [] none

/-- The tree of a program that applies the gate to the given element, waits and measures. -/
def legalTree (i : Int64) : SProgram Int :=
  ⟨[3, 0], ⟨[3], none⟩, ⟨[legalGate i, legalWait, legalMeasure], none⟩, legalVariables⟩

theorem legal_two (stod : Str → Option Int) : FloatWritten Sample.fo stod 2 :=
  ⟨.intLit none 2, .int 2, .int (by decide), .intLit _ _, .intFloat 2⟩

theorem legal_q {is : List (Int64 × Option Loc)} (h1 : is ≠ []) (h2 : ∀ i ∈ is, 0 ≤ i.1.toInt ∧ i.1.toInt < 3) :
    RefersIn (F := Int) (legalVariables.map fun x => ⟨x.uid, x.name, x.typ⟩) (.indexRef legalQ is) :=
  .elements (by decide) (.inl rfl) h1 h2

theorem legal_tree (stod : Str → Option Int) : LegalProgram Sample.fo stod [3, 0] (legalTree 2) := by
  refine ⟨rfl, ⟨⟨by decide, ?_⟩, .inl rfl⟩, ⟨by decide, by simp [legalTree, legalVariables], ?_⟩, ?_⟩
  · intro i
    match i with
    | 0 => rfl
    | 1 => rfl
    | i + 2 => rfl
  · intro v hv
    simp only [legalTree, legalVariables, List.mem_cons, List.not_mem_nil, or_false] at hv
    rcases hv with rfl | rfl
    · exact ⟨name_q, by decide, .inr ⟨.inl rfl, by decide⟩, rfl⟩
    · exact ⟨⟨⟨'b', [], rfl, by simp [Letter], by simp⟩, by decide, by decide, by decide⟩, by decide, .inl ⟨.inr rfl, rfl⟩, rfl⟩
  · intro s hs
    simp only [legalTree, List.mem_cons, List.not_mem_nil, or_false] at hs
    rcases hs with rfl | rfl | rfl
    · refine .gate (.pow (.named (name := c!"Rx") (n := 1) (ks := [.float]) (by decide) (.cons (.float (legal_two _)) .nil)) (.float (legal_two _))) (.cons ?_ .nil) (by simp)
      exact ⟨legal_q (by simp) (by simp), rfl, .inl rfl⟩
    · exact .wait ⟨.whole (by decide), rfl, .inr rfl⟩ .int
    · exact .measure ⟨.whole (by decide), rfl, .inl rfl⟩ ⟨legal_q (by simp) (by simp), rfl, .inl rfl⟩ (by decide) (.inl .nil)

end Sample

/-- The tree has a text, although no literal denotes the parameter of `wait`. -/
example (an : Antlr Int) : ∃ a, Analyzer.default Sample.fo [3, 0] = .ok a ∧ ∃ text, ∀ file, ∃ a' r',
    analyzeString Sample.fo an a text file = .ok (a', ⟨some r', []⟩) ∧ stripSProgram r' = stripSProgram (Sample.legalTree 2) := by
  obtain ⟨a, ha⟩ := Sample.default30
  exact ⟨a, ha, C93_every ha an (Sample.legal_tree an.stod)⟩

/-- With an element the register does not have, it is never returned. -/
example (an : Antlr Int) (a : Analyzer Int) (ha : Analyzer.default Sample.fo [3, 0] = .ok a) : ¬ ∃ text file a' r',
    analyzeString Sample.fo an a text file = .ok (a', ⟨some r', []⟩) ∧ stripSProgram r' = stripSProgram (Sample.legalTree 3) := by
  rw [C93_exactly ha]
  intro h
  have := h.statements (Sample.legalGate 3) (by simp [Sample.legalTree])
  generalize hs : Sample.legalGate 3 = s at this
  cases this with
  | gate _ h _ =>
    simp only [Sample.legalGate, SStatement.gate.injEq] at hs
    obtain ⟨-, -, rfl, -⟩ := hs
    cases h with
    | cons h _ =>
      obtain ⟨h, -⟩ := h
      cases h with
      | elements _ _ _ h => exact absurd (h (3, none) (by simp)).2 (by decide)
  | _ => cases hs

end Qasm
