import Verif.Lemmas.WrittenOnly
import Verif.Props.Positions
import Verif.Props.Api
/-!
# Property C79: which syntactic trees are written as text
-/

namespace Qasm

open Spec Sem Syn Parser TokKind

attribute [local irreducible] defaultInstrs defaultFns defaultVars

variable {F : Type} {fo : FloatOps F}

/-- `qubit[5] q` and `Rx((1 + 2) * -3) q[0, 1:2]`: the grouping needs parentheses. -/
def Sample.grouped : ProgramAst Int := Sample.program [Sample.qubits c!"q" 5,
  .gate none [] (.mk none [] c!"inv" (some (.mk none [] c!"Rx" none
    [.bin none .mul (.bin none .add (Sample.int 1) (Sample.int 2)) (.un none .neg (Sample.int 3))])) [])
    [.index none (Sample.name c!"q") [.item none (Sample.int 0), .range none (Sample.int 1) (Sample.int 2)]]]

theorem Sample.name_q : Name c!"q" := ⟨⟨'q', [], rfl, by simp [Letter], by simp⟩, by decide, by decide, by decide⟩
theorem Sample.name_Rx : Name c!"Rx" := ⟨⟨'R', ['x'], rfl, by simp [Letter], by simp [Letter]⟩, by decide, by decide, by decide⟩

theorem Sample.grouped_writable (stod : Str → Option Int) : WritableProgram stod Sample.grouped := by
  refine ⟨.inr rfl, by decide, ?_⟩
  intro s hs
  simp only [grouped, program, List.mem_cons, List.not_mem_nil, or_false] at hs
  rcases hs with rfl | rfl
  · exact .var name_q (.inl rfl) (by simp)
  · exact .gate (.inv (.named name_Rx (.exprsN (.bin (.bin (.int (by decide)) (.int (by decide))) (.un (.int (by decide)))) .exprs0)))
      (by simp) (.exprsN (.index name_q (by simp) (.entriesN (.item (.int (by decide))) (.entriesN (.range (.int (by decide)) (.int (by decide)))
        .entries0))) .exprs0)

/-- A barrier on the literal `-1`. -/
def Sample.negative : ProgramAst Int := Sample.program [.nonGate none [] c!"barrier" [Sample.int (-1)] []]

theorem Sample.negative_not (stod : Str → Option Int) : ¬ WritableProgram stod Sample.negative := by
  rintro ⟨-, -, h⟩
  have := h _ (List.mem_singleton.2 rfl)
  cases this with
  | simple _ h => cases h with | int h => exact absurd h (by decide)

theorem program_derives {ts : List Token} {pr : PProgram} (h : Program Chosen ts pr) : Program DerivesStmt ts pr := by
  obtain ⟨h1, h2, h3, hb⟩ := h
  refine .mk h1 h2 h3 ?_
  induction hb with
  | nil a b => exact .nil a b
  | cons a b c _ ih => exact .cons a b c.1 ih

/-- C79. The trees of texts, up to positions, are exactly the trees of the language: every nesting of expressions, gates and
statements that meets the restrictions on names, literals, empty lists and assembly code has a text, and no other tree has one. -/
theorem C79_written (an : Antlr F) (p : ProgramAst F) :
    ((∃ file text q, parseString an text file = .ok ⟨some q, []⟩ ∧ stripProgram q = stripProgram p) ↔ WritableProgram an.stod p) ∧
    (WritableProgram an.stod p →
      ∃ text, ∀ file, ∃ q, parseString an text file = .ok ⟨some q, []⟩ ∧ stripProgram q = stripProgram p) := by
  have hw : WritableProgram an.stod p →
      ∃ text, ∀ file, ∃ q, parseString an text file = .ok ⟨some q, []⟩ ∧ stripProgram q = stripProgram p := by
    intro h
    obtain ⟨text, h⟩ := writes_program h
    refine ⟨text, fun file => ?_⟩
    obtain ⟨ts, pr, q, h1, h2, h3, h4⟩ := h file
    exact ⟨q, hasAst_iff.1 ⟨ts, pr, h1, h2, h3⟩, h4⟩
  refine ⟨⟨?_, fun h => ?_⟩, hw⟩
  · rintro ⟨file, text, q, h, e⟩
    obtain ⟨ts, pr, h1, h2, h3⟩ := hasAst_iff.2 h
    exact writableProgram_strip (writableProgram_of (program_derives h2) (fine h1) h3) e.symm
  · obtain ⟨text, h⟩ := hw h
    obtain ⟨q, h1, h2⟩ := h none
    exact ⟨none, text, q, h1, h2⟩

/-- The first tree has a text. The second has none: the text `barrier -1` has the tree of a negation. -/
example : (∃ text, ∀ file, ∃ q, parseString Sample.antlr text file = .ok ⟨some q, []⟩ ∧ stripProgram q = stripProgram Sample.grouped) ∧
    (¬ ∃ file text q, parseString Sample.antlr text file = .ok ⟨some q, []⟩ ∧ stripProgram q = stripProgram Sample.negative) ∧
    (∃ q, parseString Sample.antlr c!"version 3.0; barrier -1" none = .ok ⟨some q, []⟩ ∧
      stripProgram q = Sample.program [.nonGate none [] c!"barrier" [.un none .neg (Sample.int 1)] []]) :=
  ⟨(C79_written Sample.antlr _).2 (Sample.grouped_writable _), fun h => Sample.negative_not _ ((C79_written Sample.antlr _).1.1 h),
    _, rfl, rfl⟩

/-- C79. What a default analyser makes of such a tree it also makes of a text. -/
theorem C79_analysis {a : Analyzer F} (ha : Reached fo a) (an : Antlr F) {p : ProgramAst F}
    (h : WritableProgram an.stod p) :
    ∃ text, ∀ file, SameOutcome (analyzeString fo an a text file) ((analyze fo a p).mapErr Empty.elim) := by
  obtain ⟨text, h⟩ := (C79_written an p).2 h
  refine ⟨text, fun file => ?_⟩
  obtain ⟨q, h1, h2⟩ := h file
  have h3 := C67_positions ha h2
  unfold analyzeString
  rw [h1, Res.bind_ok]
  revert h3
  simp only [analyzeParse]
  generalize analyze fo a q = x
  generalize analyze fo a p = y
  intro h3
  cases x <;> cases y <;> exact h3

/-- The tree above is accepted, so some text is. -/
example : ∃ a text, Analyzer.default Sample.fo [3, 0] = .ok a ∧ ∀ file,
    SameOutcome (analyzeString Sample.fo Sample.antlr a text file) ((analyze Sample.fo a Sample.grouped).mapErr Empty.elim) := by
  obtain ⟨a, ha⟩ : ∃ a, Analyzer.default Sample.fo [3, 0] = .ok a := ⟨_, default_eq Sample.fo [3, 0] rfl⟩
  obtain ⟨text, h⟩ := C79_analysis (.fresh ha) Sample.antlr (Sample.grouped_writable _)
  exact ⟨a, text, ha, h⟩

example : Sample.messages Sample.grouped = some [] := by decide +kernel

end Qasm
