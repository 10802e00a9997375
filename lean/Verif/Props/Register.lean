import Verif.Lemmas.Spelled
/-!
# Larger registers, and registers written as all their elements (C89, C90)
-/

namespace Qasm

open Spec Sem

attribute [local irreducible] defaultInstrs defaultFns defaultVars

variable {F : Type}

theorem enlarge_shaped {size : Str → Option Int64} {p : ProgramAst F} (hs : ShapedProgram p) : ShapedProgram (enlarge size p) := by
  intro s h
  obtain ⟨t, ht, rfl⟩ := List.mem_map.1 h
  have := hs t ht
  cases t with
  | var l as name typ =>
    obtain ⟨n, m, k⟩ := typ
    cases m <;> exact this
  | _ => exact this

/-- **C89.** An accepted program is accepted with larger registers, too, unless it compares the size of one of them with another size.
The result is the same but for the sizes. -/
theorem C89_larger (fo : FloatOps F) (v : Version) (a : Analyzer F) (ha : Analyzer.default fo v = .ok a) (p : ProgramAst F)
    (hs : ShapedProgram p) (size : Str → Option Int64) (hn : ∀ s ∈ p.block.statements, NoSmaller size s)
    (hc : ∀ s ∈ p.block.statements, Compatible size s) (r : SProgram F) (h : Accepts fo a p r) :
    Accepts fo a (enlarge size p) (resize size r) := by
  obtain ⟨h1, h2, h3, h4⟩ := accepts_valid ha hs h
  have h5 := exec_resize (size := size) h1.2 (by intro x hx; cases hx) fun s h => ⟨hn s h, hc s h⟩
  have h6 := valid_accepts ha (enlarge_shaped (size := size) hs) (p := enlarge size p) ⟨h1.1, h5⟩
  rw [blockAfter_locs resize_loc] at h6
  unfold resize
  rw [← congrArg SBlock.loc h4] at h6
  rw [h2, h3]
  exact h6

/-- **C90.** A program is accepted if and only if it is accepted with registers as operands written as lists of all their elements.
The results are the same but for these operands. -/
theorem C90_elements (fo : FloatOps F) (v : Version) (a : Analyzer F) (ha : Analyzer.default fo v = .ok a) (p : ProgramAst F)
    (hs : ShapedProgram p) (ss : List (Stmt F)) (hs' : ShapedProgram (withStatements p ss)) (size : Str → Option Int64)
    (hd : ∀ s ∈ p.block.statements, AsDeclared size s) (hsp : Forall2 (SpelledStmt fo size) p.block.statements ss) :
    (∀ r, Accepts fo a p r → ∃ r', Accepts fo a (withStatements p ss) r' ∧ SpelledResult r r') ∧
    ∀ r', Accepts fo a (withStatements p ss) r' → ∃ r, Accepts fo a p r ∧ SpelledResult r r' := by
  constructor
  · intro r h
    obtain ⟨h1, h2, h3, h4⟩ := accepts_valid ha hs h
    obtain ⟨ts', h5, h6⟩ := Spell.exec_forth (size := size) h1.2 (by intro x hx; cases hx) hd hsp
    refine ⟨_, valid_accepts ha hs' (p := withStatements p ss) ⟨h1.1, h5⟩, h2, h3, rfl, ?_, h6⟩
    show _ = (blockAfter _ ts').loc
    rw [h4, Spell.blockAfter_locs h6]
  · intro r h
    obtain ⟨h1, h2, h3, h4⟩ := accepts_valid ha hs' h
    obtain ⟨ts', h5, h6⟩ := Spell.exec_back (size := size) h1.2 declsOk_nil (by intro x hx; cases hx) hd hsp
    refine ⟨_, valid_accepts ha hs ⟨h1.1, h5⟩, h2.symm, h3.symm, rfl, ?_, h6⟩
    show (blockAfter _ ts').loc = _
    rw [h4, Spell.blockAfter_locs h6]

/-! ## Examples -/

section Examples

open Sample

/-- A program that addresses the elements of `q`, and uses `q` and `b` as a whole. -/
def Sample.small : List (Stmt Int) :=
  [qubits c!"q" 2, bits c!"b" 2, qubits c!"r" 2, gate c!"CNOT" [] [at_ c!"q" 0, at_ c!"r" 1], gate c!"H" [] [name c!"q"],
    measure (name c!"b") (name c!"q")]

/-- `q` and `b` get five elements. -/
def Sample.five : Str → Option Int64 := fun x => if x = c!"q" ∨ x = c!"b" then some 5 else none

/-- C89: the hypotheses hold, and both programs are accepted. -/
example : (∀ s ∈ small, NoSmaller five s) ∧ (∀ s ∈ small, Compatible five s) := by
  constructor
  · intro s hs
    simp only [small, List.mem_cons, List.not_mem_nil, or_false] at hs
    rcases hs with rfl | rfl | rfl | rfl | rfl | rfl
    · intro m hm
      refine ⟨2, rfl, ?_⟩
      cases hm
      decide
    · intro m hm
      refine ⟨2, rfl, ?_⟩
      cases hm
      decide
    · intro m hm; cases hm
    · trivial
    · trivial
    · trivial
  · intro s hs
    simp only [small, List.mem_cons, List.not_mem_nil, or_false] at hs
    rcases hs with rfl | rfl | rfl | rfl | rfl | rfl
    · exact .inl fun l x h => nomatch h
    · exact .inl fun l x h => nomatch h
    · exact .inl fun l x h => nomatch h
    · refine .inl fun l x h => ?_
      simp [gate, operandExprs, at_] at h
    · refine .inr ⟨5, fun e he => ?_⟩
      simp only [gate, operandExprs, List.mem_singleton] at he
      exact ⟨_, _, he, rfl⟩
    · refine .inr ⟨5, fun e he => ?_⟩
      simp only [Sample.measure, operandExprs, List.mem_cons, List.not_mem_nil, or_false] at he
      rcases he with rfl | rfl
      · exact ⟨_, _, rfl, rfl⟩
      · exact ⟨_, _, rfl, rfl⟩

example : messages (program small) = some [] ∧ messages (enlarge five (program small)) = some [] := by decide +kernel

/-- C89: with `q` alone enlarged, the measurement is rejected: it compares `q` with `b`. With a smaller `r` the index is out of range. -/
example : (messages (enlarge (fun x => if x = c!"q" then some 5 else none) (program small))).map List.length = some 1 ∧
    (messages (enlarge (fun x => if x = c!"r" then some 1 else none) (program small))).map List.length = some 1 := by
  decide +kernel

/-- `small` with registers written as lists of elements, in several ways. -/
def Sample.spelled : List (Stmt Int) :=
  [qubits c!"q" 2, bits c!"b" 2, qubits c!"r" 2, gate c!"CNOT" [] [at_ c!"q" 0, at_ c!"r" 1], gate c!"H" [] [slice c!"q" 0 1],
    measure (.index none (name c!"b") [.item none (int 0), .item none (int 1)]) (name c!"q")]

/-- C90: the hypotheses hold, and both programs are accepted. -/
example : Forall2 (SpelledStmt Sample.fo fun x => if x = c!"q" ∨ x = c!"b" then some 2 else none) small spelled := by
  refine .cons (.same _) (.cons (.same _) (.cons (.same _) (.cons (.same _) (.cons (.gate (.cons ?_ .nil))
    (.cons (.nonGate (.cons ?_ (.cons (.same _) .nil))) .nil)))))
  · refine .elements (n := 2) (is := [(0, none), (1, none)]) rfl (.cons (is := [(0, none), (1, none)]) (js := []) (.range (c := .int 0) (d := .int 1) (i := 0) (j := 1) (.intLit _ _) ?_ (.intLit _ _) ?_ ?_) .nil) ?_
    · exact .same (.int _)
    · exact .same (.int _)
    · exact ⟨by decide, by decide, by decide⟩
    · unfold AllElements; decide
  · refine .elements (n := 2) (is := [(0, none), (1, none)]) rfl
      (.cons (is := [(0, none)]) (.item (c := .int 0) (.intLit _ _) ?_) (.cons (is := [(1, none)]) (.item (c := .int 1) (.intLit _ _) ?_) .nil)) ?_
    · exact .same (.int _)
    · exact .same (.int _)
    · unfold AllElements; decide

example : messages (program spelled) = some [] := by decide +kernel

/-- C90: other lists are not the register: with an element missing, the measurement is rejected. -/
example : (messages (program [qubits c!"q" 2, bits c!"b" 2, measure (name c!"b") (at_ c!"q" 1)])).map List.length = some 1 := by
  decide +kernel

end Examples

end Qasm
