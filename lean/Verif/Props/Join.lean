import Verif.Lemmas.Join
import Verif.Lemmas.Reach
import Verif.Lemmas.Unused
import Verif.Spec.Sample
/-!
# Programs joined statement by statement (C99)
-/

namespace Qasm

open Spec Sem

attribute [local irreducible] defaultInstrs defaultFns defaultVars

variable {F : Type} {fo : FloatOps F} {ι : Type} [DecidableEq ι]

namespace Join

theorem own_shaped {p : ProgramAst F} {ms : List (ι × Stmt F)} (hs : ShapedProgram (withStatements p (ms.map Prod.snd))) (i : ι) :
    ShapedProgram (withStatements p (own i ms)) := by
  intro s h
  have h : s ∈ own i ms := h
  exact hs s (List.mem_map.2 ⟨(i, s), mem_own.1 h, rfl⟩)

theorem declares_mentioned {x : Str} {s : Stmt F} (h : DeclaresName x s) : x ∈ mentioned s := by
  cases s with
  | var => cases h; simp [mentioned]
  | _ => exact h.elim

theorem result_unique {a : Analyzer F} {p : ProgramAst F} {r r' : SProgram F} (h : Accepts fo a p r) (h' : Accepts fo a p r') : r = r' := by
  obtain ⟨_, h⟩ := h
  obtain ⟨_, h'⟩ := h'
  rw [h] at h'
  cases h'
  rfl

theorem mem_first {ss : List (Stmt F)} {s : Stmt F} (h : s ∈ onlyDeclarations ss ∨ s ∈ onlyInstructions ss) : s ∈ ss := by
  induction ss with
  | nil => simp [onlyDeclarations, onlyInstructions] at h
  | cons t ss ih =>
    cases t with
    | var =>
      simp only [onlyDeclarations, onlyInstructions, List.mem_cons] at h ⊢
      rcases h with (h | h) | h
      · exact .inl h
      · exact .inr (ih (.inl h))
      · exact .inr (ih (.inr h))
    | _ =>
      simp only [onlyDeclarations, onlyInstructions, List.mem_cons] at h ⊢
      rcases h with h | h | h
      · exact .inr (ih (.inl h))
      · exact .inl h
      · exact .inr (ih (.inr h))

theorem exec_first_aux {ss : List (Stmt F)} {D : List VarLink} {vs : List (SVariable F)} {ts : List (SStatement F)} (h : Exec fo D ss vs ts) :
    Exec fo D (onlyDeclarations ss) vs [] ∧ ∀ D', (∀ x ∈ (vs.map SVariable.link).reverse ++ D, x ∈ D') →
      Exec fo D' (onlyInstructions ss) [] ts := by
  induction h with
  | nil => exact ⟨.nil, fun _ _ => .nil⟩
  | decl h1 h2 h3 _ ih =>
    refine ⟨.decl h1 h2 h3 ih.1, fun D' hD => ih.2 D' fun x hx => hD x ?_⟩
    simp only [List.map_cons, List.reverse_cons, List.append_assoc, List.mem_append, List.mem_cons, List.not_mem_nil, or_false] at hx ⊢
    rcases hx with h | h | h
    · exact .inl h
    · exact .inr (.inl h)
    · exact .inr (.inr h)
  | @instr D s ss t vs ts h1 _ ih =>
    have hd : ¬ IsDecl s := by cases h1 <;> exact id
    have e : onlyDeclarations (s :: ss) = onlyDeclarations ss ∧ onlyInstructions (s :: ss) = s :: onlyInstructions ss := by
      cases s with
      | var => exact absurd trivial hd
      | _ => exact ⟨rfl, rfl⟩
    rw [e.1, e.2]
    refine ⟨ih.1, fun D' hD => .instr ?_ (ih.2 D' hD)⟩
    have := instrOk_move (f := id) (N := fun _ => True) (D' := D') (fun x hx _ => hD x (by simp [hx])) h1 fun _ _ => trivial
    rwa [moveSStatement_id] at this

theorem exec_first {ss : List (Stmt F)} {vs : List (SVariable F)} {ts : List (SStatement F)} (h : Exec fo [] ss vs ts) :
    Exec fo [] (onlyDeclarations ss ++ onlyInstructions ss) vs ts := by
  obtain ⟨h1, h2⟩ := exec_first_aux h
  exact exec_append.2 ⟨vs, [], [], ts, by simp, rfl, h1, h2 _ fun x hx => hx⟩

end Join

/-- **C99.** Accepted programs that declare variables of different names can be joined statement by statement in any way: the joined program
is accepted, and its result is the results joined in the same way, the variables having other identities. -/
theorem C99_join [Nonempty ι] {v : Version} {a : Analyzer F} (ha : Analyzer.default fo v = .ok a) {p : ProgramAst F} {ms : List (ι × Stmt F)}
    (hs : ShapedProgram (withStatements p (ms.map Prod.snd))) {r : ι → SProgram F}
    (h : ∀ i, Accepts fo a (withStatements p (own i ms)) (r i)) (hd : DifferentNames ms) :
    ∃ R, Accepts fo a (withStatements p (ms.map Prod.snd)) R ∧ Joined ms r R := by
  have hv := fun i => accepts_valid ha (Join.own_shaped hs i) (h i)
  obtain ⟨i0⟩ : Nonempty ι := inferInstance
  obtain ⟨V, T, g, b1, b2, b3, b4⟩ := Join.exec_join ms (Ds := fun _ => []) (D := []) (f := fun _ => id) (fun i => (hv i).1.2)
    (by intro i x hx; simp at hx) (by simp) (by simp) (by simp) hd
  exact ⟨_, valid_accepts ha hs ⟨(hv i0).1.1, b1⟩, b2, b3,
    fun i => ⟨(hv i).2.1.symm, (hv i).2.2.1.symm⟩, g, fun i => ⟨(b4 i).2.1, (b4 i).2.2⟩⟩

/-- **C99.** Conversely, if the statements of a joined program are accepted and no program mentions a name that another one declares, each
program is accepted on its own. -/
theorem C99_split [Nonempty ι] {v : Version} {a : Analyzer F} (ha : Analyzer.default fo v = .ok a) {p : ProgramAst F} {ms : List (ι × Stmt F)}
    (hs : ShapedProgram (withStatements p (ms.map Prod.snd))) {R : SProgram F} (h : Accepts fo a (withStatements p (ms.map Prod.snd)) R)
    (hd : Separate ms) : ∃ r : ι → SProgram F, (∀ i, Accepts fo a (withStatements p (own i ms)) (r i)) ∧ Joined ms r R := by
  obtain ⟨⟨h1, h2⟩, -⟩ := accepts_valid ha hs h
  have key : ∀ i, ∃ r, Accepts fo a (withStatements p (own i ms)) r := by
    intro i
    obtain ⟨vs, ts, b⟩ := Join.exec_split (g := id) i ms (Di := []) h2 (by intro x hx; simp at hx) (by simp) (by simp) hd
    exact ⟨_, valid_accepts ha (Join.own_shaped hs i) ⟨h1, b⟩⟩
  have hr := fun i => (key i).choose_spec
  refine ⟨fun i => (key i).choose, hr, ?_⟩
  obtain ⟨R', k1, k2⟩ := C99_join ha hs hr fun s hs t ht hst x hx => hd s hs t ht hst x (Join.declares_mentioned hx)
  rwa [Join.result_unique h k1]

/-- **C87.** In particular all declarations of an accepted program may be moved to the front, in their order: the result is the same. -/
theorem C87_first {v : Version} {a : Analyzer F} (ha : Analyzer.default fo v = .ok a) {p : ProgramAst F} (hs : ShapedProgram p) {r : SProgram F}
    (h : Accepts fo a p r) :
    Accepts fo a (withStatements p (onlyDeclarations p.block.statements ++ onlyInstructions p.block.statements)) r := by
  obtain ⟨⟨h1, h2⟩, h3, h4, h5⟩ := accepts_valid ha hs h
  have hs' : ShapedProgram (withStatements p (onlyDeclarations p.block.statements ++ onlyInstructions p.block.statements)) := by
    intro s h
    have h : s ∈ onlyDeclarations p.block.statements ++ onlyInstructions p.block.statements := h
    exact hs s (Join.mem_first (List.mem_append.1 h))
  have := valid_accepts ha hs' (vs := r.variables) (ts := r.block.statements) ⟨h1, Join.exec_first h2⟩
  have e : r = ⟨v, ⟨p.version.items, p.version.loc⟩, ⟨r.block.statements, (blockAfter (⟨[], none⟩ : SBlock F) r.block.statements).loc⟩,
      r.variables⟩ := by
    obtain ⟨x1, x2, ⟨x3, x4⟩, x5⟩ := r
    simp only at h3 h4 h5 ⊢
    rw [h3, h4]
    simp only [SProgram.mk.injEq, SBlock.mk.injEq, true_and, and_true]
    exact congrArg SBlock.loc h5
  rw [e]
  exact this

/-! ## Examples -/

section Examples

open Sample

/-- Two programs joined: `qubit[2] q; X q[1]` and `qubit[3] r; bit[3] b; b = measure r`. -/
private def two : List (Bool × Stmt Int) :=
  [(false, qubits c!"r" 3), (true, qubits c!"q" 2), (true, gate c!"X" [] [at_ c!"q" 1]), (false, bits c!"b" 3),
    (false, Sample.measure (name c!"b") (name c!"r"))]

/-- The hypotheses of `C99_join` and `C99_split`. -/
example : own true two = [qubits c!"q" 2, gate c!"X" [] [at_ c!"q" 1]] ∧
    own false two = [qubits c!"r" 3, bits c!"b" 3, Sample.measure (name c!"b") (name c!"r")] ∧
    messages (program (own true two)) = some [] ∧ messages (program (own false two)) = some [] ∧
    messages (program (two.map Prod.snd)) = some [] := by
  refine ⟨rfl, rfl, ?_⟩
  decide +kernel

example : Separate two ∧ DifferentNames two := by
  constructor
  · intro s hs t ht hne x hx hd
    simp only [two, List.mem_cons, List.not_mem_nil, or_false] at hs ht
    rcases hs with rfl | rfl | rfl | rfl | rfl <;> rcases ht with rfl | rfl | rfl | rfl | rfl <;>
      first
        | exact hne rfl
        | exact hd.elim
        | (cases hd; revert hx; decide)
  · intro s hs t ht hne x hx hd
    simp only [two, List.mem_cons, List.not_mem_nil, or_false] at hs ht
    rcases hs with rfl | rfl | rfl | rfl | rfl <;> rcases ht with rfl | rfl | rfl | rfl | rfl <;>
      first
        | exact hne rfl
        | exact hd.elim
        | exact hx.elim
        | (cases hd; revert hx; show ¬ (_ = _); decide)

/-- Programs that declare the same name cannot be joined. -/
example : messages (program [qubits c!"q" 2]) = some [] ∧
    (messages (program [qubits c!"q" 2, qubits c!"q" 2])).map List.length = some 1 := by
  decide +kernel

/-- C87: the declarations first. -/
example : onlyDeclarations (two.map Prod.snd) ++ onlyInstructions (two.map Prod.snd) =
    [qubits c!"r" 3, qubits c!"q" 2, bits c!"b" 3, gate c!"X" [] [at_ c!"q" 1], Sample.measure (name c!"b") (name c!"r")] := rfl

end Examples

end Qasm
