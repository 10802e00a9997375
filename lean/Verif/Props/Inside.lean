import Verif.Spec.Inside
import Verif.Props.Uses
import Verif.Props.Unused
import Verif.Lemmas.FrameScopes
import Verif.Spec.Witness
/-!
# What is done in a scope of its own (C128)

In contrast to C06, where programs are analysed one after the other in the same scope, and to C14, where there are only calls.
-/

namespace Qasm

open Spec Sem Analyzer

attribute [local irreducible] defaultInstrs defaultFns defaultVars

variable {F : Type} {fo : FloatOps F}

/-- An analysis changes only the current scope. -/
private theorem analyze_current {a b : Analyzer F} {p : ProgramAst F} {r : Result (SProgram F)} {s : Scope F} {rest : List (Scope F)}
    (ha : a.scopes = s :: rest) (h : analyze fo a p = .ok (b, r)) :
    ∃ s', b.scopes = s' :: rest ∧ b.apiVersion = a.apiVersion ∧ a.nextUid ≤ b.nextUid := by
  obtain ⟨errs, -, -, h1, -, -⟩ := analyze_parts h
  obtain ⟨v, scs, u⟩ := a
  cases ha
  obtain ⟨x, hx, he⟩ := visitBlock_effect fo p.block.statements ((s :: rest).map bare) u
  rw [he v s rest rfl] at h1
  cases x with
  | ok x => cases h1; exact ⟨_, rfl, rfl, (hx x rfl).1⟩
  | err e => exact e.elim
  | exn => cases h1
  | ub => cases h1

/-- C128. Whatever is analysed and registered, functions aside, with every pop matching a push: the outer scopes stay as they are. -/
theorem C128_outer {es : List (Event F)} (hi : Inside es) : ∀ {a b : Analyzer F} {rs : List (Result (SProgram F))} {s : Scope F}
    {rest : List (Scope F)}, a.scopes = s :: rest → Answers fo es a rs b →
    ∃ s', b.scopes = s' :: rest ∧ b.apiVersion = a.apiVersion ∧ a.nextUid ≤ b.nextUid := by
  induction hi with
  | nil => intro a b rs s rest ha h; cases h; exact ⟨s, ha, rfl, Nat.le_refl _⟩
  | analyze _ ih =>
    intro a b rs s rest ha h
    cases h with
    | analyze h1 h2 =>
      obtain ⟨s1, g1, g2, g3⟩ := analyze_current ha h1
      obtain ⟨s2, k1, k2, k3⟩ := ih g1 h2
      exact ⟨s2, k1, k2.trans g2, Nat.le_trans g3 k3⟩
  | @var name value _ _ ih =>
    intro a b rs s rest ha h
    cases h with
    | error _ h2 => exact ih ha h2
    | ok h1 h2 =>
      simp only [Call.on, registerVariable, modifyCurrent, ha] at h1
      cases h3 : s.variableTable.add name value with
      | ok t =>
        rw [h3] at h1
        cases h1
        obtain ⟨s', g1, g2, g3⟩ := ih rfl h2
        exact ⟨s', g1, g2, g3⟩
      | _ => rw [h3] at h1; cases h1
  | instruction _ ih =>
    intro a b rs s rest ha h
    cases h with
    | error _ h2 => exact ih ha h2
    | ok h1 h2 =>
      simp only [Call.on, registerInstruction, modifyCurrent, ha] at h1
      cases h1
      obtain ⟨s', g1, g2, g3⟩ := ih rfl h2
      exact ⟨s', g1, g2, g3⟩
  | scope _ _ ih1 ih2 =>
    intro a b rs s rest ha h
    rw [List.cons_append] at h
    cases h with
    | error h1 => cases h1
    | ok h1 h2 =>
      cases h1
      obtain ⟨_, _, m, h3, h4, -⟩ := answers_append.1 h2
      obtain ⟨s1, g1, g2, g3⟩ := ih1 (a := a.pushScope) (s := .empty) (rest := s :: rest) (by simp [pushScope, ha]) h3
      cases h4 with
      | error h5 => simp [Call.on, popScope, g1] at h5
      | ok h5 h6 =>
        simp only [Call.on, popScope, g1] at h5
        cases h5
        obtain ⟨s2, k1, k2, k3⟩ := ih2 rfl h6
        exact ⟨s2, k1, k2.trans g2, Nat.le_trans g3 k3⟩

/-- C128. What is done in a scope of its own leaves no trace: afterwards the analyser is as it was, but for the identities that new
variables will have. -/
theorem C128_scope {es : List (Event F)} (hi : Inside es) {a b : Analyzer F} {rs : List (Result (SProgram F))} (ha : a.scopes ≠ [])
    (h : Answers fo (.call .push :: es ++ [.call .pop]) a rs b) : b = { a with nextUid := b.nextUid } ∧ a.nextUid ≤ b.nextUid := by
  rw [List.cons_append] at h
  cases h with
  | error h1 => cases h1
  | ok h1 h2 =>
    cases h1
    obtain ⟨_, _, m, h3, h4, -⟩ := answers_append.1 h2
    match hs : a.scopes with
    | [] => exact absurd hs ha
    | s :: rest =>
      obtain ⟨s1, g1, g2, g3⟩ := C128_outer hi (a := a.pushScope) (s := .empty) (rest := s :: rest) (by simp [pushScope, hs]) h3
      cases h4 with
      | error h5 => simp [Call.on, popScope, g1] at h5
      | ok h5 h6 =>
        simp only [Call.on, popScope, g1] at h5
        cases h5
        cases h6
        obtain ⟨v, scs, u⟩ := a
        cases hs
        exact ⟨by simpa [pushScope] using g2, g3⟩

namespace Insides

theorem fit_push {a : Analyzer F} (h : Fit a) : Fit a.pushScope := by
  refine ⟨⟨.empty, a.scopes, rfl⟩, fun s hs => ?_, fun f hf s hs => ?_⟩
  · rcases List.mem_cons.1 hs with rfl | hs
    · exact fun e he => by simp [Scope.empty] at he
    · exact h.numbers s hs
  · rcases List.mem_cons.1 hs with rfl | hs
    · exact ⟨fun n v hv => (nomatch (show (none : Option (Value F)) = some v from hv)),
        fun t ht => (nomatch (show t ∈ [] from ht)), fun v hv => (nomatch (show v ∈ [] from hv))⟩
    · exact h.fixed f hf s hs

theorem valueOk_mov {f : Nat → Nat} (hf : ∀ i j, f i = f j → i = j) (vars : List (SVariable F)) (w : Value F) :
    SProgram.valueOk (vars.map (moveSVariable f)) (moveValue f w) = SProgram.valueOk vars w := by
  have key : ∀ u, ((vars.map (moveSVariable f)).map (·.uid)).contains (f u) = (vars.map (·.uid)).contains u := by
    intro u
    induction vars with
    | nil => rfl
    | cons y ys ih =>
      simp only [List.map_cons, List.contains_cons, ih]
      congr 1
      rw [Bool.eq_iff_iff]
      simp only [beq_iff_eq, moveSVariable]
      exact ⟨hf _ _, congrArg f⟩
  obtain ⟨n, l⟩ := w
  cases n with
  | variableRef x => exact key _
  | indexRef x is =>
    simp only [SProgram.valueOk, moveValue, moveNode, moveLink, key]
  | _ => rfl

theorem wellFormed_mov {f : Nat → Nat} (hf : ∀ i j, f i = f j → i = j) (v : Version) (w : SVersion) (b : SBlock F) (vars : List (SVariable F)) :
    SProgram.wellFormed ⟨v, w, moveSBlock f b, vars.map (moveSVariable f)⟩ = SProgram.wellFormed ⟨v, w, b, vars⟩ := by
  have hv : (b.statements.map (moveSStatement f)).flatMap SProgram.statementValues =
      (b.statements.flatMap SProgram.statementValues).map (moveValue f) := by
    simp [List.flatMap_map, List.map_flatMap, statementValues_mov]
  have hw : (vars.map (moveSVariable f)).flatMap (fun v => SProgram.annotationValues v.annotations) =
      (vars.flatMap fun v => SProgram.annotationValues v.annotations).map (moveValue f) := by
    simp [List.flatMap_map, List.map_flatMap, moveSVariable, annotationValues_mov]
  simp only [SProgram.wellFormed, SProgram.values, moveSBlock, hv, hw, ← List.map_append, List.all_map, Function.comp_def,
    valueOk_mov hf]

/-- An analysis with other identities of new variables. -/
theorem analyze_later {v : Version} {scs : List (Scope F)} {u u' : Nat} (h : Fit ⟨v, scs, u⟩) {f : Nat → Nat} (hf : Fixes f u)
    (hi : ∀ i j, f i = f j → i = j) (hu : ∀ i, f (u + i) = u' + i) (p : ProgramAst F) :
    outcome (analyze fo ⟨v, scs, u'⟩ p) = (outcome (analyze fo ⟨v, scs, u⟩ p)).bind fun r => .ok (moveResult f r) := by
  obtain ⟨sc, rest, hs⟩ := h.shape
  cases hs
  have hx := h.fixed f hf
  have hm : Moved f (fun _ => True) True sc.block.statements sc.block.statements sc.variables sc.variables
      ⟨v, sc :: rest, u⟩ ⟨v, sc :: rest, u'⟩ :=
    ⟨⟨sc, rest, sc, rest, rfl, rfl, fun n _ => (hx sc List.mem_cons_self).find n,
      fun n _ => fixed_resolve (fun s hs => hx s (List.mem_cons_of_mem _ hs)) n, ⟨[], by simp, by simp⟩, rfl, ⟨[], by simp, by simp⟩⟩,
      rfl, rfl, h.numbers, fun _ => hu⟩
  have hend := visitBlock_mov (fo := fo) p.block.statements hm (fun _ _ _ => trivial) fun _ _ _ _ => trivial
  cases q1 : visitBlock fo ⟨v, sc :: rest, u⟩ p.block.statements with
  | err e => exact e.elim
  | exn c =>
    cases q2 : visitBlock fo ⟨v, sc :: rest, u'⟩ p.block.statements with
    | err e => exact e.elim
    | exn c' =>
      rw [q1, q2] at hend
      cases hend
      simp [analyze, visitProgram, q1, q2, outcome]
    | _ => rw [q1, q2] at hend; exact hend.elim
  | ub =>
    cases q2 : visitBlock fo ⟨v, sc :: rest, u'⟩ p.block.statements with
    | err e => exact e.elim
    | ub => simp [analyze, visitProgram, q1, q2, outcome]
    | _ => rw [q1, q2] at hend; exact hend.elim
  | ok x =>
    cases q2 : visitBlock fo ⟨v, sc :: rest, u'⟩ p.block.statements with
    | err e => exact e.elim
    | ok y =>
      rw [q1, q2] at hend
      obtain ⟨errs, a1⟩ := x
      obtain ⟨errs', a2⟩ := y
      obtain ⟨hB, ⟨c, w, c', w', j, j', -, -, ⟨T, t1, t2⟩, hl, ⟨W, w1, w2⟩⟩, -⟩ := hend
      simp only at hB j j'
      subst hB
      have hblock : c'.block = moveSBlock f c.block := moved_block h hf t1 t2 hl
      have hold : sc.variables.map (moveSVariable f) = sc.variables :=
        (List.map_congr_left (hx sc List.mem_cons_self).variables).trans (List.map_id' _)
      have hvars : c'.variables = c.variables.map (moveSVariable f) := by
        rw [w1, w2, List.map_append, hold]
      have e1 := analyze_block_eq (p := p) q1 j
      have e2 := analyze_block_eq (p := p) q2 j'
      rw [show withStatements p p.block.statements = p from rfl] at e1 e2
      rw [e1, e2, hblock, hvars, wellFormed_mov hi]
      split <;> rfl
    | _ => rw [q1, q2] at hend; exact hend.elim

end Insides

/-- C128. Hence later programs are not affected by what was analysed in a scope of its own, whether they are analysed in a scope of their
own or not: they return the same answers, but for the identities of variables, or end in the same way. -/
theorem C128_later {a b : Analyzer F} (hr : Reached fo a) {es : List (Event F)} (hi : Inside es) {rs : List (Result (SProgram F))}
    (h : Answers fo (.call .push :: es ++ [.call .pop]) a rs b) :
    ∃ f : Nat → Nat, (∀ i j, f i = f j → i = j) ∧ (∀ i, i < a.nextUid → f i = i) ∧ ∀ p,
      outcome (analyze fo b p) = ((outcome (analyze fo a p)).bind fun r => .ok (moveResult f r)) ∧
      outcome (analyze fo b.pushScope p) = (outcome (analyze fo a.pushScope p)).bind fun r => .ok (moveResult f r) := by
  have hfit := fit_reached hr
  obtain ⟨hb, hle⟩ := C128_scope hi (by obtain ⟨_, _, h⟩ := hfit.shape; simp [h]) h
  have hfix : Fixes (fun i => if i < a.nextUid then i else i + (b.nextUid - a.nextUid)) a.nextUid := fun i hi => if_pos hi
  have hinj : ∀ i j, (if i < a.nextUid then i else i + (b.nextUid - a.nextUid)) =
      (if j < a.nextUid then j else j + (b.nextUid - a.nextUid)) → i = j := by
    intro i j
    split <;> split <;> omega
  have hnew : ∀ i, (if a.nextUid + i < a.nextUid then a.nextUid + i else a.nextUid + i + (b.nextUid - a.nextUid)) = b.nextUid + i := by
    intro i
    split <;> omega
  refine ⟨fun i => if i < a.nextUid then i else i + (b.nextUid - a.nextUid), hinj, hfix, fun p => ⟨?_, ?_⟩⟩
  · rw [hb]
    exact Insides.analyze_later hfit hfix hinj hnew p
  · rw [hb]
    exact Insides.analyze_later (Insides.fit_push hfit) hfix hinj hnew p

section Examples

open Sample

private def first : ProgramAst Int := program [qubits c!"q" 2, gate c!"H" [] [name c!"q"]]

private def second : ProgramAst Int := program [qubits c!"q" 3, gate c!"H" [] [at_ c!"q" 2], gate c!"X" [] [name c!"a"]]

/-- What is done in between: a program, an inner scope with another, and registrations. -/
private def between : List (Event Int) :=
  [.analyze first, .call .push, .analyze second, .call .pop, .call (.var c!"a" ⟨.constInt 1, none⟩),
    .call (.instruction ⟨c!"H", [.bare .int]⟩)]

private theorem between_inside : Inside between :=
  .analyze (.scope (es := [.analyze second]) (.analyze .nil) (.var (.instruction .nil)))

/-- The messages and the identities of the variables in the answers to the first program and then the second, the first in a scope of
its own or not. -/
private def answers (own : Bool) : Option (List Str × List Nat × List Str × List Nat) :=
  match analyze Sample.fo (if own then analyzer.pushScope else analyzer) first with
  | .ok (a, r) =>
    match if own then a.popScope else .ok a with
    | .ok b =>
      match analyze Sample.fo b second with
      | .ok (_, r') => some (r.errors.map (·.message), (r.root.map fun p => p.variables.map (·.uid)).getD [],
          r'.errors.map (·.message), (r'.root.map fun p => p.variables.map (·.uid)).getD [])
      | _ => none
    | _ => none
  | _ => none

/-- C128: in a scope of its own the first program does not affect the second; without, it does (C06). -/
example : answers true = some ([], [0], [c!"failed to resolve variable 'a'"], [1]) ∧
    answers false = some ([], [0], [c!"trying to redeclare variable 'q'", c!"index 2 out of range (size 2)",
      c!"failed to resolve variable 'a'"], [0, 1]) := by
  constructor <;> decide +kernel

/-- C128: a function registered in a scope of its own is still there afterwards. -/
example : ∃ b c : Analyzer Int, analyzer.pushScope.registerFunction c!"one" [] (fun _ => .ok (some ⟨.constInt 1, none⟩)) = .ok b ∧
    b.popScope = .ok c ∧ hasValue (resolveFunction Sample.fo analyzer.scopes c!"one" []) = false ∧
    hasValue (resolveFunction Sample.fo c.scopes c!"one" []) = true :=
  ⟨_, _, ran (by decide +kernel), ran (by decide +kernel), by decide +kernel, by decide +kernel⟩

/-- The session is one that runs. -/
example : ∃ rs b, Answers Sample.fo (.call .push :: between ++ [.call .pop]) analyzer rs b :=
  ⟨_, _, .ok (ran (by decide +kernel)) (.analyze (ran₂ (by decide +kernel)) (.ok (ran (by decide +kernel))
    (.analyze (ran₂ (by decide +kernel)) (.ok (ran (by decide +kernel)) (.ok (ran (by decide +kernel)) (.ok (ran (by decide +kernel))
      (.ok (ran (by decide +kernel)) .nil)))))))⟩

end Examples

end Qasm
