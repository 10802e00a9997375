import Verif.Spec.Sessions
import Verif.Props.Alike
import Verif.Props.Rename
/-!
# What carries no meaning in one program carries none in a session (C103)
-/

namespace Qasm

open Spec Sem

variable {F : Type} {fo : FloatOps F} {r : Str → Str}

attribute [local irreducible] defaultInstrs defaultFns defaultVars

namespace Sessions

theorem analyze_ren {a : Analyzer F} (ha : Reached fo a) (hr : Renaming r) (p : ProgramAst F) :
    analyze fo (renAnalyzer r a) (renProgram r p) = (analyze fo a p).mapE fun x => (renAnalyzer r x.1, renResult r x.2) := by
  obtain ⟨D, henv⟩ := reached_env ha
  obtain ⟨sc, hsc, h1, -, -⟩ := henv.scope
  obtain ⟨v, scs, u⟩ := a
  cases hsc
  exact Qasm.analyze_ren hr.injective (h1 ▸ defaultFns_blindN fo) p

/-- Programs that analysers that differ in positions treat alike, keep doing so in sessions. -/
theorem same_of {R : ProgramAst F → ProgramAst F → Prop}
    (hR : ∀ a, Reached fo a → ∀ p q, R p q →
      analyze fo (stripAnalyzer a) (stripProgram p) = analyze fo (stripAnalyzer a) (stripProgram q))
    {ps qs : List (ProgramAst F)} (h : Forall2 R ps qs) : ∀ {a b : Analyzer F}, Reached fo a → Reached fo b →
      stripAnalyzer a = stripAnalyzer b → Forall2 SameOutcome (session fo a ps) (session fo b qs) := by
  induction h with
  | nil => intro a b _ _ _; exact .nil
  | @cons p q ps qs h1 _ ih =>
    intro a b ha hb hab
    have hs : (analyze fo a p).mapE stripResult = (analyze fo b q).mapE stripResult := by
      rw [← reached_strip ha, ← reached_strip hb, ← hab]
      exact hR a ha p q h1
    rw [session, session]
    refine .cons (sameOutcome_of hs) ?_
    cases hx : analyze fo a p with
    | ok x =>
      cases hy : analyze fo b q with
      | ok y =>
        rw [hx, hy] at hs
        simp only [Res.mapE, Res.ok.injEq, stripResult, Prod.mk.injEq] at hs
        exact ih (.analyzed ha hx) (.analyzed hb hy) hs.1
      | _ => rw [hx, hy] at hs; simp [Res.mapE] at hs
    | err e => cases e
    | exn c =>
      cases hy : analyze fo b q with
      | err e => cases e
      | ok y => rw [hx, hy] at hs; simp [Res.mapE] at hs
      | _ => exact .nil
    | ub =>
      cases hy : analyze fo b q with
      | err e => cases e
      | ok y => rw [hx, hy] at hs; simp [Res.mapE] at hs
      | _ => exact .nil

end Sessions

open Sessions

/-- C103. A session in which the programs are written in other places: the analyses end alike, one by one. -/
theorem C103_positions {a : Analyzer F} (ha : Reached fo a) {ps qs : List (ProgramAst F)}
    (h : Forall2 (fun p q => stripProgram p = stripProgram q) ps qs) :
    Forall2 SameOutcome (session fo a ps) (session fo a qs) :=
  same_of (fun _ _ _ _ h => by rw [h]) h ha ha rfl

/-- C103. A session in which constant expressions are replaced by others of the same value: the analyses end alike, one by one. -/
theorem C103_alike {a : Analyzer F} (ha : Reached fo a) {ps qs : List (ProgramAst F)} (h : Forall2 (AlikeProgram fo) ps qs) :
    Forall2 SameOutcome (session fo a ps) (session fo a qs) :=
  same_of (fun a ha _ _ h => by
    obtain ⟨D, henv⟩ := reached_env ha
    exact analyze_alike (stripAnalyzer_env henv) h) h ha ha rfl

theorem Sessions.renamed (hr : Renaming r) (ps : List (ProgramAst F)) : ∀ {a : Analyzer F}, Reached fo a →
    Forall2 (Renamed r) (session fo a ps) (session fo (renAnalyzer r a) (ps.map (renProgram r))) := by
  induction ps with
  | nil => intro a _; exact .nil
  | cons p ps ih =>
    intro a ha
    rw [List.map_cons, session, session, Sessions.analyze_ren ha hr p]
    cases h : analyze fo a p with
    | ok x => exact .cons rfl (ih (.analyzed ha h))
    | err e => cases e
    | exn c => exact .cons rfl .nil
    | ub => exact .cons trivial .nil

/-- C103. A session with a new analyser in which variables are renamed throughout, in all programs by the same renaming: the analyses
end with the variables renamed, one by one. -/
theorem C103_renaming {v : Version} {a : Analyzer F} (ha : Analyzer.default fo v = .ok a) (hr : Renaming r) (ps : List (ProgramAst F)) :
    Forall2 (Renamed r) (session fo a ps) (session fo a (ps.map (renProgram r))) := by
  have h := renamed hr ps (.fresh ha)
  cases hv : Version.eq v [3, 0] with
  | false => rw [default_none fo v hv] at ha; simp at ha
  | true =>
    rw [default_eq fo v hv] at ha
    cases ha
    rwa [renAnalyzer_default hr] at h

/-- It has to be the same renaming in all programs, since a variable declared by one is known in the next: after `qubit q`, the program
`X q` is accepted and `X b` is not. -/
example : Renaming (swap c!"q" c!"b") ∧ ∃ a, Analyzer.default Sample.fo [3, 0] = .ok a ∧
    (session Sample.fo a [Sample.program [Sample.qubits c!"q" 1], Sample.program [Sample.gate c!"X" [] [Sample.name c!"q"]]]).map
      (fun x => x.mapE fun x => x.2.errors.map Err.message) = [.ok [], .ok []] ∧
    (session Sample.fo a [Sample.program [Sample.qubits c!"q" 1], Sample.program [Sample.gate c!"X" [] [Sample.name c!"b"]]]).map
      (fun x => x.mapE fun x => x.2.errors.map Err.message) = [.ok [], .ok [c!"failed to resolve variable 'b'"]] := by
  refine ⟨C80_swap (by decide) (by decide), _, default_eq Sample.fo [3, 0] rfl, ?_, ?_⟩ <;> decide +kernel

end Qasm
