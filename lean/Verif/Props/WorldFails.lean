import Verif.Props.World
/-!
# Analysers in memory: calls that do not return (C77)
-/

namespace Qasm

open Spec Sem

attribute [local irreducible] defaultInstrs defaultFns defaultVars Sem.analyze Sem.visitProgram

variable {F : Type} {fo : FloatOps F}

/-- C77. A call on an analyser that does not exist is undefined. -/
theorem C77_missing {w : World F} {op : World.Op F} {i : Nat} (hi : op.on = some i ∨ op = .copy i ∨ ∃ j, op = .assign j i)
    (h : w.analyzers.length ≤ i) : World.step fo w op = .ub := by
  have hn : w.analyzers[i]? = none := List.getElem?_eq_none_iff.2 h
  have chg : ∀ f, w.change i f = .ub := fun f => by unfold World.change; rw [hn]
  rcases hi with hi | rfl | ⟨j, rfl⟩
  · cases op with
    | create | copy => cases hi
    | addVariable _ x => cases hi; simp only [World.step, chg]; rfl
    | push | pop | assign | analyze | throwing => cases hi; simp only [World.step, hn]
    | constants => cases hi; exact chg (Analyzer.registerDefaultConstants fo)
    | functions => cases hi; exact chg (Analyzer.registerDefaultFunctions fo)
    | instructions => cases hi; exact chg Analyzer.registerDefaultInstructions
    | addName _ name v => cases hi; exact chg (·.registerVariable name v)
    | addFunction _ name params f => cases hi; exact chg (·.registerFunction name params f)
    | addInstruction _ x => cases hi; exact chg (·.registerInstruction x)
    | addStatement _ s => cases hi; exact chg (·.addStatement s)
  · simp only [World.step, hn]
  · simp only [World.step, hn]; cases w.analyzers[j]? <;> rfl

/-- C77. A call that does not return fails in the same way as for an analyser that is used alone. -/
theorem C77_fails {w : World F} {op : World.Op F} {i : Nat} {o : AnalyzerObj F} (hi : op.on = some i) (ho : w.analyzers[i]? = some o)
    (hn : (∀ j, op ≠ .assign i j) ∧ ∀ p u, op ≠ .analyze i p u ∧ op ≠ .throwing i p u) :
    (∀ e, World.step fo w op = .err e ↔ op.alone fo (w.readAnalyzer o w.nextUid) = .err e) ∧
      (∀ c, World.step fo w op = .exn c ↔ op.alone fo (w.readAnalyzer o w.nextUid) = .exn c) ∧
      (World.step fo w op = .ub ↔ op.alone fo (w.readAnalyzer o w.nextUid) = .ub) := by
  have chg : ∀ f : Analyzer F → Res Err (Analyzer F),
      (∀ e, w.change i f = .err e ↔ f (w.readAnalyzer o w.nextUid) = .err e) ∧
        (∀ c, w.change i f = .exn c ↔ f (w.readAnalyzer o w.nextUid) = .exn c) ∧
        (w.change i f = .ub ↔ f (w.readAnalyzer o w.nextUid) = .ub) := by
    intro f
    unfold World.change
    rw [ho]
    simp only
    cases f (w.readAnalyzer o w.nextUid) <;> simp [Res.bind]
  cases op with
  | create | copy => cases hi
  | push => cases hi; simp [World.step, World.Op.alone, ho]
  | pop =>
    cases hi
    simp only [World.step, World.Op.alone, ho]
    cases hs : o.scopes <;> simp [Analyzer.popScope, World.readAnalyzer, hs]
  | assign _ j => cases hi; exact absurd rfl (hn.1 j)
  | analyze _ p u => cases hi; exact absurd rfl (hn.2 p u).1
  | throwing _ p u => cases hi; exact absurd rfl (hn.2 p u).2
  | addVariable _ x =>
    cases hi
    have h := chg (·.addVariable x)
    simp only [World.step, World.Op.alone]
    generalize w.change i (·.addVariable x) = y at h
    cases y with
    | ok => simpa [Res.bind] using h
    | _ => exact h
  | constants => cases hi; exact chg (Analyzer.registerDefaultConstants fo)
  | functions => cases hi; exact chg (Analyzer.registerDefaultFunctions fo)
  | instructions => cases hi; exact chg Analyzer.registerDefaultInstructions
  | addName _ name v => cases hi; exact chg (·.registerVariable name v)
  | addFunction _ name params f => cases hi; exact chg (·.registerFunction name params f)
  | addInstruction _ x => cases hi; exact chg (·.registerInstruction x)
  | addStatement _ s => cases hi; exact chg (·.addStatement s)

/-- C77: both happen. Registering a name again is an error, and there is one analyser only. -/
example : ∃ w : World Int, w.analyzers.length = 1 ∧ World.run Sample.fo World.empty [.create [3, 0], .addName 0 c!"n" ⟨.constInt 3, none⟩] = .ok w ∧
    World.step Sample.fo w (.addName 0 c!"n" ⟨.constInt 4, none⟩) = .err (Err.mk0 c!"trying to redeclare variable 'n'") ∧
    World.step Sample.fo w (.push 1) = .ub := ⟨_, rfl, rfl, rfl, rfl⟩

end Qasm
