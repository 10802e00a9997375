import Verif.Props.Redeclare
import Verif.Props.Positions
/-!
# Which constants there are (C106)
-/

namespace Qasm

open Spec Sem

variable {F : Type} {fo : FloatOps F}

attribute [local irreducible] defaultInstrs defaultFns defaultVars

/-- C106. The names a new default analyser knows, and what they denote: the two truth values, pi, e and tau, and no others. -/
theorem C106_names_partial {v : Version} {a : Analyzer F} (ha : Analyzer.default fo v = .ok a) (x : Str) (w : Value F) :
    Analyzer.resolveVariable a.scopes x = .ok w ↔
      (x, w) ∈ [(c!"true", ⟨.constBool true, none⟩), (c!"false", ⟨.constBool false, none⟩), (c!"pi", ⟨.constFloat fo.pi, none⟩),
        (c!"eu", ⟨.constFloat fo.e, none⟩), (c!"tau", ⟨.constFloat fo.tau, none⟩)] := by
  rw [default_state ha]
  simp only [stateOf, Analyzer.resolveVariable, List.map_nil, List.nil_append, VariableTable.resolve, find_defaultVars]
  unfold builtin
  by_cases h1 : x = c!"true"
  · subst h1; simp [Const.node]; exact ⟨Eq.symm, Eq.symm⟩
  by_cases h2 : x = c!"false"
  · subst h2; simp [Const.node]; exact ⟨Eq.symm, Eq.symm⟩
  by_cases h3 : x = c!"pi"
  · subst h3; simp [Const.node]; exact ⟨Eq.symm, Eq.symm⟩
  by_cases h4 : x = c!"eu"
  · subst h4; simp [Const.node]; exact ⟨Eq.symm, Eq.symm⟩
  by_cases h5 : x = c!"tau"
  · subst h5; simp [Const.node]; exact ⟨Eq.symm, Eq.symm⟩
  simp [h1, h2, h3, h4, h5]

/-- C106. False of the code: the imaginary unit, documented as a default constant, is not one of them. -/
theorem C106_refuted {v : Version} {a : Analyzer F} (ha : Analyzer.default fo v = .ok a) :
    Analyzer.resolveVariable a.scopes c!"im" = .err ⟨c!"failed to resolve variable 'im'", none⟩ := by
  rw [default_state ha]
  simp only [stateOf, Analyzer.resolveVariable, List.map_nil, List.nil_append, VariableTable.resolve, find_defaultVars]
  rfl

/-- So a program cannot use it. -/
example : Sample.report c!"version 3.0;qubit q;Rx(pi) q;Rx(im) q" = some [c!"failed to resolve variable 'im'"] := by
  decide +kernel

end Qasm
