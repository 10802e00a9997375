import Verif.Spec.Api
import Verif.Spec.Sample
/-!
# Concrete analyses for the examples that show that hypotheses can be met

An example of the form `example := C83_prefix (h₁) (h₂)` applies a theorem to concrete programs, so its hypotheses hold for them.
-/

namespace Qasm.Sample

/-- The computation returns. -/
def hasValue {ε α : Type} : Res ε α → Bool
  | .ok _ => true
  | _ => false

/-- What it returns. -/
def value {ε α : Type} : (x : Res ε α) → hasValue x = true → α
  | .ok a, _ => a

theorem ran {ε α : Type} {x : Res ε α} (h : hasValue x = true) : x = .ok (value x h) := by
  cases x <;> first | rfl | cases h

/-- The same for two values. -/
theorem ran₂ {ε α β : Type} {x : Res ε (α × β)} (h : hasValue x = true) : x = .ok ((value x h).1, (value x h).2) := ran h

/-- The computation has undefined behaviour. -/
def isUb {ε α : Type} : Res ε α → Bool
  | .ub => true
  | _ => false

theorem isUndefined {ε α : Type} {x : Res ε α} (h : isUb x = true) : x = .ub := by
  cases x <;> first | rfl | cases h

/-- A default analyser. -/
def analyzer : Analyzer Int := value (Analyzer.default fo [3, 0]) (by decide +kernel)

theorem fresh : Analyzer.default fo [3, 0] = .ok analyzer := ran _

theorem fresh_reached : Spec.Reached fo analyzer := .fresh fresh

/-- The analysis returns a tree and reports no errors. -/
def isAccepted {α β : Type} {ε : Type} : Res ε (α × Result β) → Bool
  | .ok (_, ⟨some _, []⟩) => true
  | _ => false

/-- What it returns. -/
def tree {ε α β : Type} : (x : Res ε (α × Result β)) → isAccepted x = true → β
  | .ok (_, ⟨some r, []⟩), _ => r

/-- The analyser it leaves behind. -/
def left {ε α β : Type} : (x : Res ε (α × Result β)) → isAccepted x = true → α
  | .ok (a, ⟨some _, []⟩), _ => a

theorem accepted₂ {ε α β : Type} {x : Res ε (α × Result β)} (h : isAccepted x = true) : x = .ok (left x h, ⟨some (tree x h), []⟩) := by
  rcases x with ⟨a, _ | r, _ | ⟨e, es⟩⟩ | _ | _ | _ <;> first | rfl | cases h

/-- The default analyser accepts the program. -/
theorem accepts {p : ProgramAst Int} (h : isAccepted (Sem.analyze fo analyzer p) = true) :
    Spec.Accepts fo analyzer p (tree _ h) := ⟨_, accepted₂ h⟩

attribute [irreducible] value analyzer tree left

end Qasm.Sample
