import Verif.Spec.Reports
import Verif.Props.Api
/-!
# Specification of sessions with texts

As in `Spec/Reports.lean`, but the programs are texts.
-/

namespace Qasm.Spec

variable {F : Type}

/-- What is done with an analyser: something is called, or a text is analysed. -/
inductive TextEvent (F : Type)
  | call (c : Call F)
  | text (text : Str) (file : Option Str)

/-- `TextAnswers fo an es a rs b`: the events take `a` to `b`, and the analyses return `rs`. A call that throws changes nothing,
and the user carries on. -/
inductive TextAnswers (fo : FloatOps F) (an : Antlr F) :
    List (TextEvent F) → Analyzer F → List (Result (SProgram F)) → Analyzer F → Prop
  | nil {a} : TextAnswers fo an [] a [] a
  | ok {c es a b rs d} : c.on a = .ok b → TextAnswers fo an es b rs d → TextAnswers fo an (.call c :: es) a rs d
  | error {c es a e rs d} : c.on a = .err e → TextAnswers fo an es a rs d → TextAnswers fo an (.call c :: es) a rs d
  | text {t file es a b r rs d} : Syn.analyzeString fo an a t file = .ok (b, r) → TextAnswers fo an es b rs d →
      TextAnswers fo an (.text t file :: es) a (r :: rs) d

/-- `AnswersTexts fo an v es m rs m'`: how an analyser that keeps `m` answers to the events. A text that is no program gives no
tree and the one error of the parser, and nothing is kept of it. -/
inductive AnswersTexts (fo : FloatOps F) (an : Antlr F) (v : Version) :
    List (TextEvent F) → Memory F → List (Result (SProgram F)) → Memory F → Prop
  | nil {m} : AnswersTexts fo an v [] m [] m
  | call {c es m rs m'} : AnswersTexts fo an v es (c.keep m) rs m' → AnswersTexts fo an v (.call c :: es) m rs m'
  | wrong {t file e es m rs m'} : (¬∃ p, HasAst an file t p) → Syn.parseString an t file = .ok ⟨none, [e]⟩ →
      AnswersTexts fo an v es m rs m' → AnswersTexts fo an v (.text t file :: es) m (⟨none, [e]⟩ :: rs) m'
  | program {t file p es m r rs m1 m'} : HasAst an file t p → AnalysedIn fo v m p r m1 → AnswersTexts fo an v es m1 rs m' →
      AnswersTexts fo an v (.text t file :: es) m (r :: rs) m'

/-- A function that is registered in the outermost scope can throw an error with this message. -/
def ThrowsMessage (ls : List (Level F)) (m : Str) : Prop :=
  ∃ g, ls.getLast? = some g ∧ ∃ f ∈ g.functions, ∃ args x, f.2.1 args = .err x ∧ x.message = m

end Qasm.Spec
