import Verif.Spec.PyText
/-!
# Specification of sessions in Python
-/

namespace Qasm.Spec

variable {F : Type}

/-- `PyRuns fo an ser de es a os b`: the calls `es` take `a` to `b`; each returns something or raises an exception of some class. A call
that raises leaves the analyser as it was: by `C125_raises` it raises before the analysis. -/
inductive PyRuns {ρ : Type} (fo : FloatOps F) (an : Antlr F) (ser : Option (SProgram F) → Bytes) (de : Bytes → ρ) :
    List Py.Event → Analyzer F → List (Option (Py.Outcome ρ) ⊕ Str) → Analyzer F → Prop
  | nil {a} : PyRuns fo an ser de [] a [] a
  | returned {e es a o b os d} : e.on fo an ser de a = .ok (b, o) → PyRuns fo an ser de es b os d →
      PyRuns fo an ser de (e :: es) a (.inl o :: os) d
  | raised {e es a c os d} : e.on fo an ser de a = .exn c → PyRuns fo an ser de es a os d →
      PyRuns fo an ser de (e :: es) a (.inr c :: os) d

/-- When a call raises which exception: for strings with surrogates, for files that are missing or not UTF-8, and for registrations. -/
inductive PyRaises : Py.Event → Str → Prop
  | name {name ps} : HasSurrogate name → PyRaises (.register name ps) c!"TypeError"
  | types {name ps} : PyRaises (.register name (some ps)) c!"TypeError"
  | noTypes {name} : ¬ HasSurrogate name → PyRaises (.register name none) c!"ValueError"
  | data {t file} : HasSurrogate t → PyRaises (.text t file) c!"TypeError"
  | fileName {t file} : HasSurrogate file → PyRaises (.text t file) c!"TypeError"
  | path {content path} : HasSurrogate path → PyRaises (.file content path) c!"TypeError"
  | missing {path} : ¬ HasSurrogate path → PyRaises (.file none path) c!"RuntimeError"
  | notUtf8 {data path} : ¬ HasSurrogate path → (¬∃ s, IsTextOf data s) → PyRaises (.file (some data) path) c!"SystemError"

end Qasm.Spec
