import Verif.Spec.Texts
import Verif.Spec.Stops
/-!
# Specification of what is registered in an analyser of the library, and of what users add to it
-/

namespace Qasm.Spec

variable {F : Type}

/-- What the expressions of programs denote: constants, registers, single qubits and bits, and elements of registers. -/
def Ordinary (x : Value F) : Prop :=
  (∃ c : Const F, x.node = c.node) ∨ ∃ k ∈ [Kind.qubit, .bit, .qubitArray, .bitArray], kindOf x.node = some k

/-- `n` operands with qubits. -/
def QubitKinds (n : Nat) (ks : List Kind) : Prop := ks.length = n ∧ ∀ k ∈ ks, k = .qubit ∨ k = .qubitArray

/-- The instructions of the language, and the kinds of their operands: the gates, the compositions of gates on one qubit with
modifiers, with or without a control qubit, and the others. -/
def StandardOperands (name : Str) (ks : List Kind) : Prop :=
  (∃ g ∈ namedGates, name = g.1 ∧ QubitKinds g.2.1 ks) ∨
  (∃ g ∈ namedGates, g.2.1 = 1 ∧ (name = c!"1q_" ++ g.1 ∧ QubitKinds 1 ks ∨ name = c!"2q_" ++ g.1 ∧ QubitKinds 2 ks)) ∨
  NonGateOperands name ks

/-- The function `name` of the language is applied to the arguments, with this result: `none` stands for undefined behaviour. -/
def Calculates (fo : FloatOps F) (name : Str) (args : List (Value F)) (out : Option (Const F)) : Prop :=
  ∃ (fn : Fn) (cs : List (Const F)), args.map (·.node) = cs.map Const.node ∧ fn.name = name ∧ Applies fo fn cs out

/-- The constants, functions and instructions of the language, and nothing else, are registered. -/
structure Standard (fo : FloatOps F) (l : Level F) : Prop where
  vars : l.vars = [(c!"true", ⟨.constBool true, none⟩), (c!"false", ⟨.constBool false, none⟩), (c!"pi", ⟨.constFloat fo.pi, none⟩),
    (c!"eu", ⟨.constFloat fo.e, none⟩), (c!"tau", ⟨.constFloat fo.tau, none⟩)]
  functions : ∀ name, (∃ r ∈ l.functions, r.1 = name) ↔ ∃ fn : Fn, fn.name = name
  returns : ∀ name args, (∀ x ∈ args, Ordinary x) → ∀ r,
    Returns fo [l] name args r ↔ ∃ c, Calculates fo name args (some c) ∧ r = ⟨c.node, none⟩
  undefined : ∀ name args, (∀ x ∈ args, Ordinary x) → ∀ o,
    CallStops fo [l] name args o ↔ o = .undefined ∧ Calculates fo name args none
  fits : ∀ name args, (∀ x ∈ args, Ordinary x) →
    ((∃ f ws, LastFitting fo l.functions name args f ws) ↔ ∃ out, Calculates fo name args out)
  instructions : ∀ name, (∃ r ∈ l.instructions, r.1 = name) ↔ ∃ ks, StandardOperands name ks
  chosen : ∀ name args, (∀ x ∈ args, Ordinary x) → ∀ i ws,
    ChosenInstr fo name args i ws [l] ↔ ws = args ∧ ∃ ks, StandardOperands name ks ∧
      Forall2 (fun x k => kindOf x.node = some k) args ks ∧ i = refOf name ks

/-- The functions that a user registers, in this order. -/
def TextEvent.functions : List (TextEvent F) → List (Registration (CoreFn F))
  | [] => []
  | .call (.function name params f) :: es => (name, f, params) :: TextEvent.functions es
  | _ :: es => TextEvent.functions es

/-- The instructions that a user registers in the outermost scope, where at first there are `n` scopes within it. -/
def TextEvent.instructions : Nat → List (TextEvent F) → List (Registration Instruction)
  | _, [] => []
  | n, .call .push :: es => TextEvent.instructions (n + 1) es
  | n, .call .pop :: es => TextEvent.instructions (n - 1) es
  | 0, .call (.instruction i) :: es => (i.name, i, i.operandTypes) :: TextEvent.instructions 0 es
  | n, _ :: es => TextEvent.instructions n es

/-- With `n` scopes within the outermost one, the user never closes that one. -/
def TextEvent.Kept : Nat → List (TextEvent F) → Prop
  | _, [] => True
  | n, .call .push :: es => TextEvent.Kept (n + 1) es
  | 0, .call .pop :: _ => False
  | n + 1, .call .pop :: es => TextEvent.Kept n es
  | n, _ :: es => TextEvent.Kept n es

end Qasm.Spec
