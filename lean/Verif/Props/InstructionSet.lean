import Verif.Spec.Program
import Verif.Model.InstructionSet
/-!
# Properties of the instruction set (C38)

The tables are compared with those of Spec/Program.lean: `namedGates` (name, number of qubits, kinds of the
parameters), `nonGates` and `modifiers`.
-/

namespace Qasm

open Spec InstructionSet

/-- A gate of the standard gate set on `n` qubits. -/
def IsNamedGate (name : Str) (n : Nat) : Prop := ∃ ks, (name, n, ks) ∈ namedGates

/-- The letter for a kind in type specifications. -/
def specLetter : Kind → Char
  | .bool => 'b'
  | .int => 'i'
  | .float => 'f'
  | .bit => 'B'
  | .bitArray => 'W'
  | .qubit => 'Q'
  | .qubitArray => 'V'

/-- The specification of parameters of the given kinds. -/
def paramSpec (ks : List Kind) : Option Str := if ks = [] then none else some (ks.map specLetter)

private theorem contains_iff {l : List Str} {name : Str} : InstructionSet.contains l name = true ↔ name ∈ l := by
  simp [InstructionSet.contains]

private theorem named_names (n : Nat) (l : List Str) (h1 : ∀ name ∈ l, ∃ e ∈ namedGates, e.1 = name ∧ e.2.1 = n)
    (h2 : ∀ e ∈ namedGates, e.2.1 = n → e.1 ∈ l) (name : Str) : name ∈ l ↔ IsNamedGate name n := by
  constructor
  · intro h
    obtain ⟨⟨a, b, c⟩, g1, rfl, rfl⟩ := h1 name h
    exact ⟨c, g1⟩
  · rintro ⟨ks, h⟩
    exact h2 _ h rfl

private theorem single_iff (name : Str) : isSingleQubitNamedGate name = true ↔ IsNamedGate name 1 := by
  rw [isSingleQubitNamedGate, contains_iff]
  exact named_names 1 _ (by decide +kernel) (by decide +kernel) name

private theorem two_iff (name : Str) : isTwoQubitNamedGate name = true ↔ IsNamedGate name 2 := by
  rw [isTwoQubitNamedGate, contains_iff]
  exact named_names 2 _ (by decide +kernel) (by decide +kernel) name

/-- C38. The classification of names: gates by their number of qubits, other instructions, modifiers. -/
theorem C38_classification (name : Str) :
    (isSingleQubitNamedGate name = true ↔ IsNamedGate name 1) ∧
    (isTwoQubitNamedGate name = true ↔ IsNamedGate name 2) ∧
    (isNamedGate name = true ↔ ∃ n, IsNamedGate name n) ∧
    (isNonGate name = true ↔ name ∈ nonGates) ∧
    (isGateModifier name = true ↔ name ∈ modifiers) ∧
    (isSingleQubitGateModifier name = true ↔ name = c!"inv" ∨ name = c!"pow") ∧
    (isTwoQubitGateModifier name = true ↔ name = c!"ctrl") ∧
    (isMeasure name = true ↔ name = c!"measure") := by
  have arity : ∀ e ∈ namedGates, e.2.1 = 1 ∨ e.2.1 = 2 := by decide +kernel
  refine ⟨single_iff name, two_iff name, ?_, ?_, ?_, ?_, ?_, ?_⟩
  · rw [isNamedGate, Bool.or_eq_true, single_iff, two_iff]
    constructor
    · rintro (h | h)
      · exact ⟨1, h⟩
      · exact ⟨2, h⟩
    · rintro ⟨n, ks, h⟩
      rcases arity _ h with h' | h'
      · dsimp only at h'; subst h'; exact .inl ⟨ks, h⟩
      · dsimp only at h'; subst h'; exact .inr ⟨ks, h⟩
  · rw [isNonGate, contains_iff]; rfl
  · simp [isGateModifier, isInvGateModifier, isPowGateModifier, isCtrlGateModifier, modifiers, invGateModifierName,
      powGateModifierName, ctrlGateModifierName, or_assoc]
  · simp [isSingleQubitGateModifier, isInvGateModifier, isPowGateModifier, invGateModifierName, powGateModifierName]
  · simp [isTwoQubitGateModifier, isCtrlGateModifier, ctrlGateModifierName]
  · simp [isMeasure, measureName]

/-- C38. The four classes are disjoint: at most one of the four predicates holds for a name. -/
theorem C38_disjoint (name : Str) :
    ([isSingleQubitNamedGate name, isTwoQubitNamedGate name, isNonGate name, isGateModifier name].filter id).length ≤ 1 := by
  have key : ∀ n ∈ singleQubitNamedGateList ++ twoQubitNamedGateList ++ nonGateList ++ modifiers,
      ([isSingleQubitNamedGate n, isTwoQubitNamedGate n, isNonGate n, isGateModifier n].filter id).length = 1 := by
    decide +kernel
  by_cases h : name ∈ singleQubitNamedGateList ++ twoQubitNamedGateList ++ nonGateList ++ modifiers
  · exact Nat.le_of_eq (key name h)
  · simp only [List.mem_append, not_or] at h
    obtain ⟨⟨⟨h1, h2⟩, h3⟩, h4⟩ := h
    have e1 : isSingleQubitNamedGate name = false := by simpa [isSingleQubitNamedGate, InstructionSet.contains] using h1
    have e2 : isTwoQubitNamedGate name = false := by simpa [isTwoQubitNamedGate, InstructionSet.contains] using h2
    have e3 : isNonGate name = false := by simpa [isNonGate, InstructionSet.contains] using h3
    have e4 : isGateModifier name = false := by
      rw [← Bool.not_eq_true, (C38_classification name).2.2.2.2.1]; exact h4
    simp [e1, e2, e3, e4]

/-- C38. Every name in one of the tables is in exactly one of the four classes. -/
theorem C38_exactly_one :
    ∀ name ∈ namedGateMap.map (·.1) ++ nonGateMap.map (·.1) ++ gateModifierMap.map (·.1),
      ([isSingleQubitNamedGate name, isTwoQubitNamedGate name, isNonGate name, isGateModifier name].filter id).length = 1 := by
  decide +kernel

/-- C38. The names of compositions (`1q_X`, `2q_X`) are recognised by their prefix, and no other name of the
instruction set has such a prefix. -/
theorem C38_compositions (name : Str) :
    (isSingleQubitGateComposition name = true ↔ ∃ rest, name = c!"1q" ++ rest) ∧
    (isTwoQubitGateComposition name = true ↔ ∃ rest, name = c!"2q" ++ rest) ∧
    (isTwoQubitGate name = true ↔ IsNamedGate name 2 ∨ ∃ rest, name = c!"2q" ++ rest) ∧
    (isNamedGate name = true ∨ isNonGate name = true ∨ isGateModifier name = true → isGateComposition name = false) := by
  have pre : ∀ p n : Str, startsWith n p = true ↔ ∃ rest, n = p ++ rest := by
    intro p n
    rw [startsWith, List.isPrefixOf_iff_prefix]
    constructor
    · rintro ⟨r, h⟩; exact ⟨r, h.symm⟩
    · rintro ⟨r, h⟩; exact ⟨r, h.symm⟩
  refine ⟨pre _ _, pre _ _, ?_, ?_⟩
  · rw [isTwoQubitGate, Bool.or_eq_true, two_iff, isTwoQubitGateComposition, pre]; rfl
  · have key : ∀ n ∈ singleQubitNamedGateList ++ twoQubitNamedGateList ++ nonGateList ++ modifiers,
      isGateComposition n = false := by decide +kernel
    intro h
    apply key
    simp only [List.mem_append]
    rcases h with h | h | h
    · rw [isNamedGate, Bool.or_eq_true, isSingleQubitNamedGate, isTwoQubitNamedGate, contains_iff, contains_iff] at h
      rcases h with h | h
      · exact .inl (.inl (.inl h))
      · exact .inl (.inl (.inr h))
    · exact .inl (.inr (contains_iff.mp h))
    · exact .inr ((C38_classification name).2.2.2.2.1.mp h)

/-- C38. The predicates for single instructions and modifiers recognise exactly their name. -/
theorem C38_single_names (name : Str) :
    (isReset name = true ↔ name = c!"reset") ∧ (isInit name = true ↔ name = c!"init") ∧
    (isBarrier name = true ↔ name = c!"barrier") ∧ (isWait name = true ↔ name = c!"wait") ∧
    (isInvGateModifier name = true ↔ name = c!"inv") ∧ (isPowGateModifier name = true ↔ name = c!"pow") ∧
    (isCtrlGateModifier name = true ↔ name = c!"ctrl") := by
  simp [isReset, isInit, isBarrier, isWait, isInvGateModifier, isPowGateModifier, isCtrlGateModifier, resetName, initName, barrierName,
    waitName, invGateModifierName, powGateModifierName, ctrlGateModifierName]

/-- C38. A gate is a named gate or a composition; a single-qubit gate is a named gate on one qubit or a `1q` composition. -/
theorem C38_gates (name : Str) :
    (isSingleQubitGate name = true ↔ IsNamedGate name 1 ∨ ∃ rest, name = c!"1q" ++ rest) ∧
    (isGateComposition name = true ↔ (∃ rest, name = c!"1q" ++ rest) ∨ ∃ rest, name = c!"2q" ++ rest) ∧
    (isGate name = true ↔ (∃ n, IsNamedGate name n) ∨ (∃ rest, name = c!"1q" ++ rest) ∨ ∃ rest, name = c!"2q" ++ rest) := by
  have h1 := C38_classification name
  have h2 := C38_compositions name
  refine ⟨?_, ?_, ?_⟩
  · rw [isSingleQubitGate, Bool.or_eq_true, h1.1, h2.1]
  · rw [isGateComposition, Bool.or_eq_true, h2.1, h2.2.1]
  · rw [isGate, Bool.or_eq_true, h1.2.2.1, isGateComposition, Bool.or_eq_true, h2.1, h2.2.1]

/-- C38. All entries of a gate have the same parameters, so the lookup does not depend on which of them is found. -/
theorem C38_param_types_agree : ∀ e ∈ namedGateMap, getNamedGateParamTypes e.1 = .ok e.2.1 := by
  decide +kernel

/-- C38. Parameter lookup for a gate or modifier gives the parameters of the standard gate set. -/
theorem C38_param_types :
    (∀ e ∈ namedGates, getInstructionParamTypes e.1 = .ok (paramSpec e.2.2)) ∧
    getInstructionParamTypes c!"inv" = .ok none ∧
    getInstructionParamTypes c!"pow" = .ok (some c!"f") ∧
    getInstructionParamTypes c!"ctrl" = .ok none := by decide +kernel

/-- C38. The lookups for gates only, for other instructions only and for modifiers only. -/
theorem C38_param_types_each :
    (∀ e ∈ namedGates, getNamedGateParamTypes e.1 = .ok (paramSpec e.2.2)) ∧
    (∀ name ∈ [c!"measure", c!"reset", c!"init", c!"barrier"], getNonGateParamTypes name = .ok none) ∧
    getNonGateParamTypes c!"wait" = .ok (some c!"i") ∧
    getGateModifierParamTypes c!"inv" = .ok none ∧ getGateModifierParamTypes c!"pow" = .ok (some c!"f") ∧
    getGateModifierParamTypes c!"ctrl" = .ok none ∧
    (∀ name ∈ nonGates, getInstructionParamTypes name = getNonGateParamTypes name) := by decide +kernel

private theorem find_none {α : Type} (l : List (Str × α)) (name : Str) (h : name ∉ l.map (·.1)) :
    (l.find? fun e => e.1 == name) = none := by
  simp only [List.find?_eq_none, beq_iff_eq]
  intro e he h'
  exact h (List.mem_map.mpr ⟨e, he, h'⟩)

/-- C38. The lookups for one class are errors for every name outside the class. -/
theorem C38_param_types_each_unknown (name : Str) :
    ((¬∃ n, IsNamedGate name n) → getNamedGateParamTypes name = .err ⟨c!"couldn't find gate '" ++ name ++ c!"'", none⟩) ∧
    (name ∉ nonGates → getNonGateParamTypes name = .err ⟨c!"couldn't find non-unitary instruction '" ++ name ++ c!"'", none⟩) ∧
    (name ∉ modifiers → getGateModifierParamTypes name = .err ⟨c!"couldn't find gate modifier '" ++ name ++ c!"'", none⟩) := by
  refine ⟨fun h => ?_, fun h => ?_, fun h => ?_⟩
  · have hm : ∀ n ∈ namedGateMap.map (·.1), ∃ e ∈ namedGates, e.1 = n := by decide +kernel
    rw [getNamedGateParamTypes, find_none]
    · rfl
    · intro hn
      obtain ⟨⟨_, n, ks⟩, he, rfl⟩ := hm _ hn
      exact h ⟨n, ks, he⟩
  · have hm : ∀ n ∈ nonGateMap.map (·.1), n ∈ nonGates := by decide +kernel
    rw [getNonGateParamTypes, find_none _ _ fun hn => h (hm _ hn)]
    rfl
  · have hm : ∀ n ∈ gateModifierMap.map (·.1), n ∈ modifiers := by decide +kernel
    rw [getGateModifierParamTypes, find_none _ _ fun hn => h (hm _ hn)]
    rfl

/-- C38. Parameter lookup is an error for every other name. -/
theorem C38_param_types_unknown (name : Str) (h1 : ¬∃ n, IsNamedGate name n) (h2 : name ∉ nonGates) (h3 : name ∉ modifiers) :
    ∃ e, getInstructionParamTypes name = .err e ∧ e.location = none ∧ e.message = c!"couldn't find instruction '" ++ name ++ c!"'" := by
  have hc := C38_classification name
  have e1 : isNamedGate name = false := by rw [← Bool.not_eq_true, hc.2.2.1]; exact h1
  have e2 : isNonGate name = false := by rw [← Bool.not_eq_true, hc.2.2.2.1]; exact h2
  have e3 : isGateModifier name = false := by rw [← Bool.not_eq_true, hc.2.2.2.2.1]; exact h3
  refine ⟨Err.mk0 (c!"couldn't find instruction '" ++ name ++ c!"'"),
    by simp only [getInstructionParamTypes, e1, e2, e3, Bool.false_eq_true, if_false], rfl, ?_⟩
  rfl

/-- C38. Parameter lookup for the other instructions depends on the number of parameters: `measure` has none or three
floats, `wait` one int, the others none. -/
theorem C38_non_gate_params (name : Str) (n : Nat) :
    getNonGateParamTypesWithParamCount name n =
      if name = c!"measure" ∧ n = 3 then some c!"fff" else if name = c!"wait" ∧ n = 1 then some c!"i" else none := by
  by_cases hm : name = c!"measure"
  · subst hm
    have : ∀ l, nonGateMap.filter (fun e => e.1 == c!"measure") = l → paramTypesWithCount n l =
        if c!"measure" = c!"measure" ∧ n = 3 then some c!"fff" else if c!"measure" = c!"wait" ∧ n = 1 then some c!"i" else none := by
      intro l hl
      have : nonGateMap.filter (fun e => e.1 == c!"measure") =
        [(c!"measure", none, c!"BQ"), (c!"measure", none, c!"WV"), (c!"measure", none, c!"BV"), (c!"measure", none, c!"WQ"),
         (c!"measure", some c!"fff", c!"BQ"), (c!"measure", some c!"fff", c!"WV"), (c!"measure", some c!"fff", c!"BV"),
         (c!"measure", some c!"fff", c!"WQ")] := by decide +kernel
      rw [← hl, this]
      simp only [paramTypesWithCount, List.length_cons, List.length_nil]
      by_cases h0 : n = 0
      · subst h0; rfl
      · by_cases h3 : n = 3
        · subst h3; rfl
        · have : ¬ 3 = n := fun h => h3 h.symm
          simp [h0, h3, this]
    exact this _ rfl
  · by_cases hw : name = c!"wait"
    · subst hw
      have : nonGateMap.filter (fun e => e.1 == c!"wait") = [(c!"wait", some c!"i", c!"Q"), (c!"wait", some c!"i", c!"V")] := by
        decide +kernel
      rw [getNonGateParamTypesWithParamCount, this]
      by_cases h1 : n = 1
      · subst h1; rfl
      · have : ¬ 1 = n := fun h => h1 h.symm
        simp [paramTypesWithCount, h1, this]
    · have key : ∀ e ∈ nonGateMap, e.1 ≠ c!"measure" → e.1 ≠ c!"wait" → e.2.1 = none := by decide +kernel
      have none_of : ∀ l : List InstructionEntry, (∀ e ∈ l, e.2.1 = none) → paramTypesWithCount n l = none := by
        intro l
        induction l with
        | nil => intro _; rfl
        | cons e l ih =>
          intro h
          obtain ⟨a, b, c⟩ := e
          have hb : b = none := h _ (List.mem_cons_self ..)
          subst hb
          rw [paramTypesWithCount]
          split
          · rfl
          · exact ih fun e he => h e (List.mem_cons_of_mem _ he)
      rw [getNonGateParamTypesWithParamCount, none_of]
      · simp [hm, hw]
      · intro e he
        rw [List.mem_filter] at he
        have hn : e.1 = name := by simpa using he.2
        exact key e he.1 (by rw [hn]; exact hm) (by rw [hn]; exact hw)

/-- All words of `n` letters Q (one qubit) or V (several qubits). -/
def qubitWords : Nat → List Str
  | 0 => [[]]
  | n + 1 => (qubitWords n).flatMap fun w => ['Q' :: w, 'V' :: w]

/-- The instructions of the default instruction set with the operands they take: every gate on as many qubit
operands as it has qubits; `1q_X` and `2q_X` for every gate `X` on one qubit; and the other instructions. -/
def expectedRegistrations : List (Str × Str) :=
  (namedGates.flatMap fun e => (qubitWords e.2.1).map fun w => (e.1, w)) ++
  ((namedGates.filter fun e => e.2.1 = 1).flatMap fun e =>
    (qubitWords 1).map (fun w => (c!"1q_" ++ e.1, w)) ++ (qubitWords 2).map fun w => (c!"2q_" ++ e.1, w)) ++
  [c!"BQ", c!"BV", c!"WQ", c!"WV"].map (fun w => (c!"measure", w)) ++
  [c!"reset", c!"init", c!"barrier", c!"wait"].flatMap fun n => [(n, c!"Q"), (n, c!"V")]

set_option maxRecDepth 100000 in
/-- C38. The default instruction set has exactly the expected instructions. -/
theorem C38_registrations (name operands : Str) :
    (name, operands) ∈ registrations ↔ (name, operands) ∈ expectedRegistrations := by
  have h1 : ∀ e ∈ registrations, e ∈ expectedRegistrations := by decide +kernel
  have h2 : ∀ e ∈ expectedRegistrations, e ∈ registrations := by decide +kernel
  exact ⟨h1 _, h2 _⟩

example : IsNamedGate c!"CRk" 2 := ⟨[.int], by decide⟩
example : getInstructionParamTypes c!"Rn" = .ok (some c!"fffff") := by decide +kernel
example : (c!"2q_Sdag", c!"VQ") ∈ registrations := by decide +kernel

end Qasm
