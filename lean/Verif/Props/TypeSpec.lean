import Verif.Model.Analyzer
import Verif.Model.Printing
import Verif.Spec.TypeSpec
/-!
# Property C78: type specification strings
-/

namespace Qasm

open Spec

variable {F : Type}

theorem fromSpecChar_iff (c : Char) (t : Ty) : Types.fromSpecChar c = some t ↔ TypeLetter c t.kind ∧ t.size = 0 := by
  constructor
  · intro h
    unfold Types.fromSpecChar at h
    repeat' split at h
    all_goals first
      | (cases h; done)
      | (subst_vars; cases h; exact ⟨by constructor, rfl⟩)
  · obtain ⟨k, s⟩ := t
    rintro ⟨h, h2⟩
    cases h2
    cases h <;> rfl

/-- C78. A specification string stands for one type per letter. The types have no size. -/
theorem C78_types (s : Str) (ts : List Ty) :
    Types.fromSpec s = some ts ↔ Forall2 (fun c t => TypeLetter c t.kind ∧ t.size = 0) s ts := by
  induction s generalizing ts with
  | nil =>
    constructor
    · intro h; cases h; exact .nil
    · intro h; cases h; rfl
  | cons c cs ih =>
    rw [Types.fromSpec]
    cases hc : Types.fromSpecChar c with
    | none =>
      dsimp only
      constructor
      · intro h; cases h
      · intro h
        cases h with
        | cons h1 h2 => rw [(fromSpecChar_iff _ _).mpr h1] at hc; cases hc
    | some t =>
      dsimp only
      rw [Option.map_eq_some_iff]
      constructor
      · rintro ⟨us, h1, rfl⟩
        exact .cons ((fromSpecChar_iff _ _).mp hc) ((ih _).mp h1)
      · intro h
        cases h with
        | cons h1 h2 =>
          rw [(fromSpecChar_iff _ _).mpr h1] at hc
          cases hc
          exact ⟨_, (ih _).mpr h2, rfl⟩

/-- C78. A specification string is rejected exactly when it has a character that is not one of the letters. -/
theorem C78_rejected (s : Str) : Types.fromSpec s = none ↔ ∃ c ∈ s, ∀ k, ¬TypeLetter c k := by
  induction s with
  | nil => simp [Types.fromSpec]
  | cons c cs ih =>
    rw [Types.fromSpec]
    cases hc : Types.fromSpecChar c with
    | none =>
      simp only [List.mem_cons, true_iff]
      refine ⟨c, .inl rfl, fun k hk => ?_⟩
      rw [(fromSpecChar_iff c ⟨k, 0⟩).mpr ⟨hk, rfl⟩] at hc
      cases hc
    | some t =>
      have ht := ((fromSpecChar_iff c t).mp hc).1
      simp only [Option.map_eq_none_iff, ih, List.mem_cons]
      constructor
      · rintro ⟨d, h1, h2⟩; exact ⟨d, .inr h1, h2⟩
      · rintro ⟨d, rfl | h1, h2⟩
        · exact absurd ht (h2 _)
        · exact ⟨d, h1, h2⟩

/-- C78. Distinct strings stand for distinct lists of types. -/
theorem C78_injective (s s' : Str) (ts : List Ty) (h : Types.fromSpec s = some ts) (h' : Types.fromSpec s' = some ts) : s = s' := by
  rw [C78_types] at h h'
  induction h generalizing s' with
  | nil => cases h'; rfl
  | cons h1 _ ih =>
    cases h' with
    | cons h2 h3 =>
      rw [ih _ h3]
      congr 1
      have h1 := h1.1
      have h2 := h2.1
      generalize Ty.kind _ = k at h1 h2
      cases h1 <;> cases h2 <;> rfl

/-- C78. Instructions and functions made from specification strings have the types the strings stand for; without a string an instruction
has no operands. A wrong letter anywhere is an exception. -/
theorem C78_made (n : Str) (b : Bytes) (s : Str) (c : Char) :
    (∀ i, Instruction.mk' n (some s) = some i ↔ i.name = n ∧ Types.fromSpec s = some i.operandTypes) ∧
    Instruction.mk' n none = some ⟨n, []⟩ ∧
    (∀ f, Printing.mkFn b s c = some f ↔
      f.name = b ∧ Types.fromSpec s = some f.paramTypes ∧ Types.fromSpec [c] = some [f.returnType]) := by
  refine ⟨fun i => ?_, rfl, fun f => ?_⟩
  · obtain ⟨m, ts⟩ := i
    simp only [Instruction.mk', Option.getD_some, Option.map_eq_some_iff, Instruction.mk.injEq]
    constructor
    · rintro ⟨us, h1, rfl, rfl⟩; exact ⟨rfl, h1⟩
    · rintro ⟨rfl, h⟩; exact ⟨_, h, rfl, rfl⟩
  · obtain ⟨m, ts, r⟩ := f
    unfold Printing.mkFn
    cases h1 : Types.fromSpec s with
    | none => simp
    | some ps =>
      cases h2 : Types.fromSpecChar c with
      | none => simp [Types.fromSpec, h2]
      | some r' =>
        simp only [Option.map_some, Option.some.injEq, Types.fromSpec, h2, Cbor.FnData.mk.injEq, List.cons.injEq, and_true]
        constructor
        · rintro ⟨rfl, rfl, rfl⟩; exact ⟨rfl, rfl, rfl⟩
        · rintro ⟨rfl, rfl, rfl⟩; exact ⟨rfl, rfl, rfl⟩

/-- C78. Registering with a specification string is registering with the types it stands for; with a wrong letter it is an exception. -/
theorem C78_registered (a : Analyzer F) (n s : Str) (f : CoreFn F) :
    (∀ ts, Types.fromSpec s = some ts →
      a.registerFunctionSpec n s f = a.registerFunction n ts f ∧
      a.registerInstructionSpec n (some s) = a.registerInstruction ⟨n, ts⟩) ∧
    ((∃ c ∈ s, ∀ k, ¬TypeLetter c k) →
      a.registerFunctionSpec n s f = .exn c!"std::invalid_argument" ∧
      a.registerInstructionSpec n (some s) = .exn c!"std::invalid_argument") ∧
    a.registerInstructionSpec n none = a.registerInstruction ⟨n, []⟩ := by
  refine ⟨fun ts h => ?_, fun h => ?_, rfl⟩
  · simp [Analyzer.registerFunctionSpec, Analyzer.registerInstructionSpec, Instruction.mk', h]
  · have h := (C78_rejected s).mpr h
    simp [Analyzer.registerFunctionSpec, Analyzer.registerInstructionSpec, Instruction.mk', h]

example : Types.fromSpec c!"VQf" = some [⟨.qubitArray, 0⟩, ⟨.qubit, 0⟩, ⟨.float, 0⟩] ∧ Types.fromSpec c!"Vx" = none ∧
    (Printing.mkFn (utf8 c!"f") c!"iW" 'b').map (fun f => Printing.fnRef (some f)) = some (utf8 c!"f(int, bit array) -> bool") ∧
    Printing.mkFn (utf8 c!"f") c!"iW" 'q' = none := by decide +kernel

example : ∃ c ∈ c!"Vx", ∀ k, ¬TypeLetter c k := ⟨'x', by decide, fun _ h => nomatch h⟩

end Qasm
