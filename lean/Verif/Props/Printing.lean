import Verif.Model.Printing
import Verif.Spec.Promote
/-!
# Equality and printing of instructions and functions (C71)
-/

namespace Qasm

open Spec Cbor

/-- C71. Types are equal exactly when they have the same class and size. -/
theorem C71_types_equal (as bs : List Ty) : Printing.typesEqual as bs = true ↔ as = bs := by
  induction as generalizing bs with
  | nil => cases bs <;> simp [Printing.typesEqual]
  | cons a as ih =>
    cases bs with
    | nil => simp [Printing.typesEqual]
    | cons b bs =>
      obtain ⟨k, s⟩ := a
      obtain ⟨k', s'⟩ := b
      simp [Printing.typesEqual, Printing.typeEquals, ih]

/-- C71. Instructions are equal exactly when they have the same name and the same operand types. -/
theorem C71_instructions_equal (a b : InstrData) :
    Printing.instrEquals a b = true ↔ a.name = b.name ∧ a.operandTypes = b.operandTypes := by
  simp [Printing.instrEquals, C71_types_equal]

/-- C71. Functions are equal exactly when they have the same name, parameter types and return type. -/
theorem C71_functions_equal (a b : FnData) :
    Printing.fnEquals a b = true ↔ a.name = b.name ∧ a.paramTypes = b.paramTypes ∧ a.returnType = b.returnType := by
  obtain ⟨n, ps, ⟨k, s⟩⟩ := a
  obtain ⟨n', ps', ⟨k', s'⟩⟩ := b
  simp [Printing.fnEquals, C71_types_equal, Printing.typeEquals, and_assoc]

private theorem join_eq (sep : Str) (l : List Str) : joinStr sep l = sep.intercalate l := by
  induction l with
  | nil => rfl
  | cons x l ih =>
    cases l with
    | nil => simp [joinStr, List.intercalate]
    | cons y l => rw [joinStr, ih]; simp [List.intercalate]

/-- C71. What is printed for an instruction, `name(type, type)`, for a function, `name(type, type) -> type`, and for an empty reference. -/
theorem C71_text (i : InstrData) (f : FnData) :
    Printing.instrRef (some i) =
      i.name ++ utf8 (c!"(" ++ (c!", ").intercalate (i.operandTypes.map fun t => kindLabel t.kind) ++ c!")") ∧
    Printing.fnRef (some f) =
      f.name ++ utf8 (c!"(" ++ (c!", ").intercalate (f.paramTypes.map fun t => kindLabel t.kind) ++ c!") -> " ++ kindLabel f.returnType.kind) ∧
    Printing.instrRef none = utf8 c!"unresolved" ∧ Printing.fnRef none = utf8 c!"unresolved" := by
  have hk (t : Ty) : Types.print t = kindLabel t.kind := by obtain ⟨k, s⟩ := t; cases k <;> rfl
  have hl (ts : List Ty) : Types.printList ts = (c!", ").intercalate (ts.map fun t => kindLabel t.kind) := by
    rw [Types.printList, join_eq]
    congr 1
    exact List.map_congr_left fun t _ => hk t
  refine ⟨?_, ?_, rfl, rfl⟩
  · simp [Printing.instrRef, Printing.instr, Printing.types, hl, utf8]
  · simp [Printing.fnRef, Printing.fn, Printing.types, hl, hk, utf8]

/-- The bytes of a type as printed. -/
private def kindBytes (k : Kind) : Bytes := utf8 (Types.kindName k)

private theorem kindBytes_spec (k : Kind) : 44 ∉ kindBytes k ∧ 40 ∉ kindBytes k ∧ 41 ∉ kindBytes k ∧ kindBytes k ≠ [] := by
  cases k <;> decide +kernel

private theorem kindBytes_inj : ∀ k k', kindBytes k = kindBytes k' → k = k' := by
  intro k k'
  cases k <;> cases k' <;> decide +kernel

/-- The bytes of a list of types as printed. -/
private def kindsBytes : List Kind → Bytes
  | [] => []
  | [k] => kindBytes k
  | k :: k' :: ks => kindBytes k ++ 44 :: 32 :: kindsBytes (k' :: ks)

private theorem types_eq (ts : List Ty) : Printing.types ts = kindsBytes (ts.map Ty.kind) := by
  induction ts with
  | nil => rfl
  | cons t ts ih =>
    cases ts with
    | nil => rfl
    | cons u ts =>
      rw [Printing.types, Types.printList] at ih
      rw [Printing.types, Types.printList, List.map_cons, List.map_cons, joinStr, ← List.map_cons]
      simp only [utf8, List.flatMap_append, List.append_assoc] at ih ⊢
      rw [ih]
      rfl

private theorem kindsBytes_no (ks : List Kind) : 40 ∉ kindsBytes ks ∧ 41 ∉ kindsBytes ks := by
  induction ks with
  | nil => simp [kindsBytes]
  | cons k ks ih =>
    cases ks with
    | nil => exact ⟨(kindBytes_spec k).2.1, (kindBytes_spec k).2.2.1⟩
    | cons k' ks =>
      have := kindBytes_spec k
      simp [kindsBytes, ih, this]

private theorem split_eq {c : UInt8} {a b s t : Bytes} (ha : c ∉ a) (hb : c ∉ b) (h : a ++ c :: s = b ++ c :: t) : a = b ∧ s = t := by
  induction a generalizing b with
  | nil =>
    cases b with
    | nil => simpa using h
    | cons y b => simp at h hb; exact absurd h.1 hb.1
  | cons x a ih =>
    cases b with
    | nil => simp at h ha; exact absurd h.1.symm ha.1
    | cons y b =>
      simp at h ha hb
      obtain ⟨h1, h2⟩ := ih ha.2 hb.2 h.2
      exact ⟨by rw [h.1, h1], h2⟩

private theorem kindsBytes_inj (ks js : List Kind) (h : kindsBytes ks = kindsBytes js) : ks = js := by
  induction ks generalizing js with
  | nil =>
    match js, h with
    | [], _ => rfl
    | [j], h => exact absurd h.symm (kindBytes_spec j).2.2.2
    | j :: j' :: js, h => simp [kindsBytes] at h
  | cons k ks ih =>
    match ks, js, h with
    | [], [], h => exact absurd h (kindBytes_spec k).2.2.2
    | [], [j], h => rw [kindBytes_inj k j h]
    | [], j :: j' :: js, h =>
      have := (kindBytes_spec k).1
      rw [show kindBytes k = kindBytes j ++ 44 :: 32 :: kindsBytes (j' :: js) from h] at this
      simp at this
    | k' :: ks, [], h => simp [kindsBytes] at h
    | k' :: ks, [j], h =>
      have := (kindBytes_spec j).1
      rw [← show kindBytes k ++ 44 :: 32 :: kindsBytes (k' :: ks) = kindBytes j from h] at this
      simp at this
    | k' :: ks, j :: j' :: js, h =>
      obtain ⟨h1, h2⟩ := split_eq (kindBytes_spec k).1 (kindBytes_spec j).1 h
      rw [kindBytes_inj k j h1, ih (j' :: js) (by simpa using h2)]

private theorem split_last {c : UInt8} {a b s t : Bytes} (hs : c ∉ s) (ht : c ∉ t) (h : a ++ c :: s = b ++ c :: t) : a = b ∧ s = t := by
  have h' := congrArg List.reverse h
  simp only [List.reverse_append, List.reverse_cons, List.append_assoc, List.singleton_append] at h'
  obtain ⟨h1, h2⟩ := split_eq (by simpa using hs) (by simpa using ht) h'
  exact ⟨List.reverse_inj.1 h2, List.reverse_inj.1 h1⟩

private theorem instr_form (i : InstrData) :
    Printing.instr i = i.name ++ 40 :: (kindsBytes (i.operandTypes.map Ty.kind) ++ [41]) := by
  rw [Printing.instr, types_eq]
  simp [show utf8 c!"(" = [40] from by decide +kernel, show utf8 c!")" = [41] from by decide +kernel]

private theorem fn_form (f : FnData) :
    Printing.fn f = f.name ++ 40 :: (kindsBytes (f.paramTypes.map Ty.kind) ++ 41 :: (([32, 45, 62, 32] : Bytes) ++ kindBytes f.returnType.kind)) := by
  rw [Printing.fn, types_eq]
  simp [show utf8 c!"(" = [40] from by decide +kernel, show utf8 c!") -> " = [41, 32, 45, 62, 32] from by decide +kernel, kindBytes, Types.print]

/-- C71. The text printed for an instruction reference determines whether it is resolved, the name (whatever bytes are in it) and the
classes of the operand types. -/
theorem C71_instruction_text_injective (a b : Option InstrData) :
    Printing.instrRef a = Printing.instrRef b ↔
      match a, b with
      | none, none => True
      | some i, some j => i.name = j.name ∧ i.operandTypes.map Ty.kind = j.operandTypes.map Ty.kind
      | _, _ => False := by
  have hu : (40 : UInt8) ∉ utf8 c!"unresolved" := by decide +kernel
  match a, b with
  | none, none => simp
  | none, some i =>
    simp only [Printing.instrRef, iff_false, instr_form]
    intro h
    rw [h] at hu
    simp at hu
  | some i, none =>
    simp only [Printing.instrRef, iff_false, instr_form]
    intro h
    rw [← h] at hu
    simp at hu
  | some i, some j =>
    simp only [Printing.instrRef, instr_form]
    constructor
    · intro h
      obtain ⟨h1, h2⟩ := split_last (by simp [kindsBytes_no]) (by simp [kindsBytes_no]) h
      exact ⟨h1, kindsBytes_inj _ _ (List.append_cancel_right h2)⟩
    · rintro ⟨h1, h2⟩
      rw [h1, h2]

/-- C71. The text printed for a function reference determines whether it is resolved, the name and the classes of the types. -/
theorem C71_function_text_injective (a b : Option FnData) :
    Printing.fnRef a = Printing.fnRef b ↔
      match a, b with
      | none, none => True
      | some f, some g => f.name = g.name ∧ f.paramTypes.map Ty.kind = g.paramTypes.map Ty.kind ∧ f.returnType.kind = g.returnType.kind
      | _, _ => False := by
  have hu : (40 : UInt8) ∉ utf8 c!"unresolved" := by decide +kernel
  have hr (k : Kind) : (40 : UInt8) ∉ kindBytes k := (kindBytes_spec k).2.1
  match a, b with
  | none, none => simp
  | none, some i =>
    simp only [Printing.fnRef, iff_false, fn_form]
    intro h
    rw [h] at hu
    simp at hu
  | some i, none =>
    simp only [Printing.fnRef, iff_false, fn_form]
    intro h
    rw [← h] at hu
    simp at hu
  | some i, some j =>
    simp only [Printing.fnRef, fn_form]
    constructor
    · intro h
      obtain ⟨h1, h2⟩ := split_last (by simp [kindsBytes_no, hr]) (by simp [kindsBytes_no, hr]) h
      obtain ⟨h3, h4⟩ := split_eq (kindsBytes_no _).2 (kindsBytes_no _).2 h2
      exact ⟨h1, kindsBytes_inj _ _ h3, kindBytes_inj _ _ (List.append_cancel_left h4)⟩
    · rintro ⟨h1, h2, h3⟩
      rw [h1, h2, h3]

/-- `CNOT(qubit, qubit array)`, and two instructions that differ in the size of an operand type only: not equal, but printed alike. -/
example : Printing.instrRef (some ⟨utf8 c!"CNOT", [⟨.qubit, 0⟩, ⟨.qubitArray, 0⟩]⟩) = utf8 c!"CNOT(qubit, qubit array)" ∧
    Printing.instrEquals ⟨utf8 c!"X", [⟨.qubitArray, 2⟩]⟩ ⟨utf8 c!"X", [⟨.qubitArray, 3⟩]⟩ = false ∧
    Printing.instr ⟨utf8 c!"X", [⟨.qubitArray, 2⟩]⟩ = Printing.instr ⟨utf8 c!"X", [⟨.qubitArray, 3⟩]⟩ := by
  decide +kernel

end Qasm
