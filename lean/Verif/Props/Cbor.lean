import Verif.Model.Cbor
/-!
# Properties C55 and C56: serialisation

A primitive is written into a map and read back from it. `nc` stands for tree-gen's functions for type nodes, of which
only `Faithful` is assumed: reading what was written gives the node back.
-/

namespace Qasm

open Cbor

variable {F : Type}

/-- tree-gen reads a type node back as it was written. -/
def Faithful (nc : NodeCodec) : Prop := ∀ t, nc.de (nc.ser t) = .ok t

theorem each_map {α β γ : Type} (f : β → Res Empty γ) (g : α → β) (h : α → γ) (hf : ∀ a, f (g a) = .ok (h a)) :
    ∀ l : List α, each f (l.map g) = .ok (l.map h)
  | [] => rfl
  | a :: l => by simp [each, hf, each_map f g h hf l]

theorem readTypes_write {nc : NodeCodec} (h : Faithful nc) (l : List Ty) :
    each (readType (F := F) nc) (l.map fun t => .binary (nc.ser t)) = .ok l := by
  rw [each_map _ _ id]
  · simp
  · intro t; simp [readType, asBinary, h t]

/-- C55. Strings. -/
theorem C55_str (s : Bytes) : readStr (F := F) (writeStr s) = .ok s := rfl

/-- C55. Booleans. -/
theorem C55_bool (b : Bool) : readBool (F := F) (writeBool b) = .ok b := rfl

/-- C55. Integers. -/
theorem C55_int (i : Int64) : readInt (F := F) (writeInt i) = .ok i := by
  show Res.ok (Int64.ofInt i.toInt) = _
  simp

/-- C55. Floats, bit for bit. -/
theorem C55_float (x : F) : readFloat (writeFloat x) = .ok x := rfl

/-- C55. Axes. -/
theorem C55_axis (a : Axis F) : readAxis (writeAxis a) = .ok a := rfl

/-- C55. Complex numbers. -/
theorem C55_complex (z : F × F) : readComplex (writeComplex z) = .ok z := rfl

/-- C55. Versions: the same components, not only an equal version. -/
theorem C55_version (v : Version) : readVersion (F := F) (writeVersion v) = .ok v := by
  show each asInt _ = _
  rw [each_map _ _ id]
  · simp
  · intro t; simp [asInt]

/-- C55. Instruction references, resolved or not. -/
theorem C55_instruction (nc : NodeCodec) (h : Faithful nc) (r : Option InstrData) :
    readInstr (F := F) nc (writeInstr nc r) = .ok r := by
  cases r with
  | none => rfl
  | some i =>
    show Res.bind (each (readType nc) _) _ = _
    rw [readTypes_write h]
    rfl

/-- C55. Function references, resolved or not. -/
theorem C55_function (nc : NodeCodec) (h : Faithful nc) (r : Option FnData) :
    readFn (F := F) nc (writeFn nc r) = .ok r := by
  cases r with
  | none => rfl
  | some f =>
    show Res.bind (each (readType nc) _) _ = _
    rw [readTypes_write h]
    show Res.bind (nc.de _) _ = _
    rw [h]
    rfl

/-- A byte for the class of a type, then as many bytes as its size: a faithful codec. -/
def Sample.codec : NodeCodec where
  ser t := (match t.kind with | .bool => 0 | .int => 1 | .float => 2 | .bit => 3 | .qubit => 4 | .bitArray => 5 | .qubitArray => 6) ::
    List.replicate t.size.toUInt64.toNat 0
  de
    | k :: s => match ([.bool, .int, .float, .bit, .qubit, .bitArray, .qubitArray] : List Kind)[k.toNat]? with
      | some k => .ok ⟨k, (UInt64.ofNat s.length).toInt64⟩
      | none => .exn c!"std::runtime_error"
    | [] => .exn c!"std::runtime_error"

theorem Sample.codec_faithful : Faithful Sample.codec := by
  rintro ⟨k, s⟩
  have e : (UInt64.ofNat (List.replicate s.toUInt64.toNat (0 : UInt8)).length).toInt64 = s := by
    rw [List.length_replicate, UInt64.ofNat_toNat]; rfl
  cases k <;> exact congrArg (fun x => Res.ok (Ty.mk _ x)) e

/-! ## C56: Python -/

theorem decode_utf8 (s : Str) : decodeUtf8 (utf8 s) = some s := by
  have : (utf8 s).toByteArray = s.utf8Encode := rfl
  rw [decodeUtf8, this, List.utf8Decode?_utf8Encode]
  simp

/-- C56 does not hold: of every resolved instruction reference that C++ serialises, Python makes an unresolved one,
because it looks for the keys `n` and `t` and C++ writes `name` and `operand_types`. -/
theorem C56_refuted (nc : NodeCodec) (i : InstrData) :
    pyRead (F := F) nc .instructionRef (writeInstr nc (some i)) = .ok (.instr none) := rfl

/-- C56 for the unresolved reference. -/
theorem C56_unresolved_partial (nc : NodeCodec) :
    pyRead (F := F) nc .instructionRef (writeInstr nc none) = .ok (.instr none) := rfl

/-- The other way round it is no better: C++ reads as unresolved what Python writes. -/
theorem C56_reverse_refuted (nc : NodeCodec) (r : Option (Str × List Ty)) :
    readInstr (F := F) nc (pyWrite nc (.instr r)) = .ok none := by
  cases r <;> rfl

/-- C62. Python sees the strings, booleans, integers, floats and versions that C++ serialised. -/
theorem C62_python (nc : NodeCodec) (s : Str) (b : Bool) (i : Int64) (x : F) (v : Version) :
    pyRead (F := F) nc .str (writeStr (utf8 s)) = .ok (.str s) ∧
    pyRead (F := F) nc .bool (writeBool b) = .ok (.bool b) ∧
    pyRead (F := F) nc .int (writeInt i) = .ok (.int i.toInt) ∧
    pyRead nc .float (writeFloat x) = .ok (.float x) ∧
    pyRead (F := F) nc .version (writeVersion v) = .ok (.version (v.map Int64.toInt)) := by
  refine ⟨?_, rfl, rfl, rfl, ?_⟩
  · show Res.bind (pyText (utf8 s)) _ = _
    simp [pyText, decode_utf8]
  · show Res.bind (each pyInt _) _ = _
    rw [each_map _ _ Int64.toInt]
    · simp
    · intro t; rfl

/-- C62. A string that is not UTF-8 is an exception in Python. -/
theorem C62_not_utf8 (nc : NodeCodec) (b : Bytes) (h : ∀ s, b ≠ utf8 s) :
    pyRead (F := F) nc .str (writeStr b) = .exn c!"UnicodeDecodeError" := by
  show Res.bind (pyText b) _ = _
  have : decodeUtf8 b = none := by
    rw [decodeUtf8, Option.map_eq_none_iff]
    cases hd : ByteArray.utf8Decode? b.toByteArray with
    | none => rfl
    | some a =>
      have hv := ByteArray.isSome_utf8Decode?_iff.1 (by rw [hd]; rfl)
      obtain ⟨l, hl⟩ := hv
      exfalso
      refine h l ?_
      have := congrArg (fun x => x.data.toList) hl
      simpa [List.utf8Encode, utf8] using this
  simp [pyText, this]

/-- C63. Python reads back what Python wrote. -/
theorem C63_python (nc : NodeCodec) (h : Faithful nc) (v : PyVal F) : pyRead nc v.typ (pyWrite nc v) = .ok v := by
  cases v with
  | str s =>
    show Res.bind (pyText (utf8 s)) _ = _
    simp [pyText, decode_utf8]
  | bool | int | float => rfl
  | version v =>
    show Res.bind (each pyInt _) _ = _
    rw [each_map _ _ id]
    · simp
    · intro t; rfl
  | instr r =>
    obtain _ | ⟨n, ts⟩ := r
    · rfl
    · show Res.bind (pyText (utf8 n)) _ = _
      have : each (pyType (F := F) nc) (ts.map fun t => .binary (nc.ser t)) = .ok ts := by
        rw [each_map _ _ id]
        · simp
        · intro t; simp [pyType, h t]
      simp [pyText, decode_utf8, this]

/-- A reference with two types, through C++ and through Python. -/
example : readInstr (F := Int) Sample.codec (writeInstr Sample.codec (some ⟨utf8 c!"CNOT", [⟨.qubit, 1⟩, ⟨.bitArray, 5⟩]⟩))
      = .ok (some ⟨utf8 c!"CNOT", [⟨.qubit, 1⟩, ⟨.bitArray, 5⟩]⟩) ∧
    pyRead (F := Int) Sample.codec .instructionRef (writeInstr Sample.codec (some ⟨utf8 c!"CNOT", [⟨.qubit, 1⟩, ⟨.bitArray, 5⟩]⟩))
      = .ok (.instr none) ∧
    pyRead (F := Int) Sample.codec .instructionRef (pyWrite Sample.codec (.instr (some (c!"CNOT", [⟨.qubit, 1⟩, ⟨.bitArray, 5⟩]))))
      = .ok (.instr (some (c!"CNOT", [⟨.qubit, 1⟩, ⟨.bitArray, 5⟩]))) :=
  ⟨C55_instruction _ Sample.codec_faithful _, C56_refuted _ _, C63_python _ Sample.codec_faithful (.instr _)⟩

end Qasm
