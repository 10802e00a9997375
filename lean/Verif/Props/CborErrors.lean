import Verif.Props.Cbor
import Verif.Spec.Base
/-!
# Property C74: reading serialised primitives that are incomplete or of another class
-/

namespace Qasm

open Cbor

variable {F : Type}

/-- The map has no entry with this key. -/
def Lacks (m : List (Str × Cbor F)) (k : Str) : Prop := ∀ e ∈ m, e.1 ≠ k

/-- The entry of the map with this key is `v`. -/
def Holds (m : List (Str × Cbor F)) (k : Str) (v : Cbor F) : Prop :=
  ∃ l r, m = l ++ (k, v) :: r ∧ ∀ e ∈ l, e.1 ≠ k

theorem lookup_lacks {m : List (Str × Cbor F)} {k : Str} (h : Lacks m k) : m.lookup k = none := by
  induction m with
  | nil => rfl
  | cons e m ih =>
    obtain ⟨k', v⟩ := e
    have h1 : k' ≠ k := h _ (.head _)
    have h2 : (k == k') = false := by simpa using Ne.symm h1
    rw [List.lookup, h2]
    exact ih fun e he => h e (.tail _ he)

theorem lookup_holds {m : List (Str × Cbor F)} {k : Str} {v : Cbor F} (h : Holds m k v) : m.lookup k = some v := by
  obtain ⟨l, r, rfl, hl⟩ := h
  induction l with
  | nil => simp [List.lookup]
  | cons e l ih =>
    obtain ⟨k', v'⟩ := e
    have h1 : k' ≠ k := hl _ (.head _)
    have h2 : (k == k') = false := by simpa using Ne.symm h1
    rw [List.cons_append, List.lookup, h2]
    exact ih fun e he => hl e (.tail _ he)

/-- Every map lacks a key or holds a value for it. -/
theorem lacks_or_holds (m : List (Str × Cbor F)) (k : Str) : Lacks m k ∨ ∃ v, Holds m k v := by
  induction m with
  | nil => exact .inl nofun
  | cons e m ih =>
    obtain ⟨k', v⟩ := e
    by_cases h : k' = k
    · subst h; exact .inr ⟨v, [], m, rfl, nofun⟩
    · rcases ih with h1 | ⟨v', l, r, rfl, hl⟩
      · refine .inl fun e he => ?_
        cases he with
        | head => exact h
        | tail _ he => exact h1 e he
      · refine .inr ⟨v', (k', v) :: l, r, rfl, fun e he => ?_⟩
        cases he with
        | head => exact h
        | tail _ he => exact hl e he

theorem at_lacks {m : List (Str × Cbor F)} {k : Str} (h : Lacks m k) : at' m k = .exn c!"std::out_of_range" := by
  simp [at', lookup_lacks h]

theorem at_holds {m : List (Str × Cbor F)} {k : Str} {v : Cbor F} (h : Holds m k v) : at' m k = .ok v := by
  simp [at', lookup_holds h]

theorem count_lacks {m : List (Str × Cbor F)} {k : Str} (h : Lacks m k) : count m k = 0 := by
  simpa [count, Lacks] using fun a b hm (he : a = k) => h (a, b) hm he

theorem count_holds {m : List (Str × Cbor F)} {k : Str} {v : Cbor F} (h : Holds m k v) : count m k ≠ 0 := by
  obtain ⟨l, r, rfl, -⟩ := h
  simp [count]

/-- C74. Without its entry, a primitive is not read: `std::out_of_range`. -/
theorem C74_missing (m : List (Str × Cbor F)) (h : Lacks m c!"x") :
    readStr m = .exn c!"std::out_of_range" ∧ readBool m = .exn c!"std::out_of_range" ∧
    readInt m = .exn c!"std::out_of_range" ∧ readFloat m = .exn c!"std::out_of_range" ∧
    readVersion m = .exn c!"std::out_of_range" := by
  simp [readStr, readBool, readInt, readFloat, readVersion, at_lacks h]

/-- C74. With an entry of the right class its value is read; of another class it is `std::runtime_error`. Other entries do
not matter. -/
theorem C74_class (m : List (Str × Cbor F)) (v : Cbor F) (h : Holds m c!"x" v) :
    readStr m = (match v with | .binary b => .ok b | _ => .exn c!"std::runtime_error") ∧
    readBool m = (match v with | .bool b => .ok b | _ => .exn c!"std::runtime_error") ∧
    readInt m = (match v with | .int i => .ok (Int64.ofInt i) | _ => .exn c!"std::runtime_error") ∧
    readFloat m = (match v with | .float x => .ok x | _ => .exn c!"std::runtime_error") ∧
    ((∀ l, v ≠ .array l) → readVersion m = .exn c!"std::runtime_error") := by
  refine ⟨?_, ?_, ?_, ?_, ?_⟩
  · simp only [readStr, at_holds h]; cases v <;> rfl
  · simp only [readBool, at_holds h]; cases v <;> rfl
  · simp only [readInt, at_holds h]; cases v <;> rfl
  · simp only [readFloat, at_holds h]; cases v <;> rfl
  · intro hv
    simp only [readVersion, at_holds h]
    cases v with
    | array l => exact absurd rfl (hv l)
    | _ => rfl

theorem each_total {α β : Type} {f : α → Res Empty β} {c : Str} (hf : ∀ a, (∃ b, f a = .ok b) ∨ f a = .exn c) (l : List α) :
    (∃ bs, each f l = .ok bs) ∨ each f l = .exn c := by
  induction l with
  | nil => exact .inl ⟨[], rfl⟩
  | cons a l ih =>
    rcases hf a with ⟨b, hb⟩ | hb
    · rcases ih with ⟨bs, hbs⟩ | hbs
      · exact .inl ⟨b :: bs, by simp [each, hb, hbs]⟩
      · exact .inr (by simp [each, hb, hbs])
    · exact .inr (by simp [each, hb])

theorem each_ok {α β : Type} {f : α → Res Empty β} {l : List α} {bs : List β} :
    each f l = .ok bs ↔ Spec.Forall2 (fun a b => f a = .ok b) l bs := by
  induction l generalizing bs with
  | nil =>
    constructor
    · intro h; cases h; exact .nil
    · intro h; cases h; rfl
  | cons a l ih =>
    constructor
    · intro h
      rw [each] at h
      obtain ⟨b, hb, h⟩ := Res.bind_eq_ok.1 h
      obtain ⟨bs', hbs, h⟩ := Res.bind_eq_ok.1 h
      cases h
      exact .cons hb (ih.1 hbs)
    · intro h
      cases h with
      | cons hb hbs => simp [each, hb, ih.2 hbs]

/-- C74. A version is read exactly if its entry is an array of integers; any other element is `std::runtime_error`. -/
theorem C74_version (m : List (Str × Cbor F)) (l : List (Cbor F)) (h : Holds m c!"x" (.array l)) :
    (∀ is : List Int, l = is.map Cbor.int → readVersion m = .ok (is.map Int64.ofInt)) ∧
    ((∀ is : List Int, l ≠ is.map Cbor.int) → readVersion m = .exn c!"std::runtime_error") := by
  have hr : readVersion m = each asInt l := by
    simp only [readVersion, at_holds h]
    have : Version.ofString [] = .ok [] := by rfl
    simp [asArray, this]
  rw [hr]
  refine ⟨?_, fun hn => ?_⟩
  · rintro is rfl
    exact each_map asInt Cbor.int Int64.ofInt (fun _ => rfl) is
  · have hf : ∀ a : Cbor F, (∃ b, asInt a = .ok b) ∨ asInt a = .exn c!"std::runtime_error" := by
      intro a; cases a <;> simp [asInt]
    rcases each_total hf l with ⟨bs, hb⟩ | hb
    · exfalso
      have h2 := each_ok.1 hb
      clear hr h hb
      have : ∃ is : List Int, l = is.map Cbor.int := by
        clear hn
        induction h2 with
        | nil => exact ⟨[], rfl⟩
        | @cons a b l bs h1 _ ih =>
          obtain ⟨is, rfl⟩ := ih
          cases a with
          | int i => exact ⟨i :: is, rfl⟩
          | _ => cases h1
      obtain ⟨is, his⟩ := this
      exact hn is his
    · exact hb

/-- C74. An axis and a complex number need all of their parts. -/
theorem C74_parts (m : List (Str × Cbor F)) :
    ((∃ a, readAxis m = .ok a) ↔ ∃ x y z, Holds m c!"x" (.float x) ∧ Holds m c!"y" (.float y) ∧ Holds m c!"z" (.float z)) ∧
    ((∃ a, readComplex m = .ok a) ↔ ∃ r i, Holds m c!"r" (.float r) ∧ Holds m c!"i" (.float i)) := by
  have key : ∀ k, (∃ x, (at' m k).bind asFloat = .ok x) → ∃ x, Holds m k (.float x) := by
    intro k ⟨x, hx⟩
    rcases lacks_or_holds m k with h | ⟨v, h⟩
    · rw [at_lacks h] at hx; cases hx
    · rw [at_holds h] at hx
      cases v with
      | float y => exact ⟨y, h⟩
      | _ => cases hx
  refine ⟨⟨fun ⟨a, ha⟩ => ?_, fun ⟨x, y, z, hx, hy, hz⟩ => ⟨⟨x, y, z⟩, ?_⟩⟩, ⟨fun ⟨a, ha⟩ => ?_, fun ⟨r, i, hr, hi⟩ => ⟨(r, i), ?_⟩⟩⟩
  · have ha : ((at' m c!"x").bind fun v => (asFloat v).bind fun x => (at' m c!"y").bind fun v => (asFloat v).bind fun y =>
        (at' m c!"z").bind fun v => (asFloat v).bind fun z => .ok (⟨x, y, z⟩ : Axis F)) = .ok a := ha
    obtain ⟨v1, h1, ha⟩ := Res.bind_eq_ok.1 ha
    obtain ⟨x, h2, ha⟩ := Res.bind_eq_ok.1 ha
    obtain ⟨v2, h3, ha⟩ := Res.bind_eq_ok.1 ha
    obtain ⟨y, h4, ha⟩ := Res.bind_eq_ok.1 ha
    obtain ⟨v3, h5, ha⟩ := Res.bind_eq_ok.1 ha
    obtain ⟨z, h6, ha⟩ := Res.bind_eq_ok.1 ha
    obtain ⟨x', hx⟩ := key _ ⟨x, by rw [h1]; exact h2⟩
    obtain ⟨y', hy⟩ := key _ ⟨y, by rw [h3]; exact h4⟩
    obtain ⟨z', hz⟩ := key _ ⟨z, by rw [h5]; exact h6⟩
    exact ⟨x', y', z', hx, hy, hz⟩
  · simp [readAxis, at_holds hx, at_holds hy, at_holds hz, asFloat]
  · have ha : ((at' m c!"r").bind fun v => (asFloat v).bind fun x => (at' m c!"i").bind fun v => (asFloat v).bind fun y =>
        .ok (x, y)) = .ok a := ha
    obtain ⟨v1, h1, ha⟩ := Res.bind_eq_ok.1 ha
    obtain ⟨x, h2, ha⟩ := Res.bind_eq_ok.1 ha
    obtain ⟨v2, h3, ha⟩ := Res.bind_eq_ok.1 ha
    obtain ⟨y, h4, ha⟩ := Res.bind_eq_ok.1 ha
    obtain ⟨x', hx⟩ := key _ ⟨x, by rw [h1]; exact h2⟩
    obtain ⟨y', hy⟩ := key _ ⟨y, by rw [h3]; exact h4⟩
    exact ⟨x', y', hx, hy⟩
  · simp [readComplex, at_holds hr, at_holds hi, asFloat]

/-- C74. A map without a name is an unresolved reference, whatever else is in it. -/
theorem C74_unresolved (nc : NodeCodec) (m : List (Str × Cbor F)) (h : Lacks m c!"name") :
    readInstr nc m = .ok none ∧ readFn nc m = .ok none := by
  simp [readInstr, readFn, count_lacks h]

/-- C74. With a name an instruction is read exactly if the name is a text and its types are there and readable. -/
theorem C74_instruction (nc : NodeCodec) (m : List (Str × Cbor F)) (v : Cbor F) (h : Holds m c!"name" v) :
    ((∀ b, v ≠ .text b) → readInstr nc m = .exn c!"std::runtime_error") ∧
    (∀ b, v = .text b → Lacks m c!"operand_types" → readInstr nc m = .exn c!"std::out_of_range") ∧
    (∀ b w, v = .text b → Holds m c!"operand_types" w → (∀ l, w ≠ .array l) → readInstr nc m = .exn c!"std::runtime_error") ∧
    (∀ b l i, v = .text b → Holds m c!"operand_types" (.array l) →
      (readInstr nc m = .ok i ↔ ∃ ts, i = some ⟨b, ts⟩ ∧
        Spec.Forall2 (fun c t => ∃ bs, c = .binary bs ∧ nc.de bs = .ok t) l ts)) := by
  simp only [readInstr, if_neg (count_holds h), at_holds h]
  refine ⟨fun hv => ?_, ?_, ?_, ?_⟩
  · cases v with
    | text b => exact absurd rfl (hv b)
    | _ => rfl
  · rintro b rfl hl
    simp [asString, at_lacks hl]
  · rintro b w rfl hw hl
    simp only [at_holds hw, asString]
    cases w with
    | array l => exact absurd rfl (hl l)
    | _ => rfl
  · rintro b l i rfl hl
    simp only [at_holds hl, asString, asArray]
    have ht : ∀ (c : Cbor F) t, readType nc c = .ok t ↔ ∃ bs, c = .binary bs ∧ nc.de bs = .ok t := by
      intro c t
      cases c with
      | binary bs =>
        constructor
        · intro h; exact ⟨bs, rfl, h⟩
        · rintro ⟨bs', h1, h2⟩; cases h1; exact h2
      | _ =>
        constructor
        · intro h; cases h
        · rintro ⟨bs', h1, h2⟩; cases h1
    have he : ∀ ts, each (readType nc) l = .ok ts ↔
        Spec.Forall2 (fun c t => ∃ bs, c = .binary bs ∧ nc.de bs = .ok t) l ts := by
      intro ts
      rw [each_ok]
      have : (fun (c : Cbor F) t => readType nc c = .ok t) = (fun c t => ∃ bs, c = .binary bs ∧ nc.de bs = .ok t) := by
        funext c t; exact propext (ht c t)
      rw [this]
    constructor
    · intro h
      have h : ((each (readType nc) l).bind fun ts => .ok (some ⟨b, ts⟩)) = .ok i := h
      obtain ⟨ts, h1, h2⟩ := Res.bind_eq_ok.1 h
      cases h2
      exact ⟨ts, rfl, (he ts).1 h1⟩
    · rintro ⟨ts, rfl, h1⟩
      simp [(he ts).2 h1]

/-- C74. The same for a function, which also needs its return type. -/
theorem C74_function (nc : NodeCodec) (m : List (Str × Cbor F)) (v : Cbor F) (h : Holds m c!"name" v) (f : Option FnData) :
    readFn nc m = .ok f ↔ ∃ b l ts bs t, v = .text b ∧ Holds m c!"param_types" (.array l) ∧
      Spec.Forall2 (fun c t => ∃ bs, c = .binary bs ∧ nc.de bs = .ok t) l ts ∧
      Holds m c!"return_type" (.binary bs) ∧ nc.de bs = .ok t ∧ f = some ⟨b, ts, t⟩ := by
  have ht : ∀ (c : Cbor F) t, readType nc c = .ok t ↔ ∃ bs, c = .binary bs ∧ nc.de bs = .ok t := by
    intro c t
    cases c with
    | binary bs =>
      constructor
      · intro h; exact ⟨bs, rfl, h⟩
      · rintro ⟨bs', h1, h2⟩; cases h1; exact h2
    | _ =>
      constructor
      · intro h; cases h
      · rintro ⟨bs', h1, h2⟩; cases h1
  have he : ∀ (l : List (Cbor F)) ts, each (readType nc) l = .ok ts ↔
      Spec.Forall2 (fun c t => ∃ bs, c = .binary bs ∧ nc.de bs = .ok t) l ts := by
    intro l ts
    rw [each_ok]
    have : (fun (c : Cbor F) t => readType nc c = .ok t) = (fun c t => ∃ bs, c = .binary bs ∧ nc.de bs = .ok t) := by
      funext c t; exact propext (ht c t)
    rw [this]
  simp only [readFn, if_neg (count_holds h), at_holds h]
  constructor
  · intro h1
    have h1 : ((asString v).bind fun name => (at' m c!"param_types").bind fun p => (asArray p).bind fun ar =>
        (each (readType nc) ar).bind fun ts => (at' m c!"return_type").bind fun r => (readType nc r).bind fun t =>
        .ok (some ⟨name, ts, t⟩)) = .ok f := h1
    obtain ⟨b, h2, h1⟩ := Res.bind_eq_ok.1 h1
    obtain ⟨p, h3, h1⟩ := Res.bind_eq_ok.1 h1
    obtain ⟨l, h4, h1⟩ := Res.bind_eq_ok.1 h1
    obtain ⟨ts, h5, h1⟩ := Res.bind_eq_ok.1 h1
    obtain ⟨r, h6, h1⟩ := Res.bind_eq_ok.1 h1
    obtain ⟨t, h7, h1⟩ := Res.bind_eq_ok.1 h1
    cases h1
    obtain ⟨bs, rfl, h8⟩ := (ht r t).1 h7
    have hold : ∀ {k w}, at' m k = .ok w → Holds m k w := by
      intro k w hw
      rcases lacks_or_holds m k with hl | ⟨w', hl⟩
      · rw [at_lacks hl] at hw; cases hw
      · rw [at_holds hl] at hw; cases hw; exact hl
    refine ⟨b, l, ts, bs, t, ?_, ?_, (he l ts).1 h5, hold h6, h8, rfl⟩
    · cases v with
      | text b' => cases h2; rfl
      | _ => cases h2
    · cases p with
      | array l' => cases h4; exact hold h3
      | _ => cases h4
  · rintro ⟨b, l, ts, bs, t, rfl, h1, h2, h3, h4, rfl⟩
    simp [asString, at_holds h1, asArray, (he l ts).2 h2, at_holds h3, (ht _ t).2 ⟨bs, rfl, h4⟩]

/-- C74. Python: a missing entry is a `KeyError`, and complex numbers and unknown classes an `AssertionError`. -/
theorem C74_python (nc : NodeCodec) (m : List (Str × Cbor F)) :
    (Lacks m c!"x" → ∀ t ∈ [PyType.str, .bool, .int, .float, .version], pyRead nc t m = .exn c!"KeyError") ∧
    (Lacks m c!"n" → pyRead nc .instructionRef m = .ok (.instr none)) ∧
    (∀ b, Holds m c!"n" (.text b) → Lacks m c!"t" → pyRead nc .instructionRef m = .exn c!"KeyError") ∧
    pyRead nc .complex m = .exn c!"AssertionError" ∧ pyRead nc .other m = .exn c!"AssertionError" := by
  refine ⟨fun h t ht => ?_, fun h => ?_, fun b hb h => ?_, rfl, rfl⟩
  · have hl : pyAt m c!"x" = .exn c!"KeyError" := by simp [pyAt, lookup_lacks h]
    simp only [List.mem_cons, List.not_mem_nil, or_false] at ht
    rcases ht with rfl | rfl | rfl | rfl | rfl <;> simp [pyRead, hl]
  · simp [pyRead, lookup_lacks h]
  · have hl : pyAt m c!"t" = .exn c!"KeyError" := by simp [pyAt, lookup_lacks h]
    have hn : pyAt m c!"n" = .ok (.text b) := by simp [pyAt, lookup_holds hb]
    simp [pyRead, lookup_holds hb, hn, hl]

/-- Reading an integer as a string, and an instruction without types. -/
example : readStr (F := Int) (writeInt 3) = .exn c!"std::runtime_error" ∧
    readInstr (F := Int) Sample.codec [(c!"name", .text (utf8 c!"X"))] = .exn c!"std::out_of_range" ∧
    readVersion (F := Int) [(c!"x", .array [.int 3, .text []])] = .exn c!"std::runtime_error" :=
  ⟨(C74_class _ (.int 3) ⟨[], [], rfl, nofun⟩).1,
   (C74_instruction Sample.codec _ (.text (utf8 c!"X")) ⟨[], [], rfl, nofun⟩).2.1 _ rfl (by simp [Lacks]),
   rfl⟩

end Qasm
