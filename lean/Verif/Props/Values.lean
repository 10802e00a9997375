import Verif.Spec.Program
import Verif.Spec.Sample
/-!
# Size, type and constness of values (C68, C69)
-/

namespace Qasm

open Spec

variable {F : Type} {fo : FloatOps F}

private theorem const_or (n : ValueNode F) :
    (∃ c : Const F, n = c.node) ∨ (∃ x, n = .variableRef x) ∨ ∃ x is, n = .indexRef x is := by
  cases n with
  | constBool b => exact .inl ⟨.bool b, rfl⟩
  | constInt i => exact .inl ⟨.int i, rfl⟩
  | constFloat f => exact .inl ⟨.float f, rfl⟩
  | variableRef x => exact .inr (.inl ⟨x, rfl⟩)
  | indexRef x is => exact .inr (.inr ⟨x, is, rfl⟩)

/-- C68. The size of a value: 1 for a constant, the declared size for a variable, the number of indices for an index reference. -/
theorem C68_size_of (l : Option Loc) :
    (∀ c : Const F, Values.sizeOf ⟨c.node, l⟩ = 1) ∧
    (∀ x, Values.sizeOf (F := F) ⟨.variableRef x, l⟩ = x.typ.size.toInt) ∧
    (∀ x is, Values.sizeOf (F := F) ⟨.indexRef x is, l⟩ = is.length) :=
  ⟨fun c => by cases c <;> rfl, fun _ => rfl, fun _ _ => rfl⟩

private theorem indices_length {D : List VarLink} {ixs : List (IndexEntry F)} {is : List (Int64 × Option Loc)}
    (h : EvalIndices fo D ixs is) (hne : ixs ≠ []) : is ≠ [] := by
  cases h with
  | nil => exact absurd rfl hne
  | cons he ht =>
    intro hn
    have h0 := (List.append_eq_nil_iff.1 hn).1
    subst h0
    cases he with
    | range _ _ _ _ hr =>
      obtain ⟨hle, hm, _⟩ := hr
      have := congrArg List.length hm
      simp at this
      omega

private theorem denotes_mem {D : List VarLink} {name : Str} {x : VarLink} (h : Denotes fo D name (.variableRef x)) : x ∈ D := by
  generalize hn : ValueNode.variableRef x = n at h
  cases h with
  | const hc => rename_i c; cases c <;> simp [Const.node] at hn
  | var _ hx _ => cases hn; exact hx

private theorem eval_var_mem {D : List VarLink} {e : Expr F} {x : VarLink} (h : Eval fo D e (.variableRef x)) : x ∈ D := by
  generalize hn : ValueNode.variableRef x = n at h
  cases h with
  | ident h => subst hn; exact denotes_mem h
  | boolLit | intLit | floatLit | index => simp at hn
  | call _ _ => rename_i r _ _; cases r <;> simp [Const.node] at hn
  | un _ _ => rename_i r _ _; cases r <;> simp [Const.node] at hn
  | bin _ _ _ => rename_i r _ _ _; cases r <;> simp [Const.node] at hn
  | tern _ _ _ _ => rename_i r _ _ _ _; cases r <;> simp [Const.node] at hn

private theorem eval_index {D : List VarLink} {e : Expr F} {x : VarLink} {is} (h : Eval fo D e (.indexRef x is)) :
    ∃ l e' ixs, e = .index l e' ixs ∧ Eval fo D e' (.variableRef x) ∧ (x.typ.kind = .qubitArray ∨ x.typ.kind = .bitArray) ∧
      EvalIndices fo D ixs is := by
  generalize hn : ValueNode.indexRef x is = n at h
  cases h with
  | ident h =>
    cases h with
    | const hc => rename_i c; cases c <;> simp [Const.node] at hn
    | var => simp at hn
  | index h1 h2 h3 _ => cases hn; exact ⟨_, _, _, rfl, h1, h2, h3⟩
  | boolLit | intLit | floatLit => simp at hn
  | call _ _ => rename_i r _ _; cases r <;> simp [Const.node] at hn
  | un _ _ => rename_i r _ _; cases r <;> simp [Const.node] at hn
  | bin _ _ _ => rename_i r _ _ _; cases r <;> simp [Const.node] at hn
  | tern _ _ _ _ => rename_i r _ _ _ _; cases r <;> simp [Const.node] at hn

/-- C68. Every value an expression of the language denotes has at least one element. -/
theorem C68_size_of_pos (D : List VarLink) (hD : DeclsOk D) (e : Expr F) (n : ValueNode F) (l : Option Loc)
    (hne : ∀ l e' , e ≠ .index l e' []) (h : Eval fo D e n) : 1 ≤ Values.sizeOf ⟨n, l⟩ := by
  rcases const_or n with ⟨c, rfl⟩ | ⟨x, rfl⟩ | ⟨x, is, rfl⟩
  · cases c <;> exact Int.le_refl 1
  · have hx := eval_var_mem h
    show 1 ≤ x.typ.size.toInt
    rcases hD.kinds x hx with ⟨_, h1⟩ | ⟨_, h1⟩
    · rw [h1]; decide
    · omega
  · obtain ⟨l', e', ixs, rfl, _, _, h3⟩ := eval_index h
    have := indices_length h3 (fun h0 => hne l' e' (by rw [h0]))
    have := List.length_pos_iff.2 this
    show (1 : Int) ≤ is.length
    omega

/-- C68. The type of a value: the type of a constant by its class, the declared type for a variable, the element type for a reference
to one element of an array, and the type of the array for a reference to another number of elements. Never an exception for a value
an expression of the language denotes. -/
theorem C68_type_of (D : List VarLink) (e : Expr F) (n : ValueNode F) (l : Option Loc) (h : Eval fo D e n) :
    ∃ t, Values.typeOf ⟨n, l⟩ = .ok t ∧ kindOf n = some t.kind ∧
      (∀ x, n = .variableRef x → t = x.typ) ∧
      (∀ x is, n = .indexRef x is → is.length ≠ 1 → t = x.typ) ∧
      (∀ x i, n = .indexRef x [i] → t.kind = .qubit ∧ x.typ.kind = .qubitArray ∨ t.kind = .bit ∧ x.typ.kind = .bitArray) := by
  rcases const_or n with ⟨c, rfl⟩ | ⟨x, rfl⟩ | ⟨x, is, rfl⟩
  · cases c with
    | bool b => exact ⟨_, rfl, rfl, fun _ h => by simp [Const.node] at h, fun _ _ h => by simp [Const.node] at h,
        fun _ _ h => by simp [Const.node] at h⟩
    | int b => exact ⟨_, rfl, rfl, fun _ h => by simp [Const.node] at h, fun _ _ h => by simp [Const.node] at h,
        fun _ _ h => by simp [Const.node] at h⟩
    | float b => exact ⟨_, rfl, rfl, fun _ h => by simp [Const.node] at h, fun _ _ h => by simp [Const.node] at h,
        fun _ _ h => by simp [Const.node] at h⟩
  · exact ⟨_, rfl, rfl, fun _ h => by cases h; rfl, fun _ _ h => by simp at h, fun _ _ h => by simp at h⟩
  · obtain ⟨l', e', ixs, rfl, _, h2, _⟩ := eval_index h
    match is with
    | [] => exact ⟨x.typ, rfl, rfl, fun _ h => by simp at h, fun _ _ h _ => by cases h; rfl, fun _ _ h => by simp at h⟩
    | [i] =>
      rcases h2 with h2 | h2
      · refine ⟨.bare .qubit, ?_, ?_, fun _ h => by simp at h, fun _ _ h hl => by cases h; simp at hl, fun _ _ h => by cases h; exact .inl ⟨rfl, h2⟩⟩
        · simp [Values.typeOf, Values.sizeOf, Values.elementTypeOf, Types.typeCheck, h2, Ty.bare]
        · simp [kindOf, elementKind, h2, Ty.bare]
      · refine ⟨.bare .bit, ?_, ?_, fun _ h => by simp at h, fun _ _ h hl => by cases h; simp at hl, fun _ _ h => by cases h; exact .inr ⟨rfl, h2⟩⟩
        · simp [Values.typeOf, Values.sizeOf, Values.elementTypeOf, Types.typeCheck, h2, Ty.bare]
        · simp [kindOf, elementKind, h2, Ty.bare]
    | i :: j :: is =>
      refine ⟨x.typ, ?_, rfl, fun _ h => by simp at h, fun _ _ h _ => by cases h; rfl, fun _ _ h => by simp at h⟩
      have : ¬ ((is.length : Int) + 1 + 1 = 1) := by omega
      simp [Values.typeOf, Values.sizeOf, this]

/-- C68. The element type of any type but an array is an exception. -/
theorem C68_element_type (t : Ty) :
    match elementKind t.kind with
    | some k => ∃ e, Values.elementTypeOf t = .ok e ∧ e.kind = k
    | none => Values.elementTypeOf t = .exn c!"std::runtime_error" := by
  obtain ⟨k, s⟩ := t
  cases k <;> simp [elementKind, Values.elementTypeOf, Types.typeCheck, Ty.bare]

/-- C68. Requiring a value to be constant: constants pass, and references are an error at the position of the value. -/
theorem C68_check_const (v : Value F) :
    ((∃ c : Const F, v.node = c.node) ∧ Values.checkConst v = .ok ()) ∨
    ((∀ c : Const F, v.node ≠ c.node) ∧
      Values.checkConst v = .err (Err.mkNode c!"dynamic values are not supported here" v.loc)) := by
  obtain ⟨n, l⟩ := v
  cases n with
  | constBool b => exact .inl ⟨⟨.bool b, rfl⟩, rfl⟩
  | constInt i => exact .inl ⟨⟨.int i, rfl⟩, rfl⟩
  | constFloat f => exact .inl ⟨⟨.float f, rfl⟩, rfl⟩
  | variableRef x => exact .inr ⟨fun c => by cases c <;> simp [Const.node], rfl⟩
  | indexRef x is => exact .inr ⟨fun c => by cases c <;> simp [Const.node], rfl⟩

/-- C68. Requiring several values to be constant: the error is about the first that is not. -/
theorem C68_check_const_all (vs : List (Value F)) :
    ((∀ v ∈ vs, ∃ c : Const F, v.node = c.node) ∧ Values.checkConstAll vs = .ok ()) ∨
    (∃ before v after, vs = before ++ v :: after ∧ (∀ w ∈ before, ∃ c : Const F, w.node = c.node) ∧
      (∀ c : Const F, v.node ≠ c.node) ∧
      Values.checkConstAll vs = .err (Err.mkNode c!"dynamic values are not supported here" v.loc)) := by
  induction vs with
  | nil => exact .inl ⟨by simp, rfl⟩
  | cons v vs ih =>
    rcases C68_check_const v with ⟨hc, h⟩ | ⟨hc, h⟩
    · rcases ih with ⟨h1, h2⟩ | ⟨b, w, a, rfl, h1, h2, h3⟩
      · exact .inl ⟨by simpa using ⟨hc, h1⟩, by rw [Values.checkConstAll, h]; exact h2⟩
      · exact .inr ⟨v :: b, w, a, rfl, by simpa using ⟨hc, h1⟩, h2, by rw [Values.checkConstAll, h]; exact h3⟩
    · exact .inr ⟨[], v, vs, rfl, by simp, hc, by rw [Values.checkConstAll, h]; rfl⟩

/-- The types of the values: the type of each, in order. -/
theorem C68_types_of (vs : List (Value F)) (ts : List Ty) :
    Values.typesOf vs = .ok ts ↔ Forall2 (fun v t => Values.typeOf v = .ok t) vs ts := by
  induction vs generalizing ts with
  | nil =>
    constructor
    · intro h; cases h; exact .nil
    · intro h; cases h; rfl
  | cons v vs ih =>
    constructor
    · intro h
      rw [Values.typesOf] at h
      cases hv : Values.typeOf v with
      | ok t =>
        rw [hv, Res.bind_ok] at h
        cases hs : Values.typesOf vs with
        | ok us => rw [hs, Res.bind_ok] at h; cases h; exact .cons hv ((ih _).1 hs)
        | _ => rw [hs] at h; simp at h
      | _ => rw [hv] at h; simp at h
    · intro h
      cases h with
      | cons h1 h2 => rw [Values.typesOf, h1, Res.bind_ok, (ih _).2 h2]; rfl

/-- C69. Exactly when the size of the type of a value is the size of the value. -/
theorem C69_size_of_type_partial (D : List VarLink) (hD : DeclsOk D) (e : Expr F) (n : ValueNode F) (l : Option Loc) (h : Eval fo D e n)
    (t : Ty) (ht : Values.typeOf ⟨n, l⟩ = .ok t) :
    (Types.sizeOf t).toInt = Values.sizeOf ⟨n, l⟩ ↔
      (∃ x, n = .variableRef x) ∨ (∃ x is, n = .indexRef x is ∧ is.length ≠ 1 ∧ (is.length : Int) = x.typ.size.toInt) := by
  obtain ⟨t', ht', -, h1, h2, h3⟩ := C68_type_of D e n l h
  rw [ht] at ht'
  cases ht'
  rcases const_or n with ⟨c, rfl⟩ | ⟨x, rfl⟩ | ⟨x, is, rfl⟩
  · cases c <;> (cases ht; simp [Const.node, Types.sizeOf, Ty.bare, Values.sizeOf])
  · rw [h1 x rfl]; simp [Types.sizeOf, Values.sizeOf]
  · by_cases hl : is.length = 1
    · match is, hl with
      | [i], _ =>
        have : t.size = 0 := by
          obtain ⟨l', e', ixs, rfl, _, hk, _⟩ := eval_index h
          rcases hk with hk | hk <;>
            (simp [Values.typeOf, Values.sizeOf, Values.elementTypeOf, Types.typeCheck, hk, Ty.bare] at ht; rw [← ht])
        simp [Types.sizeOf, Values.sizeOf, this]
    · rw [h2 x is rfl hl]
      simp only [Types.sizeOf, Values.sizeOf]
      constructor
      · intro he; exact .inr ⟨x, is, rfl, hl, he.symm⟩
      · rintro (⟨y, hy⟩ | ⟨y, js, hy, _, he⟩)
        · cases hy
        · cases hy; exact he.symm

/-- C69 does not hold: the type of `1` has size 0, and so has that of `q[3]`; that of `q[0, 1]` has the size of the whole array. -/
theorem C69_refuted (fo : FloatOps F) :
    ∃ (D : List VarLink) (q : VarLink), DeclsOk D ∧ q ∈ D ∧
      (∃ (e : Expr F) (n : ValueNode F) (t : Ty), Eval fo D e n ∧ Values.typeOf ⟨n, none⟩ = .ok t ∧ Values.sizeOf ⟨n, none⟩ = 1 ∧ t.size = 0) ∧
      (∃ (e : Expr F) (is : List (Int64 × Option Loc)) (t : Ty), Eval fo D e (.indexRef q is) ∧
        Values.typeOf (F := F) ⟨.indexRef q is, none⟩ = .ok t ∧ Values.sizeOf (F := F) ⟨.indexRef q is, none⟩ = 1 ∧ t.size = 0) ∧
      (∃ (e : Expr F) (is : List (Int64 × Option Loc)) (t : Ty), Eval fo D e (.indexRef q is) ∧
        Values.typeOf (F := F) ⟨.indexRef q is, none⟩ = .ok t ∧ Values.sizeOf (F := F) ⟨.indexRef q is, none⟩ = 2 ∧ t.size = 5) := by
  have hq : Eval (F := F) fo [⟨0, c!"q", ⟨.qubitArray, 5⟩⟩] (.ident none c!"q") (.variableRef ⟨0, c!"q", ⟨.qubitArray, 5⟩⟩) :=
    .ident (.var (by rfl) (by simp) rfl)
  refine ⟨[⟨0, c!"q", ⟨.qubitArray, 5⟩⟩], ⟨0, c!"q", ⟨.qubitArray, 5⟩⟩, ⟨by simp, by simp, by simp⟩, by simp,
    ⟨.intLit none 1, .constInt 1, _, .intLit _ _, rfl, rfl, rfl⟩,
    ⟨.index none (.ident none c!"q") [.item none (.intLit none 3)], [(3, none)], _, ?_, rfl, rfl, rfl⟩,
    ⟨.index none (.ident none c!"q") [.item none (.intLit none 0), .item none (.intLit none 1)], [(0, none), (1, none)], _, ?_, rfl, rfl, rfl⟩⟩
  · refine .index hq (.inl rfl) (.cons (is := [(3, none)]) (.item (c := .int 3) (.intLit _ _) (.same _)) .nil) ?_
    simp
  · refine .index hq (.inl rfl) (.cons (is := [(0, none)]) (.item (c := .int 0) (.intLit _ _) (.same _))
      (.cons (is := [(1, none)]) (.item (c := .int 1) (.intLit _ _) (.same _)) .nil)) ?_
    simp

/-- `q[0, 1]`, of a register of five qubits, has two elements and the type of an array. -/
example : Values.sizeOf (F := F) ⟨.indexRef ⟨0, c!"q", ⟨.qubitArray, 5⟩⟩ [(0, none), (1, none)], none⟩ = 2 ∧
    Values.typeOf (F := F) ⟨.indexRef ⟨0, c!"q", ⟨.qubitArray, 5⟩⟩ [(0, none), (1, none)], none⟩ = .ok ⟨.qubitArray, 5⟩ ∧
    Values.checkConst (F := F) ⟨.indexRef ⟨0, c!"q", ⟨.qubitArray, 5⟩⟩ [(0, none), (1, none)], none⟩ =
      .err (Err.mkNode c!"dynamic values are not supported here" none) := ⟨rfl, rfl, rfl⟩

end Qasm
