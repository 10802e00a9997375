import Verif.Lemmas.ConstEval
import Verif.Spec.Expr
/-!
# Helper lemmas: the expression visitor against the specification of expressions
-/

namespace Qasm

open Spec Sem

variable {F : Type}

/-- The state of the analyser's scope stack corresponds to the declarations `D` (most recent first). -/
structure EnvOk (fo : FloatOps F) (D : List VarLink) (scopes : List (Scope F)) : Prop where
  decls : DeclsOk D
  scope : ∃ s, scopes = [s] ∧ s.fnTable = defaultFns fo ∧ s.instructionTable = defaultInstrs ∧
    s.variableTable = D.map (fun x => (x.name, ⟨.variableRef x, none⟩)) ++ defaultVars fo

theorem find_append (t1 t2 : VariableTable F) (name : Str) :
    VariableTable.find (t1 ++ t2) name = (VariableTable.find t1 name).or (VariableTable.find t2 name) := by
  induction t1 with
  | nil => rfl
  | cons e t1 ih =>
    obtain ⟨n, v⟩ := e
    simp only [List.cons_append, VariableTable.find]
    split <;> simp_all

theorem find_decls (D : List VarLink) (name : Str) :
    VariableTable.find (D.map (fun x => (x.name, (⟨.variableRef x, none⟩ : Value F)))) name =
      (D.find? fun x => x.name = name).map fun x => ⟨.variableRef x, none⟩ := by
  induction D with
  | nil => rfl
  | cons x D ih =>
    simp only [List.map_cons, VariableTable.find, List.find?_cons]
    by_cases h : x.name = name <;> simp [h, ih]

theorem find_defaultVars (fo : FloatOps F) (name : Str) :
    VariableTable.find (defaultVars fo) name = (builtin fo name).map fun c => ⟨c.node, none⟩ := by
  simp only [defaultVars, VariableTable.find, builtin]
  by_cases h1 : c!"tau" = name
  · subst h1; rfl
  by_cases h2 : c!"eu" = name
  · subst h2; rfl
  by_cases h3 : c!"pi" = name
  · subst h3; rfl
  by_cases h4 : c!"false" = name
  · subst h4; rfl
  by_cases h5 : c!"true" = name
  · subst h5; rfl
  simp [h1, h2, h3, h4, h5, Ne.symm h1, Ne.symm h2, Ne.symm h3, Ne.symm h4, Ne.symm h5]

theorem builtin_none (fo : FloatOps F) {name : Str} :
    name ∉ [c!"true", c!"false", c!"pi", c!"eu", c!"tau"] ↔ builtin fo name = none := by
  unfold builtin
  simp only [List.mem_cons, List.not_mem_nil, or_false, not_or]
  constructor
  · rintro ⟨h1, h2, h3, h4, h5⟩; simp [h1, h2, h3, h4, h5]
  · intro h
    refine ⟨?_, ?_, ?_, ?_, ?_⟩ <;> rintro rfl <;> simp at h

theorem pairwise_unique {D : List VarLink} (h : D.Pairwise fun x y => x.name ≠ y.name) {x y : VarLink}
    (hx : x ∈ D) (hy : y ∈ D) (hn : x.name = y.name) : x = y := by
  induction D with
  | nil => simp at hx
  | cons z D ih =>
    rw [List.pairwise_cons] at h
    rcases List.mem_cons.mp hx with hx' | hx' <;> rcases List.mem_cons.mp hy with hy' | hy'
    · rw [hx', hy']
    · subst hx'; exact absurd hn (h.1 y hy')
    · subst hy'; exact absurd hn.symm (h.1 x hx')
    · exact ih h.2 hx' hy'

theorem denotes_det {fo : FloatOps F} {D : List VarLink} (hD : DeclsOk D) {name : Str} {n m : ValueNode F}
    (h : Denotes fo D name n) (h' : Denotes fo D name m) : n = m := by
  cases h with
  | const h1 =>
    cases h' with
    | const h2 => rw [h1] at h2; rw [Option.some.inj h2]
    | var h2 => rw [h1] at h2; cases h2
  | var h1 hx hn =>
    cases h' with
    | const h2 => rw [h1] at h2; cases h2
    | var h2 hy hn' => rw [pairwise_unique hD.names hx hy (hn.trans hn'.symm)]

theorem resolveVariable_spec {fo : FloatOps F} {D : List VarLink} {scopes : List (Scope F)} (henv : EnvOk fo D scopes)
    (name : Str) :
    (∃ n, Denotes fo D name n ∧ Analyzer.resolveVariable scopes name = .ok ⟨n, none⟩) ∨
    ((¬∃ n, Denotes fo D name n) ∧ Analyzer.resolveVariable scopes name =
      .err ⟨c!"failed to resolve variable '" ++ name ++ c!"'", none⟩) := by
  obtain ⟨s, rfl, h1, h2, h3⟩ := henv.scope
  have hr : s.variableTable.find name = ((D.find? fun x => x.name = name).map fun x => (⟨.variableRef x, none⟩ : Value F)).or
      ((builtin fo name).map fun c => ⟨c.node, none⟩) := by
    rw [h3, find_append, find_decls, find_defaultVars]
  cases hf : D.find? (fun x => x.name = name) with
  | some x =>
    left
    have hx := List.mem_of_find?_eq_some hf
    have hn : x.name = name := by simpa using List.find?_some hf
    refine ⟨_, .var ?_ hx hn, ?_⟩
    · rw [← hn]; exact (builtin_none fo).mp (henv.decls.notBuiltin x hx)
    · simp [Analyzer.resolveVariable, VariableTable.resolve, hr, hf]
  | none =>
    cases hb : builtin fo name with
    | some c =>
      left
      exact ⟨_, .const hb, by simp [Analyzer.resolveVariable, VariableTable.resolve, hr, hf, hb]⟩
    | none =>
      right
      refine ⟨?_, by simp [Analyzer.resolveVariable, VariableTable.resolve, hr, hf, hb, Err.mk0, Err.mkNode, Err.context, Err.normMsg]⟩
      rintro ⟨n, hn⟩
      cases hn with
      | const h => rw [hb] at h; cases h
      | var h hx hxn =>
        rw [List.find?_eq_none] at hf
        exact hf _ hx (by simp [hxn])

/-- What expressions denote: a constant, or a reference of a register kind. -/
def GoodNode (n : ValueNode F) : Prop :=
  (∃ c : Const F, n = c.node) ∨ ∃ k, kindOf n = some k ∧ RegisterKind k

theorem good_typed {n : ValueNode F} (h : GoodNode n) : kindOf n ≠ none := by
  rcases h with ⟨c, rfl⟩ | ⟨k, h, _⟩
  · rw [kindOf_node]; simp
  · rw [h]; simp

theorem eval_good {fo : FloatOps F} {D : List VarLink} (hD : DeclsOk D) {e : Expr F} {n : ValueNode F}
    (h : Eval fo D e n) : GoodNode n := by
  cases h with
  | boolLit l b => exact .inl ⟨.bool b, rfl⟩
  | intLit l i => exact .inl ⟨.int i, rfl⟩
  | floatLit l f => exact .inl ⟨.float f, rfl⟩
  | ident hd =>
    cases hd with
    | const _ => exact .inl ⟨_, rfl⟩
    | @var x _ hx _ =>
      refine .inr ⟨x.typ.kind, rfl, ?_⟩
      rcases hD.kinds x hx with ⟨h | h, _⟩ | ⟨h | h, _⟩ <;> simp [RegisterKind, h]
  | @index l e ixs x is he hk hi hr =>
    right
    rcases is with _ | ⟨i, _ | ⟨j, is⟩⟩
    · exact ⟨_, rfl, by rcases hk with h | h <;> simp [RegisterKind, h]⟩
    · rcases hk with h | h
      · exact ⟨.qubit, by simp [kindOf, h, elementKind], by simp [RegisterKind]⟩
      · exact ⟨.bit, by simp [kindOf, h, elementKind], by simp [RegisterKind]⟩
    · exact ⟨_, rfl, by rcases hk with h | h <;> simp [RegisterKind, h]⟩
  | call => exact .inl ⟨_, rfl⟩
  | un => exact .inl ⟨_, rfl⟩
  | bin => exact .inl ⟨_, rfl⟩
  | tern => exact .inl ⟨_, rfl⟩

/-- Every list of good nodes consists of constants or contains a register reference. -/
theorem good_split (vs : List (Value F)) (h : ∀ v ∈ vs, GoodNode v.node) :
    (∃ cs : List (Const F), vs.map (·.node) = cs.map Const.node) ∨
    ∃ v ∈ vs, ∃ k, kindOf v.node = some k ∧ RegisterKind k := by
  induction vs with
  | nil => exact .inl ⟨[], rfl⟩
  | cons v vs ih =>
    rcases h v (by simp) with ⟨c, hc⟩ | ⟨k, hk⟩
    · rcases ih (fun w hw => h w (by simp [hw])) with ⟨cs, hcs⟩ | ⟨w, hw, hk⟩
      · exact .inl ⟨c :: cs, by simp [hc, hcs]⟩
      · exact .inr ⟨w, by simp [hw], hk⟩
    · exact .inr ⟨v, by simp, k, hk⟩

theorem not_register_const (c : Const F) {k : Kind} (h : kindOf c.node = some k) : ¬ RegisterKind k := by
  rw [kindOf_node] at h
  have h := Option.some.inj h
  subst h
  cases c <;> simp [RegisterKind, Const.kind]

/-- Calling a function of the default analyser. -/
theorem callFunction_spec' {fo : FloatOps F} {D : List VarLink} {scopes : List (Scope F)} (henv : EnvOk fo D scopes)
    (name : Str) (vs : List (Value F)) (h : ∀ v ∈ vs, GoodNode v.node) :
    (∃ (fn : Fn) (cs : List (Const F)) (r : Const F), vs.map (·.node) = cs.map Const.node ∧ fn.name = name ∧
      Applies fo fn cs (some r) ∧ callFunction fo scopes name vs = .ok ⟨r.node, none⟩) ∨
    (∃ (fn : Fn) (cs : List (Const F)), vs.map (·.node) = cs.map Const.node ∧ fn.name = name ∧
      Applies fo fn cs none ∧ callFunction fo scopes name vs = .ub) ∨
    ((¬∃ (fn : Fn) (cs : List (Const F)) (o : Option (Const F)), vs.map (·.node) = cs.map Const.node ∧ fn.name = name ∧
      Applies fo fn cs o) ∧ ∃ e : Err, e.location = none ∧ callFunction fo scopes name vs = .err e ∧ CallMessage fo name vs e) := by
  obtain ⟨s, rfl, h1, h2, h3⟩ := henv.scope
  have hcall : callFunction fo [s] name vs = (FnTable.resolve fo (defaultFns fo) name vs).bind fun
      | some v => .ok v
      | none => .err (Err.mk0 c!"function implementation returned empty value") := by
    simp only [callFunction, Analyzer.resolveFunction, List.getLast?_singleton, h1]
    congr 1
  rcases good_split vs h with ⟨cs, hcs⟩ | ⟨v, hv, k, hk, hr⟩
  · have hinj : ∀ cs' : List (Const F), vs.map (·.node) = cs'.map Const.node → cs' = cs := by
      intro cs' h'
      rw [hcs] at h'
      exact (List.map_inj_right (fun _ _ => node_inj)).mp h'.symm
    rcases resolve_consts fo name vs cs hcs with ⟨fn, out, hn, ha, hres⟩ | ⟨hno, e, he, hres, hmsg⟩
    · cases out with
      | some r => exact .inl ⟨fn, cs, r, hcs, hn, ha, by rw [hcall, hres]; rfl⟩
      | none => exact .inr (.inl ⟨fn, cs, hcs, hn, ha, by rw [hcall, hres]; rfl⟩)
    · refine .inr (.inr ⟨?_, e, he, by rw [hcall, hres]; rfl, hmsg⟩)
      rintro ⟨fn, cs', o, hc', hn, ha⟩
      rw [hinj cs' hc'] at ha
      exact hno fn o hn ha
  · right; right
    obtain ⟨e, he, hres, hmsg⟩ := resolve_register fo name vs (fun v hv => good_typed (h v hv)) v hv k hk hr
    refine ⟨?_, e, he, by rw [hcall, hres]; rfl, hmsg⟩
    rintro ⟨fn, cs, o, hcs, _, _⟩
    have : v.node ∈ vs.map (·.node) := List.mem_map_of_mem hv
    rw [hcs] at this
    obtain ⟨c, _, hc⟩ := List.mem_map.mp this
    rw [← hc] at hk
    exact not_register_const c hk hr

/-- Calling a function of the default analyser, without the message. -/
theorem callFunction_spec {fo : FloatOps F} {D : List VarLink} {scopes : List (Scope F)} (henv : EnvOk fo D scopes)
    (name : Str) (vs : List (Value F)) (h : ∀ v ∈ vs, GoodNode v.node) :
    (∃ (fn : Fn) (cs : List (Const F)) (r : Const F), vs.map (·.node) = cs.map Const.node ∧ fn.name = name ∧
      Applies fo fn cs (some r) ∧ callFunction fo scopes name vs = .ok ⟨r.node, none⟩) ∨
    (∃ (fn : Fn) (cs : List (Const F)), vs.map (·.node) = cs.map Const.node ∧ fn.name = name ∧
      Applies fo fn cs none ∧ callFunction fo scopes name vs = .ub) ∨
    ((¬∃ (fn : Fn) (cs : List (Const F)) (o : Option (Const F)), vs.map (·.node) = cs.map Const.node ∧ fn.name = name ∧
      Applies fo fn cs o) ∧ ∃ e : Err, e.location = none ∧ callFunction fo scopes name vs = .err e) := by
  rcases callFunction_spec' henv name vs h with h | h | ⟨h1, e, h2, h3, _⟩
  · exact .inl h
  · exact .inr (.inl h)
  · exact .inr (.inr ⟨h1, e, h2, h3⟩)

/-- Version of `callFunction_spec` when the arguments are known constants. -/
theorem callFunction_consts {fo : FloatOps F} {D : List VarLink} {scopes : List (Scope F)} (henv : EnvOk fo D scopes)
    (fn : Fn) (vs : List (Value F)) (cs : List (Const F)) (hcs : vs.map (·.node) = cs.map Const.node)
    (o : Option (Const F)) (ha : Applies fo fn cs o) :
    callFunction fo scopes fn.name vs = match o with | some r => .ok ⟨r.node, none⟩ | none => .ub := by
  obtain ⟨s, rfl, h1, h2, h3⟩ := henv.scope
  rcases resolve_consts fo fn.name vs cs hcs with ⟨fn', out, hn, ha', hres⟩ | ⟨hno, _⟩
  · obtain ⟨rfl, rfl⟩ := applies_det ha ha' hn.symm
    simp only [callFunction, Analyzer.resolveFunction, List.getLast?_singleton, h1, hres]
    cases o <;> rfl
  · exact absurd ha (hno fn o rfl)

theorem un_name (op : UnOp) : c!"operator" ++ unSymbol op = (Fn.un op).name := by cases op <;> rfl
theorem bin_name (op : BinOp) : c!"operator" ++ binSymbol op = (Fn.bin op).name := by cases op <;> rfl

/-! ## Index ranges -/

theorem countUp_toInt (i : Int64) (n : Nat) (h : i.toInt + n ≤ 2 ^ 63) :
    (countUp i n).map Int64.toInt = (List.range n).map fun m : Nat => i.toInt + m := by
  induction n generalizing i with
  | zero => rfl
  | succ n ih =>
    rw [countUp, List.map_cons, List.range_succ_eq_map, List.map_cons]
    by_cases hn : n = 0
    · subst hn; simp [countUp]
    have h1 : (i + 1).toInt = i.toInt + 1 := by
      have := i.le_toInt
      rw [Int64.toInt_add]
      have h2 : Int64.toInt 1 = 1 := by decide
      rw [h2]
      apply Int.bmod_eq_of_le <;> omega
    rw [ih (i + 1) (by rw [h1]; omega), h1]
    simp only [List.map_map]
    congr 1
    · simp
    · apply List.map_congr_left
      intro m _
      simp only [Function.comp_apply]
      omega

theorem rangeList_det {loc : Option Loc} {i j : Int64} {is js : List (Int64 × Option Loc)}
    (h : RangeList loc i j is) (h' : RangeList loc i j js) : is = js := by
  have h2 := h.2.1.trans h'.2.1.symm
  have h3 := h.2.2
  have h4 := h'.2.2
  clear h h'
  induction is generalizing js with
  | nil => cases js with
    | nil => rfl
    | cons => simp at h2
  | cons x is ih => cases js with
    | nil => simp at h2
    | cons y js =>
      simp only [List.map_cons, List.cons.injEq] at h2
      rw [ih h2.2 (fun z hz => h3 z (by simp [hz])) (fun z hz => h4 z (by simp [hz]))]
      have e1 := h3 x (by simp)
      have e2 := h4 y (by simp)
      have e3 := Int64.toInt_inj.mp h2.1
      rw [Prod.ext_iff.mpr ⟨e3, e1.trans e2.symm⟩]

theorem toInt_max : Int64.maxValue.toInt = 2 ^ 63 - 1 := by decide

theorem indexRange_spec (loc : Option Loc) (i j : Int64) :
    (i.toInt ≤ j.toInt ∧ j.toInt < 2 ^ 63 - 1 ∧ ∃ is, RangeList loc i j is ∧ indexRange loc i j = .ok is) ∨
    (i.toInt ≤ j.toInt ∧ j.toInt = 2 ^ 63 - 1 ∧ indexRange loc i j = .ub) ∨
    (j.toInt < i.toInt ∧ indexRange loc i j = .err ⟨c!"last index is lower than first index", loc⟩) := by
  have hj := j.toInt_lt
  unfold indexRange
  by_cases h1 : i > j
  · right; right
    rw [if_pos h1]
    refine ⟨Int64.lt_iff_toInt_lt.mp h1, ?_⟩
    simp [Err.mkNode, Err.context, Err.normMsg]
  · have h1' : i.toInt ≤ j.toInt := by
      have := mt Int64.lt_iff_toInt_lt.mpr h1
      omega
    rw [if_neg h1]
    by_cases h2 : j = Int64.maxValue
    · right; left
      rw [if_pos h2]
      exact ⟨h1', by rw [h2]; exact toInt_max, rfl⟩
    · left
      rw [if_neg h2]
      have h3 : j.toInt ≠ 2 ^ 63 - 1 := by
        intro h; apply h2; apply Int64.toInt_inj.mp; rw [h, toInt_max]
      refine ⟨h1', by omega, _, ⟨h1', ?_, ?_⟩, rfl⟩
      · rw [List.map_map]
        exact countUp_toInt i _ (by omega)
      · intro x hx
        obtain ⟨y, _, rfl⟩ := List.mem_map.mp hx
        rfl

theorem toConstInt_spec (fo : FloatOps F) (loc : Option Loc) (v : Value F) (h : GoodNode v.node) :
    (∃ (c : Const F) (i : Int64), v.node = c.node ∧ Converts fo c .int (.int i) ∧ toConstInt fo loc (.ok v) = .ok i) ∨
    ((¬∃ (c : Const F) (i : Int64), v.node = c.node ∧ Converts fo c .int (.int i)) ∧
      toConstInt fo loc (.ok v) = .err ⟨c!"expected an integer", loc⟩) := by
  obtain ⟨n, l⟩ := v
  simp only [toConstInt, Res.bind_ok]
  rcases promote_spec fo ⟨n, l⟩ (.bare .int) (good_typed h) with ⟨w, h1, h2⟩ | ⟨h1, h2⟩
  · left
    rcases h with ⟨c, rfl⟩ | ⟨k, hk, hr⟩
    · have hw : ∃ c', Converts fo c .int c' ∧ w = ⟨c'.node, l⟩ := by
        have hwd : ∃ c', Converts fo c .int c' := by
          apply widens_converts
          obtain ⟨cs', g1, g2, g3⟩ := fits_consts (cs := [c]) rfl (Fits.cons h2 .nil)
          rcases cs' with _ | ⟨c', _ | _⟩ <;> simp at g1
          cases g3 with
          | cons g3 _ =>
            simp [Ty.bare] at g2
            rw [← g2]
            exact converts_widens g3
        obtain ⟨c', hc'⟩ := hwd
        exact ⟨c', hc', promotesTo_det h2 (.const l hc')⟩
      obtain ⟨c', hc', rfl⟩ := hw
      obtain ⟨i, rfl⟩ := kind_int (converts_kind hc')
      exact ⟨c, i, rfl, hc', by rw [h1]; rfl⟩
    · have := (promotesTo_register hk hr h2).1
      simp only [Ty.bare] at this
      subst this
      rcases hr with h | h | h | h <;> cases h
  · right
    refine ⟨?_, by rw [h1]; simp [Err.mkNode, Err.context, Err.normMsg]⟩
    rintro ⟨c, i, rfl, hi⟩
    exact h2 _ (.const l hi)

theorem toConstInt_eval (fo : FloatOps F) (loc : Option Loc) (l : Option Loc) (c : Const F) (i : Int64)
    (h : Converts fo c .int (.int i)) : toConstInt fo loc (.ok ⟨c.node, l⟩) = .ok i := by
  rcases toConstInt_spec fo loc ⟨c.node, l⟩ (.inl ⟨c, rfl⟩) with ⟨c', i', hn, hc, he⟩ | ⟨hno, _⟩
  · cases node_inj hn
    have := converts_det h hc
    simp at this
    rw [he, this]
  · exact absurd ⟨c, i, rfl, h⟩ hno

theorem checkOutOfRange_spec (is : List (Int64 × Option Loc)) (size : Int64) :
    ((∀ i ∈ is, 0 ≤ i.1.toInt ∧ i.1.toInt < size.toInt) ∧ checkOutOfRange is size = .ok ()) ∨
    ((¬ ∀ i ∈ is, 0 ≤ i.1.toInt ∧ i.1.toInt < size.toInt) ∧ ∃ e : Err, e.location = none ∧ checkOutOfRange is size = .err e) := by
  induction is with
  | nil => left; simp [checkOutOfRange]
  | cons i is ih =>
    obtain ⟨i, l⟩ := i
    have h0 : Int64.toInt 0 = 0 := by decide
    simp only [checkOutOfRange]
    by_cases h : i < 0 ∨ i ≥ size
    · right
      rw [if_pos h]
      refine ⟨?_, _, rfl, rfl⟩
      intro hc
      have := hc (i, l) (by simp)
      simp only at this
      rcases h with h | h
      · have := Int64.lt_iff_toInt_lt.mp h; omega
      · have := Int64.le_iff_toInt_le.mp h; omega
    · rw [if_neg h]
      have h1 : 0 ≤ i.toInt ∧ i.toInt < size.toInt := by
        have h1 := mt (fun h => Or.inl (Int64.lt_iff_toInt_lt.mpr h)) h
        have h2 := mt (fun h => Or.inr (Int64.le_iff_toInt_le.mpr h)) h
        rw [h0] at h1
        omega
      rcases ih with ⟨h2, h3⟩ | ⟨h2, h3⟩
      · left
        refine ⟨?_, h3⟩
        intro x hx
        rcases List.mem_cons.mp hx with rfl | hx
        · exact h1
        · exact h2 x hx
      · right
        exact ⟨fun hc => h2 fun x hx => hc x (by simp [hx]), h3⟩

/-- `visit_index` once its sub-expression denotes a variable of an array kind. -/
theorem indexInto_array (x : VarLink) (l : Option Loc) (hk : x.typ.kind = .qubitArray ∨ x.typ.kind = .bitArray)
    (r : Res Err (List (Int64 × Option Loc))) :
    indexInto (⟨.variableRef x, l⟩ : Value F) r =
      r.bind fun is => (checkOutOfRange is x.typ.size).bind fun _ => .ok ⟨.indexRef x is, none⟩ := by
  rcases hk with h | h <;> simp [indexInto, h, Types.sizeOf]

/-! ## Derivations determine the visitor -/

mutual
theorem visit_of_eval {fo : FloatOps F} {D : List VarLink} {scopes : List (Scope F)} (henv : EnvOk fo D scopes) :
    ∀ {e : Expr F} {n : ValueNode F}, Eval fo D e n → visit fo scopes e = .ok ⟨n, none⟩
  | _, _, .boolLit _ _ => rfl
  | _, _, .intLit _ _ => rfl
  | _, _, .floatLit _ _ => rfl
  | _, _, .ident hd => by
    rw [visit]
    rcases resolveVariable_spec henv _ with ⟨m, h1, h2⟩ | ⟨h1, _⟩
    · rw [h2, denotes_det henv.decls hd h1]
    · exact absurd ⟨_, hd⟩ h1
  | _, _, .index he hk hi hr => by
    rw [visit, visit_of_eval henv he, locate]
    simp only [Res.bind_ok]
    rw [indexInto_array _ _ hk]
    rcases visitIndexList_of_eval henv hi with h1 | ⟨_, i, hi, h1⟩
    · rw [h1, Res.bind_ok]
      rcases checkOutOfRange_spec _ _ with ⟨_, h⟩ | ⟨h, _⟩
      · rw [h]; rfl
      · exact absurd hr h
    · have h2 := hr i hi
      have := Int64.toInt_lt (Ty.size (VarLink.typ ‹_›))
      omega
  | _, _, .call hargs ha => by
    obtain ⟨vs, h1, h2⟩ := visitList_of_evalConsts henv hargs
    rw [visit, h1, Res.bind_ok, callFunction_consts henv _ vs _ h2 _ ha]
  | _, _, .un he ha => by
    rw [visit, visit_of_eval henv he, locate, Res.bind_ok, un_name, callFunction_consts henv _ _ _ _ _ ha]
    rfl
  | _, _, .bin h1 h2 ha => by
    rw [visit, visit_of_eval henv h1, locate, Res.bind_ok, visit_of_eval henv h2, locate, Res.bind_ok, bin_name,
      callFunction_consts henv _ _ _ _ _ ha]
    rfl
  | _, _, .tern h1 h2 h3 ha => by
    rw [visit, visit_of_eval henv h1, locate, Res.bind_ok, visit_of_eval henv h2, locate, Res.bind_ok,
      visit_of_eval henv h3, locate, Res.bind_ok]
    refine callFunction_consts henv .cond _ _ ?_ _ ha
    rfl
theorem visitList_of_evalConsts {fo : FloatOps F} {D : List VarLink} {scopes : List (Scope F)} (henv : EnvOk fo D scopes) :
    ∀ {es : List (Expr F)} {cs : List (Const F)}, EvalConsts fo D es cs →
      ∃ vs, visitList fo scopes es = .ok vs ∧ vs.map (·.node) = cs.map Const.node
  | _, _, .nil => ⟨[], rfl, rfl⟩
  | _, _, .cons h1 h2 => by
    obtain ⟨vs, h3, h4⟩ := visitList_of_evalConsts henv h2
    refine ⟨_, by rw [visitList, visit_of_eval henv h1, locate, Res.bind_ok, h3, Res.bind_ok], ?_⟩
    simp [h4]
theorem visitIndexList_of_eval {fo : FloatOps F} {D : List VarLink} {scopes : List (Scope F)} (henv : EnvOk fo D scopes) :
    ∀ {ixs : List (IndexEntry F)} {is : List (Int64 × Option Loc)}, EvalIndices fo D ixs is →
      visitIndexList fo scopes ixs = .ok is ∨
      (visitIndexList fo scopes ixs = .ub ∧ ∃ i ∈ is, i.1.toInt = 2 ^ 63 - 1)
  | _, _, .nil => .inl rfl
  | _, _, .cons h1 h2 => by
    rcases visitIndexEntry_of_eval henv h1 with h3 | ⟨h3, i, hi, h4⟩
    · rcases visitIndexList_of_eval henv h2 with h5 | ⟨h5, i, hi, h4⟩
      · left; rw [visitIndexList, h3, h5]; rfl
      · right; refine ⟨by rw [visitIndexList, h3, h5]; rfl, i, by simp [hi], h4⟩
    · right; refine ⟨by rw [visitIndexList, h3]; rfl, i, by simp [hi], h4⟩
theorem visitIndexEntry_of_eval {fo : FloatOps F} {D : List VarLink} {scopes : List (Scope F)} (henv : EnvOk fo D scopes) :
    ∀ {x : IndexEntry F} {is : List (Int64 × Option Loc)}, EvalEntry fo D x is →
      visitIndexEntry fo scopes x = .ok is ∨
      (visitIndexEntry fo scopes x = .ub ∧ ∃ i ∈ is, i.1.toInt = 2 ^ 63 - 1)
  | _, _, .item he hc => by
    left; rw [visitIndexEntry, visit_of_eval henv he, toConstInt_eval fo _ _ _ _ hc]; rfl
  | _, _, @EvalEntry.range _ _ _ l a b c d i j is h1 hc h2 hd hr => by
    rw [visitIndexEntry, visit_of_eval henv h1, toConstInt_eval fo _ _ _ _ hc, visit_of_eval henv h2,
      toConstInt_eval fo _ _ _ _ hd, Res.bind_ok, Res.bind_ok]
    rcases indexRange_spec l i j with ⟨_, _, js, h3, h4⟩ | ⟨h3, h4, h5⟩ | ⟨h3, _⟩
    · left; rw [h4, rangeList_det hr h3]
    · right
      refine ⟨h5, ?_⟩
      have hm : j.toInt ∈ is.map (fun i => i.1.toInt) := by
        rw [hr.2.1, List.mem_map]
        exact ⟨(j.toInt - i.toInt).toNat, List.mem_range.mpr (by omega), by omega⟩
      obtain ⟨y, hy, h6⟩ := List.mem_map.mp hm
      exact ⟨y, hy, h6.trans h4⟩
    · have := hr.1; omega
end

theorem indexInto_nonVariable (v : Value F) (h : ∀ x, v.node ≠ .variableRef x) (r : Res Err (List (Int64 × Option Loc))) :
    indexInto v r = .ub := by
  obtain ⟨n, l⟩ := v
  cases n with
  | variableRef x => exact absurd rfl (h x)
  | _ => rfl

mutual
theorem visit_of_undef {fo : FloatOps F} {D : List VarLink} {scopes : List (Scope F)} (henv : EnvOk fo D scopes) :
    ∀ {e : Expr F}, Undef fo D e → visit fo scopes e = .ub
  | _, .indexSub h => by rw [visit, visit_of_undef henv h]; rfl
  | _, .indexNonVariable h hn => by
    rw [visit, visit_of_eval henv h, locate]
    simp only [Res.bind_ok]
    rw [indexInto_nonVariable _ hn]; rfl
  | _, .indexIndices h hk hi => by
    rw [visit, visit_of_eval henv h, locate]
    simp only [Res.bind_ok]
    rw [indexInto_array _ _ hk, visitIndexList_of_undef henv hi]
    rfl
  | _, .callArgs h => by rw [visit, visitList_of_undef henv h]; rfl
  | _, .call hargs ha => by
    obtain ⟨vs, h1, h2⟩ := visitList_of_evalConsts henv hargs
    rw [visit, h1, Res.bind_ok, callFunction_consts henv _ vs _ h2 _ ha]
  | _, .unSub h => by rw [visit, visit_of_undef henv h]; rfl
  | _, .un he ha => by
    rw [visit, visit_of_eval henv he, locate, Res.bind_ok, un_name, callFunction_consts henv _ _ _ _ _ ha]
    rfl
  | _, .binLeft h => by rw [visit, visit_of_undef henv h]; rfl
  | _, .binRight h h2 => by rw [visit, visit_of_eval henv h, locate, Res.bind_ok, visit_of_undef henv h2]; rfl
  | _, .bin h1 h2 ha => by
    rw [visit, visit_of_eval henv h1, locate, Res.bind_ok, visit_of_eval henv h2, locate, Res.bind_ok, bin_name,
      callFunction_consts henv _ _ _ _ _ ha]
    rfl
  | _, .ternCond h => by rw [visit, visit_of_undef henv h]; rfl
  | _, .ternTrue h h2 => by rw [visit, visit_of_eval henv h, locate, Res.bind_ok, visit_of_undef henv h2]; rfl
  | _, .ternFalse h h2 h3 => by
    rw [visit, visit_of_eval henv h, locate, Res.bind_ok, visit_of_eval henv h2, locate, Res.bind_ok,
      visit_of_undef henv h3]; rfl
theorem visitList_of_undef {fo : FloatOps F} {D : List VarLink} {scopes : List (Scope F)} (henv : EnvOk fo D scopes) :
    ∀ {es : List (Expr F)}, UndefList fo D es → visitList fo scopes es = .ub
  | _, .head h => by rw [visitList, visit_of_undef henv h]; rfl
  | _, .tail h h2 => by rw [visitList, visit_of_eval henv h, visitList_of_undef henv h2]; rfl
theorem visitIndexList_of_undef {fo : FloatOps F} {D : List VarLink} {scopes : List (Scope F)} (henv : EnvOk fo D scopes) :
    ∀ {ixs : List (IndexEntry F)}, UndefIndices fo D ixs → visitIndexList fo scopes ixs = .ub
  | _, .head h => by rw [visitIndexList, visitIndexEntry_of_undef henv h]; rfl
  | _, .tail h h2 => by
    rw [visitIndexList, visitIndexList_of_undef henv h2]
    rcases visitIndexEntry_of_eval henv h with h3 | ⟨h3, _⟩ <;> rw [h3] <;> rfl
theorem visitIndexEntry_of_undef {fo : FloatOps F} {D : List VarLink} {scopes : List (Scope F)} (henv : EnvOk fo D scopes) :
    ∀ {x : IndexEntry F}, UndefEntry fo D x → visitIndexEntry fo scopes x = .ub
  | _, .item h => by rw [visitIndexEntry, visit_of_undef henv h]; rfl
  | _, .rangeFirst h => by rw [visitIndexEntry, visit_of_undef henv h]; rfl
  | _, .rangeLast h hc h2 => by
    rw [visitIndexEntry, visit_of_eval henv h, toConstInt_eval fo _ _ _ _ hc, visit_of_undef henv h2]; rfl
  | _, @UndefEntry.rangeEnd _ _ _ l a b i j c d h1 hc h2 hd hle hmax => by
    rw [visitIndexEntry, visit_of_eval henv h1, toConstInt_eval fo _ _ _ _ hc, visit_of_eval henv h2,
      toConstInt_eval fo _ _ _ _ hd, Res.bind_ok, Res.bind_ok]
    rcases indexRange_spec l i j with ⟨_, h3, _⟩ | ⟨_, _, h5⟩ | ⟨h3, _⟩
    · omega
    · exact h5
    · omega
end

theorem good_nodes {fo : FloatOps F} {D : List VarLink} {vs : List (Value F)} {cs : List (Const F)} {es : List (Expr F)}
    (h : Forall2 (fun e v => Eval fo D e v.node) es vs) (hcs : vs.map (·.node) = cs.map Const.node) :
    EvalConsts fo D es cs := by
  induction h generalizing cs with
  | nil =>
    cases cs with
    | nil => exact .nil
    | cons => simp at hcs
  | cons h1 _ ih =>
    cases cs with
    | nil => simp at hcs
    | cons c cs =>
      simp only [List.map_cons, List.cons.injEq] at hcs
      exact .cons (hcs.1 ▸ h1) (ih hcs.2)

theorem forall2_good {fo : FloatOps F} {D : List VarLink} (hD : DeclsOk D) {vs : List (Value F)} {es : List (Expr F)}
    (h : Forall2 (fun e v => Eval fo D e v.node) es vs) : ∀ v ∈ vs, GoodNode v.node := by
  induction h with
  | nil => simp
  | cons h1 _ ih =>
    intro v hv
    rcases List.mem_cons.mp hv with rfl | hv
    · exact eval_good hD h1
    · exact ih v hv

theorem fn_unique {fo : FloatOps F} {fn fn' : Fn} {cs : List (Const F)} {o : Option (Const F)} (h : Applies fo fn cs o)
    (hn : fn.name = fn'.name) (har : ∃ sig ∈ fn'.signatures, sig.length = cs.length) : fn = fn' := by
  obtain ⟨s, _, h1, _⟩ := h
  obtain ⟨s', h2, h3⟩ := har
  refine regFns_unique (fn, s) (sig_regFns fn s h1.1) (fn', s') (sig_regFns fn' s' h2) hn ?_
  rw [selects_length h1, h3, List.length_map]

theorem un_arity (op : UnOp) : ∃ sig ∈ (Fn.un op).signatures, sig.length = 1 := by cases op <;> decide
theorem bin_arity (op : BinOp) : ∃ sig ∈ (Fn.bin op).signatures, sig.length = 2 := by cases op <;> decide

theorem cond_arity : ∃ sig ∈ Fn.cond.signatures, sig.length = 3 := by decide

theorem cond_defined {fo : FloatOps F} (cs : List (Const F)) : ¬ Applies fo .cond cs none := by
  rintro ⟨sig, args, h1, h2, h3, h4⟩
  have hs : sig.length = 3 ∧ sig.head? = some .bool := by
    have : ∀ sig ∈ Fn.cond.signatures, sig.length = 3 ∧ sig.head? = some .bool := by decide
    exact this sig h1.1
  rw [← h2] at hs
  rcases args with _ | ⟨x, _ | ⟨y, _ | ⟨z, _ | _⟩⟩⟩ <;> simp at hs
  obtain ⟨b, rfl⟩ := kind_bool hs
  simp [Fn.meaning] at h4

mutual
/-- The visitor's outcomes: a value the expression denotes, undefined behaviour, or an error. -/
theorem visit_cases {fo : FloatOps F} {D : List VarLink} {scopes : List (Scope F)} (henv : EnvOk fo D scopes) :
    ∀ e : Expr F, (∃ n, visit fo scopes e = .ok ⟨n, none⟩ ∧ Eval fo D e n) ∨
      (visit fo scopes e = .ub ∧ Undef fo D e) ∨ ∃ err, visit fo scopes e = .err err
  | .boolLit _ b => .inl ⟨_, rfl, .boolLit _ _⟩
  | .intLit _ i => .inl ⟨_, rfl, .intLit _ _⟩
  | .floatLit _ f => .inl ⟨_, rfl, .floatLit _ _⟩
  | .ident _ name => by
    rcases resolveVariable_spec henv name with ⟨m, h1, h2⟩ | ⟨_, h2⟩
    · exact .inl ⟨m, by rw [visit, h2], .ident h1⟩
    · exact .inr (.inr ⟨_, by rw [visit, h2]⟩)
  | .index loc e ixs => by
    rcases visit_cases henv e with ⟨n, h1, h2⟩ | ⟨h1, h2⟩ | ⟨err, h1⟩
    · have hv : visit fo scopes (.index loc e ixs) =
          (indexInto ⟨n, e.loc⟩ (visitIndexList fo scopes ixs)).mapErr fun err => err.context loc := by
        rw [visit, h1]; rfl
      by_cases hn : ∀ x, n ≠ .variableRef x
      · right; left
        exact ⟨by rw [hv, indexInto_nonVariable _ hn]; rfl, .indexNonVariable h2 hn⟩
      obtain ⟨x, hx⟩ := Classical.not_forall.mp hn
      have hx := Classical.not_not.mp hx
      subst hx
      by_cases hk : x.typ.kind = .qubitArray ∨ x.typ.kind = .bitArray
      · rw [indexInto_array _ _ hk] at hv
        rcases visitIndexList_cases henv ixs with ⟨is, h3, h4⟩ | ⟨h3, h4⟩ | ⟨err, h3⟩
        · rcases checkOutOfRange_spec is x.typ.size with ⟨h5, h6⟩ | ⟨h5, err, _, h6⟩
          · exact .inl ⟨_, by rw [hv, h3, Res.bind_ok, h6]; rfl, .index h2 hk h4 h5⟩
          · exact .inr (.inr ⟨_, by rw [hv, h3, Res.bind_ok, h6]; rfl⟩)
        · exact .inr (.inl ⟨by rw [hv, h3]; rfl, .indexIndices h2 hk h4⟩)
        · exact .inr (.inr ⟨_, by rw [hv, h3]; rfl⟩)
      · right; right
        rw [not_or] at hk
        refine ⟨_, by rw [hv]; simp only [indexInto]; rw [if_neg (by simp [hk.1, hk.2])]; rfl⟩
    · exact .inr (.inl ⟨by rw [visit, h1]; rfl, .indexSub h2⟩)
    · exact .inr (.inr ⟨_, by rw [visit, h1]; rfl⟩)
  | .call _ name args => by
    rcases visitList_cases henv args with ⟨vs, h1, h2⟩ | ⟨h1, h2⟩ | ⟨err, h1⟩
    · rcases callFunction_spec henv name vs (forall2_good henv.decls h2) with
        ⟨fn, cs, r, g1, rfl, g3, g4⟩ | ⟨fn, cs, g1, rfl, g3, g4⟩ | ⟨_, e, _, g4⟩
      · exact .inl ⟨_, by rw [visit, h1, Res.bind_ok, g4], .call (good_nodes h2 g1) g3⟩
      · exact .inr (.inl ⟨by rw [visit, h1, Res.bind_ok, g4], .call (good_nodes h2 g1) g3⟩)
      · exact .inr (.inr ⟨_, by rw [visit, h1, Res.bind_ok, g4]⟩)
    · exact .inr (.inl ⟨by rw [visit, h1]; rfl, .callArgs h2⟩)
    · exact .inr (.inr ⟨_, by rw [visit, h1]; rfl⟩)
  | .un _ op e => by
    rcases visit_cases henv e with ⟨n, h1, h2⟩ | ⟨h1, h2⟩ | ⟨err, h1⟩
    · have hv : visit fo scopes (.un ‹_› op e) = callFunction fo scopes (Fn.un op).name [⟨n, e.loc⟩] := by
        rw [visit, h1, un_name]; rfl
      have hf : Forall2 (fun e (v : Value F) => Eval fo D e v.node) [e] [⟨n, e.loc⟩] := .cons h2 .nil
      rcases callFunction_spec henv (Fn.un op).name _ (forall2_good henv.decls hf) with
        ⟨fn, cs, r, g1, g2, g3, g4⟩ | ⟨fn, cs, g1, g2, g3, g4⟩ | ⟨_, e, _, g4⟩
      · rcases cs with _ | ⟨c, _ | _⟩ <;> simp at g1
        cases fn_unique g3 g2 (un_arity op)
        exact .inl ⟨_, by rw [hv, g4], .un (g1 ▸ h2) g3⟩
      · rcases cs with _ | ⟨c, _ | _⟩ <;> simp at g1
        cases fn_unique g3 g2 (un_arity op)
        exact .inr (.inl ⟨by rw [hv, g4], .un (g1 ▸ h2) g3⟩)
      · exact .inr (.inr ⟨_, by rw [hv, g4]⟩)
    · exact .inr (.inl ⟨by rw [visit, h1]; rfl, .unSub h2⟩)
    · exact .inr (.inr ⟨_, by rw [visit, h1]; rfl⟩)
  | .bin _ op a b => by
    rcases visit_cases henv a with ⟨n, h1, h2⟩ | ⟨h1, h2⟩ | ⟨err, h1⟩
    · rcases visit_cases henv b with ⟨m, k1, k2⟩ | ⟨k1, k2⟩ | ⟨err, k1⟩
      · have hv : visit fo scopes (.bin ‹_› op a b) = callFunction fo scopes (Fn.bin op).name [⟨n, a.loc⟩, ⟨m, b.loc⟩] := by
          rw [visit, h1, k1, bin_name]; rfl
        have hf : Forall2 (fun e (v : Value F) => Eval fo D e v.node) [a, b] [⟨n, a.loc⟩, ⟨m, b.loc⟩] :=
          .cons h2 (.cons k2 .nil)
        rcases callFunction_spec henv (Fn.bin op).name _ (forall2_good henv.decls hf) with
          ⟨fn, cs, r, g1, g2, g3, g4⟩ | ⟨fn, cs, g1, g2, g3, g4⟩ | ⟨_, e, _, g4⟩
        · rcases cs with _ | ⟨c, _ | ⟨d, _ | _⟩⟩ <;> simp at g1
          cases fn_unique g3 g2 (bin_arity op)
          exact .inl ⟨_, by rw [hv, g4], .bin (g1.1 ▸ h2) (g1.2 ▸ k2) g3⟩
        · rcases cs with _ | ⟨c, _ | ⟨d, _ | _⟩⟩ <;> simp at g1
          cases fn_unique g3 g2 (bin_arity op)
          exact .inr (.inl ⟨by rw [hv, g4], .bin (g1.1 ▸ h2) (g1.2 ▸ k2) g3⟩)
        · exact .inr (.inr ⟨_, by rw [hv, g4]⟩)
      · exact .inr (.inl ⟨by rw [visit, h1, k1]; rfl, .binRight h2 k2⟩)
      · exact .inr (.inr ⟨_, by rw [visit, h1, k1]; rfl⟩)
    · exact .inr (.inl ⟨by rw [visit, h1]; rfl, .binLeft h2⟩)
    · exact .inr (.inr ⟨_, by rw [visit, h1]; rfl⟩)
  | .tern _ a b c => by
    rcases visit_cases henv a with ⟨n, h1, h2⟩ | ⟨h1, h2⟩ | ⟨err, h1⟩
    · rcases visit_cases henv b with ⟨m, k1, k2⟩ | ⟨k1, k2⟩ | ⟨err, k1⟩
      · rcases visit_cases henv c with ⟨p, q1, q2⟩ | ⟨q1, q2⟩ | ⟨err, q1⟩
        · have hv : visit fo scopes (.tern ‹_› a b c) =
              callFunction fo scopes Fn.cond.name [⟨n, a.loc⟩, ⟨m, b.loc⟩, ⟨p, c.loc⟩] := by
            rw [visit, h1, k1, q1]; rfl
          have hf : Forall2 (fun e (v : Value F) => Eval fo D e v.node) [a, b, c] [⟨n, a.loc⟩, ⟨m, b.loc⟩, ⟨p, c.loc⟩] :=
            .cons h2 (.cons k2 (.cons q2 .nil))
          rcases callFunction_spec henv Fn.cond.name _ (forall2_good henv.decls hf) with
            ⟨fn, cs, r, g1, g2, g3, g4⟩ | ⟨fn, cs, g1, g2, g3, g4⟩ | ⟨_, e, _, g4⟩
          · rcases cs with _ | ⟨x, _ | ⟨y, _ | ⟨z, _ | _⟩⟩⟩ <;> simp at g1
            cases fn_unique g3 g2 cond_arity
            exact .inl ⟨_, by rw [hv, g4], .tern (g1.1 ▸ h2) (g1.2.1 ▸ k2) (g1.2.2 ▸ q2) g3⟩
          · rcases cs with _ | ⟨x, _ | ⟨y, _ | ⟨z, _ | _⟩⟩⟩ <;> simp at g1
            cases fn_unique g3 g2 cond_arity
            exact absurd g3 (cond_defined _)
          · exact .inr (.inr ⟨_, by rw [hv, g4]⟩)
        · exact .inr (.inl ⟨by rw [visit, h1, k1, q1]; rfl, .ternFalse h2 k2 q2⟩)
        · exact .inr (.inr ⟨_, by rw [visit, h1, k1, q1]; rfl⟩)
      · exact .inr (.inl ⟨by rw [visit, h1, k1]; rfl, .ternTrue h2 k2⟩)
      · exact .inr (.inr ⟨_, by rw [visit, h1, k1]; rfl⟩)
    · exact .inr (.inl ⟨by rw [visit, h1]; rfl, .ternCond h2⟩)
    · exact .inr (.inr ⟨_, by rw [visit, h1]; rfl⟩)
theorem visitList_cases {fo : FloatOps F} {D : List VarLink} {scopes : List (Scope F)} (henv : EnvOk fo D scopes) :
    ∀ es : List (Expr F), (∃ vs, visitList fo scopes es = .ok vs ∧ Forall2 (fun e v => Eval fo D e v.node) es vs) ∨
      (visitList fo scopes es = .ub ∧ UndefList fo D es) ∨ ∃ err, visitList fo scopes es = .err err
  | [] => .inl ⟨[], rfl, .nil⟩
  | e :: es => by
    rcases visit_cases henv e with ⟨n, h1, h2⟩ | ⟨h1, h2⟩ | ⟨err, h1⟩
    · rcases visitList_cases henv es with ⟨vs, h3, h4⟩ | ⟨h3, h4⟩ | ⟨err, h3⟩
      · exact .inl ⟨_, by rw [visitList, h1, h3]; rfl, .cons h2 h4⟩
      · exact .inr (.inl ⟨by rw [visitList, h1, h3]; rfl, .tail h2 h4⟩)
      · exact .inr (.inr ⟨_, by rw [visitList, h1, h3]; rfl⟩)
    · exact .inr (.inl ⟨by rw [visitList, h1]; rfl, .head h2⟩)
    · exact .inr (.inr ⟨_, by rw [visitList, h1]; rfl⟩)
theorem visitIndexList_cases {fo : FloatOps F} {D : List VarLink} {scopes : List (Scope F)} (henv : EnvOk fo D scopes) :
    ∀ ixs : List (IndexEntry F), (∃ is, visitIndexList fo scopes ixs = .ok is ∧ EvalIndices fo D ixs is) ∨
      (visitIndexList fo scopes ixs = .ub ∧ UndefIndices fo D ixs) ∨ ∃ err, visitIndexList fo scopes ixs = .err err
  | [] => .inl ⟨[], rfl, .nil⟩
  | x :: xs => by
    rcases visitIndexEntry_cases henv x with ⟨is, h1, h2⟩ | ⟨h1, h2⟩ | ⟨err, h1⟩
    · rcases visitIndexList_cases henv xs with ⟨js, h3, h4⟩ | ⟨h3, h4⟩ | ⟨err, h3⟩
      · exact .inl ⟨_, by rw [visitIndexList, h1, h3]; rfl, .cons h2 h4⟩
      · exact .inr (.inl ⟨by rw [visitIndexList, h1, h3]; rfl, .tail h2 h4⟩)
      · exact .inr (.inr ⟨_, by rw [visitIndexList, h1, h3]; rfl⟩)
    · exact .inr (.inl ⟨by rw [visitIndexList, h1]; rfl, .head h2⟩)
    · exact .inr (.inr ⟨_, by rw [visitIndexList, h1]; rfl⟩)
theorem visitIndexEntry_cases {fo : FloatOps F} {D : List VarLink} {scopes : List (Scope F)} (henv : EnvOk fo D scopes) :
    ∀ x : IndexEntry F, (∃ is, visitIndexEntry fo scopes x = .ok is ∧ EvalEntry fo D x is) ∨
      (visitIndexEntry fo scopes x = .ub ∧ UndefEntry fo D x) ∨ ∃ err, visitIndexEntry fo scopes x = .err err
  | .item loc e => by
    rcases visit_cases henv e with ⟨n, h1, h2⟩ | ⟨h1, h2⟩ | ⟨err, h1⟩
    · rcases toConstInt_spec fo e.loc ⟨n, none⟩ (eval_good henv.decls h2) with ⟨c, i, h3, h4, h5⟩ | ⟨_, h5⟩
      · cases h3; exact .inl ⟨_, by rw [visitIndexEntry, h1, h5]; rfl, .item h2 h4⟩
      · exact .inr (.inr ⟨_, by rw [visitIndexEntry, h1, h5]; rfl⟩)
    · exact .inr (.inl ⟨by rw [visitIndexEntry, h1]; rfl, .item h2⟩)
    · exact .inr (.inr ⟨_, by rw [visitIndexEntry, h1]; rfl⟩)
  | .range loc a b => by
    rcases visit_cases henv a with ⟨n, h1, h2⟩ | ⟨h1, h2⟩ | ⟨err, h1⟩
    · rcases toConstInt_spec fo a.loc ⟨n, none⟩ (eval_good henv.decls h2) with ⟨c, i, h3, h4, h5⟩ | ⟨_, h5⟩
      · cases h3
        rcases visit_cases henv b with ⟨m, g1, g2⟩ | ⟨g1, g2⟩ | ⟨err, g1⟩
        · rcases toConstInt_spec fo b.loc ⟨m, none⟩ (eval_good henv.decls g2) with ⟨d, j, g3, g4, g5⟩ | ⟨_, g5⟩
          · cases g3
            have hv : visitIndexEntry fo scopes (.range loc a b) = indexRange loc i j := by
              rw [visitIndexEntry, h1, h5, g1, g5]; rfl
            rcases indexRange_spec loc i j with ⟨_, _, js, k3, k4⟩ | ⟨k3, k4, k5⟩ | ⟨k3, k4⟩
            · exact .inl ⟨js, by rw [hv, k4], .range h2 h4 g2 g4 k3⟩
            · exact .inr (.inl ⟨by rw [hv, k5], .rangeEnd h2 h4 g2 g4 k3 k4⟩)
            · exact .inr (.inr ⟨_, by rw [hv, k4]⟩)
          · exact .inr (.inr ⟨_, by rw [visitIndexEntry, h1, h5, g1, g5]; rfl⟩)
        · exact .inr (.inl ⟨by rw [visitIndexEntry, h1, h5, g1]; rfl, .rangeLast h2 h4 g2⟩)
        · exact .inr (.inr ⟨_, by rw [visitIndexEntry, h1, h5, g1]; rfl⟩)
      · exact .inr (.inr ⟨_, by rw [visitIndexEntry, h1, h5]; rfl⟩)
    · exact .inr (.inl ⟨by rw [visitIndexEntry, h1]; rfl, .rangeFirst h2⟩)
    · exact .inr (.inr ⟨_, by rw [visitIndexEntry, h1]; rfl⟩)
end

theorem visit_ok_iff {fo : FloatOps F} {D : List VarLink} {scopes : List (Scope F)} (henv : EnvOk fo D scopes)
    (e : Expr F) (v : Value F) : visit fo scopes e = .ok v ↔ v.loc = none ∧ Eval fo D e v.node := by
  constructor
  · intro h
    rcases visit_cases henv e with ⟨n, h1, h2⟩ | ⟨h1, _⟩ | ⟨_, h1⟩ <;> rw [h] at h1 <;> cases h1
    exact ⟨rfl, h2⟩
  · rintro ⟨h1, h2⟩
    rw [visit_of_eval henv h2]
    obtain ⟨n, l⟩ := v
    simp only at h1
    rw [h1]

theorem visit_ub_iff {fo : FloatOps F} {D : List VarLink} {scopes : List (Scope F)} (henv : EnvOk fo D scopes)
    (e : Expr F) : visit fo scopes e = .ub ↔ Undef fo D e := by
  constructor
  · intro h
    rcases visit_cases henv e with ⟨n, h1, h2⟩ | ⟨_, h1⟩ | ⟨_, h1⟩
    · rw [h] at h1; cases h1
    · exact h1
    · rw [h] at h1; cases h1
  · exact visit_of_undef henv

theorem eval_det {fo : FloatOps F} {D : List VarLink} {scopes : List (Scope F)} (henv : EnvOk fo D scopes)
    {e : Expr F} {n m : ValueNode F} (h : Eval fo D e n) (h' : Eval fo D e m) : n = m := by
  have := (visit_of_eval henv h).symm.trans (visit_of_eval henv h')
  simpa using this

theorem visitExpression_ok_iff {fo : FloatOps F} {D : List VarLink} {scopes : List (Scope F)} (henv : EnvOk fo D scopes)
    (e : Expr F) (v : Value F) : visitExpression fo scopes e = .ok v ↔ v.loc = e.loc ∧ Eval fo D e v.node := by
  unfold visitExpression
  rcases visit_cases henv e with ⟨n, h1, h2⟩ | ⟨h1, h2⟩ | ⟨err, h1⟩
  · rw [h1]
    simp only [locate, Res.ok.injEq]
    constructor
    · rintro rfl; exact ⟨rfl, h2⟩
    · rintro ⟨h3, h4⟩
      obtain ⟨m, l⟩ := v
      simp only at h3 h4
      rw [h3, eval_det henv h2 h4]
  · rw [h1]
    simp only [locate, false_iff, reduceCtorEq]
    rintro ⟨_, h4⟩
    rw [visit_of_eval henv h4] at h1; cases h1
  · rw [h1]
    simp only [locate, false_iff, reduceCtorEq]
    rintro ⟨_, h4⟩
    rw [visit_of_eval henv h4] at h1; cases h1

theorem visitExpression_ub_iff {fo : FloatOps F} {D : List VarLink} {scopes : List (Scope F)} (henv : EnvOk fo D scopes)
    (e : Expr F) : visitExpression fo scopes e = .ub ↔ Undef fo D e := by
  rw [← visit_ub_iff henv]
  unfold visitExpression
  cases visit fo scopes e <;> simp [locate]

theorem visitExpression_cases {fo : FloatOps F} {D : List VarLink} {scopes : List (Scope F)} (henv : EnvOk fo D scopes)
    (e : Expr F) : (∃ n, visitExpression fo scopes e = .ok ⟨n, e.loc⟩ ∧ Eval fo D e n) ∨
      (visitExpression fo scopes e = .ub ∧ Undef fo D e) ∨
      ∃ err, visitExpression fo scopes e = .err err ∧ (∀ n, ¬ Eval fo D e n) ∧ ¬ Undef fo D e := by
  have hno : ∀ n, Eval fo D e n → visitExpression fo scopes e = .ok ⟨n, e.loc⟩ := fun n h =>
    (visitExpression_ok_iff henv e _).mpr ⟨rfl, h⟩
  rcases visit_cases henv e with ⟨n, h1, h2⟩ | ⟨h1, h2⟩ | ⟨err, h1⟩
  · exact .inl ⟨n, hno n h2, h2⟩
  · exact .inr (.inl ⟨by rw [visitExpression, h1]; rfl, h2⟩)
  · have hv : visitExpression fo scopes e = .err (err.context e.loc) := by rw [visitExpression, h1]; rfl
    refine .inr (.inr ⟨_, hv, ?_, ?_⟩)
    · intro n hn; rw [hno n hn] at hv; cases hv
    · intro hu; rw [(visitExpression_ub_iff henv e).mpr hu] at hv; cases hv

end Qasm
