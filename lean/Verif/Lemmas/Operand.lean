import Verif.Lemmas.Reach
import Verif.Spec.Instruction
/-!
# Helper lemmas: operands, index lists and modifier chains
-/

namespace Qasm

open Spec Sem

attribute [local irreducible] defaultInstrs defaultFns defaultVars

variable {F : Type}

theorem kinds_of_qubits {vs : List (Value F)} (h : ∀ v ∈ vs, ∃ k, IsQubits v.node k) :
    ∃ ks, Forall2 (fun v k => IsQubits v.node k) vs ks := by
  induction vs with
  | nil => exact ⟨[], .nil⟩
  | cons v vs ih =>
    obtain ⟨k, hk⟩ := h v (List.mem_cons_self ..)
    obtain ⟨ks, hks⟩ := ih fun v hv => h v (List.mem_cons_of_mem _ hv)
    exact ⟨k :: ks, .cons hk hks⟩

theorem qubits_of_kinds {vs : List (Value F)} {ks : List Kind} (h : Forall2 (fun v k => IsQubits v.node k) vs ks) :
    ∀ v ∈ vs, ∃ k, IsQubits v.node k := fun v hv => let ⟨k, _, hk⟩ := forall2_left h v hv; ⟨k, hk⟩

theorem kinds_unique {vs : List (Value F)} {ks ks' : List Kind} (h : Forall2 (fun v k => IsQubits v.node k) vs ks)
    (h' : Forall2 (fun v k => IsQubits v.node k) vs ks') : ks = ks' := by
  induction h generalizing ks' with
  | nil => cases h'; rfl
  | cons h1 _ ih =>
    cases h' with
    | cons g1 g2 => rw [ih g2, Option.some.inj (h1.1.symm.trans g1.1)]

theorem gateInstr_iff {fo : FloatOps F} {D : List VarLink} {l : Option Loc} {g : Gate F} {es : List (Expr F)} :
    (∃ t, InstrOk fo D (.gate l [] g es) t) ↔ ∃ n s vs, GateOk fo D g n s ∧ QubitOperands fo D es n vs := by
  constructor
  · rintro ⟨t, h⟩
    cases h with
    | gate h1 h2 h3 h4 h5 _ => exact ⟨_, _, _, h1, h2, h3, qubits_of_kinds h4, h5⟩
  · rintro ⟨n, s, vs, h1, h2, h3, h4, h5⟩
    obtain ⟨ks, hk⟩ := kinds_of_qubits h4
    exact ⟨_, .gate h1 h2 h3 hk h5 .nil⟩

theorem named_iff {fo : FloatOps F} {D : List VarLink} {l : Option Loc} {name : Str} {ps : List (Expr F)} {n : Nat} {s : SGate F} :
    GateOk fo D (.mk l [] name none ps) n s ↔
      ∃ ks ws, (name, n, ks) ∈ namedGates ∧ EvalParams fo D ps ks ws ∧ s = .mk name none ws [] l := by
  constructor
  · intro h
    generalize hg : Gate.mk l [] name none ps = g at h
    cases h with
    | named h1 h2 h3 => cases hg; cases evalAnnotations_nil h3; exact ⟨_, _, h1, h2, rfl⟩
    | _ => cases hg
  · rintro ⟨ks, ws, h1, h2, rfl⟩
    exact .named h1 h2 .nil

theorem evalParams_nil {fo : FloatOps F} {D : List VarLink} {ps : List (Expr F)} {vs : List (Value F)}
    (h : EvalParams fo D ps [] vs) : ps = [] ∧ vs = [] := by
  cases h; exact ⟨rfl, rfl⟩

theorem evalParams_one {fo : FloatOps F} {D : List VarLink} {ps : List (Expr F)} {k : Kind} {vs : List (Value F)}
    (h : EvalParams fo D ps [k] vs) : ∃ (e : Expr F) (c c' : Const F), ps = [e] ∧ Eval fo D e c.node ∧ Converts fo c k c' ∧
      vs = [⟨c'.node, e.loc⟩] := by
  cases h with
  | cons h1 h2 h3 => cases h3; exact ⟨_, _, _, rfl, h1, h2, rfl⟩

/-- The number of operands of a chain of modifiers. -/
theorem chain_iff {fo : FloatOps F} {D : List VarLink} {g : Gate F} : ∀ {ms : List (Modifier F)} {n : Nat}, ms ≠ [] →
    ((∃ s, GateOk fo D (chain ms g) n s) ↔ (∃ s, GateOk fo D g 1 s) ∧ (∀ m ∈ ms, ModifierOk fo D m) ∧
      (∀ m ∈ ms.tail, m.name ≠ c!"ctrl") ∧ n = if (ms.head?.map Modifier.name) = some c!"ctrl" then 2 else 1)
  | [], _, h => absurd rfl h
  | m :: ms, n, _ => by
    have sub : ∀ {x}, (∃ s, GateOk fo D (chain ms g) 1 s) ∧ x ↔ ((∃ s, GateOk fo D g 1 s) ∧ (∀ m ∈ ms, ModifierOk fo D m) ∧
        (∀ m ∈ ms, m.name ≠ c!"ctrl")) ∧ x := by
      intro x
      refine and_congr_left' ?_
      cases ms with
      | nil => simp [chain]
      | cons m' ms' =>
        rw [chain_iff (by simp)]
        refine and_congr_right' (and_congr_right' ?_)
        simp only [List.tail_cons, List.head?_cons, Option.map_some, Option.some.injEq]
        constructor
        · rintro ⟨h1, h2⟩ x hx
          rcases List.mem_cons.mp hx with rfl | hx
          · intro hc; rw [if_pos hc] at h2; cases h2
          · exact h1 x hx
        · intro h
          exact ⟨fun x hx => h x (List.mem_cons_of_mem _ hx), by rw [if_neg (h m' (List.mem_cons_self ..))]⟩
    have step : (∃ s, GateOk fo D (chain (m :: ms) g) n s) ↔ (∃ s, GateOk fo D (chain ms g) 1 s) ∧
        (ModifierOk fo D m ∧ n = if m.name = c!"ctrl" then 2 else 1) := by
      constructor
      · rintro ⟨s, h⟩
        rw [chain] at h
        obtain ⟨l, name, ps⟩ := m
        generalize hg : Gate.mk l [] name (some (chain ms g)) ps = q at h
        cases h with
        | named => cases hg
        | inv h1 => cases hg; exact ⟨⟨_, h1⟩, .inl ⟨.inl rfl, rfl⟩, rfl⟩
        | ctrl h1 => cases hg; exact ⟨⟨_, h1⟩, .inl ⟨.inr rfl, rfl⟩, rfl⟩
        | pow h1 h2 =>
          cases hg
          obtain ⟨e, c, c', g1, g2, g3, _⟩ := evalParams_one h2
          exact ⟨⟨_, h1⟩, .inr ⟨rfl, e, c, c', g1, g2, g3⟩, rfl⟩
      · rintro ⟨⟨s, h1⟩, h2, h3⟩
        obtain ⟨l, name, ps⟩ := m
        rw [chain]
        rcases h2 with ⟨rfl | rfl, rfl⟩ | ⟨rfl, e, c, c', rfl, g2, g3⟩
        · rw [h3]; exact ⟨_, .inv h1 .nil⟩
        · rw [h3]; exact ⟨_, .ctrl h1 .nil⟩
        · rw [h3]; exact ⟨_, .pow h1 (.cons g2 g3 .nil) .nil⟩
    rw [step, sub]
    simp only [List.mem_cons, forall_eq_or_imp, List.tail_cons, List.head?_cons, Option.map_some, Option.some.injEq]
    constructor
    · rintro ⟨⟨h1, h2, h3⟩, h4, h5⟩; exact ⟨h1, ⟨h4, h2⟩, h3, h5⟩
    · rintro ⟨h1, ⟨h4, h2⟩, h3, h5⟩; exact ⟨⟨h1, h2, h3⟩, h4, h5⟩

/-! ## Index lists -/

theorem rangeList_upTo {l : Option Loc} {i j : Int64} {is : List (Int64 × Option Loc)} (h : RangeList l i j is) :
    is.map (fun x => x.1.toInt) = upTo (i.toInt, j.toInt) := h.2.1

theorem rangeList_exists (l : Option Loc) {i j : Int64} (h : i.toInt ≤ j.toInt) : ∃ is, RangeList l i j is := by
  refine ⟨(countUp i (j.toInt - i.toInt + 1).toNat).map fun x => (x, l), h, ?_, ?_⟩
  · have := countUp_toInt i (j.toInt - i.toInt + 1).toNat (by have := j.toInt_lt; omega)
    rw [List.map_map]
    rw [← this]
    rfl
  · intro x hx
    obtain ⟨_, _, rfl⟩ := List.mem_map.mp hx
    rfl

theorem upTo_one (i : Int) : upTo (i, i) = [i] := by
  unfold upTo
  have : (i - i + 1).toNat = 1 := by omega
  rw [this]
  simp [List.range_succ]

theorem mem_upTo {b : Int × Int} {z : Int} : z ∈ upTo b ↔ b.1 ≤ z ∧ z ≤ b.2 := by
  unfold upTo
  rw [List.mem_map]
  constructor
  · rintro ⟨n, hn, rfl⟩
    rw [List.mem_range] at hn
    omega
  · rintro ⟨h1, h2⟩
    refine ⟨(z - b.1).toNat, ?_, ?_⟩
    · rw [List.mem_range]; omega
    · omega

theorem evalIndices_bounds {fo : FloatOps F} {D : List VarLink} {ixs : List (IndexEntry F)} {is : List (Int64 × Option Loc)}
    (h : EvalIndices fo D ixs is) : ∃ bs, Forall2 (Bounds fo D) ixs bs ∧ (∀ b ∈ bs, b.1 ≤ b.2) ∧
      is.map (fun x => x.1.toInt) = bs.flatMap upTo := by
  induction ixs generalizing is with
  | nil => cases h; exact ⟨[], .nil, by simp, rfl⟩
  | cons x xs ih =>
    cases h with
    | cons h1 h2 =>
      obtain ⟨bs, g1, g2, g3⟩ := ih h2
      cases h1 with
      | @item _ _ _ i k1 k2 =>
        refine ⟨_ :: bs, .cons (.item k1 k2) g1, ?_, ?_⟩
        · intro b hb
          rcases List.mem_cons.mp hb with rfl | hb
          · exact Int.le_refl _
          · exact g2 b hb
        · rw [List.map_append, g3, List.flatMap_cons, upTo_one]; rfl
      | range k1 k2 k3 k4 k5 =>
        refine ⟨_ :: bs, .cons (.range k1 k2 k3 k4) g1, ?_, ?_⟩
        · intro b hb
          rcases List.mem_cons.mp hb with rfl | hb
          · exact k5.1
          · exact g2 b hb
        · rw [List.map_append, g3, List.flatMap_cons, rangeList_upTo k5]

theorem bounds_evalIndices {fo : FloatOps F} {D : List VarLink} {ixs : List (IndexEntry F)} {bs : List (Int × Int)}
    (h : Forall2 (Bounds fo D) ixs bs) (hb : ∀ b ∈ bs, b.1 ≤ b.2) : ∃ is, EvalIndices fo D ixs is ∧
      is.map (fun x => x.1.toInt) = bs.flatMap upTo := by
  induction h with
  | nil => exact ⟨[], .nil, rfl⟩
  | cons h1 _ ih =>
    obtain ⟨is, g1, g2⟩ := ih fun b hb' => hb b (List.mem_cons_of_mem _ hb')
    have hb := hb _ (List.mem_cons_self ..)
    cases h1 with
    | item k1 k2 =>
      refine ⟨_, .cons (.item k1 k2) g1, ?_⟩
      rw [List.map_append, g2, List.flatMap_cons, upTo_one]; rfl
    | @range l _ _ _ _ i j k1 k2 k3 k4 =>
      obtain ⟨js, k5⟩ := rangeList_exists l hb
      refine ⟨_, .cons (.range k1 k2 k3 k4 k5) g1, ?_⟩
      rw [List.map_append, g2, List.flatMap_cons, rangeList_upTo k5]

theorem converts_int {fo : FloatOps F} {c c' : Const F} {i j : Int64} (hn : c.node = c'.node)
    (h : Converts fo c .int (.int i)) (h' : Converts fo c' .int (.int j)) : i = j := by
  cases node_inj hn
  have := converts_det h h'
  cases this
  rfl

theorem bounds_det {fo : FloatOps F} {D : List VarLink} {scopes : List (Scope F)} (henv : EnvOk fo D scopes)
    {x : IndexEntry F} {b b' : Int × Int} (h : Bounds fo D x b) (h' : Bounds fo D x b') : b = b' := by
  cases h with
  | item h1 h2 =>
    cases h' with
    | item g1 g2 => rw [converts_int (eval_det henv h1 g1) h2 g2]
  | range h1 h2 h3 h4 =>
    cases h' with
    | range g1 g2 g3 g4 =>
      rw [converts_int (eval_det henv h1 g1) h2 g2, converts_int (eval_det henv h3 g3) h4 g4]

theorem bounds_list_det {fo : FloatOps F} {D : List VarLink} {scopes : List (Scope F)} (henv : EnvOk fo D scopes)
    {xs : List (IndexEntry F)} {bs bs' : List (Int × Int)} (h : Forall2 (Bounds fo D) xs bs)
    (h' : Forall2 (Bounds fo D) xs bs') : bs = bs' := by
  induction h generalizing bs' with
  | nil => cases h'; rfl
  | cons h1 _ ih =>
    cases h' with
    | cons g1 g2 => rw [bounds_det henv h1 g1, ih g2]

theorem eval_not_undef {fo : FloatOps F} {D : List VarLink} (hD : DeclsOk D) {e : Expr F} {n : ValueNode F}
    (h : Eval fo D e n) : ¬ Undef fo D e := by
  intro hu
  have henv : EnvOk fo D (stateOf fo [] D 0 ⟨[], none⟩ []).scopes := stateOf_env hD _ _ _ _
  have h1 := visit_of_eval henv h
  rw [visit_of_undef henv hu] at h1
  cases h1

theorem env_of {fo : FloatOps F} {D : List VarLink} (hD : DeclsOk D) : ∃ scopes, EnvOk fo D scopes :=
  ⟨_, stateOf_env hD [] 0 ⟨[], none⟩ []⟩

theorem bounds_not_undef {fo : FloatOps F} {D : List VarLink} (hD : DeclsOk D) {xs : List (IndexEntry F)}
    {bs : List (Int × Int)} (h : Forall2 (Bounds fo D) xs bs) (hm : ∀ b ∈ bs, b.2 ≠ 2 ^ 63 - 1) : ¬ UndefIndices fo D xs := by
  obtain ⟨scopes, henv⟩ := env_of (fo := fo) hD
  induction h with
  | nil => intro h; cases h
  | cons h1 _ ih =>
    have ih := ih fun b hb => hm b (List.mem_cons_of_mem _ hb)
    have hm := hm _ (List.mem_cons_self ..)
    intro h
    cases h with
    | tail _ h => exact ih h
    | head h =>
      cases h1 with
      | item k1 _ =>
        cases h with
        | item h => exact eval_not_undef hD k1 h
      | range k1 k2 k3 k4 =>
        cases h with
        | rangeFirst h => exact eval_not_undef hD k1 h
        | rangeLast _ _ h => exact eval_not_undef hD k3 h
        | rangeEnd _ _ g3 g4 _ g6 =>
          rw [converts_int (eval_det henv g3 k3) g4 k4] at g6
          exact hm g6

theorem eval_index_iff {fo : FloatOps F} {D : List VarLink} {l : Option Loc} {e : Expr F} {ixs : List (IndexEntry F)}
    {n : ValueNode F} : Eval fo D (.index l e ixs) n ↔ ∃ x is, n = .indexRef x is ∧ Eval fo D e (.variableRef x) ∧
      (x.typ.kind = .qubitArray ∨ x.typ.kind = .bitArray) ∧ EvalIndices fo D ixs is ∧
      ∀ i ∈ is, 0 ≤ i.1.toInt ∧ i.1.toInt < x.typ.size.toInt := by
  constructor
  · intro h
    generalize he : Expr.index l e ixs = e' at h
    cases h with
    | index h1 h2 h3 h4 => cases he; exact ⟨_, _, rfl, h1, h2, h3, h4⟩
    | _ => cases he
  · rintro ⟨x, is, rfl, h1, h2, h3, h4⟩
    exact .index h1 h2 h3 h4

theorem evalAll_one {fo : FloatOps F} {D : List VarLink} {e : Expr F} {vs : List (Value F)} :
    EvalAll fo D [e] vs ↔ ∃ n, Eval fo D e n ∧ vs = [⟨n, e.loc⟩] := by
  constructor
  · intro h
    cases h with
    | @cons _ v _ _ h1 h2 =>
      cases h2
      obtain ⟨n, l⟩ := v
      refine ⟨n, h1.2, ?_⟩
      rw [show l = e.loc from h1.1]
  · rintro ⟨n, h, rfl⟩
    exact .cons ⟨rfl, h⟩ .nil

theorem denotes_of_mem {fo : FloatOps F} {D : List VarLink} (hD : DeclsOk D) {x : VarLink} (hx : x ∈ D) :
    Denotes fo D x.name (.variableRef x) := .var ((builtin_none fo).mp (hD.notBuiltin x hx)) hx rfl

theorem mem_declared {r : SProgram F} {y : SVariable F} (h : y ∈ r.variables) : (⟨y.uid, y.name, y.typ⟩ : VarLink) ∈ declared r := by
  rw [declared_eq, List.mem_reverse, List.mem_map]
  exact ⟨y, h, rfl⟩

theorem declared_mem {r : SProgram F} {x : VarLink} (h : x ∈ declared r) : ∃ y ∈ r.variables, x = ⟨y.uid, y.name, y.typ⟩ := by
  rw [declared_eq, List.mem_reverse, List.mem_map] at h
  obtain ⟨y, hy, rfl⟩ := h
  exact ⟨y, hy, rfl⟩

theorem x_gate {fo : FloatOps F} {D : List VarLink} {l l' : Option Loc} {e : Expr F} :
    (∃ t, InstrOk fo D (.gate l [] (.mk l' [] c!"X" none []) [e]) t) ↔ ∃ n k, Eval fo D e n ∧ IsQubits n k := by
  rw [gateInstr_iff]
  constructor
  · rintro ⟨n, s, vs, h1, h2, h3, h4, _⟩
    obtain ⟨m, h5, rfl⟩ := evalAll_one.mp h2
    obtain ⟨k, hk⟩ := h4 _ (List.mem_cons_self ..)
    exact ⟨m, k, h5, hk⟩
  · rintro ⟨n, k, h1, h2⟩
    refine ⟨1, _, [⟨n, e.loc⟩], .named (ks := []) (by decide) .nil .nil, evalAll_one.mpr ⟨n, h1, rfl⟩, rfl, ?_, ?_⟩
    · intro v hv
      cases List.mem_singleton.mp hv
      exact ⟨k, h2⟩
    · intro v hv w hw
      cases List.mem_singleton.mp hv
      cases List.mem_singleton.mp hw
      rfl

theorem x_undef {fo : FloatOps F} {D : List VarLink} {l l' : Option Loc} {e : Expr F} :
    UndefStmt fo D (.gate l [] (.mk l' [] c!"X" none []) [e]) ↔ Undef fo D e := by
  constructor
  · intro h
    cases h with
    | gate h =>
      cases h with
      | named h => cases h
    | gateOperands _ h =>
      cases h with
      | head h => exact h
      | tail _ h => cases h
  · intro h
    exact .gateOperands (.named (ks := []) (n := 1) (by decide) .nil .nil) (.head h)

theorem shaped_x {l l' : Option Loc} {e : Expr F} (h : ShapedExpr e) :
    ShapedStmt (.gate l [] (.mk l' [] c!"X" none []) [e]) := by
  refine ⟨by simp [ShapedAnnotations], by simp [ShapedGate, modifiers, nonGates], by simp [ShapedGateAnnotations, ShapedAnnotations], ?_⟩
  intro x hx
  cases List.mem_singleton.mp hx
  exact h

theorem shaped_ident {l l' : Option Loc} {x : Str} {ixs : List (IndexEntry F)} (h1 : ixs ≠ []) (h2 : ShapedEntries ixs) :
    ShapedExpr (.index l (.ident l' x) ixs) := ⟨h1, trivial, h2⟩

theorem kind_index {x : VarLink} (hk : x.typ.kind = .qubitArray) (is : List (Int64 × Option Loc)) :
    ∃ k, IsQubits (.indexRef x is : ValueNode F) k := by
  match is with
  | [] => exact ⟨.qubitArray, by simp [kindOf, hk], .inr rfl⟩
  | [_] => exact ⟨.qubit, by simp [kindOf, hk, elementKind], .inl rfl⟩
  | _ :: _ :: _ => exact ⟨.qubitArray, by simp [kindOf, hk], .inr rfl⟩

/-! ## More declarations do not change what an expression denotes -/

theorem denotes_mono {fo : FloatOps F} {D D' : List VarLink} (hD : ∀ x ∈ D, x ∈ D') {name : Str} {n : ValueNode F}
    (h : Denotes fo D name n) : Denotes fo D' name n := by
  cases h with
  | const h => exact .const h
  | var h1 h2 h3 => exact .var h1 (hD _ h2) h3

mutual
theorem eval_mono {fo : FloatOps F} {D D' : List VarLink} (hD : ∀ x ∈ D, x ∈ D') :
    {e : Expr F} → {n : ValueNode F} → Eval fo D e n → Eval fo D' e n
  | _, _, .boolLit l b => .boolLit l b
  | _, _, .intLit l i => .intLit l i
  | _, _, .floatLit l f => .floatLit l f
  | _, _, .ident h => .ident (denotes_mono hD h)
  | _, _, .index h1 h2 h3 h4 => .index (eval_mono hD h1) h2 (evalIndices_mono hD h3) h4
  | _, _, .call h1 h2 => .call (evalConsts_mono hD h1) h2
  | _, _, .un h1 h2 => .un (eval_mono hD h1) h2
  | _, _, .bin h1 h2 h3 => .bin (eval_mono hD h1) (eval_mono hD h2) h3
  | _, _, .tern h1 h2 h3 h4 => .tern (eval_mono hD h1) (eval_mono hD h2) (eval_mono hD h3) h4
theorem evalConsts_mono {fo : FloatOps F} {D D' : List VarLink} (hD : ∀ x ∈ D, x ∈ D') :
    {es : List (Expr F)} → {cs : List (Const F)} → EvalConsts fo D es cs → EvalConsts fo D' es cs
  | _, _, .nil => .nil
  | _, _, .cons h1 h2 => .cons (eval_mono hD h1) (evalConsts_mono hD h2)
theorem evalIndices_mono {fo : FloatOps F} {D D' : List VarLink} (hD : ∀ x ∈ D, x ∈ D') :
    {xs : List (IndexEntry F)} → {is : List (Int64 × Option Loc)} → EvalIndices fo D xs is → EvalIndices fo D' xs is
  | _, _, .nil => .nil
  | _, _, .cons h1 h2 => .cons (evalEntry_mono hD h1) (evalIndices_mono hD h2)
theorem evalEntry_mono {fo : FloatOps F} {D D' : List VarLink} (hD : ∀ x ∈ D, x ∈ D') :
    {x : IndexEntry F} → {is : List (Int64 × Option Loc)} → EvalEntry fo D x is → EvalEntry fo D' x is
  | _, _, .item h1 h2 => .item (eval_mono hD h1) h2
  | _, _, .range h1 h2 h3 h4 h5 => .range (eval_mono hD h1) h2 (eval_mono hD h3) h4 h5
end

theorem bounds_mono {fo : FloatOps F} {D D' : List VarLink} (hD : ∀ x ∈ D, x ∈ D') {x : IndexEntry F} {b : Int × Int}
    (h : Bounds fo D x b) : Bounds fo D' x b := by
  cases h with
  | item h1 h2 => exact .item (eval_mono hD h1) h2
  | range h1 h2 h3 h4 => exact .range (eval_mono hD h1) h2 (eval_mono hD h3) h4

theorem forall2_append {α β : Type} {R : α → β → Prop} {as as' : List α} {bs bs' : List β} (h : Forall2 R as bs)
    (h' : Forall2 R as' bs') : Forall2 R (as ++ as') (bs ++ bs') := by
  induction h with
  | nil => exact h'
  | cons h1 _ ih => exact .cons h1 ih

theorem evalParams_paramOf {fo : FloatOps F} {D : List VarLink} {ps : List (Expr F)} {ks : List Kind} {ws : List (Value F)}
    (h : EvalParams fo D ps ks ws) : Forall2 (ParamOf fo D) ps ws := by
  induction h with
  | nil => exact .nil
  | cons h1 h2 _ ih =>
    refine .cons ⟨rfl, _, _, h1, ?_, rfl⟩ ih
    rw [converts_kind h2]
    exact h2

theorem evalParams_haveKinds {fo : FloatOps F} {D : List VarLink} {ps : List (Expr F)} {ks : List Kind} {ws : List (Value F)}
    (h : EvalParams fo D ps ks ws) : HaveKinds ws ks := by
  induction h with
  | nil => exact .nil
  | cons h1 h2 _ ih => exact .cons ⟨_, rfl, converts_kind h2⟩ ih

theorem gateOk_paramOf {fo : FloatOps F} {D : List VarLink} {g : Gate F} {n : Nat} {s : SGate F} (h : GateOk fo D g n s) :
    Forall2 (ParamOf fo D) (gateParameters g) (sgateParameters s) := by
  induction h with
  | named _ h _ => exact evalParams_paramOf h
  | inv _ _ ih | ctrl _ _ ih => exact ih
  | pow _ h _ ih => exact forall2_append (evalParams_paramOf h) ih

theorem instrOk_paramOf {fo : FloatOps F} {D : List VarLink} {s : Stmt F} {t : SStatement F} (h : InstrOk fo D s t) :
    Forall2 (ParamOf fo D) (parameterExprs s) (parameters t) := by
  cases h with
  | gate h => exact gateOk_paramOf h
  | measure _ _ _ _ _ h => exact h.elim evalParams_paramOf evalParams_paramOf
  | simple => exact .nil
  | wait _ _ h => exact evalParams_paramOf h
  | asm => exact .nil

theorem gateOk_typed {fo : FloatOps F} {D : List VarLink} {g : Gate F} {n : Nat} {s : SGate F} (h : GateOk fo D g n s)
    {g' : SGate F} (hg : GateIn g' s) : GateTyped g' := by
  induction h with
  | named h1 h2 =>
    cases hg with
    | here => exact ⟨_, _, h1, evalParams_haveKinds h2⟩
  | inv _ _ ih =>
    cases hg with
    | here => exact .inr ⟨.inl rfl, rfl⟩
    | inner hg => exact ih hg
  | ctrl _ _ ih =>
    cases hg with
    | here => exact .inr ⟨.inr rfl, rfl⟩
    | inner hg => exact ih hg
  | pow _ h2 _ ih =>
    cases hg with
    | here => exact .inl ⟨rfl, evalParams_haveKinds h2⟩
    | inner hg => exact ih hg

theorem instrOk_typed {fo : FloatOps F} {D : List VarLink} {s : Stmt F} {t : SStatement F} (h : InstrOk fo D s t) :
    ParametersTyped t := by
  cases h with
  | gate h => exact fun g' hg => gateOk_typed h hg
  | measure _ _ _ _ _ h =>
    refine .inl ⟨rfl, h.imp (fun h => ?_) evalParams_haveKinds⟩
    exact (evalParams_nil h).2
  | simple h => exact .inr (.inr ⟨h, rfl⟩)
  | wait _ _ h => exact .inr (.inl ⟨rfl, evalParams_haveKinds h⟩)
  | asm => trivial

theorem gateOk_base {fo : FloatOps F} {D : List VarLink} {g : Gate F} {n : Nat} {s : SGate F} (h : GateOk fo D g n s) :
    refNameOf.base s = rootName g ∧ refNameOf s = refName g := by
  induction h with
  | named => exact ⟨rfl, rfl⟩
  | inv _ _ ih | ctrl _ _ ih | pow _ _ _ ih => exact ⟨ih.1, by rw [refNameOf, refName, ih.1]⟩

theorem describes_qubits {name : Str} {vs : List (Value F)} {ks : List Kind}
    (h : Forall2 (fun v k => IsQubits v.node k) vs ks) :
    Forall2 (fun v (t : Ty) => kindOf v.node = some t.kind) vs (refOf name ks).operandTypes := by
  induction h with
  | nil => exact .nil
  | cons h _ ih => exact .cons h.1 ih

theorem instrOk_describes {fo : FloatOps F} {D : List VarLink} {s : Stmt F} {t : SStatement F} (h : InstrOk fo D s t) :
    match t with
    | .gate ref g ops _ _ => Describes ref (refNameOf g) ops
    | .nonGate ref name ops _ _ _ => Describes ref name ops
    | .asm _ _ _ _ => True := by
  cases h with
  | gate h1 _ _ h4 =>
    refine ⟨(gateOk_base h1).2.symm, ?_⟩
    exact describes_qubits h4
  | measure _ h1 _ h2 => exact ⟨rfl, .cons h1.1 (.cons h2.1 .nil)⟩
  | simple _ _ h1 => exact ⟨rfl, .cons h1.1 .nil⟩
  | wait _ h1 => exact ⟨rfl, .cons h1.1 .nil⟩
  | asm => trivial

theorem elements_pos {fo : FloatOps F} {D : List VarLink} (hD : DeclsOk D) {e : Expr F} {n : ValueNode F} (hs : ShapedExpr e)
    (h : Eval fo D e n) {k : Kind} (hk : IsQubits n k ∨ IsBits n k) : 1 ≤ elements n := by
  have hr := eval_refIn hs h
  cases n with
  | constBool => rcases hk with ⟨h1, rfl | rfl⟩ | ⟨h1, rfl | rfl⟩ <;> cases h1
  | constInt => rcases hk with ⟨h1, rfl | rfl⟩ | ⟨h1, rfl | rfl⟩ <;> cases h1
  | constFloat => rcases hk with ⟨h1, rfl | rfl⟩ | ⟨h1, rfl | rfl⟩ <;> cases h1
  | variableRef x =>
    rw [elements]
    rcases hD.kinds x (hr.1 x rfl) with ⟨_, h⟩ | ⟨_, h⟩
    · rw [h]; decide
    · omega
  | indexRef x is =>
    rw [elements]
    exact List.length_pos_iff.mpr (hr.2 x is rfl).2.1

/-- The instruction at a position of an accepted program, seen with all declarations of the program. -/
theorem accepted_at {fo : FloatOps F} {v : Version} {a : Analyzer F} (ha : Analyzer.default fo v = .ok a)
    {p : ProgramAst F} (hs : ShapedProgram p) {r : SProgram F} (h : Accepts fo a p r)
    {pre post : List (Stmt F)} {s : Stmt F} (hd : ¬ IsDecl s) (hp : p.block.statements = pre ++ s :: post) :
    ∃ t D, r.block.statements[instructions pre]? = some t ∧ InstrOk fo D s t ∧ ∀ x ∈ D, x ∈ declared r := by
  have hv := (accepts_valid ha hs h).1.2
  rw [hp] at hv
  obtain ⟨vs1, vs2, ts1, t, h1, h2, _, _, h4, h5⟩ := exec_at declsOk_nil hv hd
  refine ⟨t, _, h4, h5, ?_⟩
  intro x hx
  rw [List.append_nil] at hx
  rw [declared_eq, h1, List.map_append, List.reverse_append, List.mem_append]
  exact .inr hx

end Qasm
