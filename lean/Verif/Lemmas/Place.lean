import Verif.Spec.Place
import Verif.Lemmas.Strip
/-!
# Helper lemmas: analysis carries positions along
-/

namespace Qasm

open Spec Sem

/-- The outcome with the value changed and the error elsewhere. -/
def Res.place {α β : Type} (m : Loc → Loc) (f : α → β) : Res Err α → Res Err β
  | .ok a => .ok (f a)
  | .err e => .err (placeErr m e)
  | .exn c => .exn c
  | .ub => .ub

namespace Place

variable {F α β γ : Type} {fo : FloatOps F} {m : Loc → Loc}

@[simp] theorem place_ok (f : α → β) (a : α) : (Res.ok a : Res Err α).place m f = .ok (f a) := rfl
@[simp] theorem place_err (f : α → β) (e : Err) : (Res.err e : Res Err α).place m f = .err (placeErr m e) := rfl
@[simp] theorem place_exn (f : α → β) (c : Str) : (Res.exn c : Res Err α).place m f = .exn c := rfl
@[simp] theorem place_ub (f : α → β) : (Res.ub : Res Err α).place m f = .ub := rfl

theorem place_bind {δ : Type} {r : Res Err α} {f : α → γ} {r' : Res Err γ} {k : α → Res Err β} {g : β → δ} {k' : γ → Res Err δ} (hr : r' = r.place m f)
    (hk : ∀ a, k' (f a) = (k a).place m g) : r'.bind k' = (r.bind k).place m g := by
  subst hr
  cases r <;> simp [hk]

@[simp] theorem place_context (e : Err) (l : Option Loc) : (placeErr m e).context (l.map m) = placeErr m (e.context l) := by
  obtain ⟨x, el⟩ := e
  cases el <;> cases l <;> rfl

theorem mkNode_place (x : Str) (l : Option Loc) : Err.mkNode x (l.map m) = placeErr m (Err.mkNode x l) := by
  simp only [Err.mkNode, ← place_context]
  rfl

theorem mk0_place (x : Str) : Err.mk0 x = placeErr m (Err.mk0 x) := by
  exact mkNode_place x none

/-! ## Values -/

@[simp] theorem placeValue_loc (v : Value F) : (placeValue m v).loc = v.loc.map m := rfl

theorem sizeOf_place (v : Value F) : Values.sizeOf (placeValue m v) = Values.sizeOf v := by
  obtain ⟨n, l⟩ := v
  cases n <;> simp [Values.sizeOf, placeValue, placeNode]

theorem typeOf_place (v : Value F) : Values.typeOf (placeValue m v) = (Values.typeOf v).place m id := by
  have h := sizeOf_place (m := m) v
  obtain ⟨n, l⟩ := v
  cases n with
  | indexRef x is =>
    simp only [Values.typeOf, h, placeValue, placeNode]
    simp only [placeValue, placeNode] at h
    simp only [h]
    unfold Values.elementTypeOf
    split
    · split
      · rfl
      · split <;> rfl
    · rfl
  | _ => rfl

theorem typesOf_place (vs : List (Value F)) : Values.typesOf (vs.map (placeValue m)) = (Values.typesOf vs).place m id := by
  induction vs with
  | nil => rfl
  | cons v vs ih =>
    simp only [List.map_cons, Values.typesOf]
    exact place_bind (typeOf_place v) fun t => place_bind ih fun ts => rfl

theorem promote_place (v : Value F) (t : Ty) :
    Values.promote fo (placeValue m v) t = (Values.promote fo v t).place m (Option.map (placeValue m)) := by
  unfold Values.promote
  refine place_bind (typeOf_place v) fun tv => ?_
  simp only [id]
  split
  · rfl
  · obtain ⟨n, l⟩ := v
    simp only [place_ok, Option.map_map]
    congr 1
    cases t.kind <;> cases n <;> simp [placeValue, placeNode] <;> split <;> simp [placeValue, placeNode]

/-! ## Functions -/

/-- The function carries positions along. -/
def Carries (m : Loc → Loc) (f : CoreFn F) : Prop := ∀ vs, f (vs.map (placeValue m)) = (f vs).place m (Option.map (placeValue m))

theorem checkConstAll_place (vs : List (Value F)) :
    Values.checkConstAll (vs.map (placeValue m)) = (Values.checkConstAll vs).place m id := by
  induction vs with
  | nil => rfl
  | cons v vs ih =>
    simp only [List.map_cons, Values.checkConstAll]
    refine place_bind (f := id) ?_ fun _ => ih
    obtain ⟨n, l⟩ := v
    unfold Values.checkConst
    cases n <;> simp [Values.isConstant, placeValue, placeNode, mkNode_place]

theorem nth_place (vs : List (Value F)) (i : Nat) :
    ConstEval.nth (vs.map (placeValue m)) i = (ConstEval.nth vs i).place m (placeValue m) := by
  simp only [ConstEval.nth, List.getElem?_map]
  cases vs[i]? <;> rfl

theorem get_place (p : ValueNode F → Option α) (hp : ∀ n, p (placeNode m n) = p n) (v : Value F) :
    ConstEval.get p (placeValue m v) = (ConstEval.get p v).place m id := by
  simp only [ConstEval.get, placeValue, hp]
  cases p v.node <;> rfl

theorem asBool_place (n : ValueNode F) : ConstEval.asBool (placeNode m n) = ConstEval.asBool n := by cases n <;> rfl
theorem asInt_place (n : ValueNode F) : ConstEval.asInt (placeNode m n) = ConstEval.asInt n := by cases n <;> rfl
theorem asFloat_place (n : ValueNode F) : ConstEval.asFloat (placeNode m n) = ConstEval.asFloat n := by cases n <;> rfl

/-- The function on numbers throws nothing but errors without position. -/
def Carried (m : Loc → Loc) (r : Res Err α) : Prop := r = r.place m id

theorem ufCp_carries {inj : β → ValueNode F} {p : ValueNode F → Option α} {f : α → Res Err β} (hp : ∀ n, p (placeNode m n) = p n)
    (hi : ∀ b, (placeNode m) (inj b) = inj b) (hf : ∀ a, Carried m (f a)) : Carries m (ConstEval.ufCp inj p f) := by
  intro vs
  unfold ConstEval.ufCp
  refine place_bind (checkConstAll_place vs) fun _ => ?_
  refine place_bind (nth_place vs 0) fun v0 => ?_
  refine place_bind (get_place p hp v0) fun a => ?_
  refine place_bind (hf a) fun r => ?_
  simp [placeValue, hi]

theorem bfCp_carries {inj : β → ValueNode F} {p : ValueNode F → Option α} {f : α → α → Res Err β} (hp : ∀ n, p (placeNode m n) = p n)
    (hi : ∀ b, (placeNode m) (inj b) = inj b) (hf : ∀ a b, Carried m (f a b)) : Carries m (ConstEval.bfCp inj p f) := by
  intro vs
  unfold ConstEval.bfCp
  refine place_bind (checkConstAll_place vs) fun _ => ?_
  refine place_bind (nth_place vs 0) fun v0 => ?_
  refine place_bind (get_place p hp v0) fun a => ?_
  refine place_bind (nth_place vs 1) fun v1 => ?_
  refine place_bind (get_place p hp v1) fun b => ?_
  refine place_bind (hf a b) fun r => ?_
  simp [placeValue, hi]

theorem tfCp_carries {inj : α → ValueNode F} {p : ValueNode F → Option α} (hp : ∀ n, p (placeNode m n) = p n)
    (hi : ∀ b, (placeNode m) (inj b) = inj b) : Carries m (ConstEval.tfCp inj p) := by
  intro vs
  unfold ConstEval.tfCp
  refine place_bind (checkConstAll_place vs) fun _ => ?_
  refine place_bind (nth_place vs 0) fun v0 => ?_
  refine place_bind (get_place _ asBool_place v0) fun a => ?_
  refine place_bind (nth_place vs 1) fun v1 => ?_
  refine place_bind (get_place p hp v1) fun b => ?_
  refine place_bind (nth_place vs 2) fun v2 => ?_
  refine place_bind (get_place p hp v2) fun r => ?_
  simp [placeValue, hi]

theorem checked_carried (z : Int) : Carried m (ConstEval.checked z) := by
  unfold ConstEval.checked Carried; split <;> rfl

/-! ## Name tables -/

theorem place_bind' {δ : Type} {r : Res Err α} {f : α → γ} {r' : Res Err γ} {k : α → Res Err β} {g : β → δ} {k' : γ → Res Err δ} (hr : r' = r.place m f)
    (hk : ∀ a, r = .ok a → k' (f a) = (k a).place m g) : r'.bind k' = (r.bind k).place m g := by
  subst hr
  cases r <;> simp [hk]

/-- What overload resolution returns, elsewhere. -/
def placeMatch (m : Loc → Loc) {T : Type} (r : T × List (Value F)) : T × List (Value F) := (r.1, r.2.map (placeValue m))

theorem promoteAll_place (vs : List (Value F)) (ts : List Ty) :
    OverloadTable.promoteAll fo (vs.map (placeValue m)) ts
      = (OverloadTable.promoteAll fo vs ts).place m (Option.map (List.map (placeValue m))) := by
  induction vs generalizing ts with
  | nil => simp [OverloadTable.promoteAll]
  | cons v vs ih =>
    cases ts with
    | nil => simp [OverloadTable.promoteAll]
    | cons t ts =>
      simp only [List.map_cons, OverloadTable.promoteAll]
      refine place_bind (promote_place v t) fun o => ?_
      cases o with
      | none => rfl
      | some v' =>
        refine place_bind (ih ts) fun o => ?_
        cases o <;> rfl

theorem resolveFirst_place {T : Type} (vs : List (Value F)) (ovs : List (Overload T)) :
    OverloadTable.resolveFirst fo (vs.map (placeValue m)) ovs
      = (OverloadTable.resolveFirst fo vs ovs).place m (Option.map (placeMatch m)) := by
  induction ovs with
  | nil => rfl
  | cons ov ovs ih =>
    simp only [OverloadTable.resolveFirst, List.length_map]
    split
    · exact ih
    · refine place_bind (promoteAll_place vs _) fun o => ?_
      cases o
      · exact ih
      · rfl

theorem resolve_place {T : Type} (tbl : OverloadTable T) (name : Str) (vs : List (Value F)) :
    OverloadTable.resolve fo tbl name (vs.map (placeValue m)) = (OverloadTable.resolve fo tbl name vs).place m (placeMatch m) := by
  unfold OverloadTable.resolve
  cases OverloadTable.find tbl name with
  | none => exact congrArg Res.err (mk0_place _)
  | some ovs =>
    refine place_bind (resolveFirst_place vs _) fun o => ?_
    cases o with
    | some r => rfl
    | none =>
      refine place_bind (typesOf_place vs) fun ts => ?_
      exact congrArg Res.err (mk0_place _)

/-- Every function of the table carries positions along. -/
def CarriesTable (m : Loc → Loc) (tbl : OverloadTable (CoreFn F)) : Prop := ∀ e ∈ tbl, ∀ ov ∈ e.2, Carries m ov.tag

theorem fnResolve_place {tbl : OverloadTable (CoreFn F)} (hb : CarriesTable m tbl) (name : Str) (vs : List (Value F)) :
    FnTable.resolve fo tbl name (vs.map (placeValue m)) = (FnTable.resolve fo tbl name vs).place m (Option.map (placeValue m)) := by
  unfold FnTable.resolve
  refine place_bind' (resolve_place tbl name vs) fun r hr => ?_
  refine (?_ : Carries m r.1) r.2
  unfold OverloadTable.resolve at hr
  cases hf : OverloadTable.find tbl name with
  | none => simp [hf] at hr
  | some ovs =>
    simp only [hf, OverloadTable.resolveOverload] at hr
    cases hx : OverloadTable.resolveFirst fo vs ovs.reverse with
    | ok x =>
      cases x with
      | some y =>
        simp only [hx, Res.bind_ok, Res.ok.injEq] at hr
        obtain ⟨ov, ho, e⟩ := resolveFirst_tag hx
        obtain ⟨en, hen, h2⟩ := find_mem hf
        rw [← hr, ← e]
        exact hb en hen ov (by rw [h2]; simpa using ho)
      | none =>
        simp only [hx, Res.bind_ok] at hr
        cases ht : Values.typesOf vs <;> simp [ht] at hr
    | _ => simp [hx] at hr

/-! ## The default functions -/

section
attribute [local simp] Carried

theorem absI_carried (a : Int64) : Carried m (ConstEval.absI a) := by
  unfold ConstEval.absI; split
  · exact checked_carried _
  · rfl

theorem divI_carried (a b : Int64) : Carried m (ConstEval.divI a b) := by
  unfold ConstEval.divI; split
  · rfl
  · exact checked_carried _

theorem modI_carried (a b : Int64) : Carried m (ConstEval.modI a b) := by
  unfold ConstEval.modI; split
  · rfl
  · exact place_bind (checked_carried _) fun _ => checked_carried _

theorem shlI_carried (a b : Int64) : Carried m (ConstEval.shlI a b) := by
  unfold ConstEval.shlI; split <;> rfl

theorem shrI_carried (a b : Int64) : Carried m (ConstEval.shrI a b) := by
  unfold ConstEval.shrI; split <;> rfl

theorem op_neg_f_carries (fo : FloatOps F) : Carries m (ConstEval.op_neg_f fo) :=
  ufCp_carries asFloat_place (fun _ => rfl) (fun _ => rfl)

theorem op_neg_i_carries : Carries m ((ConstEval.op_neg_i : CoreFn F)) :=
  ufCp_carries asInt_place (fun _ => rfl) (fun _ => checked_carried _)

theorem op_add_ff_carries (fo : FloatOps F) : Carries m (ConstEval.op_add_ff fo) :=
  bfCp_carries asFloat_place (fun _ => rfl) (fun _ _ => rfl)

theorem op_sub_ff_carries (fo : FloatOps F) : Carries m (ConstEval.op_sub_ff fo) :=
  bfCp_carries asFloat_place (fun _ => rfl) (fun _ _ => rfl)

theorem op_mul_ff_carries (fo : FloatOps F) : Carries m (ConstEval.op_mul_ff fo) :=
  bfCp_carries asFloat_place (fun _ => rfl) (fun _ _ => rfl)

theorem op_div_ff_carries (fo : FloatOps F) : Carries m (ConstEval.op_div_ff fo) :=
  bfCp_carries asFloat_place (fun _ => rfl) (fun _ _ => rfl)

theorem op_pow_ff_carries (fo : FloatOps F) : Carries m (ConstEval.op_pow_ff fo) :=
  bfCp_carries asFloat_place (fun _ => rfl) (fun _ _ => rfl)

theorem op_add_ii_carries : Carries m ((ConstEval.op_add_ii : CoreFn F)) :=
  bfCp_carries asInt_place (fun _ => rfl) (fun _ _ => checked_carried _)

theorem op_sub_ii_carries : Carries m ((ConstEval.op_sub_ii : CoreFn F)) :=
  bfCp_carries asInt_place (fun _ => rfl) (fun _ _ => checked_carried _)

theorem op_mul_ii_carries : Carries m ((ConstEval.op_mul_ii : CoreFn F)) :=
  bfCp_carries asInt_place (fun _ => rfl) (fun _ _ => checked_carried _)

theorem op_div_ii_carries : Carries m ((ConstEval.op_div_ii : CoreFn F)) :=
  bfCp_carries asInt_place (fun _ => rfl) divI_carried

theorem op_mod_ii_carries : Carries m ((ConstEval.op_mod_ii : CoreFn F)) :=
  bfCp_carries asInt_place (fun _ => rfl) modI_carried

theorem op_shl_ii_carries : Carries m ((ConstEval.op_shl_ii : CoreFn F)) :=
  bfCp_carries asInt_place (fun _ => rfl) shlI_carried

theorem op_shr_ii_carries : Carries m ((ConstEval.op_shr_ii : CoreFn F)) :=
  bfCp_carries asInt_place (fun _ => rfl) shrI_carried

theorem op_eq_ff_carries (fo : FloatOps F) : Carries m (ConstEval.op_eq_ff fo) :=
  bfCp_carries asFloat_place (fun _ => rfl) (fun _ _ => rfl)

theorem op_ne_ff_carries (fo : FloatOps F) : Carries m (ConstEval.op_ne_ff fo) :=
  bfCp_carries asFloat_place (fun _ => rfl) (fun _ _ => rfl)

theorem op_ge_ff_carries (fo : FloatOps F) : Carries m (ConstEval.op_ge_ff fo) :=
  bfCp_carries asFloat_place (fun _ => rfl) (fun _ _ => rfl)

theorem op_gt_ff_carries (fo : FloatOps F) : Carries m (ConstEval.op_gt_ff fo) :=
  bfCp_carries asFloat_place (fun _ => rfl) (fun _ _ => rfl)

theorem op_le_ff_carries (fo : FloatOps F) : Carries m (ConstEval.op_le_ff fo) :=
  bfCp_carries asFloat_place (fun _ => rfl) (fun _ _ => rfl)

theorem op_lt_ff_carries (fo : FloatOps F) : Carries m (ConstEval.op_lt_ff fo) :=
  bfCp_carries asFloat_place (fun _ => rfl) (fun _ _ => rfl)

theorem op_eq_ii_carries : Carries m ((ConstEval.op_eq_ii : CoreFn F)) :=
  bfCp_carries asInt_place (fun _ => rfl) (fun _ _ => rfl)

theorem op_ne_ii_carries : Carries m ((ConstEval.op_ne_ii : CoreFn F)) :=
  bfCp_carries asInt_place (fun _ => rfl) (fun _ _ => rfl)

theorem op_ge_ii_carries : Carries m ((ConstEval.op_ge_ii : CoreFn F)) :=
  bfCp_carries asInt_place (fun _ => rfl) (fun _ _ => rfl)

theorem op_gt_ii_carries : Carries m ((ConstEval.op_gt_ii : CoreFn F)) :=
  bfCp_carries asInt_place (fun _ => rfl) (fun _ _ => rfl)

theorem op_le_ii_carries : Carries m ((ConstEval.op_le_ii : CoreFn F)) :=
  bfCp_carries asInt_place (fun _ => rfl) (fun _ _ => rfl)

theorem op_lt_ii_carries : Carries m ((ConstEval.op_lt_ii : CoreFn F)) :=
  bfCp_carries asInt_place (fun _ => rfl) (fun _ _ => rfl)

theorem op_eq_bb_carries : Carries m ((ConstEval.op_eq_bb : CoreFn F)) :=
  bfCp_carries asBool_place (fun _ => rfl) (fun _ _ => rfl)

theorem op_ne_bb_carries : Carries m ((ConstEval.op_ne_bb : CoreFn F)) :=
  bfCp_carries asBool_place (fun _ => rfl) (fun _ _ => rfl)

theorem op_ge_bb_carries : Carries m ((ConstEval.op_ge_bb : CoreFn F)) :=
  bfCp_carries asBool_place (fun _ => rfl) (fun _ _ => rfl)

theorem op_gt_bb_carries : Carries m ((ConstEval.op_gt_bb : CoreFn F)) :=
  bfCp_carries asBool_place (fun _ => rfl) (fun _ _ => rfl)

theorem op_le_bb_carries : Carries m ((ConstEval.op_le_bb : CoreFn F)) :=
  bfCp_carries asBool_place (fun _ => rfl) (fun _ _ => rfl)

theorem op_lt_bb_carries : Carries m ((ConstEval.op_lt_bb : CoreFn F)) :=
  bfCp_carries asBool_place (fun _ => rfl) (fun _ _ => rfl)

theorem op_binv_i_carries : Carries m ((ConstEval.op_binv_i : CoreFn F)) :=
  ufCp_carries asInt_place (fun _ => rfl) (fun _ => rfl)

theorem op_band_ii_carries : Carries m ((ConstEval.op_band_ii : CoreFn F)) :=
  bfCp_carries asInt_place (fun _ => rfl) (fun _ _ => rfl)

theorem op_bxor_ii_carries : Carries m ((ConstEval.op_bxor_ii : CoreFn F)) :=
  bfCp_carries asInt_place (fun _ => rfl) (fun _ _ => rfl)

theorem op_bor_ii_carries : Carries m ((ConstEval.op_bor_ii : CoreFn F)) :=
  bfCp_carries asInt_place (fun _ => rfl) (fun _ _ => rfl)

theorem op_linv_b_carries : Carries m ((ConstEval.op_linv_b : CoreFn F)) :=
  ufCp_carries asBool_place (fun _ => rfl) (fun _ => rfl)

theorem op_land_bb_carries : Carries m ((ConstEval.op_land_bb : CoreFn F)) :=
  bfCp_carries asBool_place (fun _ => rfl) (fun _ _ => rfl)

theorem op_lxor_bb_carries : Carries m ((ConstEval.op_lxor_bb : CoreFn F)) :=
  bfCp_carries asBool_place (fun _ => rfl) (fun _ _ => rfl)

theorem op_lor_bb_carries : Carries m ((ConstEval.op_lor_bb : CoreFn F)) :=
  bfCp_carries asBool_place (fun _ => rfl) (fun _ _ => rfl)

theorem op_tcnd_bff_carries : Carries m ((ConstEval.op_tcnd_bff : CoreFn F)) :=
  tfCp_carries asFloat_place (fun _ => rfl)

theorem op_tcnd_bii_carries : Carries m ((ConstEval.op_tcnd_bii : CoreFn F)) :=
  tfCp_carries asInt_place (fun _ => rfl)

theorem op_tcnd_bbb_carries : Carries m ((ConstEval.op_tcnd_bbb : CoreFn F)) :=
  tfCp_carries asBool_place (fun _ => rfl)

theorem fn_sqrt_f_carries (fo : FloatOps F) : Carries m (ConstEval.fn_sqrt_f fo) :=
  ufCp_carries asFloat_place (fun _ => rfl) (fun _ => rfl)

theorem fn_exp_f_carries (fo : FloatOps F) : Carries m (ConstEval.fn_exp_f fo) :=
  ufCp_carries asFloat_place (fun _ => rfl) (fun _ => rfl)

theorem fn_log_f_carries (fo : FloatOps F) : Carries m (ConstEval.fn_log_f fo) :=
  ufCp_carries asFloat_place (fun _ => rfl) (fun _ => rfl)

theorem fn_sin_f_carries (fo : FloatOps F) : Carries m (ConstEval.fn_sin_f fo) :=
  ufCp_carries asFloat_place (fun _ => rfl) (fun _ => rfl)

theorem fn_cos_f_carries (fo : FloatOps F) : Carries m (ConstEval.fn_cos_f fo) :=
  ufCp_carries asFloat_place (fun _ => rfl) (fun _ => rfl)

theorem fn_tan_f_carries (fo : FloatOps F) : Carries m (ConstEval.fn_tan_f fo) :=
  ufCp_carries asFloat_place (fun _ => rfl) (fun _ => rfl)

theorem fn_sinh_f_carries (fo : FloatOps F) : Carries m (ConstEval.fn_sinh_f fo) :=
  ufCp_carries asFloat_place (fun _ => rfl) (fun _ => rfl)

theorem fn_cosh_f_carries (fo : FloatOps F) : Carries m (ConstEval.fn_cosh_f fo) :=
  ufCp_carries asFloat_place (fun _ => rfl) (fun _ => rfl)

theorem fn_tanh_f_carries (fo : FloatOps F) : Carries m (ConstEval.fn_tanh_f fo) :=
  ufCp_carries asFloat_place (fun _ => rfl) (fun _ => rfl)

theorem fn_asin_f_carries (fo : FloatOps F) : Carries m (ConstEval.fn_asin_f fo) :=
  ufCp_carries asFloat_place (fun _ => rfl) (fun _ => rfl)

theorem fn_acos_f_carries (fo : FloatOps F) : Carries m (ConstEval.fn_acos_f fo) :=
  ufCp_carries asFloat_place (fun _ => rfl) (fun _ => rfl)

theorem fn_atan_f_carries (fo : FloatOps F) : Carries m (ConstEval.fn_atan_f fo) :=
  ufCp_carries asFloat_place (fun _ => rfl) (fun _ => rfl)

theorem fn_asinh_f_carries (fo : FloatOps F) : Carries m (ConstEval.fn_asinh_f fo) :=
  ufCp_carries asFloat_place (fun _ => rfl) (fun _ => rfl)

theorem fn_acosh_f_carries (fo : FloatOps F) : Carries m (ConstEval.fn_acosh_f fo) :=
  ufCp_carries asFloat_place (fun _ => rfl) (fun _ => rfl)

theorem fn_atanh_f_carries (fo : FloatOps F) : Carries m (ConstEval.fn_atanh_f fo) :=
  ufCp_carries asFloat_place (fun _ => rfl) (fun _ => rfl)

theorem fn_abs_f_carries (fo : FloatOps F) : Carries m (ConstEval.fn_abs_f fo) :=
  ufCp_carries asFloat_place (fun _ => rfl) (fun _ => rfl)

theorem fn_abs_i_carries : Carries m ((ConstEval.fn_abs_i : CoreFn F)) :=
  ufCp_carries asInt_place (fun _ => rfl) absI_carried

theorem defaultFns_carries (fo : FloatOps F) : CarriesTable m (defaultFns fo) := by
  unfold CarriesTable defaultFns
  refine forall_cons (p := fun (e : Str × List (Overload (CoreFn F))) => ∀ ov ∈ e.2, Carries m ov.tag) (forall_cons (op_neg_f_carries fo) (forall_cons (op_neg_i_carries) (forall_cons (op_sub_ff_carries fo) (forall_cons (op_sub_ii_carries) (forall_nil))))) ?_
  refine forall_cons (p := fun (e : Str × List (Overload (CoreFn F))) => ∀ ov ∈ e.2, Carries m ov.tag) (forall_cons (op_add_ff_carries fo) (forall_cons (op_add_ii_carries) (forall_nil))) ?_
  refine forall_cons (p := fun (e : Str × List (Overload (CoreFn F))) => ∀ ov ∈ e.2, Carries m ov.tag) (forall_cons (op_mul_ff_carries fo) (forall_cons (op_mul_ii_carries) (forall_nil))) ?_
  refine forall_cons (p := fun (e : Str × List (Overload (CoreFn F))) => ∀ ov ∈ e.2, Carries m ov.tag) (forall_cons (op_div_ff_carries fo) (forall_cons (op_div_ii_carries) (forall_nil))) ?_
  refine forall_cons (p := fun (e : Str × List (Overload (CoreFn F))) => ∀ ov ∈ e.2, Carries m ov.tag) (forall_cons (op_mod_ii_carries) (forall_nil)) ?_
  refine forall_cons (p := fun (e : Str × List (Overload (CoreFn F))) => ∀ ov ∈ e.2, Carries m ov.tag) (forall_cons (op_pow_ff_carries fo) (forall_nil)) ?_
  refine forall_cons (p := fun (e : Str × List (Overload (CoreFn F))) => ∀ ov ∈ e.2, Carries m ov.tag) (forall_cons (op_eq_ff_carries fo) (forall_cons (op_eq_ii_carries) (forall_cons (op_eq_bb_carries) (forall_nil)))) ?_
  refine forall_cons (p := fun (e : Str × List (Overload (CoreFn F))) => ∀ ov ∈ e.2, Carries m ov.tag) (forall_cons (op_ne_ff_carries fo) (forall_cons (op_ne_ii_carries) (forall_cons (op_ne_bb_carries) (forall_nil)))) ?_
  refine forall_cons (p := fun (e : Str × List (Overload (CoreFn F))) => ∀ ov ∈ e.2, Carries m ov.tag) (forall_cons (op_ge_ff_carries fo) (forall_cons (op_ge_ii_carries) (forall_cons (op_ge_bb_carries) (forall_nil)))) ?_
  refine forall_cons (p := fun (e : Str × List (Overload (CoreFn F))) => ∀ ov ∈ e.2, Carries m ov.tag) (forall_cons (op_gt_ff_carries fo) (forall_cons (op_gt_ii_carries) (forall_cons (op_gt_bb_carries) (forall_nil)))) ?_
  refine forall_cons (p := fun (e : Str × List (Overload (CoreFn F))) => ∀ ov ∈ e.2, Carries m ov.tag) (forall_cons (op_le_ff_carries fo) (forall_cons (op_le_ii_carries) (forall_cons (op_le_bb_carries) (forall_nil)))) ?_
  refine forall_cons (p := fun (e : Str × List (Overload (CoreFn F))) => ∀ ov ∈ e.2, Carries m ov.tag) (forall_cons (op_lt_ff_carries fo) (forall_cons (op_lt_ii_carries) (forall_cons (op_lt_bb_carries) (forall_nil)))) ?_
  refine forall_cons (p := fun (e : Str × List (Overload (CoreFn F))) => ∀ ov ∈ e.2, Carries m ov.tag) (forall_cons (op_binv_i_carries) (forall_nil)) ?_
  refine forall_cons (p := fun (e : Str × List (Overload (CoreFn F))) => ∀ ov ∈ e.2, Carries m ov.tag) (forall_cons (op_band_ii_carries) (forall_nil)) ?_
  refine forall_cons (p := fun (e : Str × List (Overload (CoreFn F))) => ∀ ov ∈ e.2, Carries m ov.tag) (forall_cons (op_bxor_ii_carries) (forall_nil)) ?_
  refine forall_cons (p := fun (e : Str × List (Overload (CoreFn F))) => ∀ ov ∈ e.2, Carries m ov.tag) (forall_cons (op_bor_ii_carries) (forall_nil)) ?_
  refine forall_cons (p := fun (e : Str × List (Overload (CoreFn F))) => ∀ ov ∈ e.2, Carries m ov.tag) (forall_cons (op_shl_ii_carries) (forall_nil)) ?_
  refine forall_cons (p := fun (e : Str × List (Overload (CoreFn F))) => ∀ ov ∈ e.2, Carries m ov.tag) (forall_cons (op_shr_ii_carries) (forall_nil)) ?_
  refine forall_cons (p := fun (e : Str × List (Overload (CoreFn F))) => ∀ ov ∈ e.2, Carries m ov.tag) (forall_cons (op_linv_b_carries) (forall_nil)) ?_
  refine forall_cons (p := fun (e : Str × List (Overload (CoreFn F))) => ∀ ov ∈ e.2, Carries m ov.tag) (forall_cons (op_land_bb_carries) (forall_nil)) ?_
  refine forall_cons (p := fun (e : Str × List (Overload (CoreFn F))) => ∀ ov ∈ e.2, Carries m ov.tag) (forall_cons (op_lxor_bb_carries) (forall_nil)) ?_
  refine forall_cons (p := fun (e : Str × List (Overload (CoreFn F))) => ∀ ov ∈ e.2, Carries m ov.tag) (forall_cons (op_lor_bb_carries) (forall_nil)) ?_
  refine forall_cons (p := fun (e : Str × List (Overload (CoreFn F))) => ∀ ov ∈ e.2, Carries m ov.tag) (forall_cons (op_tcnd_bff_carries) (forall_cons (op_tcnd_bii_carries) (forall_cons (op_tcnd_bbb_carries) (forall_nil)))) ?_
  refine forall_cons (p := fun (e : Str × List (Overload (CoreFn F))) => ∀ ov ∈ e.2, Carries m ov.tag) (forall_cons (fn_sqrt_f_carries fo) (forall_nil)) ?_
  refine forall_cons (p := fun (e : Str × List (Overload (CoreFn F))) => ∀ ov ∈ e.2, Carries m ov.tag) (forall_cons (fn_exp_f_carries fo) (forall_nil)) ?_
  refine forall_cons (p := fun (e : Str × List (Overload (CoreFn F))) => ∀ ov ∈ e.2, Carries m ov.tag) (forall_cons (fn_log_f_carries fo) (forall_nil)) ?_
  refine forall_cons (p := fun (e : Str × List (Overload (CoreFn F))) => ∀ ov ∈ e.2, Carries m ov.tag) (forall_cons (fn_sin_f_carries fo) (forall_nil)) ?_
  refine forall_cons (p := fun (e : Str × List (Overload (CoreFn F))) => ∀ ov ∈ e.2, Carries m ov.tag) (forall_cons (fn_cos_f_carries fo) (forall_nil)) ?_
  refine forall_cons (p := fun (e : Str × List (Overload (CoreFn F))) => ∀ ov ∈ e.2, Carries m ov.tag) (forall_cons (fn_tan_f_carries fo) (forall_nil)) ?_
  refine forall_cons (p := fun (e : Str × List (Overload (CoreFn F))) => ∀ ov ∈ e.2, Carries m ov.tag) (forall_cons (fn_sinh_f_carries fo) (forall_nil)) ?_
  refine forall_cons (p := fun (e : Str × List (Overload (CoreFn F))) => ∀ ov ∈ e.2, Carries m ov.tag) (forall_cons (fn_cosh_f_carries fo) (forall_nil)) ?_
  refine forall_cons (p := fun (e : Str × List (Overload (CoreFn F))) => ∀ ov ∈ e.2, Carries m ov.tag) (forall_cons (fn_tanh_f_carries fo) (forall_nil)) ?_
  refine forall_cons (p := fun (e : Str × List (Overload (CoreFn F))) => ∀ ov ∈ e.2, Carries m ov.tag) (forall_cons (fn_asin_f_carries fo) (forall_nil)) ?_
  refine forall_cons (p := fun (e : Str × List (Overload (CoreFn F))) => ∀ ov ∈ e.2, Carries m ov.tag) (forall_cons (fn_acos_f_carries fo) (forall_nil)) ?_
  refine forall_cons (p := fun (e : Str × List (Overload (CoreFn F))) => ∀ ov ∈ e.2, Carries m ov.tag) (forall_cons (fn_atan_f_carries fo) (forall_nil)) ?_
  refine forall_cons (p := fun (e : Str × List (Overload (CoreFn F))) => ∀ ov ∈ e.2, Carries m ov.tag) (forall_cons (fn_asinh_f_carries fo) (forall_nil)) ?_
  refine forall_cons (p := fun (e : Str × List (Overload (CoreFn F))) => ∀ ov ∈ e.2, Carries m ov.tag) (forall_cons (fn_acosh_f_carries fo) (forall_nil)) ?_
  refine forall_cons (p := fun (e : Str × List (Overload (CoreFn F))) => ∀ ov ∈ e.2, Carries m ov.tag) (forall_cons (fn_atanh_f_carries fo) (forall_nil)) ?_
  refine forall_cons (p := fun (e : Str × List (Overload (CoreFn F))) => ∀ ov ∈ e.2, Carries m ov.tag) (forall_cons (fn_abs_f_carries fo) (forall_cons (fn_abs_i_carries) (forall_nil))) ?_
  exact forall_nil

end

/-! ## Scopes -/

/-- The scope elsewhere. -/
def placeScope (m : Loc → Loc) (s : Scope F) : Scope F :=
  ⟨s.variableTable.map fun e => (e.1, (placeValue m) e.2), s.fnTable, s.instructionTable,
    ⟨s.block.statements.map (placeSStatement m), s.block.loc.map m⟩, s.variables.map (placeSVariable m)⟩

/-- The analyser elsewhere. -/
def placeAnalyzer (m : Loc → Loc) (a : Analyzer F) : Analyzer F := ⟨a.apiVersion, a.scopes.map (placeScope m), a.nextUid⟩

/-- Every function of the scopes carries positions along. -/
def CarriesScopes (m : Loc → Loc) (ss : List (Scope F)) : Prop := ∀ s ∈ ss, CarriesTable m s.fnTable

theorem varFind_place (t : VariableTable F) (name : Str) :
    VariableTable.find (t.map fun e => (e.1, (placeValue m) e.2)) name = (VariableTable.find t name).map (placeValue m) := by
  induction t with
  | nil => rfl
  | cons e es ih =>
    simp only [List.map_cons, VariableTable.find, ih]
    split <;> rfl

theorem resolveVariable_place (ss : List (Scope F)) (name : Str) :
    Analyzer.resolveVariable (ss.map (placeScope m)) name = (Analyzer.resolveVariable ss name).place m (placeValue m) := by
  induction ss with
  | nil => exact congrArg Res.err (mk0_place _)
  | cons s ss ih =>
    simp only [List.map_cons, Analyzer.resolveVariable, VariableTable.resolve, placeScope, varFind_place]
    cases VariableTable.find s.variableTable name with
    | some v => rfl
    | none => exact ih

theorem resolveFunction_place {ss : List (Scope F)} (hb : CarriesScopes m ss) (name : Str) (vs : List (Value F)) :
    Analyzer.resolveFunction fo (ss.map (placeScope m)) name (vs.map (placeValue m))
      = (Analyzer.resolveFunction fo ss name vs).place m (Option.map (placeValue m)) := by
  unfold Analyzer.resolveFunction
  rw [List.getLast?_map]
  cases h : ss.getLast? with
  | none => rfl
  | some s => exact fnResolve_place (hb s (List.mem_of_getLast? h)) name vs

theorem resolveInstruction_place (ss : List (Scope F)) (name : Str) (vs : List (Value F)) :
    Analyzer.resolveInstruction fo (ss.map (placeScope m)) name (vs.map (placeValue m))
      = (Analyzer.resolveInstruction fo ss name vs).place m (placeMatch m) := by
  induction ss with
  | nil =>
    simp only [List.map_nil, Analyzer.resolveInstruction]
    refine place_bind (typesOf_place vs) fun ts => ?_
    exact congrArg Res.err (mk0_place _)
  | cons s ss ih =>
    simp only [List.map_cons, Analyzer.resolveInstruction]
    have : (placeScope m s).instructionTable = s.instructionTable := rfl
    rw [this, resolve_place]
    cases OverloadTable.resolve fo s.instructionTable name vs with
    | err e => exact ih
    | _ => rfl

/-! ## Expressions -/

theorem callFunction_place {ss : List (Scope F)} (hb : CarriesScopes m ss) (name : Str) (vs : List (Value F)) :
    callFunction fo (ss.map (placeScope m)) name (vs.map (placeValue m)) = (callFunction fo ss name vs).place m (placeValue m) := by
  unfold callFunction
  refine place_bind (resolveFunction_place hb name vs) fun o => ?_
  cases o with
  | none => exact congrArg Res.err (mk0_place _)
  | some v => rfl

theorem locate_place {r r' : Res Err (Value F)} (h : r' = r.place m (placeValue m)) (l : Option Loc) :
    locate (l.map m) r' = (locate l r).place m (placeValue m) := by
  subst h
  cases r <;> simp [locate, placeValue]

/-- The indices elsewhere. -/
def placeIndices (m : Loc → Loc) (is : List (Int64 × Option Loc)) : List (Int64 × Option Loc) := is.map fun i => (i.1, i.2.map m)

theorem checkOutOfRange_place (is : List (Int64 × Option Loc)) (n : Int64) :
    checkOutOfRange (placeIndices m is) n = (checkOutOfRange is n).place m id := by
  induction is with
  | nil => rfl
  | cons i is ih =>
    obtain ⟨i, l⟩ := i
    simp only [placeIndices, List.map_cons, checkOutOfRange] at ih ⊢
    split
    · exact congrArg Res.err (mk0_place _)
    · exact ih

theorem toConstInt_place {r r' : Res Err (Value F)} (h : r' = r.place m (placeValue m)) (l : Option Loc) :
    toConstInt fo (l.map m) r' = (toConstInt fo l r).place m id := by
  unfold toConstInt
  refine place_bind h fun v => ?_
  refine place_bind (promote_place v _) fun o => ?_
  cases o with
  | none => exact congrArg Res.err (mkNode_place _ _)
  | some w =>
    obtain ⟨n, lw⟩ := w
    cases n with
    | constInt i => rfl
    | _ => exact congrArg Res.err (mkNode_place _ _)

theorem indexRange_place (l : Option Loc) (a b : Int64) :
    indexRange (l.map m) a b = (indexRange l a b).place m (placeIndices m) := by
  unfold indexRange
  split
  · exact congrArg Res.err (mkNode_place _ _)
  · split
    · rfl
    · simp [placeIndices]

theorem indexInto_place {v : Value F} {r r' : Res Err (List (Int64 × Option Loc))} (h : r' = r.place m (placeIndices m)) :
    indexInto (placeValue m v) r' = (indexInto v r).place m (placeValue m) := by
  have ht := typeOf_place (m := m) v
  obtain ⟨n, l⟩ := v
  cases n with
  | variableRef x =>
    simp only [indexInto, placeValue, placeNode]
    split
    · refine place_bind h fun is => ?_
      refine place_bind (checkOutOfRange_place is _) fun _ => ?_
      simp [placeValue, placeNode, placeIndices]
    · refine place_bind ht fun t => ?_
      exact congrArg Res.err (mk0_place _)
  | _ => rfl

theorem placeExpr_loc (e : Expr F) : (placeExpr m e).loc = e.loc.map m := by
  cases e <;> rfl

mutual
theorem visit_place {ss : List (Scope F)} (hb : CarriesScopes m ss) (e : Expr F) :
    visit fo (ss.map (placeScope m)) (placeExpr m e) = (visit fo ss e).place m (placeValue m) := by
  cases e with
  | boolLit l b => simp [visit, placeExpr, placeValue, placeNode]
  | intLit l b => simp [visit, placeExpr, placeValue, placeNode]
  | floatLit l b => simp [visit, placeExpr, placeValue, placeNode]
  | ident l n => simp only [visit, placeExpr]; exact resolveVariable_place ss n
  | index l e is =>
    simp only [visit, placeExpr, placeExpr_loc]
    have h := place_bind (g := (placeValue m)) (locate_place (visit_place hb e) e.loc)
      (k' := fun v => indexInto v (visitIndexList fo (ss.map (placeScope m)) (placeEntries m is)))
      (k := fun v => indexInto v (visitIndexList fo ss is)) (fun v => indexInto_place (visitIndexList_place hb is))
    rw [h]
    cases (locate e.loc (visit fo ss e)).bind fun v => indexInto v (visitIndexList fo ss is) <;> simp
  | call l n es =>
    simp only [visit, placeExpr]
    exact place_bind (visitList_place hb es) fun vs => callFunction_place hb n vs
  | un l o e =>
    simp only [visit, placeExpr, placeExpr_loc]
    exact place_bind (locate_place (visit_place hb e) e.loc) fun v => callFunction_place hb _ [v]
  | bin l o a b =>
    simp only [visit, placeExpr, placeExpr_loc]
    exact place_bind (locate_place (visit_place hb a) a.loc) fun v =>
      place_bind (locate_place (visit_place hb b) b.loc) fun w => callFunction_place hb _ [v, w]
  | tern l c a b =>
    simp only [visit, placeExpr, placeExpr_loc]
    exact place_bind (locate_place (visit_place hb c) c.loc) fun u =>
      place_bind (locate_place (visit_place hb a) a.loc) fun v =>
      place_bind (locate_place (visit_place hb b) b.loc) fun w => callFunction_place hb _ [u, v, w]

theorem visitList_place {ss : List (Scope F)} (hb : CarriesScopes m ss) (es : List (Expr F)) :
    visitList fo (ss.map (placeScope m)) (placeExprs m es) = (visitList fo ss es).place m (List.map (placeValue m)) := by
  cases es with
  | nil => simp [visitList, placeExprs]
  | cons e es =>
    simp only [visitList, placeExprs, placeExpr_loc]
    exact place_bind (locate_place (visit_place hb e) e.loc) fun v => place_bind (visitList_place hb es) fun vs => rfl

theorem visitIndexList_place {ss : List (Scope F)} (hb : CarriesScopes m ss) (is : List (IndexEntry F)) :
    visitIndexList fo (ss.map (placeScope m)) (placeEntries m is) = (visitIndexList fo ss is).place m (placeIndices m) := by
  cases is with
  | nil => simp [visitIndexList, placeEntries, placeIndices]
  | cons i is =>
    simp only [visitIndexList, placeEntries]
    exact place_bind (visitIndexEntry_place hb i) fun v => place_bind (visitIndexList_place hb is) fun vs => by
      simp [placeIndices]

theorem visitIndexEntry_place {ss : List (Scope F)} (hb : CarriesScopes m ss) (i : IndexEntry F) :
    visitIndexEntry fo (ss.map (placeScope m)) (placeEntry m i) = (visitIndexEntry fo ss i).place m (placeIndices m) := by
  cases i with
  | item l e =>
    simp only [visitIndexEntry, placeEntry, placeExpr_loc]
    exact place_bind (toConstInt_place (visit_place hb e) e.loc) fun _ => rfl
  | range l a b =>
    simp only [visitIndexEntry, placeEntry, placeExpr_loc]
    exact place_bind (toConstInt_place (visit_place hb a) a.loc) fun _ =>
      place_bind (toConstInt_place (visit_place hb b) b.loc) fun _ => indexRange_place l _ _
end

end Place
end Qasm
