import Verif.Spec.Layout
import Verif.Lemmas.DefaultTables
/-!
# Helper lemmas: analysis does not depend on positions
-/

namespace Qasm

open Spec Sem

variable {F α β γ : Type} {fo : FloatOps F}

/-- The outcome with the value changed and the error without its position. -/
def Res.strip (f : α → β) : Res Err α → Res Err β
  | .ok a => .ok (f a)
  | .err e => .err ⟨e.message, none⟩
  | .exn c => .exn c
  | .ub => .ub

@[simp] theorem Res.strip_ok (f : α → β) (a : α) : (Res.ok a : Res Err α).strip f = .ok (f a) := rfl
@[simp] theorem Res.strip_err (f : α → β) (e : Err) : (Res.err e : Res Err α).strip f = .err ⟨e.message, none⟩ := rfl
@[simp] theorem Res.strip_exn (f : α → β) (c : Str) : (Res.exn c : Res Err α).strip f = .exn c := rfl
@[simp] theorem Res.strip_ub (f : α → β) : (Res.ub : Res Err α).strip f = .ub := rfl

theorem strip_bind {δ : Type} {r : Res Err α} {f : α → γ} {r' : Res Err γ} {k : α → Res Err β} {g : β → δ} {k' : γ → Res Err δ} (hr : r' = r.strip f)
    (hk : ∀ a, k' (f a) = (k a).strip g) : r'.bind k' = (r.bind k).strip g := by
  subst hr
  cases r <;> simp [hk]

@[simp] theorem context_message (e : Err) (l : Option Loc) : (e.context l).message = e.message := by
  unfold Err.context; split <;> rfl

@[simp] theorem strip_context (e : Err) : Err.context ⟨e.message, none⟩ none = ⟨e.message, none⟩ := rfl

@[simp] theorem mkNode_message (m : Str) (l : Option Loc) : (Err.mkNode m l).message = Err.normMsg m := by
  simp [Err.mkNode]

theorem mkNode_none (m : Str) (l : Option Loc) : Err.mkNode m none = ⟨(Err.mkNode m l).message, none⟩ := by
  simp [Err.mkNode, Err.context]

theorem mk0_strip (m : Str) : Err.mk0 m = ⟨(Err.mk0 m).message, none⟩ := mkNode_none m none

/-! ## Values -/

@[simp] theorem stripValue_loc (v : Value F) : (stripValue v).loc = none := rfl

theorem sizeOf_strip (v : Value F) : Values.sizeOf (stripValue v) = Values.sizeOf v := by
  obtain ⟨n, l⟩ := v
  cases n <;> simp [Values.sizeOf, stripValue, stripNode]

theorem typeOf_strip (v : Value F) : Values.typeOf (stripValue v) = (Values.typeOf v).strip id := by
  have h := sizeOf_strip v
  obtain ⟨n, l⟩ := v
  cases n with
  | indexRef x is =>
    simp only [Values.typeOf, h, stripValue, stripNode]
    simp only [stripValue, stripNode] at h
    simp only [h]
    unfold Values.elementTypeOf
    split
    · split
      · rfl
      · split <;> rfl
    · rfl
  | _ => rfl

theorem typesOf_strip (vs : List (Value F)) : Values.typesOf (vs.map stripValue) = (Values.typesOf vs).strip id := by
  induction vs with
  | nil => rfl
  | cons v vs ih =>
    simp only [List.map_cons, Values.typesOf]
    exact strip_bind (typeOf_strip v) fun t => strip_bind ih fun ts => rfl

theorem promote_strip (v : Value F) (t : Ty) :
    Values.promote fo (stripValue v) t = (Values.promote fo v t).strip (Option.map stripValue) := by
  unfold Values.promote
  refine strip_bind (typeOf_strip v) fun tv => ?_
  simp only [id]
  split
  · rfl
  · obtain ⟨n, l⟩ := v
    simp only [Res.strip_ok, Option.map_map]
    congr 1
    cases t.kind <;> cases n <;> simp [stripValue, stripNode] <;> split <;> simp [stripValue, stripNode]

/-! ## Functions -/

/-- The function does not look at positions. -/
def Blind (f : CoreFn F) : Prop := ∀ vs, f (vs.map stripValue) = (f vs).strip (Option.map stripValue)

theorem checkConstAll_strip (vs : List (Value F)) :
    Values.checkConstAll (vs.map stripValue) = (Values.checkConstAll vs).strip id := by
  induction vs with
  | nil => rfl
  | cons v vs ih =>
    simp only [List.map_cons, Values.checkConstAll]
    refine strip_bind (f := id) ?_ fun _ => ih
    obtain ⟨n, l⟩ := v
    unfold Values.checkConst
    cases n <;> simp [Values.isConstant, stripValue, stripNode, Err.mkNode, Err.context]

theorem nth_strip (vs : List (Value F)) (i : Nat) :
    ConstEval.nth (vs.map stripValue) i = (ConstEval.nth vs i).strip stripValue := by
  simp only [ConstEval.nth, List.getElem?_map]
  cases vs[i]? <;> rfl

theorem get_strip (p : ValueNode F → Option α) (hp : ∀ n, p (stripNode n) = p n) (v : Value F) :
    ConstEval.get p (stripValue v) = (ConstEval.get p v).strip id := by
  simp only [ConstEval.get, stripValue, hp]
  cases p v.node <;> rfl

theorem asBool_strip (n : ValueNode F) : ConstEval.asBool (stripNode n) = ConstEval.asBool n := by cases n <;> rfl
theorem asInt_strip (n : ValueNode F) : ConstEval.asInt (stripNode n) = ConstEval.asInt n := by cases n <;> rfl
theorem asFloat_strip (n : ValueNode F) : ConstEval.asFloat (stripNode n) = ConstEval.asFloat n := by cases n <;> rfl

/-- The function on numbers throws nothing but errors without position. -/
def Plain (r : Res Err α) : Prop := r = r.strip id

theorem ufCp_blind {inj : β → ValueNode F} {p : ValueNode F → Option α} {f : α → Res Err β} (hp : ∀ n, p (stripNode n) = p n)
    (hi : ∀ b, stripNode (inj b) = inj b) (hf : ∀ a, Plain (f a)) : Blind (ConstEval.ufCp inj p f) := by
  intro vs
  unfold ConstEval.ufCp
  refine strip_bind (checkConstAll_strip vs) fun _ => ?_
  refine strip_bind (nth_strip vs 0) fun v0 => ?_
  refine strip_bind (get_strip p hp v0) fun a => ?_
  refine strip_bind (hf a) fun r => ?_
  simp [stripValue, hi]

theorem bfCp_blind {inj : β → ValueNode F} {p : ValueNode F → Option α} {f : α → α → Res Err β} (hp : ∀ n, p (stripNode n) = p n)
    (hi : ∀ b, stripNode (inj b) = inj b) (hf : ∀ a b, Plain (f a b)) : Blind (ConstEval.bfCp inj p f) := by
  intro vs
  unfold ConstEval.bfCp
  refine strip_bind (checkConstAll_strip vs) fun _ => ?_
  refine strip_bind (nth_strip vs 0) fun v0 => ?_
  refine strip_bind (get_strip p hp v0) fun a => ?_
  refine strip_bind (nth_strip vs 1) fun v1 => ?_
  refine strip_bind (get_strip p hp v1) fun b => ?_
  refine strip_bind (hf a b) fun r => ?_
  simp [stripValue, hi]

theorem tfCp_blind {inj : α → ValueNode F} {p : ValueNode F → Option α} (hp : ∀ n, p (stripNode n) = p n)
    (hi : ∀ b, stripNode (inj b) = inj b) : Blind (ConstEval.tfCp inj p) := by
  intro vs
  unfold ConstEval.tfCp
  refine strip_bind (checkConstAll_strip vs) fun _ => ?_
  refine strip_bind (nth_strip vs 0) fun v0 => ?_
  refine strip_bind (get_strip _ asBool_strip v0) fun a => ?_
  refine strip_bind (nth_strip vs 1) fun v1 => ?_
  refine strip_bind (get_strip p hp v1) fun b => ?_
  refine strip_bind (nth_strip vs 2) fun v2 => ?_
  refine strip_bind (get_strip p hp v2) fun r => ?_
  simp [stripValue, hi]

theorem checked_plain (z : Int) : Plain (ConstEval.checked z) := by
  unfold ConstEval.checked Plain; split <;> rfl

/-! ## Name tables -/

theorem strip_bind' {δ : Type} {r : Res Err α} {f : α → γ} {r' : Res Err γ} {k : α → Res Err β} {g : β → δ} {k' : γ → Res Err δ} (hr : r' = r.strip f)
    (hk : ∀ a, r = .ok a → k' (f a) = (k a).strip g) : r'.bind k' = (r.bind k).strip g := by
  subst hr
  cases r <;> simp [hk]

/-- What overload resolution returns, without positions. -/
def stripMatch {T : Type} (r : T × List (Value F)) : T × List (Value F) := (r.1, r.2.map stripValue)

theorem promoteAll_strip (vs : List (Value F)) (ts : List Ty) :
    OverloadTable.promoteAll fo (vs.map stripValue) ts
      = (OverloadTable.promoteAll fo vs ts).strip (Option.map (List.map stripValue)) := by
  induction vs generalizing ts with
  | nil => simp [OverloadTable.promoteAll]
  | cons v vs ih =>
    cases ts with
    | nil => simp [OverloadTable.promoteAll]
    | cons t ts =>
      simp only [List.map_cons, OverloadTable.promoteAll]
      refine strip_bind (promote_strip v t) fun o => ?_
      cases o with
      | none => rfl
      | some v' =>
        refine strip_bind (ih ts) fun o => ?_
        cases o <;> rfl

theorem resolveFirst_strip {T : Type} (vs : List (Value F)) (ovs : List (Overload T)) :
    OverloadTable.resolveFirst fo (vs.map stripValue) ovs
      = (OverloadTable.resolveFirst fo vs ovs).strip (Option.map stripMatch) := by
  induction ovs with
  | nil => rfl
  | cons ov ovs ih =>
    simp only [OverloadTable.resolveFirst, List.length_map]
    split
    · exact ih
    · refine strip_bind (promoteAll_strip vs _) fun o => ?_
      cases o
      · exact ih
      · rfl

theorem resolve_strip {T : Type} (tbl : OverloadTable T) (name : Str) (vs : List (Value F)) :
    OverloadTable.resolve fo tbl name (vs.map stripValue) = (OverloadTable.resolve fo tbl name vs).strip stripMatch := by
  unfold OverloadTable.resolve
  cases OverloadTable.find tbl name with
  | none => exact congrArg Res.err (mk0_strip _)
  | some ovs =>
    refine strip_bind (resolveFirst_strip vs _) fun o => ?_
    cases o with
    | some r => rfl
    | none =>
      refine strip_bind (typesOf_strip vs) fun ts => ?_
      exact congrArg Res.err (mk0_strip _)

theorem resolveFirst_tag {T : Type} {vs : List (Value F)} {ovs : List (Overload T)} {r : T × List (Value F)}
    (h : OverloadTable.resolveFirst fo vs ovs = .ok (some r)) : ∃ ov ∈ ovs, ov.tag = r.1 := by
  induction ovs with
  | nil => simp [OverloadTable.resolveFirst] at h
  | cons ov ovs ih =>
    simp only [OverloadTable.resolveFirst] at h
    split at h
    · obtain ⟨o, ho, e⟩ := ih h
      exact ⟨o, List.mem_cons_of_mem _ ho, e⟩
    · cases hp : OverloadTable.promoteAll fo vs ov.params with
      | ok x =>
        rw [hp] at h
        cases x with
        | none =>
          obtain ⟨o, ho, e⟩ := ih (by simpa using h)
          exact ⟨o, List.mem_cons_of_mem _ ho, e⟩
        | some y =>
          simp at h
          exact ⟨ov, List.mem_cons_self, by rw [← h]⟩
      | _ => rw [hp] at h; simp at h

/-- No function of the table looks at positions. -/
def BlindTable (tbl : OverloadTable (CoreFn F)) : Prop := ∀ e ∈ tbl, ∀ ov ∈ e.2, Blind ov.tag

theorem find_mem {T : Type} {tbl : OverloadTable T} {name : Str} {ovs : List (Overload T)}
    (h : OverloadTable.find tbl name = some ovs) : ∃ e ∈ tbl, e.2 = ovs := by
  induction tbl with
  | nil => simp [OverloadTable.find] at h
  | cons e es ih =>
    obtain ⟨n, o⟩ := e
    simp only [OverloadTable.find] at h
    split at h
    · exact ⟨_, List.mem_cons_self, by simpa using h⟩
    · obtain ⟨e, he, h⟩ := ih h
      exact ⟨e, List.mem_cons_of_mem _ he, h⟩

theorem fnResolve_strip {tbl : OverloadTable (CoreFn F)} (hb : BlindTable tbl) (name : Str) (vs : List (Value F)) :
    FnTable.resolve fo tbl name (vs.map stripValue) = (FnTable.resolve fo tbl name vs).strip (Option.map stripValue) := by
  unfold FnTable.resolve
  refine strip_bind' (resolve_strip tbl name vs) fun r hr => ?_
  refine (?_ : Blind r.1) r.2
  unfold OverloadTable.resolve at hr
  cases hf : OverloadTable.find tbl name with
  | none => simp [hf] at hr
  | some ovs =>
    simp only [hf, OverloadTable.resolveOverload] at hr
    cases hx : OverloadTable.resolveFirst fo vs ovs.reverse with
    | ok x =>
      cases x with
      | some y =>
        simp only [hx, Res.bind_ok, Res.ok.injEq] at hr
        obtain ⟨ov, ho, e⟩ := resolveFirst_tag hx
        obtain ⟨en, hen, h2⟩ := find_mem hf
        rw [← hr, ← e]
        exact hb en hen ov (by rw [h2]; simpa using ho)
      | none =>
        simp only [hx, Res.bind_ok] at hr
        cases ht : Values.typesOf vs <;> simp [ht] at hr
    | _ => simp [hx] at hr

/-! ## The default functions -/

section
attribute [local simp] Plain

theorem absI_plain (a : Int64) : Plain (ConstEval.absI a) := by
  unfold ConstEval.absI; split
  · exact checked_plain _
  · rfl

theorem divI_plain (a b : Int64) : Plain (ConstEval.divI a b) := by
  unfold ConstEval.divI; split
  · rfl
  · exact checked_plain _

theorem modI_plain (a b : Int64) : Plain (ConstEval.modI a b) := by
  unfold ConstEval.modI; split
  · rfl
  · exact strip_bind (checked_plain _) fun _ => checked_plain _

theorem shlI_plain (a b : Int64) : Plain (ConstEval.shlI a b) := by
  unfold ConstEval.shlI; split <;> rfl

theorem shrI_plain (a b : Int64) : Plain (ConstEval.shrI a b) := by
  unfold ConstEval.shrI; split <;> rfl

theorem op_neg_f_blind (fo : FloatOps F) : Blind (ConstEval.op_neg_f fo) :=
  ufCp_blind asFloat_strip (fun _ => rfl) (fun _ => rfl)

theorem op_neg_i_blind : Blind ((ConstEval.op_neg_i : CoreFn F)) :=
  ufCp_blind asInt_strip (fun _ => rfl) (fun _ => checked_plain _)

theorem op_add_ff_blind (fo : FloatOps F) : Blind (ConstEval.op_add_ff fo) :=
  bfCp_blind asFloat_strip (fun _ => rfl) (fun _ _ => rfl)

theorem op_sub_ff_blind (fo : FloatOps F) : Blind (ConstEval.op_sub_ff fo) :=
  bfCp_blind asFloat_strip (fun _ => rfl) (fun _ _ => rfl)

theorem op_mul_ff_blind (fo : FloatOps F) : Blind (ConstEval.op_mul_ff fo) :=
  bfCp_blind asFloat_strip (fun _ => rfl) (fun _ _ => rfl)

theorem op_div_ff_blind (fo : FloatOps F) : Blind (ConstEval.op_div_ff fo) :=
  bfCp_blind asFloat_strip (fun _ => rfl) (fun _ _ => rfl)

theorem op_pow_ff_blind (fo : FloatOps F) : Blind (ConstEval.op_pow_ff fo) :=
  bfCp_blind asFloat_strip (fun _ => rfl) (fun _ _ => rfl)

theorem op_add_ii_blind : Blind ((ConstEval.op_add_ii : CoreFn F)) :=
  bfCp_blind asInt_strip (fun _ => rfl) (fun _ _ => checked_plain _)

theorem op_sub_ii_blind : Blind ((ConstEval.op_sub_ii : CoreFn F)) :=
  bfCp_blind asInt_strip (fun _ => rfl) (fun _ _ => checked_plain _)

theorem op_mul_ii_blind : Blind ((ConstEval.op_mul_ii : CoreFn F)) :=
  bfCp_blind asInt_strip (fun _ => rfl) (fun _ _ => checked_plain _)

theorem op_div_ii_blind : Blind ((ConstEval.op_div_ii : CoreFn F)) :=
  bfCp_blind asInt_strip (fun _ => rfl) divI_plain

theorem op_mod_ii_blind : Blind ((ConstEval.op_mod_ii : CoreFn F)) :=
  bfCp_blind asInt_strip (fun _ => rfl) modI_plain

theorem op_shl_ii_blind : Blind ((ConstEval.op_shl_ii : CoreFn F)) :=
  bfCp_blind asInt_strip (fun _ => rfl) shlI_plain

theorem op_shr_ii_blind : Blind ((ConstEval.op_shr_ii : CoreFn F)) :=
  bfCp_blind asInt_strip (fun _ => rfl) shrI_plain

theorem op_eq_ff_blind (fo : FloatOps F) : Blind (ConstEval.op_eq_ff fo) :=
  bfCp_blind asFloat_strip (fun _ => rfl) (fun _ _ => rfl)

theorem op_ne_ff_blind (fo : FloatOps F) : Blind (ConstEval.op_ne_ff fo) :=
  bfCp_blind asFloat_strip (fun _ => rfl) (fun _ _ => rfl)

theorem op_ge_ff_blind (fo : FloatOps F) : Blind (ConstEval.op_ge_ff fo) :=
  bfCp_blind asFloat_strip (fun _ => rfl) (fun _ _ => rfl)

theorem op_gt_ff_blind (fo : FloatOps F) : Blind (ConstEval.op_gt_ff fo) :=
  bfCp_blind asFloat_strip (fun _ => rfl) (fun _ _ => rfl)

theorem op_le_ff_blind (fo : FloatOps F) : Blind (ConstEval.op_le_ff fo) :=
  bfCp_blind asFloat_strip (fun _ => rfl) (fun _ _ => rfl)

theorem op_lt_ff_blind (fo : FloatOps F) : Blind (ConstEval.op_lt_ff fo) :=
  bfCp_blind asFloat_strip (fun _ => rfl) (fun _ _ => rfl)

theorem op_eq_ii_blind : Blind ((ConstEval.op_eq_ii : CoreFn F)) :=
  bfCp_blind asInt_strip (fun _ => rfl) (fun _ _ => rfl)

theorem op_ne_ii_blind : Blind ((ConstEval.op_ne_ii : CoreFn F)) :=
  bfCp_blind asInt_strip (fun _ => rfl) (fun _ _ => rfl)

theorem op_ge_ii_blind : Blind ((ConstEval.op_ge_ii : CoreFn F)) :=
  bfCp_blind asInt_strip (fun _ => rfl) (fun _ _ => rfl)

theorem op_gt_ii_blind : Blind ((ConstEval.op_gt_ii : CoreFn F)) :=
  bfCp_blind asInt_strip (fun _ => rfl) (fun _ _ => rfl)

theorem op_le_ii_blind : Blind ((ConstEval.op_le_ii : CoreFn F)) :=
  bfCp_blind asInt_strip (fun _ => rfl) (fun _ _ => rfl)

theorem op_lt_ii_blind : Blind ((ConstEval.op_lt_ii : CoreFn F)) :=
  bfCp_blind asInt_strip (fun _ => rfl) (fun _ _ => rfl)

theorem op_eq_bb_blind : Blind ((ConstEval.op_eq_bb : CoreFn F)) :=
  bfCp_blind asBool_strip (fun _ => rfl) (fun _ _ => rfl)

theorem op_ne_bb_blind : Blind ((ConstEval.op_ne_bb : CoreFn F)) :=
  bfCp_blind asBool_strip (fun _ => rfl) (fun _ _ => rfl)

theorem op_ge_bb_blind : Blind ((ConstEval.op_ge_bb : CoreFn F)) :=
  bfCp_blind asBool_strip (fun _ => rfl) (fun _ _ => rfl)

theorem op_gt_bb_blind : Blind ((ConstEval.op_gt_bb : CoreFn F)) :=
  bfCp_blind asBool_strip (fun _ => rfl) (fun _ _ => rfl)

theorem op_le_bb_blind : Blind ((ConstEval.op_le_bb : CoreFn F)) :=
  bfCp_blind asBool_strip (fun _ => rfl) (fun _ _ => rfl)

theorem op_lt_bb_blind : Blind ((ConstEval.op_lt_bb : CoreFn F)) :=
  bfCp_blind asBool_strip (fun _ => rfl) (fun _ _ => rfl)

theorem op_binv_i_blind : Blind ((ConstEval.op_binv_i : CoreFn F)) :=
  ufCp_blind asInt_strip (fun _ => rfl) (fun _ => rfl)

theorem op_band_ii_blind : Blind ((ConstEval.op_band_ii : CoreFn F)) :=
  bfCp_blind asInt_strip (fun _ => rfl) (fun _ _ => rfl)

theorem op_bxor_ii_blind : Blind ((ConstEval.op_bxor_ii : CoreFn F)) :=
  bfCp_blind asInt_strip (fun _ => rfl) (fun _ _ => rfl)

theorem op_bor_ii_blind : Blind ((ConstEval.op_bor_ii : CoreFn F)) :=
  bfCp_blind asInt_strip (fun _ => rfl) (fun _ _ => rfl)

theorem op_linv_b_blind : Blind ((ConstEval.op_linv_b : CoreFn F)) :=
  ufCp_blind asBool_strip (fun _ => rfl) (fun _ => rfl)

theorem op_land_bb_blind : Blind ((ConstEval.op_land_bb : CoreFn F)) :=
  bfCp_blind asBool_strip (fun _ => rfl) (fun _ _ => rfl)

theorem op_lxor_bb_blind : Blind ((ConstEval.op_lxor_bb : CoreFn F)) :=
  bfCp_blind asBool_strip (fun _ => rfl) (fun _ _ => rfl)

theorem op_lor_bb_blind : Blind ((ConstEval.op_lor_bb : CoreFn F)) :=
  bfCp_blind asBool_strip (fun _ => rfl) (fun _ _ => rfl)

theorem op_tcnd_bff_blind : Blind ((ConstEval.op_tcnd_bff : CoreFn F)) :=
  tfCp_blind asFloat_strip (fun _ => rfl)

theorem op_tcnd_bii_blind : Blind ((ConstEval.op_tcnd_bii : CoreFn F)) :=
  tfCp_blind asInt_strip (fun _ => rfl)

theorem op_tcnd_bbb_blind : Blind ((ConstEval.op_tcnd_bbb : CoreFn F)) :=
  tfCp_blind asBool_strip (fun _ => rfl)

theorem fn_sqrt_f_blind (fo : FloatOps F) : Blind (ConstEval.fn_sqrt_f fo) :=
  ufCp_blind asFloat_strip (fun _ => rfl) (fun _ => rfl)

theorem fn_exp_f_blind (fo : FloatOps F) : Blind (ConstEval.fn_exp_f fo) :=
  ufCp_blind asFloat_strip (fun _ => rfl) (fun _ => rfl)

theorem fn_log_f_blind (fo : FloatOps F) : Blind (ConstEval.fn_log_f fo) :=
  ufCp_blind asFloat_strip (fun _ => rfl) (fun _ => rfl)

theorem fn_sin_f_blind (fo : FloatOps F) : Blind (ConstEval.fn_sin_f fo) :=
  ufCp_blind asFloat_strip (fun _ => rfl) (fun _ => rfl)

theorem fn_cos_f_blind (fo : FloatOps F) : Blind (ConstEval.fn_cos_f fo) :=
  ufCp_blind asFloat_strip (fun _ => rfl) (fun _ => rfl)

theorem fn_tan_f_blind (fo : FloatOps F) : Blind (ConstEval.fn_tan_f fo) :=
  ufCp_blind asFloat_strip (fun _ => rfl) (fun _ => rfl)

theorem fn_sinh_f_blind (fo : FloatOps F) : Blind (ConstEval.fn_sinh_f fo) :=
  ufCp_blind asFloat_strip (fun _ => rfl) (fun _ => rfl)

theorem fn_cosh_f_blind (fo : FloatOps F) : Blind (ConstEval.fn_cosh_f fo) :=
  ufCp_blind asFloat_strip (fun _ => rfl) (fun _ => rfl)

theorem fn_tanh_f_blind (fo : FloatOps F) : Blind (ConstEval.fn_tanh_f fo) :=
  ufCp_blind asFloat_strip (fun _ => rfl) (fun _ => rfl)

theorem fn_asin_f_blind (fo : FloatOps F) : Blind (ConstEval.fn_asin_f fo) :=
  ufCp_blind asFloat_strip (fun _ => rfl) (fun _ => rfl)

theorem fn_acos_f_blind (fo : FloatOps F) : Blind (ConstEval.fn_acos_f fo) :=
  ufCp_blind asFloat_strip (fun _ => rfl) (fun _ => rfl)

theorem fn_atan_f_blind (fo : FloatOps F) : Blind (ConstEval.fn_atan_f fo) :=
  ufCp_blind asFloat_strip (fun _ => rfl) (fun _ => rfl)

theorem fn_asinh_f_blind (fo : FloatOps F) : Blind (ConstEval.fn_asinh_f fo) :=
  ufCp_blind asFloat_strip (fun _ => rfl) (fun _ => rfl)

theorem fn_acosh_f_blind (fo : FloatOps F) : Blind (ConstEval.fn_acosh_f fo) :=
  ufCp_blind asFloat_strip (fun _ => rfl) (fun _ => rfl)

theorem fn_atanh_f_blind (fo : FloatOps F) : Blind (ConstEval.fn_atanh_f fo) :=
  ufCp_blind asFloat_strip (fun _ => rfl) (fun _ => rfl)

theorem fn_abs_f_blind (fo : FloatOps F) : Blind (ConstEval.fn_abs_f fo) :=
  ufCp_blind asFloat_strip (fun _ => rfl) (fun _ => rfl)

theorem fn_abs_i_blind : Blind ((ConstEval.fn_abs_i : CoreFn F)) :=
  ufCp_blind asInt_strip (fun _ => rfl) absI_plain

theorem forall_nil {p : α → Prop} : ∀ x ∈ ([] : List α), p x := by simp

theorem forall_cons {p : α → Prop} {a : α} {l : List α} (h : p a) (h' : ∀ x ∈ l, p x) : ∀ x ∈ a :: l, p x := by
  simp; exact ⟨h, h'⟩

theorem defaultFns_blind (fo : FloatOps F) : BlindTable (defaultFns fo) := by
  unfold BlindTable defaultFns
  refine forall_cons (p := fun (e : Str × List (Overload (CoreFn F))) => ∀ ov ∈ e.2, Blind ov.tag) (forall_cons (op_neg_f_blind fo) (forall_cons (op_neg_i_blind) (forall_cons (op_sub_ff_blind fo) (forall_cons (op_sub_ii_blind) (forall_nil))))) ?_
  refine forall_cons (p := fun (e : Str × List (Overload (CoreFn F))) => ∀ ov ∈ e.2, Blind ov.tag) (forall_cons (op_add_ff_blind fo) (forall_cons (op_add_ii_blind) (forall_nil))) ?_
  refine forall_cons (p := fun (e : Str × List (Overload (CoreFn F))) => ∀ ov ∈ e.2, Blind ov.tag) (forall_cons (op_mul_ff_blind fo) (forall_cons (op_mul_ii_blind) (forall_nil))) ?_
  refine forall_cons (p := fun (e : Str × List (Overload (CoreFn F))) => ∀ ov ∈ e.2, Blind ov.tag) (forall_cons (op_div_ff_blind fo) (forall_cons (op_div_ii_blind) (forall_nil))) ?_
  refine forall_cons (p := fun (e : Str × List (Overload (CoreFn F))) => ∀ ov ∈ e.2, Blind ov.tag) (forall_cons (op_mod_ii_blind) (forall_nil)) ?_
  refine forall_cons (p := fun (e : Str × List (Overload (CoreFn F))) => ∀ ov ∈ e.2, Blind ov.tag) (forall_cons (op_pow_ff_blind fo) (forall_nil)) ?_
  refine forall_cons (p := fun (e : Str × List (Overload (CoreFn F))) => ∀ ov ∈ e.2, Blind ov.tag) (forall_cons (op_eq_ff_blind fo) (forall_cons (op_eq_ii_blind) (forall_cons (op_eq_bb_blind) (forall_nil)))) ?_
  refine forall_cons (p := fun (e : Str × List (Overload (CoreFn F))) => ∀ ov ∈ e.2, Blind ov.tag) (forall_cons (op_ne_ff_blind fo) (forall_cons (op_ne_ii_blind) (forall_cons (op_ne_bb_blind) (forall_nil)))) ?_
  refine forall_cons (p := fun (e : Str × List (Overload (CoreFn F))) => ∀ ov ∈ e.2, Blind ov.tag) (forall_cons (op_ge_ff_blind fo) (forall_cons (op_ge_ii_blind) (forall_cons (op_ge_bb_blind) (forall_nil)))) ?_
  refine forall_cons (p := fun (e : Str × List (Overload (CoreFn F))) => ∀ ov ∈ e.2, Blind ov.tag) (forall_cons (op_gt_ff_blind fo) (forall_cons (op_gt_ii_blind) (forall_cons (op_gt_bb_blind) (forall_nil)))) ?_
  refine forall_cons (p := fun (e : Str × List (Overload (CoreFn F))) => ∀ ov ∈ e.2, Blind ov.tag) (forall_cons (op_le_ff_blind fo) (forall_cons (op_le_ii_blind) (forall_cons (op_le_bb_blind) (forall_nil)))) ?_
  refine forall_cons (p := fun (e : Str × List (Overload (CoreFn F))) => ∀ ov ∈ e.2, Blind ov.tag) (forall_cons (op_lt_ff_blind fo) (forall_cons (op_lt_ii_blind) (forall_cons (op_lt_bb_blind) (forall_nil)))) ?_
  refine forall_cons (p := fun (e : Str × List (Overload (CoreFn F))) => ∀ ov ∈ e.2, Blind ov.tag) (forall_cons (op_binv_i_blind) (forall_nil)) ?_
  refine forall_cons (p := fun (e : Str × List (Overload (CoreFn F))) => ∀ ov ∈ e.2, Blind ov.tag) (forall_cons (op_band_ii_blind) (forall_nil)) ?_
  refine forall_cons (p := fun (e : Str × List (Overload (CoreFn F))) => ∀ ov ∈ e.2, Blind ov.tag) (forall_cons (op_bxor_ii_blind) (forall_nil)) ?_
  refine forall_cons (p := fun (e : Str × List (Overload (CoreFn F))) => ∀ ov ∈ e.2, Blind ov.tag) (forall_cons (op_bor_ii_blind) (forall_nil)) ?_
  refine forall_cons (p := fun (e : Str × List (Overload (CoreFn F))) => ∀ ov ∈ e.2, Blind ov.tag) (forall_cons (op_shl_ii_blind) (forall_nil)) ?_
  refine forall_cons (p := fun (e : Str × List (Overload (CoreFn F))) => ∀ ov ∈ e.2, Blind ov.tag) (forall_cons (op_shr_ii_blind) (forall_nil)) ?_
  refine forall_cons (p := fun (e : Str × List (Overload (CoreFn F))) => ∀ ov ∈ e.2, Blind ov.tag) (forall_cons (op_linv_b_blind) (forall_nil)) ?_
  refine forall_cons (p := fun (e : Str × List (Overload (CoreFn F))) => ∀ ov ∈ e.2, Blind ov.tag) (forall_cons (op_land_bb_blind) (forall_nil)) ?_
  refine forall_cons (p := fun (e : Str × List (Overload (CoreFn F))) => ∀ ov ∈ e.2, Blind ov.tag) (forall_cons (op_lxor_bb_blind) (forall_nil)) ?_
  refine forall_cons (p := fun (e : Str × List (Overload (CoreFn F))) => ∀ ov ∈ e.2, Blind ov.tag) (forall_cons (op_lor_bb_blind) (forall_nil)) ?_
  refine forall_cons (p := fun (e : Str × List (Overload (CoreFn F))) => ∀ ov ∈ e.2, Blind ov.tag) (forall_cons (op_tcnd_bff_blind) (forall_cons (op_tcnd_bii_blind) (forall_cons (op_tcnd_bbb_blind) (forall_nil)))) ?_
  refine forall_cons (p := fun (e : Str × List (Overload (CoreFn F))) => ∀ ov ∈ e.2, Blind ov.tag) (forall_cons (fn_sqrt_f_blind fo) (forall_nil)) ?_
  refine forall_cons (p := fun (e : Str × List (Overload (CoreFn F))) => ∀ ov ∈ e.2, Blind ov.tag) (forall_cons (fn_exp_f_blind fo) (forall_nil)) ?_
  refine forall_cons (p := fun (e : Str × List (Overload (CoreFn F))) => ∀ ov ∈ e.2, Blind ov.tag) (forall_cons (fn_log_f_blind fo) (forall_nil)) ?_
  refine forall_cons (p := fun (e : Str × List (Overload (CoreFn F))) => ∀ ov ∈ e.2, Blind ov.tag) (forall_cons (fn_sin_f_blind fo) (forall_nil)) ?_
  refine forall_cons (p := fun (e : Str × List (Overload (CoreFn F))) => ∀ ov ∈ e.2, Blind ov.tag) (forall_cons (fn_cos_f_blind fo) (forall_nil)) ?_
  refine forall_cons (p := fun (e : Str × List (Overload (CoreFn F))) => ∀ ov ∈ e.2, Blind ov.tag) (forall_cons (fn_tan_f_blind fo) (forall_nil)) ?_
  refine forall_cons (p := fun (e : Str × List (Overload (CoreFn F))) => ∀ ov ∈ e.2, Blind ov.tag) (forall_cons (fn_sinh_f_blind fo) (forall_nil)) ?_
  refine forall_cons (p := fun (e : Str × List (Overload (CoreFn F))) => ∀ ov ∈ e.2, Blind ov.tag) (forall_cons (fn_cosh_f_blind fo) (forall_nil)) ?_
  refine forall_cons (p := fun (e : Str × List (Overload (CoreFn F))) => ∀ ov ∈ e.2, Blind ov.tag) (forall_cons (fn_tanh_f_blind fo) (forall_nil)) ?_
  refine forall_cons (p := fun (e : Str × List (Overload (CoreFn F))) => ∀ ov ∈ e.2, Blind ov.tag) (forall_cons (fn_asin_f_blind fo) (forall_nil)) ?_
  refine forall_cons (p := fun (e : Str × List (Overload (CoreFn F))) => ∀ ov ∈ e.2, Blind ov.tag) (forall_cons (fn_acos_f_blind fo) (forall_nil)) ?_
  refine forall_cons (p := fun (e : Str × List (Overload (CoreFn F))) => ∀ ov ∈ e.2, Blind ov.tag) (forall_cons (fn_atan_f_blind fo) (forall_nil)) ?_
  refine forall_cons (p := fun (e : Str × List (Overload (CoreFn F))) => ∀ ov ∈ e.2, Blind ov.tag) (forall_cons (fn_asinh_f_blind fo) (forall_nil)) ?_
  refine forall_cons (p := fun (e : Str × List (Overload (CoreFn F))) => ∀ ov ∈ e.2, Blind ov.tag) (forall_cons (fn_acosh_f_blind fo) (forall_nil)) ?_
  refine forall_cons (p := fun (e : Str × List (Overload (CoreFn F))) => ∀ ov ∈ e.2, Blind ov.tag) (forall_cons (fn_atanh_f_blind fo) (forall_nil)) ?_
  refine forall_cons (p := fun (e : Str × List (Overload (CoreFn F))) => ∀ ov ∈ e.2, Blind ov.tag) (forall_cons (fn_abs_f_blind fo) (forall_cons (fn_abs_i_blind) (forall_nil))) ?_
  exact forall_nil

end

/-! ## Scopes -/

/-- The scope without positions. -/
def stripScope (s : Scope F) : Scope F :=
  ⟨s.variableTable.map fun e => (e.1, stripValue e.2), s.fnTable, s.instructionTable,
    ⟨s.block.statements.map stripSStatement, none⟩, s.variables.map stripSVariable⟩

/-- The analyser without positions. -/
def stripAnalyzer (a : Analyzer F) : Analyzer F := ⟨a.apiVersion, a.scopes.map stripScope, a.nextUid⟩

/-- No function of the scopes looks at positions. -/
def BlindScopes (ss : List (Scope F)) : Prop := ∀ s ∈ ss, BlindTable s.fnTable

theorem varFind_strip (t : VariableTable F) (name : Str) :
    VariableTable.find (t.map fun e => (e.1, stripValue e.2)) name = (VariableTable.find t name).map stripValue := by
  induction t with
  | nil => rfl
  | cons e es ih =>
    simp only [List.map_cons, VariableTable.find, ih]
    split <;> rfl

theorem resolveVariable_strip (ss : List (Scope F)) (name : Str) :
    Analyzer.resolveVariable (ss.map stripScope) name = (Analyzer.resolveVariable ss name).strip stripValue := by
  induction ss with
  | nil => exact congrArg Res.err (mk0_strip _)
  | cons s ss ih =>
    simp only [List.map_cons, Analyzer.resolveVariable, VariableTable.resolve, stripScope, varFind_strip]
    cases VariableTable.find s.variableTable name with
    | some v => rfl
    | none => exact ih

theorem resolveFunction_strip {ss : List (Scope F)} (hb : BlindScopes ss) (name : Str) (vs : List (Value F)) :
    Analyzer.resolveFunction fo (ss.map stripScope) name (vs.map stripValue)
      = (Analyzer.resolveFunction fo ss name vs).strip (Option.map stripValue) := by
  unfold Analyzer.resolveFunction
  rw [List.getLast?_map]
  cases h : ss.getLast? with
  | none => rfl
  | some s => exact fnResolve_strip (hb s (List.mem_of_getLast? h)) name vs

theorem resolveInstruction_strip (ss : List (Scope F)) (name : Str) (vs : List (Value F)) :
    Analyzer.resolveInstruction fo (ss.map stripScope) name (vs.map stripValue)
      = (Analyzer.resolveInstruction fo ss name vs).strip stripMatch := by
  induction ss with
  | nil =>
    simp only [List.map_nil, Analyzer.resolveInstruction]
    refine strip_bind (typesOf_strip vs) fun ts => ?_
    exact congrArg Res.err (mk0_strip _)
  | cons s ss ih =>
    simp only [List.map_cons, Analyzer.resolveInstruction]
    have : (stripScope s).instructionTable = s.instructionTable := rfl
    rw [this, resolve_strip]
    cases OverloadTable.resolve fo s.instructionTable name vs with
    | err e => exact ih
    | _ => rfl

/-! ## Expressions -/

theorem callFunction_strip {ss : List (Scope F)} (hb : BlindScopes ss) (name : Str) (vs : List (Value F)) :
    callFunction fo (ss.map stripScope) name (vs.map stripValue) = (callFunction fo ss name vs).strip stripValue := by
  unfold callFunction
  refine strip_bind (resolveFunction_strip hb name vs) fun o => ?_
  cases o with
  | none => exact congrArg Res.err (mk0_strip _)
  | some v => rfl

theorem locate_strip {r r' : Res Err (Value F)} (h : r' = r.strip stripValue) (l : Option Loc) :
    locate none r' = (locate l r).strip stripValue := by
  subst h
  cases r <;> simp [locate, stripValue]

/-- The indices without positions. -/
def stripIndices (is : List (Int64 × Option Loc)) : List (Int64 × Option Loc) := is.map fun i => (i.1, none)

theorem checkOutOfRange_strip (is : List (Int64 × Option Loc)) (n : Int64) :
    checkOutOfRange (stripIndices is) n = (checkOutOfRange is n).strip id := by
  induction is with
  | nil => rfl
  | cons i is ih =>
    obtain ⟨i, l⟩ := i
    simp only [stripIndices, List.map_cons, checkOutOfRange] at ih ⊢
    split
    · exact congrArg Res.err (mk0_strip _)
    · exact ih

theorem toConstInt_strip {r r' : Res Err (Value F)} (h : r' = r.strip stripValue) (l : Option Loc) :
    toConstInt fo none r' = (toConstInt fo l r).strip id := by
  unfold toConstInt
  refine strip_bind h fun v => ?_
  refine strip_bind (promote_strip v _) fun o => ?_
  cases o with
  | none => exact congrArg Res.err (mkNode_none _ _)
  | some w =>
    obtain ⟨n, lw⟩ := w
    cases n with
    | constInt i => rfl
    | _ => exact congrArg Res.err (mkNode_none _ _)

theorem indexRange_strip (l : Option Loc) (a b : Int64) :
    indexRange none a b = (indexRange l a b).strip stripIndices := by
  unfold indexRange
  split
  · exact congrArg Res.err (mkNode_none _ _)
  · split
    · rfl
    · simp [stripIndices]

theorem indexInto_strip {v : Value F} {r r' : Res Err (List (Int64 × Option Loc))} (h : r' = r.strip stripIndices) :
    indexInto (stripValue v) r' = (indexInto v r).strip stripValue := by
  have ht := typeOf_strip v
  obtain ⟨n, l⟩ := v
  cases n with
  | variableRef x =>
    simp only [indexInto, stripValue, stripNode]
    split
    · refine strip_bind h fun is => ?_
      refine strip_bind (checkOutOfRange_strip is _) fun _ => ?_
      simp [stripValue, stripNode, stripIndices]
    · refine strip_bind ht fun t => ?_
      exact congrArg Res.err (mk0_strip _)
  | _ => rfl

theorem stripExpr_loc (e : Expr F) : (stripExpr e).loc = none := by
  cases e <;> rfl

mutual
theorem visit_strip {ss : List (Scope F)} (hb : BlindScopes ss) (e : Expr F) :
    visit fo (ss.map stripScope) (stripExpr e) = (visit fo ss e).strip stripValue := by
  cases e with
  | boolLit l b => simp [visit, stripExpr, stripValue, stripNode]
  | intLit l b => simp [visit, stripExpr, stripValue, stripNode]
  | floatLit l b => simp [visit, stripExpr, stripValue, stripNode]
  | ident l n => simp only [visit, stripExpr]; exact resolveVariable_strip ss n
  | index l e is =>
    simp only [visit, stripExpr, stripExpr_loc]
    have h := strip_bind (g := stripValue) (locate_strip (visit_strip hb e) e.loc)
      (k' := fun v => indexInto v (visitIndexList fo (ss.map stripScope) (stripEntries is)))
      (k := fun v => indexInto v (visitIndexList fo ss is)) (fun v => indexInto_strip (visitIndexList_strip hb is))
    rw [h]
    cases (locate e.loc (visit fo ss e)).bind fun v => indexInto v (visitIndexList fo ss is) <;> simp
  | call l n es =>
    simp only [visit, stripExpr]
    exact strip_bind (visitList_strip hb es) fun vs => callFunction_strip hb n vs
  | un l o e =>
    simp only [visit, stripExpr, stripExpr_loc]
    exact strip_bind (locate_strip (visit_strip hb e) e.loc) fun v => callFunction_strip hb _ [v]
  | bin l o a b =>
    simp only [visit, stripExpr, stripExpr_loc]
    exact strip_bind (locate_strip (visit_strip hb a) a.loc) fun v =>
      strip_bind (locate_strip (visit_strip hb b) b.loc) fun w => callFunction_strip hb _ [v, w]
  | tern l c a b =>
    simp only [visit, stripExpr, stripExpr_loc]
    exact strip_bind (locate_strip (visit_strip hb c) c.loc) fun u =>
      strip_bind (locate_strip (visit_strip hb a) a.loc) fun v =>
      strip_bind (locate_strip (visit_strip hb b) b.loc) fun w => callFunction_strip hb _ [u, v, w]

theorem visitList_strip {ss : List (Scope F)} (hb : BlindScopes ss) (es : List (Expr F)) :
    visitList fo (ss.map stripScope) (stripExprs es) = (visitList fo ss es).strip (List.map stripValue) := by
  cases es with
  | nil => simp [visitList, stripExprs]
  | cons e es =>
    simp only [visitList, stripExprs, stripExpr_loc]
    exact strip_bind (locate_strip (visit_strip hb e) e.loc) fun v => strip_bind (visitList_strip hb es) fun vs => rfl

theorem visitIndexList_strip {ss : List (Scope F)} (hb : BlindScopes ss) (is : List (IndexEntry F)) :
    visitIndexList fo (ss.map stripScope) (stripEntries is) = (visitIndexList fo ss is).strip stripIndices := by
  cases is with
  | nil => simp [visitIndexList, stripEntries, stripIndices]
  | cons i is =>
    simp only [visitIndexList, stripEntries]
    exact strip_bind (visitIndexEntry_strip hb i) fun v => strip_bind (visitIndexList_strip hb is) fun vs => by
      simp [stripIndices]

theorem visitIndexEntry_strip {ss : List (Scope F)} (hb : BlindScopes ss) (i : IndexEntry F) :
    visitIndexEntry fo (ss.map stripScope) (stripEntry i) = (visitIndexEntry fo ss i).strip stripIndices := by
  cases i with
  | item l e =>
    simp only [visitIndexEntry, stripEntry, stripExpr_loc]
    exact strip_bind (toConstInt_strip (visit_strip hb e) e.loc) fun _ => rfl
  | range l a b =>
    simp only [visitIndexEntry, stripEntry, stripExpr_loc]
    exact strip_bind (toConstInt_strip (visit_strip hb a) a.loc) fun _ =>
      strip_bind (toConstInt_strip (visit_strip hb b) b.loc) fun _ => indexRange_strip l _ _
end

end Qasm
