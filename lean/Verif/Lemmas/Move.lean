import Verif.Spec.Move
import Verif.Lemmas.Strip
/-!
# Helper lemmas: analysis does not depend on the identities of variables, nor on variables nobody mentions
-/

namespace Qasm

open Spec Sem

variable {F α β γ δ : Type} {fo : FloatOps F} {f : Nat → Nat}

/-- The outcome with the value changed. -/
def Res.mov (g : α → β) : Res Err α → Res Err β
  | .ok a => .ok (g a)
  | .err e => .err e
  | .exn c => .exn c
  | .ub => .ub

@[simp] theorem Res.mov_ok (f : α → β) (a : α) : (Res.ok a : Res Err α).mov f = .ok (f a) := rfl
@[simp] theorem Res.mov_err (f : α → β) (e : Err) : (Res.err e : Res Err α).mov f = .err e := rfl
@[simp] theorem Res.mov_exn (f : α → β) (c : Str) : (Res.exn c : Res Err α).mov f = .exn c := rfl
@[simp] theorem Res.mov_ub (f : α → β) : (Res.ub : Res Err α).mov f = .ub := rfl

theorem mov_id (x : Res Err α) : x = x.mov id := by cases x <;> rfl

theorem mov_bind' {x : Res Err α} {f : α → γ} {x' : Res Err γ} {k : α → Res Err β} {g : β → δ} {k' : γ → Res Err δ}
    (hx : x' = x.mov f) (hk : ∀ a, x = .ok a → k' (f a) = (k a).mov g) : x'.bind k' = (x.bind k).mov g := by
  subst hx
  cases x <;> simp [hk]

theorem mov_bind {x : Res Err α} {f : α → γ} {x' : Res Err γ} {k : α → Res Err β} {g : β → δ} {k' : γ → Res Err δ}
    (hx : x' = x.mov f) (hk : ∀ a, k' (f a) = (k a).mov g) : x'.bind k' = (x.bind k).mov g :=
  mov_bind' hx fun a _ => hk a

/-! ## Values -/

theorem sizeOf_mov (v : Value F) : Values.sizeOf (moveValue f v) = Values.sizeOf v := by
  obtain ⟨n, l⟩ := v
  cases n <;> simp [Values.sizeOf, moveValue, moveNode, moveLink]

theorem typeOf_mov (v : Value F) : Values.typeOf (moveValue f v) = Values.typeOf v := by
  have h := sizeOf_mov (f := f) v
  obtain ⟨n, l⟩ := v
  cases n with
  | indexRef x is =>
    show (if Values.sizeOf (moveValue f ⟨.indexRef x is, l⟩) = 1 then Values.elementTypeOf x.typ else .ok x.typ)
      = (if Values.sizeOf ⟨.indexRef x is, l⟩ = 1 then Values.elementTypeOf x.typ else .ok x.typ)
    simp only [h]
  | _ => rfl

theorem typesOf_mov (vs : List (Value F)) : Values.typesOf (vs.map (moveValue f)) = Values.typesOf vs := by
  induction vs with
  | nil => rfl
  | cons v vs ih => simp only [List.map_cons, Values.typesOf, typeOf_mov, ih]

theorem promote_mov (v : Value F) (t : Ty) :
    Values.promote fo (moveValue f v) t = (Values.promote fo v t).mov (Option.map (moveValue f)) := by
  unfold Values.promote
  rw [typeOf_mov]
  refine mov_bind (mov_id _) fun tv => ?_
  simp only [id]
  split
  · rfl
  · obtain ⟨n, l⟩ := v
    simp only [Res.mov_ok, Option.map_map]
    congr 1
    cases t.kind <;> cases n <;> simp [moveValue, moveNode, moveLink] <;> split <;> simp [moveValue, moveNode, moveLink]

/-! ## Functions -/

/-- The function works on constants only and returns one. -/
def NumberFn (g : CoreFn F) : Prop :=
  ∃ k : CoreFn F, (g = fun vs => (Values.checkConstAll vs).bind fun _ => k vs) ∧ ∀ vs v, k vs = .ok (some v) → Values.isConstant v = true

/-- Every function of the table works on constants only and returns one. -/
def NumberTable (tbl : OverloadTable (CoreFn F)) : Prop := ∀ e ∈ tbl, ∀ ov ∈ e.2, NumberFn ov.tag

theorem constant_mov {v : Value F} (h : Values.isConstant v = true) : moveValue f v = v := by
  obtain ⟨n, l⟩ := v
  cases n <;> first | rfl | simp [Values.isConstant] at h

theorem constAll_mov (vs : List (Value F)) : (Values.checkConstAll vs = .ok () ∧ vs.map (moveValue f) = vs) ∨
    ∃ e, Values.checkConstAll vs = .err e ∧ Values.checkConstAll (vs.map (moveValue f)) = .err e := by
  induction vs with
  | nil => exact .inl ⟨rfl, rfl⟩
  | cons v vs ih =>
    obtain ⟨n, l⟩ := v
    have hc : (Values.isConstant ⟨n, l⟩ = true ∧ moveNode f n = n) ∨ (Values.isConstant ⟨n, l⟩ = false ∧
        Values.isConstant ⟨moveNode f n, l⟩ = false) := by
      cases n <;> simp [Values.isConstant, moveNode]
    rcases hc with ⟨h1, h2⟩ | ⟨h1, h2⟩
    · have e : Values.checkConst (⟨n, l⟩ : Value F) = .ok () := by simp [Values.checkConst, h1]
      rcases ih with ⟨h3, h4⟩ | ⟨x, h3, h4⟩
      · exact .inl ⟨by simp [Values.checkConstAll, e, h3], by simp only [List.map_cons, h4, moveValue, h2]⟩
      · exact .inr ⟨x, by simp [Values.checkConstAll, e, h3],
          by simp only [List.map_cons, moveValue, h2, Values.checkConstAll, e, Res.bind_ok]; exact h4⟩
    · refine .inr ⟨Err.mkNode c!"dynamic values are not supported here" l, ?_, ?_⟩
      · simp [Values.checkConstAll, Values.checkConst, h1]
      · simp [Values.checkConstAll, Values.checkConst, moveValue, h2]

theorem number_mov {g : CoreFn F} (h : NumberFn g) (vs : List (Value F)) :
    g (vs.map (moveValue f)) = (g vs).mov (Option.map (moveValue f)) := by
  obtain ⟨k, rfl, hk⟩ := h
  rcases constAll_mov (f := f) vs with ⟨h1, h2⟩ | ⟨e, h1, h2⟩
  · simp only [h2, h1, Res.bind_ok]
    cases hx : k vs with
    | ok o =>
      cases o with
      | none => rfl
      | some v => simp [constant_mov (hk vs v hx)]
    | _ => rfl
  · simp [h1, h2]

theorem ebind_eq_ok {x : Res Err α} {k : α → Res Err β} {y : β} (h : x.bind k = .ok y) : ∃ a, x = .ok a ∧ k a = .ok y := by
  cases x <;> simp_all [Res.bind]

theorem ufCp_number {inj : β → ValueNode F} {p : ValueNode F → Option α} {g : α → Res Err β}
    (hi : ∀ b, Values.isConstant ⟨inj b, none⟩ = true) : NumberFn (ConstEval.ufCp inj p g) := by
  refine ⟨_, rfl, fun vs v h => ?_⟩
  obtain ⟨_, -, h⟩ := ebind_eq_ok h
  obtain ⟨_, -, h⟩ := ebind_eq_ok h
  obtain ⟨_, -, h⟩ := ebind_eq_ok h
  cases h
  exact hi _

theorem bfCp_number {inj : β → ValueNode F} {p : ValueNode F → Option α} {g : α → α → Res Err β}
    (hi : ∀ b, Values.isConstant ⟨inj b, none⟩ = true) : NumberFn (ConstEval.bfCp inj p g) := by
  refine ⟨_, rfl, fun vs v h => ?_⟩
  obtain ⟨_, -, h⟩ := ebind_eq_ok h
  obtain ⟨_, -, h⟩ := ebind_eq_ok h
  obtain ⟨_, -, h⟩ := ebind_eq_ok h
  obtain ⟨_, -, h⟩ := ebind_eq_ok h
  obtain ⟨_, -, h⟩ := ebind_eq_ok h
  cases h
  exact hi _

theorem tfCp_number {inj : α → ValueNode F} {p : ValueNode F → Option α}
    (hi : ∀ b, Values.isConstant ⟨inj b, none⟩ = true) : NumberFn (ConstEval.tfCp inj p) := by
  refine ⟨_, rfl, fun vs v h => ?_⟩
  obtain ⟨_, -, h⟩ := ebind_eq_ok h
  obtain ⟨_, -, h⟩ := ebind_eq_ok h
  obtain ⟨_, -, h⟩ := ebind_eq_ok h
  obtain ⟨_, -, h⟩ := ebind_eq_ok h
  obtain ⟨_, -, h⟩ := ebind_eq_ok h
  obtain ⟨_, -, h⟩ := ebind_eq_ok h
  cases h
  exact hi _

/-! ## The default functions -/

theorem op_neg_f_number (fo : FloatOps F) : NumberFn (ConstEval.op_neg_f fo) :=
  ufCp_number (fun _ => rfl)

theorem op_neg_i_number : NumberFn ((ConstEval.op_neg_i : CoreFn F)) :=
  ufCp_number (fun _ => rfl)

theorem op_add_ff_number (fo : FloatOps F) : NumberFn (ConstEval.op_add_ff fo) :=
  bfCp_number (fun _ => rfl)

theorem op_sub_ff_number (fo : FloatOps F) : NumberFn (ConstEval.op_sub_ff fo) :=
  bfCp_number (fun _ => rfl)

theorem op_mul_ff_number (fo : FloatOps F) : NumberFn (ConstEval.op_mul_ff fo) :=
  bfCp_number (fun _ => rfl)

theorem op_div_ff_number (fo : FloatOps F) : NumberFn (ConstEval.op_div_ff fo) :=
  bfCp_number (fun _ => rfl)

theorem op_pow_ff_number (fo : FloatOps F) : NumberFn (ConstEval.op_pow_ff fo) :=
  bfCp_number (fun _ => rfl)

theorem op_add_ii_number : NumberFn ((ConstEval.op_add_ii : CoreFn F)) :=
  bfCp_number (fun _ => rfl)

theorem op_sub_ii_number : NumberFn ((ConstEval.op_sub_ii : CoreFn F)) :=
  bfCp_number (fun _ => rfl)

theorem op_mul_ii_number : NumberFn ((ConstEval.op_mul_ii : CoreFn F)) :=
  bfCp_number (fun _ => rfl)

theorem op_div_ii_number : NumberFn ((ConstEval.op_div_ii : CoreFn F)) :=
  bfCp_number (fun _ => rfl)

theorem op_mod_ii_number : NumberFn ((ConstEval.op_mod_ii : CoreFn F)) :=
  bfCp_number (fun _ => rfl)

theorem op_shl_ii_number : NumberFn ((ConstEval.op_shl_ii : CoreFn F)) :=
  bfCp_number (fun _ => rfl)

theorem op_shr_ii_number : NumberFn ((ConstEval.op_shr_ii : CoreFn F)) :=
  bfCp_number (fun _ => rfl)

theorem op_eq_ff_number (fo : FloatOps F) : NumberFn (ConstEval.op_eq_ff fo) :=
  bfCp_number (fun _ => rfl)

theorem op_ne_ff_number (fo : FloatOps F) : NumberFn (ConstEval.op_ne_ff fo) :=
  bfCp_number (fun _ => rfl)

theorem op_ge_ff_number (fo : FloatOps F) : NumberFn (ConstEval.op_ge_ff fo) :=
  bfCp_number (fun _ => rfl)

theorem op_gt_ff_number (fo : FloatOps F) : NumberFn (ConstEval.op_gt_ff fo) :=
  bfCp_number (fun _ => rfl)

theorem op_le_ff_number (fo : FloatOps F) : NumberFn (ConstEval.op_le_ff fo) :=
  bfCp_number (fun _ => rfl)

theorem op_lt_ff_number (fo : FloatOps F) : NumberFn (ConstEval.op_lt_ff fo) :=
  bfCp_number (fun _ => rfl)

theorem op_eq_ii_number : NumberFn ((ConstEval.op_eq_ii : CoreFn F)) :=
  bfCp_number (fun _ => rfl)

theorem op_ne_ii_number : NumberFn ((ConstEval.op_ne_ii : CoreFn F)) :=
  bfCp_number (fun _ => rfl)

theorem op_ge_ii_number : NumberFn ((ConstEval.op_ge_ii : CoreFn F)) :=
  bfCp_number (fun _ => rfl)

theorem op_gt_ii_number : NumberFn ((ConstEval.op_gt_ii : CoreFn F)) :=
  bfCp_number (fun _ => rfl)

theorem op_le_ii_number : NumberFn ((ConstEval.op_le_ii : CoreFn F)) :=
  bfCp_number (fun _ => rfl)

theorem op_lt_ii_number : NumberFn ((ConstEval.op_lt_ii : CoreFn F)) :=
  bfCp_number (fun _ => rfl)

theorem op_eq_bb_number : NumberFn ((ConstEval.op_eq_bb : CoreFn F)) :=
  bfCp_number (fun _ => rfl)

theorem op_ne_bb_number : NumberFn ((ConstEval.op_ne_bb : CoreFn F)) :=
  bfCp_number (fun _ => rfl)

theorem op_ge_bb_number : NumberFn ((ConstEval.op_ge_bb : CoreFn F)) :=
  bfCp_number (fun _ => rfl)

theorem op_gt_bb_number : NumberFn ((ConstEval.op_gt_bb : CoreFn F)) :=
  bfCp_number (fun _ => rfl)

theorem op_le_bb_number : NumberFn ((ConstEval.op_le_bb : CoreFn F)) :=
  bfCp_number (fun _ => rfl)

theorem op_lt_bb_number : NumberFn ((ConstEval.op_lt_bb : CoreFn F)) :=
  bfCp_number (fun _ => rfl)

theorem op_binv_i_number : NumberFn ((ConstEval.op_binv_i : CoreFn F)) :=
  ufCp_number (fun _ => rfl)

theorem op_band_ii_number : NumberFn ((ConstEval.op_band_ii : CoreFn F)) :=
  bfCp_number (fun _ => rfl)

theorem op_bxor_ii_number : NumberFn ((ConstEval.op_bxor_ii : CoreFn F)) :=
  bfCp_number (fun _ => rfl)

theorem op_bor_ii_number : NumberFn ((ConstEval.op_bor_ii : CoreFn F)) :=
  bfCp_number (fun _ => rfl)

theorem op_linv_b_number : NumberFn ((ConstEval.op_linv_b : CoreFn F)) :=
  ufCp_number (fun _ => rfl)

theorem op_land_bb_number : NumberFn ((ConstEval.op_land_bb : CoreFn F)) :=
  bfCp_number (fun _ => rfl)

theorem op_lxor_bb_number : NumberFn ((ConstEval.op_lxor_bb : CoreFn F)) :=
  bfCp_number (fun _ => rfl)

theorem op_lor_bb_number : NumberFn ((ConstEval.op_lor_bb : CoreFn F)) :=
  bfCp_number (fun _ => rfl)

theorem op_tcnd_bff_number : NumberFn ((ConstEval.op_tcnd_bff : CoreFn F)) :=
  tfCp_number (fun _ => rfl)

theorem op_tcnd_bii_number : NumberFn ((ConstEval.op_tcnd_bii : CoreFn F)) :=
  tfCp_number (fun _ => rfl)

theorem op_tcnd_bbb_number : NumberFn ((ConstEval.op_tcnd_bbb : CoreFn F)) :=
  tfCp_number (fun _ => rfl)

theorem fn_sqrt_f_number (fo : FloatOps F) : NumberFn (ConstEval.fn_sqrt_f fo) :=
  ufCp_number (fun _ => rfl)

theorem fn_exp_f_number (fo : FloatOps F) : NumberFn (ConstEval.fn_exp_f fo) :=
  ufCp_number (fun _ => rfl)

theorem fn_log_f_number (fo : FloatOps F) : NumberFn (ConstEval.fn_log_f fo) :=
  ufCp_number (fun _ => rfl)

theorem fn_sin_f_number (fo : FloatOps F) : NumberFn (ConstEval.fn_sin_f fo) :=
  ufCp_number (fun _ => rfl)

theorem fn_cos_f_number (fo : FloatOps F) : NumberFn (ConstEval.fn_cos_f fo) :=
  ufCp_number (fun _ => rfl)

theorem fn_tan_f_number (fo : FloatOps F) : NumberFn (ConstEval.fn_tan_f fo) :=
  ufCp_number (fun _ => rfl)

theorem fn_sinh_f_number (fo : FloatOps F) : NumberFn (ConstEval.fn_sinh_f fo) :=
  ufCp_number (fun _ => rfl)

theorem fn_cosh_f_number (fo : FloatOps F) : NumberFn (ConstEval.fn_cosh_f fo) :=
  ufCp_number (fun _ => rfl)

theorem fn_tanh_f_number (fo : FloatOps F) : NumberFn (ConstEval.fn_tanh_f fo) :=
  ufCp_number (fun _ => rfl)

theorem fn_asin_f_number (fo : FloatOps F) : NumberFn (ConstEval.fn_asin_f fo) :=
  ufCp_number (fun _ => rfl)

theorem fn_acos_f_number (fo : FloatOps F) : NumberFn (ConstEval.fn_acos_f fo) :=
  ufCp_number (fun _ => rfl)

theorem fn_atan_f_number (fo : FloatOps F) : NumberFn (ConstEval.fn_atan_f fo) :=
  ufCp_number (fun _ => rfl)

theorem fn_asinh_f_number (fo : FloatOps F) : NumberFn (ConstEval.fn_asinh_f fo) :=
  ufCp_number (fun _ => rfl)

theorem fn_acosh_f_number (fo : FloatOps F) : NumberFn (ConstEval.fn_acosh_f fo) :=
  ufCp_number (fun _ => rfl)

theorem fn_atanh_f_number (fo : FloatOps F) : NumberFn (ConstEval.fn_atanh_f fo) :=
  ufCp_number (fun _ => rfl)

theorem fn_abs_f_number (fo : FloatOps F) : NumberFn (ConstEval.fn_abs_f fo) :=
  ufCp_number (fun _ => rfl)

theorem fn_abs_i_number : NumberFn ((ConstEval.fn_abs_i : CoreFn F)) :=
  ufCp_number (fun _ => rfl)

theorem defaultFns_number (fo : FloatOps F) : NumberTable (defaultFns fo) := by
  unfold NumberTable defaultFns
  refine forall_cons (p := fun (e : Str × List (Overload (CoreFn F))) => ∀ ov ∈ e.2, NumberFn ov.tag) (forall_cons (op_neg_f_number fo) (forall_cons (op_neg_i_number) (forall_cons (op_sub_ff_number fo) (forall_cons (op_sub_ii_number) (forall_nil))))) ?_
  refine forall_cons (p := fun (e : Str × List (Overload (CoreFn F))) => ∀ ov ∈ e.2, NumberFn ov.tag) (forall_cons (op_add_ff_number fo) (forall_cons (op_add_ii_number) (forall_nil))) ?_
  refine forall_cons (p := fun (e : Str × List (Overload (CoreFn F))) => ∀ ov ∈ e.2, NumberFn ov.tag) (forall_cons (op_mul_ff_number fo) (forall_cons (op_mul_ii_number) (forall_nil))) ?_
  refine forall_cons (p := fun (e : Str × List (Overload (CoreFn F))) => ∀ ov ∈ e.2, NumberFn ov.tag) (forall_cons (op_div_ff_number fo) (forall_cons (op_div_ii_number) (forall_nil))) ?_
  refine forall_cons (p := fun (e : Str × List (Overload (CoreFn F))) => ∀ ov ∈ e.2, NumberFn ov.tag) (forall_cons (op_mod_ii_number) (forall_nil)) ?_
  refine forall_cons (p := fun (e : Str × List (Overload (CoreFn F))) => ∀ ov ∈ e.2, NumberFn ov.tag) (forall_cons (op_pow_ff_number fo) (forall_nil)) ?_
  refine forall_cons (p := fun (e : Str × List (Overload (CoreFn F))) => ∀ ov ∈ e.2, NumberFn ov.tag) (forall_cons (op_eq_ff_number fo) (forall_cons (op_eq_ii_number) (forall_cons (op_eq_bb_number) (forall_nil)))) ?_
  refine forall_cons (p := fun (e : Str × List (Overload (CoreFn F))) => ∀ ov ∈ e.2, NumberFn ov.tag) (forall_cons (op_ne_ff_number fo) (forall_cons (op_ne_ii_number) (forall_cons (op_ne_bb_number) (forall_nil)))) ?_
  refine forall_cons (p := fun (e : Str × List (Overload (CoreFn F))) => ∀ ov ∈ e.2, NumberFn ov.tag) (forall_cons (op_ge_ff_number fo) (forall_cons (op_ge_ii_number) (forall_cons (op_ge_bb_number) (forall_nil)))) ?_
  refine forall_cons (p := fun (e : Str × List (Overload (CoreFn F))) => ∀ ov ∈ e.2, NumberFn ov.tag) (forall_cons (op_gt_ff_number fo) (forall_cons (op_gt_ii_number) (forall_cons (op_gt_bb_number) (forall_nil)))) ?_
  refine forall_cons (p := fun (e : Str × List (Overload (CoreFn F))) => ∀ ov ∈ e.2, NumberFn ov.tag) (forall_cons (op_le_ff_number fo) (forall_cons (op_le_ii_number) (forall_cons (op_le_bb_number) (forall_nil)))) ?_
  refine forall_cons (p := fun (e : Str × List (Overload (CoreFn F))) => ∀ ov ∈ e.2, NumberFn ov.tag) (forall_cons (op_lt_ff_number fo) (forall_cons (op_lt_ii_number) (forall_cons (op_lt_bb_number) (forall_nil)))) ?_
  refine forall_cons (p := fun (e : Str × List (Overload (CoreFn F))) => ∀ ov ∈ e.2, NumberFn ov.tag) (forall_cons (op_binv_i_number) (forall_nil)) ?_
  refine forall_cons (p := fun (e : Str × List (Overload (CoreFn F))) => ∀ ov ∈ e.2, NumberFn ov.tag) (forall_cons (op_band_ii_number) (forall_nil)) ?_
  refine forall_cons (p := fun (e : Str × List (Overload (CoreFn F))) => ∀ ov ∈ e.2, NumberFn ov.tag) (forall_cons (op_bxor_ii_number) (forall_nil)) ?_
  refine forall_cons (p := fun (e : Str × List (Overload (CoreFn F))) => ∀ ov ∈ e.2, NumberFn ov.tag) (forall_cons (op_bor_ii_number) (forall_nil)) ?_
  refine forall_cons (p := fun (e : Str × List (Overload (CoreFn F))) => ∀ ov ∈ e.2, NumberFn ov.tag) (forall_cons (op_shl_ii_number) (forall_nil)) ?_
  refine forall_cons (p := fun (e : Str × List (Overload (CoreFn F))) => ∀ ov ∈ e.2, NumberFn ov.tag) (forall_cons (op_shr_ii_number) (forall_nil)) ?_
  refine forall_cons (p := fun (e : Str × List (Overload (CoreFn F))) => ∀ ov ∈ e.2, NumberFn ov.tag) (forall_cons (op_linv_b_number) (forall_nil)) ?_
  refine forall_cons (p := fun (e : Str × List (Overload (CoreFn F))) => ∀ ov ∈ e.2, NumberFn ov.tag) (forall_cons (op_land_bb_number) (forall_nil)) ?_
  refine forall_cons (p := fun (e : Str × List (Overload (CoreFn F))) => ∀ ov ∈ e.2, NumberFn ov.tag) (forall_cons (op_lxor_bb_number) (forall_nil)) ?_
  refine forall_cons (p := fun (e : Str × List (Overload (CoreFn F))) => ∀ ov ∈ e.2, NumberFn ov.tag) (forall_cons (op_lor_bb_number) (forall_nil)) ?_
  refine forall_cons (p := fun (e : Str × List (Overload (CoreFn F))) => ∀ ov ∈ e.2, NumberFn ov.tag) (forall_cons (op_tcnd_bff_number) (forall_cons (op_tcnd_bii_number) (forall_cons (op_tcnd_bbb_number) (forall_nil)))) ?_
  refine forall_cons (p := fun (e : Str × List (Overload (CoreFn F))) => ∀ ov ∈ e.2, NumberFn ov.tag) (forall_cons (fn_sqrt_f_number fo) (forall_nil)) ?_
  refine forall_cons (p := fun (e : Str × List (Overload (CoreFn F))) => ∀ ov ∈ e.2, NumberFn ov.tag) (forall_cons (fn_exp_f_number fo) (forall_nil)) ?_
  refine forall_cons (p := fun (e : Str × List (Overload (CoreFn F))) => ∀ ov ∈ e.2, NumberFn ov.tag) (forall_cons (fn_log_f_number fo) (forall_nil)) ?_
  refine forall_cons (p := fun (e : Str × List (Overload (CoreFn F))) => ∀ ov ∈ e.2, NumberFn ov.tag) (forall_cons (fn_sin_f_number fo) (forall_nil)) ?_
  refine forall_cons (p := fun (e : Str × List (Overload (CoreFn F))) => ∀ ov ∈ e.2, NumberFn ov.tag) (forall_cons (fn_cos_f_number fo) (forall_nil)) ?_
  refine forall_cons (p := fun (e : Str × List (Overload (CoreFn F))) => ∀ ov ∈ e.2, NumberFn ov.tag) (forall_cons (fn_tan_f_number fo) (forall_nil)) ?_
  refine forall_cons (p := fun (e : Str × List (Overload (CoreFn F))) => ∀ ov ∈ e.2, NumberFn ov.tag) (forall_cons (fn_sinh_f_number fo) (forall_nil)) ?_
  refine forall_cons (p := fun (e : Str × List (Overload (CoreFn F))) => ∀ ov ∈ e.2, NumberFn ov.tag) (forall_cons (fn_cosh_f_number fo) (forall_nil)) ?_
  refine forall_cons (p := fun (e : Str × List (Overload (CoreFn F))) => ∀ ov ∈ e.2, NumberFn ov.tag) (forall_cons (fn_tanh_f_number fo) (forall_nil)) ?_
  refine forall_cons (p := fun (e : Str × List (Overload (CoreFn F))) => ∀ ov ∈ e.2, NumberFn ov.tag) (forall_cons (fn_asin_f_number fo) (forall_nil)) ?_
  refine forall_cons (p := fun (e : Str × List (Overload (CoreFn F))) => ∀ ov ∈ e.2, NumberFn ov.tag) (forall_cons (fn_acos_f_number fo) (forall_nil)) ?_
  refine forall_cons (p := fun (e : Str × List (Overload (CoreFn F))) => ∀ ov ∈ e.2, NumberFn ov.tag) (forall_cons (fn_atan_f_number fo) (forall_nil)) ?_
  refine forall_cons (p := fun (e : Str × List (Overload (CoreFn F))) => ∀ ov ∈ e.2, NumberFn ov.tag) (forall_cons (fn_asinh_f_number fo) (forall_nil)) ?_
  refine forall_cons (p := fun (e : Str × List (Overload (CoreFn F))) => ∀ ov ∈ e.2, NumberFn ov.tag) (forall_cons (fn_acosh_f_number fo) (forall_nil)) ?_
  refine forall_cons (p := fun (e : Str × List (Overload (CoreFn F))) => ∀ ov ∈ e.2, NumberFn ov.tag) (forall_cons (fn_atanh_f_number fo) (forall_nil)) ?_
  refine forall_cons (p := fun (e : Str × List (Overload (CoreFn F))) => ∀ ov ∈ e.2, NumberFn ov.tag) (forall_cons (fn_abs_f_number fo) (forall_cons (fn_abs_i_number) (forall_nil))) ?_
  exact forall_nil


/-! ## Name tables -/

/-- What overload resolution returns, with other identities. -/
def moveMatch (f : Nat → Nat) {T : Type} (x : T × List (Value F)) : T × List (Value F) := (x.1, x.2.map (moveValue f))

theorem promoteAll_mov (vs : List (Value F)) (ts : List Ty) :
    OverloadTable.promoteAll fo (vs.map (moveValue f)) ts
      = (OverloadTable.promoteAll fo vs ts).mov (Option.map (List.map (moveValue f))) := by
  induction vs generalizing ts with
  | nil => simp [OverloadTable.promoteAll]
  | cons v vs ih =>
    cases ts with
    | nil => simp [OverloadTable.promoteAll]
    | cons t ts =>
      simp only [List.map_cons, OverloadTable.promoteAll]
      refine mov_bind (promote_mov v t) fun o => ?_
      cases o with
      | none => rfl
      | some v' =>
        refine mov_bind (ih ts) fun o => ?_
        cases o <;> rfl

theorem resolveFirst_mov {T : Type} (vs : List (Value F)) (ovs : List (Overload T)) :
    OverloadTable.resolveFirst fo (vs.map (moveValue f)) ovs
      = (OverloadTable.resolveFirst fo vs ovs).mov (Option.map (moveMatch f)) := by
  induction ovs with
  | nil => rfl
  | cons ov ovs ih =>
    simp only [OverloadTable.resolveFirst, List.length_map]
    split
    · exact ih
    · refine mov_bind (promoteAll_mov vs _) fun o => ?_
      cases o
      · exact ih
      · rfl

theorem resolve_mov {T : Type} (tbl : OverloadTable T) (name : Str) (vs : List (Value F)) :
    OverloadTable.resolve fo tbl name (vs.map (moveValue f)) = (OverloadTable.resolve fo tbl name vs).mov (moveMatch f) := by
  unfold OverloadTable.resolve
  cases OverloadTable.find tbl name with
  | none => rfl
  | some ovs =>
    refine mov_bind (resolveFirst_mov vs _) fun o => ?_
    cases o with
    | some r => rfl
    | none =>
      simp only [Option.map_none, typesOf_mov]
      exact mov_bind (mov_id _) fun ts => rfl

theorem fnResolve_mov {tbl : OverloadTable (CoreFn F)} (hb : NumberTable tbl) (name : Str) (vs : List (Value F)) :
    FnTable.resolve fo tbl name (vs.map (moveValue f)) = (FnTable.resolve fo tbl name vs).mov (Option.map (moveValue f)) := by
  unfold FnTable.resolve
  refine mov_bind' (resolve_mov tbl name vs) fun x hr => ?_
  refine number_mov (?_ : NumberFn x.1) x.2
  unfold OverloadTable.resolve at hr
  cases hf : OverloadTable.find tbl name with
  | none => simp [hf] at hr
  | some ovs =>
    simp only [hf, OverloadTable.resolveOverload] at hr
    cases hx : OverloadTable.resolveFirst fo vs ovs.reverse with
    | ok x =>
      cases x with
      | some y =>
        simp only [hx, Res.bind_ok, Res.ok.injEq] at hr
        obtain ⟨ov, ho, e⟩ := resolveFirst_tag hx
        obtain ⟨en, hen, h2⟩ := find_mem hf
        rw [← hr, ← e]
        exact hb en hen ov (by rw [h2]; simpa using ho)
      | none =>
        simp only [hx, Res.bind_ok] at hr
        cases ht : Values.typesOf vs <;> simp [ht] at hr
    | _ => simp [hx] at hr

/-! ## Scopes -/

/-- `Sees f N ss ss'`: under names with `N`, the scopes `ss'` know what the scopes `ss` know, with other identities. -/
structure Sees (f : Nat → Nat) (N : Str → Prop) (ss ss' : List (Scope F)) : Prop where
  vars : ∀ n, N n → Analyzer.resolveVariable ss' n = (Analyzer.resolveVariable ss n).mov (moveValue f)
  functions : ss'.map Scope.fnTable = ss.map Scope.fnTable
  instructions : ss'.map Scope.instructionTable = ss.map Scope.instructionTable
  numbers : ∀ s ∈ ss, NumberTable s.fnTable

theorem resolveFunction_mov {N : Str → Prop} {ss ss' : List (Scope F)} (h : Sees f N ss ss') (name : Str) (vs : List (Value F)) :
    Analyzer.resolveFunction fo ss' name (vs.map (moveValue f))
      = (Analyzer.resolveFunction fo ss name vs).mov (Option.map (moveValue f)) := by
  unfold Analyzer.resolveFunction
  have e := congrArg List.getLast? h.functions
  rw [List.getLast?_map, List.getLast?_map] at e
  cases hs : ss.getLast? with
  | none => rw [hs] at e; simp at e; rw [List.getLast?_eq_none_iff.2 e]; rfl
  | some s =>
    rw [hs] at e
    cases hs' : ss'.getLast? with
    | none => rw [hs'] at e; cases e
    | some s' =>
      rw [hs'] at e
      simp only [Option.map_some, Option.some.injEq] at e
      simp only [e]
      exact fnResolve_mov (h.numbers s (List.mem_of_getLast? hs)) name vs

theorem resolveInstruction_mov (ss ss' : List (Scope F)) (h : ss'.map Scope.instructionTable = ss.map Scope.instructionTable)
    (name : Str) (vs : List (Value F)) :
    Analyzer.resolveInstruction fo ss' name (vs.map (moveValue f))
      = (Analyzer.resolveInstruction fo ss name vs).mov (moveMatch f) := by
  induction ss generalizing ss' with
  | nil =>
    simp at h
    subst h
    simp only [Analyzer.resolveInstruction, typesOf_mov]
    exact mov_bind (mov_id _) fun ts => rfl
  | cons s ss ih =>
    cases ss' with
    | nil => cases h
    | cons s' ss' =>
      simp only [List.map_cons, List.cons.injEq] at h
      simp only [Analyzer.resolveInstruction, h.1, resolve_mov]
      cases OverloadTable.resolve fo s.instructionTable name vs with
      | err e => exact ih ss' h.2
      | _ => rfl

/-! ## Expressions -/

section
variable {N : Str → Prop} {ss ss' : List (Scope F)}

theorem callFunction_mov (h : Sees f N ss ss') (name : Str) (vs : List (Value F)) :
    callFunction fo ss' name (vs.map (moveValue f)) = (callFunction fo ss name vs).mov (moveValue f) := by
  unfold callFunction
  refine mov_bind (resolveFunction_mov h name vs) fun o => ?_
  cases o with
  | none => rfl
  | some v => rfl

theorem locate_mov {x x' : Res Err (Value F)} (h : x' = x.mov (moveValue f)) (l : Option Loc) :
    locate l x' = (locate l x).mov (moveValue f) := by
  subst h
  cases x <;> simp [locate, moveValue]

theorem toConstInt_mov {x x' : Res Err (Value F)} (h : x' = x.mov (moveValue f)) (l : Option Loc) :
    toConstInt fo l x' = toConstInt fo l x := by
  refine Eq.trans ?_ (mov_id _).symm
  unfold toConstInt
  refine mov_bind h fun v => ?_
  refine mov_bind (promote_mov v _) fun o => ?_
  cases o with
  | none => rfl
  | some w =>
    obtain ⟨n, lw⟩ := w
    cases n <;> rfl

theorem indexInto_mov {v : Value F} (x : Res Err (List (Int64 × Option Loc))) :
    indexInto (moveValue f v) x = (indexInto v x).mov (moveValue f) := by
  have ht := typeOf_mov (f := f) v
  obtain ⟨n, l⟩ := v
  cases n with
  | variableRef y =>
    simp only [indexInto, moveValue, moveNode]
    have hl : (moveLink f y).typ = y.typ := rfl
    rw [hl]
    split
    · exact mov_bind (mov_id x) fun is => mov_bind (mov_id _) fun _ => rfl
    · simp only [moveValue, moveNode] at ht
      rw [ht]
      exact mov_bind (mov_id _) fun t => rfl
  | _ => rfl

mutual
theorem visit_mov (h : Sees f N ss ss') (e : Expr F) (hn : ∀ n ∈ names e, N n) :
    visit fo ss' e = (visit fo ss e).mov (moveValue f) := by
  cases e with
  | boolLit l b => simp [visit, moveValue, moveNode]
  | intLit l b => simp [visit, moveValue, moveNode]
  | floatLit l b => simp [visit, moveValue, moveNode]
  | ident l n => simp only [visit]; exact h.vars n (hn n (by simp [names]))
  | index l e is =>
    simp only [names, List.mem_append] at hn
    simp only [visit]
    rw [visitIndexList_mov h is fun n hm => hn n (.inr hm)]
    have hx := mov_bind (g := moveValue f) (locate_mov (visit_mov h e fun n hm => hn n (.inl hm)) e.loc)
      (k' := fun v => indexInto v (visitIndexList fo ss is))
      (k := fun v => indexInto v (visitIndexList fo ss is)) (fun v => indexInto_mov _)
    rw [hx]
    cases (locate e.loc (visit fo ss e)).bind fun v => indexInto v (visitIndexList fo ss is) <;> simp
  | call l n es =>
    simp only [visit]
    exact mov_bind (visitList_mov h es fun n hm => hn n (by simpa [names] using hm)) fun vs => callFunction_mov h n vs
  | un l o e =>
    simp only [visit]
    exact mov_bind (locate_mov (visit_mov h e fun n hm => hn n (by simpa [names] using hm)) e.loc) fun v => callFunction_mov h _ [v]
  | bin l o a b =>
    simp only [names, List.mem_append] at hn
    simp only [visit]
    exact mov_bind (locate_mov (visit_mov h a fun n hm => hn n (.inl hm)) a.loc) fun v =>
      mov_bind (locate_mov (visit_mov h b fun n hm => hn n (.inr hm)) b.loc) fun w => callFunction_mov h _ [v, w]
  | tern l c a b =>
    simp only [names, List.mem_append] at hn
    simp only [visit]
    exact mov_bind (locate_mov (visit_mov h c fun n hm => hn n (.inl (.inl hm))) c.loc) fun u =>
      mov_bind (locate_mov (visit_mov h a fun n hm => hn n (.inl (.inr hm))) a.loc) fun v =>
      mov_bind (locate_mov (visit_mov h b fun n hm => hn n (.inr hm)) b.loc) fun w => callFunction_mov h _ [u, v, w]

theorem visitList_mov (h : Sees f N ss ss') (es : List (Expr F)) (hn : ∀ n ∈ namesList es, N n) :
    visitList fo ss' es = (visitList fo ss es).mov (List.map (moveValue f)) := by
  cases es with
  | nil => simp [visitList]
  | cons e es =>
    simp only [namesList, List.mem_append] at hn
    simp only [visitList]
    exact mov_bind (locate_mov (visit_mov h e fun n hm => hn n (.inl hm)) e.loc) fun v =>
      mov_bind (visitList_mov h es fun n hm => hn n (.inr hm)) fun vs => rfl

theorem visitIndexList_mov (h : Sees f N ss ss') (is : List (IndexEntry F)) (hn : ∀ n ∈ namesEntries is, N n) :
    visitIndexList fo ss' is = visitIndexList fo ss is := by
  cases is with
  | nil => simp [visitIndexList]
  | cons i is =>
    simp only [visitIndexList]
    cases i with
    | item l e =>
      simp only [namesEntries, List.mem_append] at hn
      rw [visitIndexList_mov h is fun n hm => hn n (.inr hm)]
      simp only [visitIndexEntry, toConstInt_mov (visit_mov h e fun n hm => hn n (.inl hm))]
    | range l a b =>
      simp only [namesEntries, List.mem_append] at hn
      rw [visitIndexList_mov h is fun n hm => hn n (.inr hm)]
      simp only [visitIndexEntry, toConstInt_mov (visit_mov h a fun n hm => hn n (.inl (.inl hm))),
        toConstInt_mov (visit_mov h b fun n hm => hn n (.inl (.inr hm)))]
end

end

end Qasm
