import Verif.Spec.Rename
import Verif.Lemmas.Strip
/-!
# Helper lemmas: analysis does not depend on the names of variables
-/

namespace Qasm

open Spec Sem

variable {F α β γ : Type} {fo : FloatOps F} {r : Str → Str}

/-- The outcome with the value changed and the error with the variable it names renamed. -/
def Res.ren (r : Str → Str) (f : α → β) : Res Err α → Res Err β
  | .ok a => .ok (f a)
  | .err e => .err (renErr r e)
  | .exn c => .exn c
  | .ub => .ub

@[simp] theorem Res.ren_ok (f : α → β) (a : α) : (Res.ok a : Res Err α).ren r f = .ok (f a) := rfl
@[simp] theorem Res.ren_err (f : α → β) (e : Err) : (Res.err e : Res Err α).ren r f = .err (renErr r e) := rfl
@[simp] theorem Res.ren_exn (f : α → β) (c : Str) : (Res.exn c : Res Err α).ren r f = .exn c := rfl
@[simp] theorem Res.ren_ub (f : α → β) : (Res.ub : Res Err α).ren r f = .ub := rfl

theorem ren_bind {δ : Type} {x : Res Err α} {f : α → γ} {x' : Res Err γ} {k : α → Res Err β} {g : β → δ} {k' : γ → Res Err δ}
    (hx : x' = x.ren r f) (hk : ∀ a, k' (f a) = (k a).ren r g) : x'.bind k' = (x.bind k).ren r g := by
  subst hx
  cases x <;> simp [hk]

theorem ren_bind' {δ : Type} {x : Res Err α} {f : α → γ} {x' : Res Err γ} {k : α → Res Err β} {g : β → δ} {k' : γ → Res Err δ}
    (hx : x' = x.ren r f) (hk : ∀ a, x = .ok a → k' (f a) = (k a).ren r g) : x'.bind k' = (x.bind k).ren r g := by
  subst hx
  cases x <;> simp [hk]

theorem renErr_context (e : Err) (l : Option Loc) : (renErr r e).context l = renErr r (e.context l) := by
  obtain ⟨m, x⟩ := e
  cases x <;> rfl

/-- The message names no variable. -/
def Nameless (r : Str → Str) (m : Str) : Prop := renMessage r (Err.normMsg m) = Err.normMsg m

theorem mkNode_ren {m : Str} (h : Nameless r m) (l : Option Loc) : Err.mkNode m l = renErr r (Err.mkNode m l) := by
  cases l <;> simp only [Err.mkNode, Err.context, renErr] <;> rw [h]

theorem mk0_ren {m : Str} (h : Nameless r m) : Err.mk0 m = renErr r (Err.mk0 m) := mkNode_ren h none

theorem after_append (p m : Str) : after p (p ++ m) = some m := by
  induction p with
  | nil => rfl
  | cons c p ih => simp [after, ih]

theorem unresolved_ren (n : Str) : Err.mk0 (c!"failed to resolve variable '" ++ r n ++ c!"'")
    = renErr r (Err.mk0 (c!"failed to resolve variable '" ++ n ++ c!"'")) := by
  have h (n : Str) : Err.mk0 (c!"failed to resolve variable '" ++ n ++ c!"'") = ⟨c!"failed to resolve variable '" ++ (n ++ c!"'"), none⟩ := by
    rw [List.append_assoc]; rfl
  rw [h, h]
  simp only [renErr, renMessage, after_append, List.dropLast_concat, List.append_assoc]

theorem redeclared_ren (n : Str) : Err.mk0 (c!"trying to redeclare variable '" ++ r n ++ c!"'")
    = renErr r (Err.mk0 (c!"trying to redeclare variable '" ++ n ++ c!"'")) := by
  have h (n : Str) : Err.mk0 (c!"trying to redeclare variable '" ++ n ++ c!"'") = ⟨c!"trying to redeclare variable '" ++ (n ++ c!"'"), none⟩ := by
    rw [List.append_assoc]; rfl
  rw [h, h]
  have hn : after c!"failed to resolve variable '" (c!"trying to redeclare variable '" ++ (n ++ c!"'")) = none := rfl
  simp only [renErr, renMessage, hn, after_append, List.dropLast_concat, List.append_assoc]

/-! ## Values -/

@[simp] theorem renValue_loc (v : Value F) : (renValue r v).loc = v.loc := rfl

theorem sizeOf_ren (v : Value F) : Values.sizeOf (renValue r v) = Values.sizeOf v := by
  obtain ⟨n, l⟩ := v
  cases n <;> simp [Values.sizeOf, renValue, renNode, renLink]

theorem typeOf_ren (v : Value F) : Values.typeOf (renValue r v) = (Values.typeOf v).ren r id := by
  have h := sizeOf_ren (r := r) v
  obtain ⟨n, l⟩ := v
  cases n with
  | indexRef x is =>
    show (if Values.sizeOf (renValue r ⟨.indexRef x is, l⟩) = 1 then Values.elementTypeOf x.typ else .ok x.typ)
      = (if Values.sizeOf ⟨.indexRef x is, l⟩ = 1 then Values.elementTypeOf x.typ else .ok x.typ).ren r id
    simp only [h]
    unfold Values.elementTypeOf
    split
    · split
      · rfl
      · split <;> rfl
    · rfl
  | _ => rfl

theorem typesOf_ren (vs : List (Value F)) : Values.typesOf (vs.map (renValue r)) = (Values.typesOf vs).ren r id := by
  induction vs with
  | nil => rfl
  | cons v vs ih =>
    simp only [List.map_cons, Values.typesOf]
    exact ren_bind (typeOf_ren v) fun t => ren_bind ih fun ts => rfl

theorem promote_ren (v : Value F) (t : Ty) :
    Values.promote fo (renValue r v) t = (Values.promote fo v t).ren r (Option.map (renValue r)) := by
  unfold Values.promote
  refine ren_bind (typeOf_ren v) fun tv => ?_
  simp only [id]
  split
  · rfl
  · obtain ⟨n, l⟩ := v
    simp only [Res.ren_ok, Option.map_map]
    congr 1
    cases t.kind <;> cases n <;> simp [renValue, renNode, renLink] <;> split <;> simp [renValue, renNode, renLink]

/-! ## Functions -/

/-- The function does not look at the names of variables. -/
def BlindN (r : Str → Str) (f : CoreFn F) : Prop := ∀ vs, f (vs.map (renValue r)) = (f vs).ren r (Option.map (renValue r))

/-- No function of the table looks at the names of variables. -/
def BlindNTable (r : Str → Str) (tbl : OverloadTable (CoreFn F)) : Prop := ∀ e ∈ tbl, ∀ ov ∈ e.2, BlindN r ov.tag

/-- The outcome holds no variable and its error names none. -/
def Still (r : Str → Str) (x : Res Err (Option (Value F))) : Prop := x = x.ren r (Option.map (renValue r))

theorem still_bind {x : Res Err α} {k : α → Res Err (Option (Value F))} (hx : x = x.ren r id) (hk : ∀ a, Still r (k a)) :
    Still r (x.bind k) := ren_bind hx hk

theorem constAll_ren (vs : List (Value F)) : (Values.checkConstAll vs = .ok () ∧ vs.map (renValue r) = vs) ∨
    ∃ e, Values.checkConstAll vs = .err e ∧ Values.checkConstAll (vs.map (renValue r)) = .err e ∧ renErr r e = e := by
  induction vs with
  | nil => exact .inl ⟨rfl, rfl⟩
  | cons v vs ih =>
    obtain ⟨n, l⟩ := v
    have hc : (Values.isConstant ⟨n, l⟩ = true ∧ renNode r n = n) ∨ (Values.isConstant ⟨n, l⟩ = false ∧
        Values.isConstant ⟨renNode r n, l⟩ = false) := by
      cases n <;> simp [Values.isConstant, renNode]
    rcases hc with ⟨h1, h2⟩ | ⟨h1, h2⟩
    · have e : Values.checkConst (⟨n, l⟩ : Value F) = .ok () := by simp [Values.checkConst, h1]
      rcases ih with ⟨h3, h4⟩ | ⟨x, h3, h4, h5⟩
      · exact .inl ⟨by simp [Values.checkConstAll, e, h3], by simp only [List.map_cons, h4, renValue, h2]⟩
      · exact .inr ⟨x, by simp [Values.checkConstAll, e, h3],
          by simp only [List.map_cons, renValue, h2, Values.checkConstAll, e, Res.bind_ok]; exact h4, h5⟩
    · refine .inr ⟨Err.mkNode c!"dynamic values are not supported here" l, ?_, ?_, (mkNode_ren (by rfl) l).symm⟩
      · simp [Values.checkConstAll, Values.checkConst, h1]
      · simp [Values.checkConstAll, Values.checkConst, renValue, h2]

theorem blindN_of {k : List (Value F) → Res Err (Option (Value F))} (hk : ∀ vs, Still r (k vs)) :
    BlindN r (fun vs => (Values.checkConstAll vs).bind fun _ => k vs) := by
  intro vs
  rcases constAll_ren (r := r) vs with ⟨h1, h2⟩ | ⟨e, h1, h2, h3⟩
  · simp only [h2, h1, Res.bind_ok]; exact hk vs
  · simp [h1, h2, h3]

theorem nth_still (vs : List (Value F)) (i : Nat) {k : Value F → Res Err (Option (Value F))} (hk : ∀ v, Still r (k v)) :
    Still r ((ConstEval.nth vs i).bind k) := by
  unfold ConstEval.nth
  cases vs[i]? with
  | none => rfl
  | some v => exact hk v

theorem get_still (p : ValueNode F → Option α) (v : Value F) {k : α → Res Err (Option (Value F))} (hk : ∀ v, Still r (k v)) :
    Still r ((ConstEval.get p v).bind k) := by
  unfold ConstEval.get
  cases p v.node with
  | none => rfl
  | some v => exact hk v

/-- The function on numbers throws nothing but errors that name no variable. -/
def PlainN (r : Str → Str) (x : Res Err α) : Prop := x = x.ren r id

theorem ufCp_blindN {inj : β → ValueNode F} {p : ValueNode F → Option α} {f : α → Res Err β}
    (hi : ∀ b, renNode r (inj b) = inj b) (hf : ∀ a, PlainN r (f a)) : BlindN r (ConstEval.ufCp inj p f) := by
  refine blindN_of fun vs => ?_
  refine nth_still vs 0 fun v0 => get_still p v0 fun a => ?_
  exact still_bind (hf a) fun b => by simp [Still, renValue, hi]

theorem bfCp_blindN {inj : β → ValueNode F} {p : ValueNode F → Option α} {f : α → α → Res Err β}
    (hi : ∀ b, renNode r (inj b) = inj b) (hf : ∀ a b, PlainN r (f a b)) : BlindN r (ConstEval.bfCp inj p f) := by
  refine blindN_of fun vs => ?_
  refine nth_still vs 0 fun v0 => get_still p v0 fun a => nth_still vs 1 fun v1 => get_still p v1 fun b => ?_
  exact still_bind (hf a b) fun b => by simp [Still, renValue, hi]

theorem tfCp_blindN {inj : α → ValueNode F} {p : ValueNode F → Option α}
    (hi : ∀ b, renNode r (inj b) = inj b) : BlindN r (ConstEval.tfCp inj p) := by
  refine blindN_of fun vs => ?_
  refine nth_still vs 0 fun v0 => get_still _ v0 fun a => nth_still vs 1 fun v1 => get_still p v1 fun b =>
    nth_still vs 2 fun v2 => get_still p v2 fun c => ?_
  simp [Still, renValue, hi]

/-- What overload resolution returns, with renamed variables. -/
def renMatch (r : Str → Str) {T : Type} (x : T × List (Value F)) : T × List (Value F) := (x.1, x.2.map (renValue r))

theorem promoteAll_ren (vs : List (Value F)) (ts : List Ty) :
    OverloadTable.promoteAll fo (vs.map (renValue r)) ts
      = (OverloadTable.promoteAll fo vs ts).ren r (Option.map (List.map (renValue r))) := by
  induction vs generalizing ts with
  | nil => simp [OverloadTable.promoteAll]
  | cons v vs ih =>
    cases ts with
    | nil => simp [OverloadTable.promoteAll]
    | cons t ts =>
      simp only [List.map_cons, OverloadTable.promoteAll]
      refine ren_bind (promote_ren v t) fun o => ?_
      cases o with
      | none => rfl
      | some v' =>
        refine ren_bind (ih ts) fun o => ?_
        cases o <;> rfl

theorem resolveFirst_ren {T : Type} (vs : List (Value F)) (ovs : List (Overload T)) :
    OverloadTable.resolveFirst fo (vs.map (renValue r)) ovs
      = (OverloadTable.resolveFirst fo vs ovs).ren r (Option.map (renMatch r)) := by
  induction ovs with
  | nil => rfl
  | cons ov ovs ih =>
    simp only [OverloadTable.resolveFirst, List.length_map]
    split
    · exact ih
    · refine ren_bind (promoteAll_ren vs _) fun o => ?_
      cases o
      · exact ih
      · rfl

theorem resolve_ren {T : Type} (tbl : OverloadTable T) (name : Str) (vs : List (Value F)) :
    OverloadTable.resolve fo tbl name (vs.map (renValue r)) = (OverloadTable.resolve fo tbl name vs).ren r (renMatch r) := by
  unfold OverloadTable.resolve
  cases OverloadTable.find tbl name with
  | none => exact congrArg Res.err (mk0_ren (by rfl))
  | some ovs =>
    refine ren_bind (resolveFirst_ren vs _) fun o => ?_
    cases o with
    | some r => rfl
    | none =>
      refine ren_bind (typesOf_ren vs) fun ts => ?_
      exact congrArg Res.err (mk0_ren (by rfl))

theorem fnResolve_ren {tbl : OverloadTable (CoreFn F)} (hb : BlindNTable r tbl) (name : Str) (vs : List (Value F)) :
    FnTable.resolve fo tbl name (vs.map (renValue r)) = (FnTable.resolve fo tbl name vs).ren r (Option.map (renValue r)) := by
  unfold FnTable.resolve
  refine ren_bind' (resolve_ren tbl name vs) fun x hr => ?_
  refine (?_ : BlindN r x.1) x.2
  unfold OverloadTable.resolve at hr
  cases hf : OverloadTable.find tbl name with
  | none => simp [hf] at hr
  | some ovs =>
    simp only [hf, OverloadTable.resolveOverload] at hr
    cases hx : OverloadTable.resolveFirst fo vs ovs.reverse with
    | ok x =>
      cases x with
      | some y =>
        simp only [hx, Res.bind_ok, Res.ok.injEq] at hr
        obtain ⟨ov, ho, e⟩ := resolveFirst_tag hx
        obtain ⟨en, hen, h2⟩ := find_mem hf
        rw [← hr, ← e]
        exact hb en hen ov (by rw [h2]; simpa using ho)
      | none =>
        simp only [hx, Res.bind_ok] at hr
        cases ht : Values.typesOf vs <;> simp [ht] at hr
    | _ => simp [hx] at hr

theorem checked_plainN (z : Int) : PlainN r (ConstEval.checked z) := by
  unfold ConstEval.checked PlainN; split <;> rfl

/-! ## The default functions -/

theorem absI_plainN (a : Int64) : PlainN r (ConstEval.absI a) := by
  unfold ConstEval.absI; split
  · exact checked_plainN _
  · rfl

theorem divI_plainN (a b : Int64) : PlainN r (ConstEval.divI a b) := by
  unfold ConstEval.divI; split
  · rfl
  · exact checked_plainN _

theorem modI_plainN (a b : Int64) : PlainN r (ConstEval.modI a b) := by
  unfold ConstEval.modI; split
  · rfl
  · exact ren_bind (checked_plainN _) fun _ => checked_plainN _

theorem shlI_plainN (a b : Int64) : PlainN r (ConstEval.shlI a b) := by
  unfold ConstEval.shlI; split <;> rfl

theorem shrI_plainN (a b : Int64) : PlainN r (ConstEval.shrI a b) := by
  unfold ConstEval.shrI; split <;> rfl

theorem op_neg_f_blindN (fo : FloatOps F) : BlindN r (ConstEval.op_neg_f fo) :=
  ufCp_blindN (fun _ => rfl) (fun _ => rfl)

theorem op_neg_i_blindN : BlindN r ((ConstEval.op_neg_i : CoreFn F)) :=
  ufCp_blindN (fun _ => rfl) (fun _ => checked_plainN _)

theorem op_add_ff_blindN (fo : FloatOps F) : BlindN r (ConstEval.op_add_ff fo) :=
  bfCp_blindN (fun _ => rfl) (fun _ _ => rfl)

theorem op_sub_ff_blindN (fo : FloatOps F) : BlindN r (ConstEval.op_sub_ff fo) :=
  bfCp_blindN (fun _ => rfl) (fun _ _ => rfl)

theorem op_mul_ff_blindN (fo : FloatOps F) : BlindN r (ConstEval.op_mul_ff fo) :=
  bfCp_blindN (fun _ => rfl) (fun _ _ => rfl)

theorem op_div_ff_blindN (fo : FloatOps F) : BlindN r (ConstEval.op_div_ff fo) :=
  bfCp_blindN (fun _ => rfl) (fun _ _ => rfl)

theorem op_pow_ff_blindN (fo : FloatOps F) : BlindN r (ConstEval.op_pow_ff fo) :=
  bfCp_blindN (fun _ => rfl) (fun _ _ => rfl)

theorem op_add_ii_blindN : BlindN r ((ConstEval.op_add_ii : CoreFn F)) :=
  bfCp_blindN (fun _ => rfl) (fun _ _ => checked_plainN _)

theorem op_sub_ii_blindN : BlindN r ((ConstEval.op_sub_ii : CoreFn F)) :=
  bfCp_blindN (fun _ => rfl) (fun _ _ => checked_plainN _)

theorem op_mul_ii_blindN : BlindN r ((ConstEval.op_mul_ii : CoreFn F)) :=
  bfCp_blindN (fun _ => rfl) (fun _ _ => checked_plainN _)

theorem op_div_ii_blindN : BlindN r ((ConstEval.op_div_ii : CoreFn F)) :=
  bfCp_blindN (fun _ => rfl) divI_plainN

theorem op_mod_ii_blindN : BlindN r ((ConstEval.op_mod_ii : CoreFn F)) :=
  bfCp_blindN (fun _ => rfl) modI_plainN

theorem op_shl_ii_blindN : BlindN r ((ConstEval.op_shl_ii : CoreFn F)) :=
  bfCp_blindN (fun _ => rfl) shlI_plainN

theorem op_shr_ii_blindN : BlindN r ((ConstEval.op_shr_ii : CoreFn F)) :=
  bfCp_blindN (fun _ => rfl) shrI_plainN

theorem op_eq_ff_blindN (fo : FloatOps F) : BlindN r (ConstEval.op_eq_ff fo) :=
  bfCp_blindN (fun _ => rfl) (fun _ _ => rfl)

theorem op_ne_ff_blindN (fo : FloatOps F) : BlindN r (ConstEval.op_ne_ff fo) :=
  bfCp_blindN (fun _ => rfl) (fun _ _ => rfl)

theorem op_ge_ff_blindN (fo : FloatOps F) : BlindN r (ConstEval.op_ge_ff fo) :=
  bfCp_blindN (fun _ => rfl) (fun _ _ => rfl)

theorem op_gt_ff_blindN (fo : FloatOps F) : BlindN r (ConstEval.op_gt_ff fo) :=
  bfCp_blindN (fun _ => rfl) (fun _ _ => rfl)

theorem op_le_ff_blindN (fo : FloatOps F) : BlindN r (ConstEval.op_le_ff fo) :=
  bfCp_blindN (fun _ => rfl) (fun _ _ => rfl)

theorem op_lt_ff_blindN (fo : FloatOps F) : BlindN r (ConstEval.op_lt_ff fo) :=
  bfCp_blindN (fun _ => rfl) (fun _ _ => rfl)

theorem op_eq_ii_blindN : BlindN r ((ConstEval.op_eq_ii : CoreFn F)) :=
  bfCp_blindN (fun _ => rfl) (fun _ _ => rfl)

theorem op_ne_ii_blindN : BlindN r ((ConstEval.op_ne_ii : CoreFn F)) :=
  bfCp_blindN (fun _ => rfl) (fun _ _ => rfl)

theorem op_ge_ii_blindN : BlindN r ((ConstEval.op_ge_ii : CoreFn F)) :=
  bfCp_blindN (fun _ => rfl) (fun _ _ => rfl)

theorem op_gt_ii_blindN : BlindN r ((ConstEval.op_gt_ii : CoreFn F)) :=
  bfCp_blindN (fun _ => rfl) (fun _ _ => rfl)

theorem op_le_ii_blindN : BlindN r ((ConstEval.op_le_ii : CoreFn F)) :=
  bfCp_blindN (fun _ => rfl) (fun _ _ => rfl)

theorem op_lt_ii_blindN : BlindN r ((ConstEval.op_lt_ii : CoreFn F)) :=
  bfCp_blindN (fun _ => rfl) (fun _ _ => rfl)

theorem op_eq_bb_blindN : BlindN r ((ConstEval.op_eq_bb : CoreFn F)) :=
  bfCp_blindN (fun _ => rfl) (fun _ _ => rfl)

theorem op_ne_bb_blindN : BlindN r ((ConstEval.op_ne_bb : CoreFn F)) :=
  bfCp_blindN (fun _ => rfl) (fun _ _ => rfl)

theorem op_ge_bb_blindN : BlindN r ((ConstEval.op_ge_bb : CoreFn F)) :=
  bfCp_blindN (fun _ => rfl) (fun _ _ => rfl)

theorem op_gt_bb_blindN : BlindN r ((ConstEval.op_gt_bb : CoreFn F)) :=
  bfCp_blindN (fun _ => rfl) (fun _ _ => rfl)

theorem op_le_bb_blindN : BlindN r ((ConstEval.op_le_bb : CoreFn F)) :=
  bfCp_blindN (fun _ => rfl) (fun _ _ => rfl)

theorem op_lt_bb_blindN : BlindN r ((ConstEval.op_lt_bb : CoreFn F)) :=
  bfCp_blindN (fun _ => rfl) (fun _ _ => rfl)

theorem op_binv_i_blindN : BlindN r ((ConstEval.op_binv_i : CoreFn F)) :=
  ufCp_blindN (fun _ => rfl) (fun _ => rfl)

theorem op_band_ii_blindN : BlindN r ((ConstEval.op_band_ii : CoreFn F)) :=
  bfCp_blindN (fun _ => rfl) (fun _ _ => rfl)

theorem op_bxor_ii_blindN : BlindN r ((ConstEval.op_bxor_ii : CoreFn F)) :=
  bfCp_blindN (fun _ => rfl) (fun _ _ => rfl)

theorem op_bor_ii_blindN : BlindN r ((ConstEval.op_bor_ii : CoreFn F)) :=
  bfCp_blindN (fun _ => rfl) (fun _ _ => rfl)

theorem op_linv_b_blindN : BlindN r ((ConstEval.op_linv_b : CoreFn F)) :=
  ufCp_blindN (fun _ => rfl) (fun _ => rfl)

theorem op_land_bb_blindN : BlindN r ((ConstEval.op_land_bb : CoreFn F)) :=
  bfCp_blindN (fun _ => rfl) (fun _ _ => rfl)

theorem op_lxor_bb_blindN : BlindN r ((ConstEval.op_lxor_bb : CoreFn F)) :=
  bfCp_blindN (fun _ => rfl) (fun _ _ => rfl)

theorem op_lor_bb_blindN : BlindN r ((ConstEval.op_lor_bb : CoreFn F)) :=
  bfCp_blindN (fun _ => rfl) (fun _ _ => rfl)

theorem op_tcnd_bff_blindN : BlindN r ((ConstEval.op_tcnd_bff : CoreFn F)) :=
  tfCp_blindN (fun _ => rfl)

theorem op_tcnd_bii_blindN : BlindN r ((ConstEval.op_tcnd_bii : CoreFn F)) :=
  tfCp_blindN (fun _ => rfl)

theorem op_tcnd_bbb_blindN : BlindN r ((ConstEval.op_tcnd_bbb : CoreFn F)) :=
  tfCp_blindN (fun _ => rfl)

theorem fn_sqrt_f_blindN (fo : FloatOps F) : BlindN r (ConstEval.fn_sqrt_f fo) :=
  ufCp_blindN (fun _ => rfl) (fun _ => rfl)

theorem fn_exp_f_blindN (fo : FloatOps F) : BlindN r (ConstEval.fn_exp_f fo) :=
  ufCp_blindN (fun _ => rfl) (fun _ => rfl)

theorem fn_log_f_blindN (fo : FloatOps F) : BlindN r (ConstEval.fn_log_f fo) :=
  ufCp_blindN (fun _ => rfl) (fun _ => rfl)

theorem fn_sin_f_blindN (fo : FloatOps F) : BlindN r (ConstEval.fn_sin_f fo) :=
  ufCp_blindN (fun _ => rfl) (fun _ => rfl)

theorem fn_cos_f_blindN (fo : FloatOps F) : BlindN r (ConstEval.fn_cos_f fo) :=
  ufCp_blindN (fun _ => rfl) (fun _ => rfl)

theorem fn_tan_f_blindN (fo : FloatOps F) : BlindN r (ConstEval.fn_tan_f fo) :=
  ufCp_blindN (fun _ => rfl) (fun _ => rfl)

theorem fn_sinh_f_blindN (fo : FloatOps F) : BlindN r (ConstEval.fn_sinh_f fo) :=
  ufCp_blindN (fun _ => rfl) (fun _ => rfl)

theorem fn_cosh_f_blindN (fo : FloatOps F) : BlindN r (ConstEval.fn_cosh_f fo) :=
  ufCp_blindN (fun _ => rfl) (fun _ => rfl)

theorem fn_tanh_f_blindN (fo : FloatOps F) : BlindN r (ConstEval.fn_tanh_f fo) :=
  ufCp_blindN (fun _ => rfl) (fun _ => rfl)

theorem fn_asin_f_blindN (fo : FloatOps F) : BlindN r (ConstEval.fn_asin_f fo) :=
  ufCp_blindN (fun _ => rfl) (fun _ => rfl)

theorem fn_acos_f_blindN (fo : FloatOps F) : BlindN r (ConstEval.fn_acos_f fo) :=
  ufCp_blindN (fun _ => rfl) (fun _ => rfl)

theorem fn_atan_f_blindN (fo : FloatOps F) : BlindN r (ConstEval.fn_atan_f fo) :=
  ufCp_blindN (fun _ => rfl) (fun _ => rfl)

theorem fn_asinh_f_blindN (fo : FloatOps F) : BlindN r (ConstEval.fn_asinh_f fo) :=
  ufCp_blindN (fun _ => rfl) (fun _ => rfl)

theorem fn_acosh_f_blindN (fo : FloatOps F) : BlindN r (ConstEval.fn_acosh_f fo) :=
  ufCp_blindN (fun _ => rfl) (fun _ => rfl)

theorem fn_atanh_f_blindN (fo : FloatOps F) : BlindN r (ConstEval.fn_atanh_f fo) :=
  ufCp_blindN (fun _ => rfl) (fun _ => rfl)

theorem fn_abs_f_blindN (fo : FloatOps F) : BlindN r (ConstEval.fn_abs_f fo) :=
  ufCp_blindN (fun _ => rfl) (fun _ => rfl)

theorem fn_abs_i_blindN : BlindN r ((ConstEval.fn_abs_i : CoreFn F)) :=
  ufCp_blindN (fun _ => rfl) absI_plainN

theorem defaultFns_blindN (fo : FloatOps F) : BlindNTable r (defaultFns fo) := by
  unfold BlindNTable defaultFns
  refine forall_cons (p := fun (e : Str × List (Overload (CoreFn F))) => ∀ ov ∈ e.2, BlindN r ov.tag) (forall_cons (op_neg_f_blindN fo) (forall_cons (op_neg_i_blindN) (forall_cons (op_sub_ff_blindN fo) (forall_cons (op_sub_ii_blindN) (forall_nil))))) ?_
  refine forall_cons (p := fun (e : Str × List (Overload (CoreFn F))) => ∀ ov ∈ e.2, BlindN r ov.tag) (forall_cons (op_add_ff_blindN fo) (forall_cons (op_add_ii_blindN) (forall_nil))) ?_
  refine forall_cons (p := fun (e : Str × List (Overload (CoreFn F))) => ∀ ov ∈ e.2, BlindN r ov.tag) (forall_cons (op_mul_ff_blindN fo) (forall_cons (op_mul_ii_blindN) (forall_nil))) ?_
  refine forall_cons (p := fun (e : Str × List (Overload (CoreFn F))) => ∀ ov ∈ e.2, BlindN r ov.tag) (forall_cons (op_div_ff_blindN fo) (forall_cons (op_div_ii_blindN) (forall_nil))) ?_
  refine forall_cons (p := fun (e : Str × List (Overload (CoreFn F))) => ∀ ov ∈ e.2, BlindN r ov.tag) (forall_cons (op_mod_ii_blindN) (forall_nil)) ?_
  refine forall_cons (p := fun (e : Str × List (Overload (CoreFn F))) => ∀ ov ∈ e.2, BlindN r ov.tag) (forall_cons (op_pow_ff_blindN fo) (forall_nil)) ?_
  refine forall_cons (p := fun (e : Str × List (Overload (CoreFn F))) => ∀ ov ∈ e.2, BlindN r ov.tag) (forall_cons (op_eq_ff_blindN fo) (forall_cons (op_eq_ii_blindN) (forall_cons (op_eq_bb_blindN) (forall_nil)))) ?_
  refine forall_cons (p := fun (e : Str × List (Overload (CoreFn F))) => ∀ ov ∈ e.2, BlindN r ov.tag) (forall_cons (op_ne_ff_blindN fo) (forall_cons (op_ne_ii_blindN) (forall_cons (op_ne_bb_blindN) (forall_nil)))) ?_
  refine forall_cons (p := fun (e : Str × List (Overload (CoreFn F))) => ∀ ov ∈ e.2, BlindN r ov.tag) (forall_cons (op_ge_ff_blindN fo) (forall_cons (op_ge_ii_blindN) (forall_cons (op_ge_bb_blindN) (forall_nil)))) ?_
  refine forall_cons (p := fun (e : Str × List (Overload (CoreFn F))) => ∀ ov ∈ e.2, BlindN r ov.tag) (forall_cons (op_gt_ff_blindN fo) (forall_cons (op_gt_ii_blindN) (forall_cons (op_gt_bb_blindN) (forall_nil)))) ?_
  refine forall_cons (p := fun (e : Str × List (Overload (CoreFn F))) => ∀ ov ∈ e.2, BlindN r ov.tag) (forall_cons (op_le_ff_blindN fo) (forall_cons (op_le_ii_blindN) (forall_cons (op_le_bb_blindN) (forall_nil)))) ?_
  refine forall_cons (p := fun (e : Str × List (Overload (CoreFn F))) => ∀ ov ∈ e.2, BlindN r ov.tag) (forall_cons (op_lt_ff_blindN fo) (forall_cons (op_lt_ii_blindN) (forall_cons (op_lt_bb_blindN) (forall_nil)))) ?_
  refine forall_cons (p := fun (e : Str × List (Overload (CoreFn F))) => ∀ ov ∈ e.2, BlindN r ov.tag) (forall_cons (op_binv_i_blindN) (forall_nil)) ?_
  refine forall_cons (p := fun (e : Str × List (Overload (CoreFn F))) => ∀ ov ∈ e.2, BlindN r ov.tag) (forall_cons (op_band_ii_blindN) (forall_nil)) ?_
  refine forall_cons (p := fun (e : Str × List (Overload (CoreFn F))) => ∀ ov ∈ e.2, BlindN r ov.tag) (forall_cons (op_bxor_ii_blindN) (forall_nil)) ?_
  refine forall_cons (p := fun (e : Str × List (Overload (CoreFn F))) => ∀ ov ∈ e.2, BlindN r ov.tag) (forall_cons (op_bor_ii_blindN) (forall_nil)) ?_
  refine forall_cons (p := fun (e : Str × List (Overload (CoreFn F))) => ∀ ov ∈ e.2, BlindN r ov.tag) (forall_cons (op_shl_ii_blindN) (forall_nil)) ?_
  refine forall_cons (p := fun (e : Str × List (Overload (CoreFn F))) => ∀ ov ∈ e.2, BlindN r ov.tag) (forall_cons (op_shr_ii_blindN) (forall_nil)) ?_
  refine forall_cons (p := fun (e : Str × List (Overload (CoreFn F))) => ∀ ov ∈ e.2, BlindN r ov.tag) (forall_cons (op_linv_b_blindN) (forall_nil)) ?_
  refine forall_cons (p := fun (e : Str × List (Overload (CoreFn F))) => ∀ ov ∈ e.2, BlindN r ov.tag) (forall_cons (op_land_bb_blindN) (forall_nil)) ?_
  refine forall_cons (p := fun (e : Str × List (Overload (CoreFn F))) => ∀ ov ∈ e.2, BlindN r ov.tag) (forall_cons (op_lxor_bb_blindN) (forall_nil)) ?_
  refine forall_cons (p := fun (e : Str × List (Overload (CoreFn F))) => ∀ ov ∈ e.2, BlindN r ov.tag) (forall_cons (op_lor_bb_blindN) (forall_nil)) ?_
  refine forall_cons (p := fun (e : Str × List (Overload (CoreFn F))) => ∀ ov ∈ e.2, BlindN r ov.tag) (forall_cons (op_tcnd_bff_blindN) (forall_cons (op_tcnd_bii_blindN) (forall_cons (op_tcnd_bbb_blindN) (forall_nil)))) ?_
  refine forall_cons (p := fun (e : Str × List (Overload (CoreFn F))) => ∀ ov ∈ e.2, BlindN r ov.tag) (forall_cons (fn_sqrt_f_blindN fo) (forall_nil)) ?_
  refine forall_cons (p := fun (e : Str × List (Overload (CoreFn F))) => ∀ ov ∈ e.2, BlindN r ov.tag) (forall_cons (fn_exp_f_blindN fo) (forall_nil)) ?_
  refine forall_cons (p := fun (e : Str × List (Overload (CoreFn F))) => ∀ ov ∈ e.2, BlindN r ov.tag) (forall_cons (fn_log_f_blindN fo) (forall_nil)) ?_
  refine forall_cons (p := fun (e : Str × List (Overload (CoreFn F))) => ∀ ov ∈ e.2, BlindN r ov.tag) (forall_cons (fn_sin_f_blindN fo) (forall_nil)) ?_
  refine forall_cons (p := fun (e : Str × List (Overload (CoreFn F))) => ∀ ov ∈ e.2, BlindN r ov.tag) (forall_cons (fn_cos_f_blindN fo) (forall_nil)) ?_
  refine forall_cons (p := fun (e : Str × List (Overload (CoreFn F))) => ∀ ov ∈ e.2, BlindN r ov.tag) (forall_cons (fn_tan_f_blindN fo) (forall_nil)) ?_
  refine forall_cons (p := fun (e : Str × List (Overload (CoreFn F))) => ∀ ov ∈ e.2, BlindN r ov.tag) (forall_cons (fn_sinh_f_blindN fo) (forall_nil)) ?_
  refine forall_cons (p := fun (e : Str × List (Overload (CoreFn F))) => ∀ ov ∈ e.2, BlindN r ov.tag) (forall_cons (fn_cosh_f_blindN fo) (forall_nil)) ?_
  refine forall_cons (p := fun (e : Str × List (Overload (CoreFn F))) => ∀ ov ∈ e.2, BlindN r ov.tag) (forall_cons (fn_tanh_f_blindN fo) (forall_nil)) ?_
  refine forall_cons (p := fun (e : Str × List (Overload (CoreFn F))) => ∀ ov ∈ e.2, BlindN r ov.tag) (forall_cons (fn_asin_f_blindN fo) (forall_nil)) ?_
  refine forall_cons (p := fun (e : Str × List (Overload (CoreFn F))) => ∀ ov ∈ e.2, BlindN r ov.tag) (forall_cons (fn_acos_f_blindN fo) (forall_nil)) ?_
  refine forall_cons (p := fun (e : Str × List (Overload (CoreFn F))) => ∀ ov ∈ e.2, BlindN r ov.tag) (forall_cons (fn_atan_f_blindN fo) (forall_nil)) ?_
  refine forall_cons (p := fun (e : Str × List (Overload (CoreFn F))) => ∀ ov ∈ e.2, BlindN r ov.tag) (forall_cons (fn_asinh_f_blindN fo) (forall_nil)) ?_
  refine forall_cons (p := fun (e : Str × List (Overload (CoreFn F))) => ∀ ov ∈ e.2, BlindN r ov.tag) (forall_cons (fn_acosh_f_blindN fo) (forall_nil)) ?_
  refine forall_cons (p := fun (e : Str × List (Overload (CoreFn F))) => ∀ ov ∈ e.2, BlindN r ov.tag) (forall_cons (fn_atanh_f_blindN fo) (forall_nil)) ?_
  refine forall_cons (p := fun (e : Str × List (Overload (CoreFn F))) => ∀ ov ∈ e.2, BlindN r ov.tag) (forall_cons (fn_abs_f_blindN fo) (forall_cons (fn_abs_i_blindN) (forall_nil))) ?_
  exact forall_nil

/-! ## Scopes -/

/-- The scope with renamed variables. -/
def renScope (r : Str → Str) (s : Scope F) : Scope F :=
  ⟨s.variableTable.map fun e => (r e.1, renValue r e.2), s.fnTable, s.instructionTable,
    ⟨s.block.statements.map (renSStatement r), s.block.loc⟩, s.variables.map (renSVariable r)⟩

/-- The analyser with renamed variables. -/
def renAnalyzer (r : Str → Str) (a : Analyzer F) : Analyzer F := ⟨a.apiVersion, a.scopes.map (renScope r), a.nextUid⟩

/-- No function of the scopes looks at names of variables. -/
def BlindNScopes (r : Str → Str) (ss : List (Scope F)) : Prop := ∀ s ∈ ss, BlindNTable r s.fnTable

/-- Different names stay different. -/
def Inj (r : Str → Str) : Prop := ∀ x y, r x = r y → x = y

theorem varFind_ren (hr : Inj r) (t : VariableTable F) (name : Str) :
    VariableTable.find (t.map fun e => (r e.1, renValue r e.2)) (r name) = (VariableTable.find t name).map (renValue r) := by
  induction t with
  | nil => rfl
  | cons e es ih =>
    have h : (r e.1 = r name) ↔ e.1 = name := ⟨hr _ _, fun h => by rw [h]⟩
    simp only [List.map_cons, VariableTable.find, ih, h]
    split <;> rfl

theorem resolveVariable_ren (hr : Inj r) (ss : List (Scope F)) (name : Str) :
    Analyzer.resolveVariable (ss.map (renScope r)) (r name) = (Analyzer.resolveVariable ss name).ren r (renValue r) := by
  induction ss with
  | nil => exact congrArg Res.err (unresolved_ren name)
  | cons s ss ih =>
    simp only [List.map_cons, Analyzer.resolveVariable, VariableTable.resolve, renScope, varFind_ren hr]
    cases VariableTable.find s.variableTable name with
    | some v => rfl
    | none => exact ih

theorem resolveFunction_ren {ss : List (Scope F)} (hb : BlindNScopes r ss) (name : Str) (vs : List (Value F)) :
    Analyzer.resolveFunction fo (ss.map (renScope r)) name (vs.map (renValue r))
      = (Analyzer.resolveFunction fo ss name vs).ren r (Option.map (renValue r)) := by
  unfold Analyzer.resolveFunction
  rw [List.getLast?_map]
  cases h : ss.getLast? with
  | none => rfl
  | some s => exact fnResolve_ren (hb s (List.mem_of_getLast? h)) name vs

theorem resolveInstruction_ren (ss : List (Scope F)) (name : Str) (vs : List (Value F)) :
    Analyzer.resolveInstruction fo (ss.map (renScope r)) name (vs.map (renValue r))
      = (Analyzer.resolveInstruction fo ss name vs).ren r (renMatch r) := by
  induction ss with
  | nil =>
    simp only [List.map_nil, Analyzer.resolveInstruction]
    refine ren_bind (typesOf_ren vs) fun ts => ?_
    exact congrArg Res.err (mk0_ren (by rfl))
  | cons s ss ih =>
    simp only [List.map_cons, Analyzer.resolveInstruction]
    have : (renScope r s).instructionTable = s.instructionTable := rfl
    rw [this, resolve_ren]
    cases OverloadTable.resolve fo s.instructionTable name vs with
    | err e => exact ih
    | _ => rfl

/-! ## Expressions -/

theorem callFunction_ren {ss : List (Scope F)} (hb : BlindNScopes r ss) (name : Str) (vs : List (Value F)) :
    callFunction fo (ss.map (renScope r)) name (vs.map (renValue r)) = (callFunction fo ss name vs).ren r (renValue r) := by
  unfold callFunction
  refine ren_bind (resolveFunction_ren hb name vs) fun o => ?_
  cases o with
  | none => exact congrArg Res.err (mk0_ren (by rfl))
  | some v => rfl

theorem locate_ren {x x' : Res Err (Value F)} (h : x' = x.ren r (renValue r)) (l : Option Loc) :
    locate l x' = (locate l x).ren r (renValue r) := by
  subst h
  cases x <;> simp [locate, renValue, renErr_context]

theorem checkOutOfRange_ren (is : List (Int64 × Option Loc)) (n : Int64) :
    checkOutOfRange is n = (checkOutOfRange is n).ren r id := by
  induction is with
  | nil => rfl
  | cons i is ih =>
    obtain ⟨i, l⟩ := i
    simp only [checkOutOfRange]
    split
    · exact congrArg Res.err (mk0_ren (by rfl))
    · exact ih

theorem toConstInt_ren {x x' : Res Err (Value F)} (h : x' = x.ren r (renValue r)) (l : Option Loc) :
    toConstInt fo l x' = (toConstInt fo l x).ren r id := by
  unfold toConstInt
  refine ren_bind h fun v => ?_
  refine ren_bind (promote_ren v _) fun o => ?_
  cases o with
  | none => exact congrArg Res.err (mkNode_ren (by rfl) _)
  | some w =>
    obtain ⟨n, lw⟩ := w
    cases n with
    | constInt i => rfl
    | _ => exact congrArg Res.err (mkNode_ren (by rfl) _)

theorem indexRange_ren (l : Option Loc) (a b : Int64) :
    indexRange l a b = (indexRange l a b).ren r id := by
  unfold indexRange
  split
  · exact congrArg Res.err (mkNode_ren (by rfl) _)
  · split <;> rfl

theorem indexInto_ren {v : Value F} {x x' : Res Err (List (Int64 × Option Loc))} (h : x' = x.ren r id) :
    indexInto (renValue r v) x' = (indexInto v x).ren r (renValue r) := by
  have ht := typeOf_ren (r := r) v
  obtain ⟨n, l⟩ := v
  cases n with
  | variableRef x =>
    simp only [indexInto, renValue, renNode]
    have hl : (renLink r x).typ = x.typ := rfl
    rw [hl]
    split
    · refine ren_bind h fun is => ?_
      exact ren_bind (checkOutOfRange_ren is _) fun _ => rfl
    · refine ren_bind ht fun t => ?_
      exact congrArg Res.err (mk0_ren (by rfl))
  | _ => rfl

theorem renExpr_loc (e : Expr F) : (renExpr r e).loc = e.loc := by
  cases e <;> rfl

mutual
theorem visit_ren (hr : Inj r) {ss : List (Scope F)} (hb : BlindNScopes r ss) (e : Expr F) :
    visit fo (ss.map (renScope r)) (renExpr r e) = (visit fo ss e).ren r (renValue r) := by
  cases e with
  | boolLit l b => simp [visit, renExpr, renValue, renNode]
  | intLit l b => simp [visit, renExpr, renValue, renNode]
  | floatLit l b => simp [visit, renExpr, renValue, renNode]
  | ident l n => simp only [visit, renExpr]; exact resolveVariable_ren hr ss n
  | index l e is =>
    simp only [visit, renExpr, renExpr_loc]
    have h := ren_bind (g := renValue r) (locate_ren (visit_ren hr hb e) e.loc)
      (k' := fun v => indexInto v (visitIndexList fo (ss.map (renScope r)) (renEntries r is)))
      (k := fun v => indexInto v (visitIndexList fo ss is)) (fun v => indexInto_ren (visitIndexList_ren hr hb is))
    rw [h]
    cases (locate e.loc (visit fo ss e)).bind fun v => indexInto v (visitIndexList fo ss is) <;> simp [renErr_context]
  | call l n es =>
    simp only [visit, renExpr]
    exact ren_bind (visitList_ren hr hb es) fun vs => callFunction_ren hb n vs
  | un l o e =>
    simp only [visit, renExpr, renExpr_loc]
    exact ren_bind (locate_ren (visit_ren hr hb e) e.loc) fun v => callFunction_ren hb _ [v]
  | bin l o a b =>
    simp only [visit, renExpr, renExpr_loc]
    exact ren_bind (locate_ren (visit_ren hr hb a) a.loc) fun v =>
      ren_bind (locate_ren (visit_ren hr hb b) b.loc) fun w => callFunction_ren hb _ [v, w]
  | tern l c a b =>
    simp only [visit, renExpr, renExpr_loc]
    exact ren_bind (locate_ren (visit_ren hr hb c) c.loc) fun u =>
      ren_bind (locate_ren (visit_ren hr hb a) a.loc) fun v =>
      ren_bind (locate_ren (visit_ren hr hb b) b.loc) fun w => callFunction_ren hb _ [u, v, w]

theorem visitList_ren (hr : Inj r) {ss : List (Scope F)} (hb : BlindNScopes r ss) (es : List (Expr F)) :
    visitList fo (ss.map (renScope r)) (renExprs r es) = (visitList fo ss es).ren r (List.map (renValue r)) := by
  cases es with
  | nil => simp [visitList, renExprs]
  | cons e es =>
    simp only [visitList, renExprs, renExpr_loc]
    exact ren_bind (locate_ren (visit_ren hr hb e) e.loc) fun v => ren_bind (visitList_ren hr hb es) fun vs => rfl

theorem visitIndexList_ren (hr : Inj r) {ss : List (Scope F)} (hb : BlindNScopes r ss) (is : List (IndexEntry F)) :
    visitIndexList fo (ss.map (renScope r)) (renEntries r is) = (visitIndexList fo ss is).ren r id := by
  cases is with
  | nil => simp [visitIndexList, renEntries]
  | cons i is =>
    simp only [visitIndexList, renEntries]
    exact ren_bind (visitIndexEntry_ren hr hb i) fun v => ren_bind (visitIndexList_ren hr hb is) fun vs => rfl

theorem visitIndexEntry_ren (hr : Inj r) {ss : List (Scope F)} (hb : BlindNScopes r ss) (i : IndexEntry F) :
    visitIndexEntry fo (ss.map (renScope r)) (renEntry r i) = (visitIndexEntry fo ss i).ren r id := by
  cases i with
  | item l e =>
    simp only [visitIndexEntry, renEntry, renExpr_loc]
    exact ren_bind (toConstInt_ren (visit_ren hr hb e) e.loc) fun _ => rfl
  | range l a b =>
    simp only [visitIndexEntry, renEntry, renExpr_loc]
    exact ren_bind (toConstInt_ren (visit_ren hr hb a) a.loc) fun _ =>
      ren_bind (toConstInt_ren (visit_ren hr hb b) b.loc) fun _ => indexRange_ren l _ _
end

end Qasm
