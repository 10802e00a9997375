import Verif.Lemmas.Promote
import Verif.Lemmas.DefaultTables
/-!
# Helper lemmas: the default functions against their specification
-/

namespace Qasm

open Spec

variable {F : Type}

/-- The built-in functions, their parameter kinds and implementations in the order of registration. -/
def fnTable (fo : FloatOps F) : List (Fn × List Kind × CoreFn F) :=
  [(.un .neg, [.float], ConstEval.op_neg_f fo),
   (.un .neg, [.int], ConstEval.op_neg_i),
   (.bin .add, [.float, .float], ConstEval.op_add_ff fo),
   (.bin .add, [.int, .int], ConstEval.op_add_ii),
   (.bin .sub, [.float, .float], ConstEval.op_sub_ff fo),
   (.bin .sub, [.int, .int], ConstEval.op_sub_ii),
   (.bin .mul, [.float, .float], ConstEval.op_mul_ff fo),
   (.bin .mul, [.int, .int], ConstEval.op_mul_ii),
   (.bin .div, [.float, .float], ConstEval.op_div_ff fo),
   (.bin .div, [.int, .int], ConstEval.op_div_ii),
   (.bin .mod, [.int, .int], ConstEval.op_mod_ii),
   (.bin .pow, [.float, .float], ConstEval.op_pow_ff fo),
   (.bin .eq, [.float, .float], ConstEval.op_eq_ff fo),
   (.bin .ne, [.float, .float], ConstEval.op_ne_ff fo),
   (.bin .ge, [.float, .float], ConstEval.op_ge_ff fo),
   (.bin .gt, [.float, .float], ConstEval.op_gt_ff fo),
   (.bin .le, [.float, .float], ConstEval.op_le_ff fo),
   (.bin .lt, [.float, .float], ConstEval.op_lt_ff fo),
   (.bin .eq, [.int, .int], ConstEval.op_eq_ii),
   (.bin .ne, [.int, .int], ConstEval.op_ne_ii),
   (.bin .ge, [.int, .int], ConstEval.op_ge_ii),
   (.bin .gt, [.int, .int], ConstEval.op_gt_ii),
   (.bin .le, [.int, .int], ConstEval.op_le_ii),
   (.bin .lt, [.int, .int], ConstEval.op_lt_ii),
   (.bin .eq, [.bool, .bool], ConstEval.op_eq_bb),
   (.bin .ne, [.bool, .bool], ConstEval.op_ne_bb),
   (.bin .ge, [.bool, .bool], ConstEval.op_ge_bb),
   (.bin .gt, [.bool, .bool], ConstEval.op_gt_bb),
   (.bin .le, [.bool, .bool], ConstEval.op_le_bb),
   (.bin .lt, [.bool, .bool], ConstEval.op_lt_bb),
   (.un .bnot, [.int], ConstEval.op_binv_i),
   (.bin .band, [.int, .int], ConstEval.op_band_ii),
   (.bin .bxor, [.int, .int], ConstEval.op_bxor_ii),
   (.bin .bor, [.int, .int], ConstEval.op_bor_ii),
   (.bin .shl, [.int, .int], ConstEval.op_shl_ii),
   (.bin .shr, [.int, .int], ConstEval.op_shr_ii),
   (.un .lnot, [.bool], ConstEval.op_linv_b),
   (.bin .land, [.bool, .bool], ConstEval.op_land_bb),
   (.bin .lxor, [.bool, .bool], ConstEval.op_lxor_bb),
   (.bin .lor, [.bool, .bool], ConstEval.op_lor_bb),
   (.cond, [.bool, .float, .float], ConstEval.op_tcnd_bff),
   (.cond, [.bool, .int, .int], ConstEval.op_tcnd_bii),
   (.cond, [.bool, .bool, .bool], ConstEval.op_tcnd_bbb),
   (.math .sqrt, [.float], ConstEval.fn_sqrt_f fo),
   (.math .exp, [.float], ConstEval.fn_exp_f fo),
   (.math .log, [.float], ConstEval.fn_log_f fo),
   (.math .sin, [.float], ConstEval.fn_sin_f fo),
   (.math .cos, [.float], ConstEval.fn_cos_f fo),
   (.math .tan, [.float], ConstEval.fn_tan_f fo),
   (.math .sinh, [.float], ConstEval.fn_sinh_f fo),
   (.math .cosh, [.float], ConstEval.fn_cosh_f fo),
   (.math .tanh, [.float], ConstEval.fn_tanh_f fo),
   (.math .asin, [.float], ConstEval.fn_asin_f fo),
   (.math .acos, [.float], ConstEval.fn_acos_f fo),
   (.math .atan, [.float], ConstEval.fn_atan_f fo),
   (.math .asinh, [.float], ConstEval.fn_asinh_f fo),
   (.math .acosh, [.float], ConstEval.fn_acosh_f fo),
   (.math .atanh, [.float], ConstEval.fn_atanh_f fo),
   (.abs, [.float], ConstEval.fn_abs_f fo),
   (.abs, [.int], ConstEval.fn_abs_i)]

/-- The registrations of the default functions. -/
def fnRegs (fo : FloatOps F) : List (Registration (CoreFn F)) :=
  (fnTable fo).map fun p => (p.1.name, p.2.2, p.2.1.map Ty.bare)

theorem registrations_eq (fo : FloatOps F) :
    (ConstEval.registrations fo).map (fun e => (e.1, e.2.2, (Types.fromSpec e.2.1).getD [])) = fnRegs fo := by
  rfl

theorem tableOf_fnRegs (fo : FloatOps F) : tableOf (fnRegs fo) = defaultFns fo := by
  rw [← defaultFns_eq, ← registrations_eq, tableOf, List.foldl_map]

/-- The outcome of a function as the analyser delivers it. -/
def deliver : Option (Const F) → Res Err (Option (Value F))
  | some r => .ok (some ⟨r.node, none⟩)
  | none => .ub

/-- The registered implementation computes the meaning of the function. -/
def ImplOk (fo : FloatOps F) (p : Fn × List Kind × CoreFn F) : Prop :=
  ∀ args' : List (Const F), args'.map Const.kind = p.2.1 → ∀ ws : List (Value F),
    ws.map (·.node) = args'.map Const.node → p.2.2 ws = deliver (p.1.meaning fo args')

theorem kind_bool {c : Const F} (h : c.kind = .bool) : ∃ b, c = .bool b := by
  cases c <;> simp [Const.kind] at h; exact ⟨_, rfl⟩
theorem kind_int {c : Const F} (h : c.kind = .int) : ∃ b, c = .int b := by
  cases c <;> simp [Const.kind] at h; exact ⟨_, rfl⟩
theorem kind_float {c : Const F} (h : c.kind = .float) : ∃ b, c = .float b := by
  cases c <;> simp [Const.kind] at h; exact ⟨_, rfl⟩

theorem nodes1 {ws : List (Value F)} {n : ValueNode F} (h : ws.map (·.node) = [n]) : ∃ l, ws = [⟨n, l⟩] := by
  rcases ws with _ | ⟨⟨m, l⟩, _ | ⟨w2, ws⟩⟩ <;> simp at h
  exact ⟨l, by rw [h]⟩
theorem nodes2 {ws : List (Value F)} {n m : ValueNode F} (h : ws.map (·.node) = [n, m]) :
    ∃ l l', ws = [⟨n, l⟩, ⟨m, l'⟩] := by
  rcases ws with _ | ⟨⟨m, l⟩, _ | ⟨⟨m', l'⟩, _ | ⟨w2, ws⟩⟩⟩ <;> simp at h
  exact ⟨l, l', by rw [h.1, h.2]⟩
theorem nodes3 {ws : List (Value F)} {n m k : ValueNode F} (h : ws.map (·.node) = [n, m, k]) :
    ∃ l l' l'', ws = [⟨n, l⟩, ⟨m, l'⟩, ⟨k, l''⟩] := by
  rcases ws with _ | ⟨⟨m, l⟩, _ | ⟨⟨m', l'⟩, _ | ⟨⟨m'', l''⟩, _ | ⟨w2, ws⟩⟩⟩⟩ <;> simp at h
  exact ⟨l, l', l'', by rw [h.1, h.2.1, h.2.2]⟩

theorem implOk_un {fo : FloatOps F} {fn : Fn} {f : CoreFn F} {k : Kind}
    (h : ∀ (c : Const F) (l : Option Loc), c.kind = k → f [⟨c.node, l⟩] = deliver (fn.meaning fo [c])) :
    ImplOk fo (fn, [k], f) := by
  intro args' ha ws hw
  rcases args' with _ | ⟨c, _ | ⟨c2, as⟩⟩ <;> simp at ha
  obtain ⟨l, rfl⟩ := nodes1 hw
  exact h c l ha

theorem implOk_bin {fo : FloatOps F} {fn : Fn} {f : CoreFn F} {k : Kind}
    (h : ∀ (c d : Const F) (l l' : Option Loc), c.kind = k → d.kind = k →
      f [⟨c.node, l⟩, ⟨d.node, l'⟩] = deliver (fn.meaning fo [c, d])) :
    ImplOk fo (fn, [k, k], f) := by
  intro args' ha ws hw
  rcases args' with _ | ⟨c, _ | ⟨c2, _ | ⟨c3, as⟩⟩⟩ <;> simp at ha
  obtain ⟨l, l', rfl⟩ := nodes2 hw
  exact h c c2 l l' ha.1 ha.2

theorem implOk_cond {fo : FloatOps F} {f : CoreFn F} {k : Kind}
    (h : ∀ (b : Bool) (c d : Const F) (l l' l'' : Option Loc), c.kind = k → d.kind = k →
      f [⟨.constBool b, l⟩, ⟨c.node, l'⟩, ⟨d.node, l''⟩] = deliver (some (if b = true then c else d))) :
    ImplOk fo (.cond, [.bool, k, k], f) := by
  intro args' ha ws hw
  rcases args' with _ | ⟨c, _ | ⟨c2, _ | ⟨c3, _ | ⟨c4, as⟩⟩⟩⟩ <;> simp at ha
  obtain ⟨l, l', l'', rfl⟩ := nodes3 hw
  obtain ⟨b, rfl⟩ := kind_bool ha.1
  exact h b c2 c3 l l' l'' ha.2.1 ha.2.2

theorem checked_eq (z : Int) : ConstEval.checked z = match fit z with | some i => .ok i | none => .ub := by
  have h1 : Int64.minValue.toInt = -2 ^ 63 := by decide
  have h2 : Int64.maxValue.toInt = 2 ^ 63 - 1 := by decide
  unfold ConstEval.checked fit
  rw [h1, h2]
  by_cases h : -2 ^ 63 ≤ z ∧ z < 2 ^ 63
  · rw [if_pos h, if_pos (by omega)]
  · rw [if_neg h, if_neg (by omega)]

theorem fit_toInt (a : Int64) : fit a.toInt = some a := by
  have h1 := a.toInt_lt
  have h2 := a.le_toInt
  unfold fit
  rw [if_pos (by omega)]
  simp

theorem deliver_fit (z : Int) :
    ((match fit z with | some i => .ok i | none => .ub : Res Err Int64).bind fun r =>
      .ok (some (⟨.constInt r, none⟩ : Value F))) = deliver ((fit z).map .int) := by
  cases fit z <;> rfl

theorem neg_ok (a : Int64) : ((ConstEval.negI a).bind fun r => .ok (some (⟨.constInt r, none⟩ : Value F)))
    = deliver ((fit (-a.toInt)).map .int) := by
  rw [ConstEval.negI, checked_eq, deliver_fit]

theorem add_ok (a b : Int64) : ((ConstEval.addI a b).bind fun r => .ok (some (⟨.constInt r, none⟩ : Value F)))
    = deliver (intBin .add a b) := by
  rw [ConstEval.addI, checked_eq, deliver_fit]; rfl

theorem sub_ok (a b : Int64) : ((ConstEval.subI a b).bind fun r => .ok (some (⟨.constInt r, none⟩ : Value F)))
    = deliver (intBin .sub a b) := by
  rw [ConstEval.subI, checked_eq, deliver_fit]; rfl

theorem mul_ok (a b : Int64) : ((ConstEval.mulI a b).bind fun r => .ok (some (⟨.constInt r, none⟩ : Value F)))
    = deliver (intBin .mul a b) := by
  rw [ConstEval.mulI, checked_eq, deliver_fit]; rfl

theorem toInt_zero_iff (b : Int64) : b.toInt = 0 ↔ b = 0 := by
  rw [← Int64.toInt_inj]; simp

theorem div_ok (a b : Int64) : ((ConstEval.divI a b).bind fun r => .ok (some (⟨.constInt r, none⟩ : Value F)))
    = deliver (intBin .div a b) := by
  simp only [ConstEval.divI, intBin, toInt_zero_iff]
  by_cases h : b = 0
  · rw [if_pos h, if_pos h]; rfl
  · rw [if_neg h, if_neg h, checked_eq, deliver_fit]

theorem mod_ok (a b : Int64) : ((ConstEval.modI a b).bind fun r => .ok (some (⟨.constInt r, none⟩ : Value F)))
    = deliver (intBin .mod a b) := by
  simp only [ConstEval.modI, intBin, toInt_zero_iff]
  by_cases h : b = 0
  · rw [if_pos h, if_pos (.inl h)]; rfl
  · rw [if_neg h, checked_eq, checked_eq]
    cases hf : fit (a.toInt.tdiv b.toInt) with
    | none => rw [if_pos (.inr rfl)]; rfl
    | some q => rw [if_neg (by simp [h])]; simp only [Res.bind_ok]; rw [deliver_fit]

theorem abs_ok (a : Int64) : ((ConstEval.absI a).bind fun r => .ok (some (⟨.constInt r, none⟩ : Value F)))
    = deliver ((fit a.toInt.natAbs).map .int) := by
  unfold ConstEval.absI
  by_cases h : a.toInt < 0
  · rw [if_pos h, checked_eq, deliver_fit, show (a.toInt.natAbs : Int) = -a.toInt by omega]
  · rw [if_neg h, show (a.toInt.natAbs : Int) = a.toInt by omega, fit_toInt]; rfl

theorem smod64 (b : Int64) (h0 : 0 ≤ b.toInt) (h1 : b.toInt < 64) : b.toBitVec.smod 64 = b.toBitVec := by
  apply BitVec.eq_of_toInt_eq
  rw [BitVec.toInt_smod]
  have : (64 : BitVec 64).toInt = 64 := by decide
  rw [this]
  exact Int.fmod_eq_of_lt h0 h1
theorem toNat_of_toInt (b : Int64) (h0 : 0 ≤ b.toInt) : b.toBitVec.toNat = b.toInt.toNat := by
  have h : b.toBitVec.toInt = b.toInt := rfl
  rw [← h, BitVec.toInt_eq_toNat_cond] at h0
  rw [← h, BitVec.toInt_eq_toNat_cond]
  have := b.toBitVec.isLt
  split at h0 <;> simp_all
  omega
theorem shl_eq (a b : Int64) (h0 : 0 ≤ b.toInt) (h1 : b.toInt < 64) :
    a <<< b = Int64.ofInt (a.toInt * 2 ^ b.toInt.toNat) := by
  apply Int64.toBitVec_inj.1
  rw [Int64.toBitVec_shiftLeft, Int64.toBitVec_ofInt, smod64 b h0 h1, BitVec.shiftLeft_eq', toNat_of_toInt b h0,
    BitVec.shiftLeft_eq_mul_twoPow, BitVec.ofInt_mul]
  congr 1
  · exact (BitVec.ofInt_toInt).symm
  · apply BitVec.eq_of_toNat_eq
    have : ((2:Int) ^ b.toInt.toNat) = ((2 ^ b.toInt.toNat : Nat) : Int) := by simp
    rw [this, BitVec.ofInt_natCast, BitVec.toNat_twoPow, BitVec.toNat_ofNat]
theorem shr_eq (a b : Int64) (h0 : 0 ≤ b.toInt) (h1 : b.toInt < 64) :
    a >>> b = Int64.ofInt (a.toInt.fdiv (2 ^ b.toInt.toNat)) := by
  apply Int64.toBitVec_inj.1
  rw [Int64.toBitVec_shiftRight, Int64.toBitVec_ofInt, smod64 b h0 h1]
  rw [← BitVec.ofInt_toInt (x := (a.toBitVec.sshiftRight' b.toBitVec)), BitVec.toInt_sshiftRight', toNat_of_toInt b h0]
  congr 1
  rw [Int.shiftRight_eq_div_pow, Int.fdiv_eq_ediv_of_nonneg _ (by exact Int.pow_nonneg (by omega))]
  simp
theorem not_eq (a : Int64) : ~~~a = Int64.ofInt (-a.toInt - 1) := by
  apply Int64.toInt_inj.1
  have h1 := a.toInt_lt
  have h2 := a.le_toInt
  rw [Int64.toInt_ofInt_of_le (by omega) (by omega)]
  have : (~~~a).toInt = (~~~a.toBitVec).toInt := rfl
  rw [this, BitVec.toInt_not]
  have h3 : a.toInt = a.toBitVec.toInt := rfl
  rw [h3] at *
  rw [BitVec.toInt_eq_toNat_cond] at *
  have := a.toBitVec.isLt
  simp only [Int.bmod]
  split <;> split <;> omega

theorem shl_ok (a b : Int64) : ((ConstEval.shlI a b).bind fun r => .ok (some (⟨.constInt r, none⟩ : Value F)))
    = deliver (intBin .shl a b) := by
  simp only [ConstEval.shlI, intBin]
  by_cases h : 0 ≤ b.toInt ∧ b.toInt < 64
  · rw [if_pos h, if_neg (by omega), shl_eq a b h.1 h.2]; rfl
  · rw [if_neg h, if_pos (by omega)]; rfl

theorem shr_ok (a b : Int64) : ((ConstEval.shrI a b).bind fun r => .ok (some (⟨.constInt r, none⟩ : Value F)))
    = deliver (intBin .shr a b) := by
  simp only [ConstEval.shrI, intBin]
  by_cases h : 0 ≤ b.toInt ∧ b.toInt < 64
  · rw [if_pos h, if_neg (by omega), shr_eq a b h.1 h.2]; rfl
  · rw [if_neg h, if_pos (by omega)]; rfl

theorem implOk_unInt {fo : FloatOps F} {fn : Fn} {β : Type} {inj : β → ValueNode F} {f : Int64 → Res Err β}
    (h : ∀ a, ((f a).bind fun r => .ok (some (⟨inj r, none⟩ : Value F))) = deliver (fn.meaning fo [.int a])) :
    ImplOk fo (fn, [.int], ConstEval.ufCp inj ConstEval.asInt f) := by
  refine implOk_un fun c l hc => ?_
  obtain ⟨a, rfl⟩ := kind_int hc
  rw [← h a]; rfl

theorem implOk_unFloat {fo : FloatOps F} {fn : Fn} {β : Type} {inj : β → ValueNode F} {f : F → Res Err β}
    (h : ∀ a, ((f a).bind fun r => .ok (some (⟨inj r, none⟩ : Value F))) = deliver (fn.meaning fo [.float a])) :
    ImplOk fo (fn, [.float], ConstEval.ufCp inj ConstEval.asFloat f) := by
  refine implOk_un fun c l hc => ?_
  obtain ⟨a, rfl⟩ := kind_float hc
  rw [← h a]; rfl

theorem implOk_unBool {fo : FloatOps F} {fn : Fn} {β : Type} {inj : β → ValueNode F} {f : Bool → Res Err β}
    (h : ∀ a, ((f a).bind fun r => .ok (some (⟨inj r, none⟩ : Value F))) = deliver (fn.meaning fo [.bool a])) :
    ImplOk fo (fn, [.bool], ConstEval.ufCp inj ConstEval.asBool f) := by
  refine implOk_un fun c l hc => ?_
  obtain ⟨a, rfl⟩ := kind_bool hc
  rw [← h a]; rfl

theorem implOk_binInt {fo : FloatOps F} {fn : Fn} {β : Type} {inj : β → ValueNode F} {f : Int64 → Int64 → Res Err β}
    (h : ∀ a b, ((f a b).bind fun r => .ok (some (⟨inj r, none⟩ : Value F))) = deliver (fn.meaning fo [.int a, .int b])) :
    ImplOk fo (fn, [.int, .int], ConstEval.bfCp inj ConstEval.asInt f) := by
  refine implOk_bin fun c d l l' hc hd => ?_
  obtain ⟨a, rfl⟩ := kind_int hc
  obtain ⟨b, rfl⟩ := kind_int hd
  rw [← h a b]; rfl

theorem implOk_binFloat {fo : FloatOps F} {fn : Fn} {β : Type} {inj : β → ValueNode F} {f : F → F → Res Err β}
    (h : ∀ a b, ((f a b).bind fun r => .ok (some (⟨inj r, none⟩ : Value F)))
      = deliver (fn.meaning fo [.float a, .float b])) :
    ImplOk fo (fn, [.float, .float], ConstEval.bfCp inj ConstEval.asFloat f) := by
  refine implOk_bin fun c d l l' hc hd => ?_
  obtain ⟨a, rfl⟩ := kind_float hc
  obtain ⟨b, rfl⟩ := kind_float hd
  rw [← h a b]; rfl

theorem implOk_binBool {fo : FloatOps F} {fn : Fn} {β : Type} {inj : β → ValueNode F} {f : Bool → Bool → Res Err β}
    (h : ∀ a b, ((f a b).bind fun r => .ok (some (⟨inj r, none⟩ : Value F)))
      = deliver (fn.meaning fo [.bool a, .bool b])) :
    ImplOk fo (fn, [.bool, .bool], ConstEval.bfCp inj ConstEval.asBool f) := by
  refine implOk_bin fun c d l l' hc hd => ?_
  obtain ⟨a, rfl⟩ := kind_bool hc
  obtain ⟨b, rfl⟩ := kind_bool hd
  rw [← h a b]; rfl

theorem decide_bool {p q : Prop} [Decidable p] [Decidable q] (h : p ↔ q) :
    ((Res.ok (decide p) : Res Err Bool).bind fun r => .ok (some (⟨.constBool r, none⟩ : Value F)))
      = deliver (some (.bool (decide q))) := by
  simp only [Res.bind_ok, deliver, Const.node, h]

/-- All registered implementations compute the meaning of their function. -/
theorem fnTable_ok (fo : FloatOps F) : ∀ p ∈ fnTable fo, ImplOk fo p := by
  unfold fnTable
  refine List.forall_mem_cons.mpr ⟨implOk_unFloat fun _ => rfl, ?_⟩
  refine List.forall_mem_cons.mpr ⟨implOk_unInt neg_ok, ?_⟩
  refine List.forall_mem_cons.mpr ⟨implOk_binFloat fun _ _ => rfl, ?_⟩
  refine List.forall_mem_cons.mpr ⟨implOk_binInt add_ok, ?_⟩
  refine List.forall_mem_cons.mpr ⟨implOk_binFloat fun _ _ => rfl, ?_⟩
  refine List.forall_mem_cons.mpr ⟨implOk_binInt sub_ok, ?_⟩
  refine List.forall_mem_cons.mpr ⟨implOk_binFloat fun _ _ => rfl, ?_⟩
  refine List.forall_mem_cons.mpr ⟨implOk_binInt mul_ok, ?_⟩
  refine List.forall_mem_cons.mpr ⟨implOk_binFloat fun _ _ => rfl, ?_⟩
  refine List.forall_mem_cons.mpr ⟨implOk_binInt div_ok, ?_⟩
  refine List.forall_mem_cons.mpr ⟨implOk_binInt mod_ok, ?_⟩
  refine List.forall_mem_cons.mpr ⟨implOk_binFloat fun _ _ => rfl, ?_⟩
  refine List.forall_mem_cons.mpr ⟨implOk_binFloat fun _ _ => rfl, ?_⟩
  refine List.forall_mem_cons.mpr ⟨implOk_binFloat fun _ _ => rfl, ?_⟩
  refine List.forall_mem_cons.mpr ⟨implOk_binFloat fun _ _ => rfl, ?_⟩
  refine List.forall_mem_cons.mpr ⟨implOk_binFloat fun _ _ => rfl, ?_⟩
  refine List.forall_mem_cons.mpr ⟨implOk_binFloat fun _ _ => rfl, ?_⟩
  refine List.forall_mem_cons.mpr ⟨implOk_binFloat fun _ _ => rfl, ?_⟩
  refine List.forall_mem_cons.mpr ⟨implOk_binInt fun _ _ => decide_bool Int64.toInt_inj.symm, ?_⟩
  refine List.forall_mem_cons.mpr ⟨implOk_binInt fun _ _ => decide_bool (not_congr Int64.toInt_inj.symm), ?_⟩
  refine List.forall_mem_cons.mpr ⟨implOk_binInt fun _ _ => decide_bool Int64.le_iff_toInt_le, ?_⟩
  refine List.forall_mem_cons.mpr ⟨implOk_binInt fun _ _ => decide_bool Int64.lt_iff_toInt_lt, ?_⟩
  refine List.forall_mem_cons.mpr ⟨implOk_binInt fun _ _ => decide_bool Int64.le_iff_toInt_le, ?_⟩
  refine List.forall_mem_cons.mpr ⟨implOk_binInt fun _ _ => decide_bool Int64.lt_iff_toInt_lt, ?_⟩
  refine List.forall_mem_cons.mpr ⟨implOk_binBool fun a b => by cases a <;> cases b <;> rfl, ?_⟩
  refine List.forall_mem_cons.mpr ⟨implOk_binBool fun a b => by cases a <;> cases b <;> rfl, ?_⟩
  refine List.forall_mem_cons.mpr ⟨implOk_binBool fun a b => by cases a <;> cases b <;> rfl, ?_⟩
  refine List.forall_mem_cons.mpr ⟨implOk_binBool fun a b => by cases a <;> cases b <;> rfl, ?_⟩
  refine List.forall_mem_cons.mpr ⟨implOk_binBool fun a b => by cases a <;> cases b <;> rfl, ?_⟩
  refine List.forall_mem_cons.mpr ⟨implOk_binBool fun a b => by cases a <;> cases b <;> rfl, ?_⟩
  refine List.forall_mem_cons.mpr ⟨implOk_unInt fun a => by rw [not_eq]; rfl, ?_⟩
  refine List.forall_mem_cons.mpr ⟨implOk_binInt fun _ _ => rfl, ?_⟩
  refine List.forall_mem_cons.mpr ⟨implOk_binInt fun _ _ => rfl, ?_⟩
  refine List.forall_mem_cons.mpr ⟨implOk_binInt fun _ _ => rfl, ?_⟩
  refine List.forall_mem_cons.mpr ⟨implOk_binInt shl_ok, ?_⟩
  refine List.forall_mem_cons.mpr ⟨implOk_binInt shr_ok, ?_⟩
  refine List.forall_mem_cons.mpr ⟨implOk_unBool fun a => by cases a <;> rfl, ?_⟩
  refine List.forall_mem_cons.mpr ⟨implOk_binBool fun a b => by cases a <;> cases b <;> rfl, ?_⟩
  refine List.forall_mem_cons.mpr ⟨implOk_binBool fun a b => by cases a <;> cases b <;> rfl, ?_⟩
  refine List.forall_mem_cons.mpr ⟨implOk_binBool fun a b => by cases a <;> cases b <;> rfl, ?_⟩
  refine List.forall_mem_cons.mpr ⟨implOk_cond fun b c d _ _ _ hc hd => by
      obtain ⟨x, rfl⟩ := kind_float hc
      obtain ⟨y, rfl⟩ := kind_float hd
      cases b <;> rfl, ?_⟩
  refine List.forall_mem_cons.mpr ⟨implOk_cond fun b c d _ _ _ hc hd => by
      obtain ⟨x, rfl⟩ := kind_int hc
      obtain ⟨y, rfl⟩ := kind_int hd
      cases b <;> rfl, ?_⟩
  refine List.forall_mem_cons.mpr ⟨implOk_cond fun b c d _ _ _ hc hd => by
      obtain ⟨x, rfl⟩ := kind_bool hc
      obtain ⟨y, rfl⟩ := kind_bool hd
      cases b <;> rfl, ?_⟩
  refine List.forall_mem_cons.mpr ⟨implOk_unFloat fun _ => rfl, ?_⟩
  refine List.forall_mem_cons.mpr ⟨implOk_unFloat fun _ => rfl, ?_⟩
  refine List.forall_mem_cons.mpr ⟨implOk_unFloat fun _ => rfl, ?_⟩
  refine List.forall_mem_cons.mpr ⟨implOk_unFloat fun _ => rfl, ?_⟩
  refine List.forall_mem_cons.mpr ⟨implOk_unFloat fun _ => rfl, ?_⟩
  refine List.forall_mem_cons.mpr ⟨implOk_unFloat fun _ => rfl, ?_⟩
  refine List.forall_mem_cons.mpr ⟨implOk_unFloat fun _ => rfl, ?_⟩
  refine List.forall_mem_cons.mpr ⟨implOk_unFloat fun _ => rfl, ?_⟩
  refine List.forall_mem_cons.mpr ⟨implOk_unFloat fun _ => rfl, ?_⟩
  refine List.forall_mem_cons.mpr ⟨implOk_unFloat fun _ => rfl, ?_⟩
  refine List.forall_mem_cons.mpr ⟨implOk_unFloat fun _ => rfl, ?_⟩
  refine List.forall_mem_cons.mpr ⟨implOk_unFloat fun _ => rfl, ?_⟩
  refine List.forall_mem_cons.mpr ⟨implOk_unFloat fun _ => rfl, ?_⟩
  refine List.forall_mem_cons.mpr ⟨implOk_unFloat fun _ => rfl, ?_⟩
  refine List.forall_mem_cons.mpr ⟨implOk_unFloat fun _ => rfl, ?_⟩
  refine List.forall_mem_cons.mpr ⟨implOk_unFloat fun _ => rfl, ?_⟩
  refine List.forall_mem_cons.mpr ⟨implOk_unInt abs_ok, ?_⟩
  simp

/-! ## Overload choice -/

/-- The functions and parameter kinds in the order of registration. -/
def regFns : List (Fn × List Kind) :=
  [(.un .neg, [.float]),
   (.un .neg, [.int]),
   (.bin .add, [.float, .float]),
   (.bin .add, [.int, .int]),
   (.bin .sub, [.float, .float]),
   (.bin .sub, [.int, .int]),
   (.bin .mul, [.float, .float]),
   (.bin .mul, [.int, .int]),
   (.bin .div, [.float, .float]),
   (.bin .div, [.int, .int]),
   (.bin .mod, [.int, .int]),
   (.bin .pow, [.float, .float]),
   (.bin .eq, [.float, .float]),
   (.bin .ne, [.float, .float]),
   (.bin .ge, [.float, .float]),
   (.bin .gt, [.float, .float]),
   (.bin .le, [.float, .float]),
   (.bin .lt, [.float, .float]),
   (.bin .eq, [.int, .int]),
   (.bin .ne, [.int, .int]),
   (.bin .ge, [.int, .int]),
   (.bin .gt, [.int, .int]),
   (.bin .le, [.int, .int]),
   (.bin .lt, [.int, .int]),
   (.bin .eq, [.bool, .bool]),
   (.bin .ne, [.bool, .bool]),
   (.bin .ge, [.bool, .bool]),
   (.bin .gt, [.bool, .bool]),
   (.bin .le, [.bool, .bool]),
   (.bin .lt, [.bool, .bool]),
   (.un .bnot, [.int]),
   (.bin .band, [.int, .int]),
   (.bin .bxor, [.int, .int]),
   (.bin .bor, [.int, .int]),
   (.bin .shl, [.int, .int]),
   (.bin .shr, [.int, .int]),
   (.un .lnot, [.bool]),
   (.bin .land, [.bool, .bool]),
   (.bin .lxor, [.bool, .bool]),
   (.bin .lor, [.bool, .bool]),
   (.cond, [.bool, .float, .float]),
   (.cond, [.bool, .int, .int]),
   (.cond, [.bool, .bool, .bool]),
   (.math .sqrt, [.float]),
   (.math .exp, [.float]),
   (.math .log, [.float]),
   (.math .sin, [.float]),
   (.math .cos, [.float]),
   (.math .tan, [.float]),
   (.math .sinh, [.float]),
   (.math .cosh, [.float]),
   (.math .tanh, [.float]),
   (.math .asin, [.float]),
   (.math .acos, [.float]),
   (.math .atan, [.float]),
   (.math .asinh, [.float]),
   (.math .acosh, [.float]),
   (.math .atanh, [.float]),
   (.abs, [.float]),
   (.abs, [.int])]

theorem regFns_eq (fo : FloatOps F) : (fnTable fo).map (fun p => (p.1, p.2.1)) = regFns := rfl

/-- All built-in functions. -/
def allFns : List Fn := [.un .neg, .bin .add, .bin .sub, .bin .mul, .bin .div, .bin .mod, .bin .pow, .bin .eq, .bin .ne, .bin .ge, .bin .gt, .bin .le, .bin .lt, .un .bnot, .bin .band, .bin .bxor, .bin .bor, .bin .shl, .bin .shr, .un .lnot, .bin .land, .bin .lxor, .bin .lor, .cond, .math .sqrt, .math .exp, .math .log, .math .sin, .math .cos, .math .tan, .math .sinh, .math .cosh, .math .tanh, .math .asin, .math .acos, .math .atan, .math .asinh, .math .acosh, .math .atanh, .abs]

theorem mem_allFns (fn : Fn) : fn ∈ allFns := by
  rcases fn with op | op | _ | f | _
  · cases op <;> decide
  · cases op <;> decide
  · decide
  · cases f <;> decide
  · decide

/-- `Widens` as a function. -/
def widensB (a b : Kind) : Bool :=
  a = b || (a = .bool && (b = .int || b = .float)) || (a = .int && b = .float)

theorem widensB_iff (a b : Kind) : widensB a b = true ↔ Widens a b := by
  cases a <;> cases b <;> simp [widensB] <;>
    first | exact .same _ | exact .boolInt | exact .boolFloat | exact .intFloat | (intro h; cases h)

/-- `Forall2 Widens` as a function. -/
def widensAll : List Kind → List Kind → Bool
  | [], [] => true
  | a :: as, b :: bs => widensB a b && widensAll as bs
  | _, _ => false

theorem widensAll_iff (as bs : List Kind) : widensAll as bs = true ↔ Forall2 Widens as bs := by
  induction as generalizing bs with
  | nil =>
    cases bs with
    | nil => simp [widensAll, Forall2.nil]
    | cons b bs => simp [widensAll]; intro h; cases h
  | cons a as ih =>
    cases bs with
    | nil => simp [widensAll]; intro h; cases h
    | cons b bs =>
      simp only [widensAll, Bool.and_eq_true, widensB_iff, ih]
      constructor
      · rintro ⟨h1, h2⟩; exact .cons h1 h2
      · intro h; cases h with | cons h1 h2 => exact ⟨h1, h2⟩

theorem widens_antisymm {a b : Kind} (h : Widens a b) (h' : Widens b a) : a = b := by
  cases h <;> cases h' <;> rfl

theorem widensAll_antisymm {as bs : List Kind} (h : Forall2 Widens as bs) (h' : Forall2 Widens bs as) : as = bs := by
  induction h with
  | nil => rfl
  | cons h1 _ ih => cases h' with | cons h2 h3 => rw [widens_antisymm h1 h2, ih h3]

theorem regFns_unique : ∀ p ∈ regFns, ∀ q ∈ regFns, p.1.name = q.1.name → p.2.length = q.2.length → p.1 = q.1 := by
  decide +kernel

theorem regFns_sig : ∀ p ∈ regFns, p.2 ∈ p.1.signatures := by decide +kernel

theorem sig_regFns (fn : Fn) : ∀ sig ∈ fn.signatures, (fn, sig) ∈ regFns := by
  have : ∀ fn ∈ allFns, ∀ sig ∈ fn.signatures, (fn, sig) ∈ regFns := by decide +kernel
  exact this fn (mem_allFns fn)

theorem regFns_kinds : ∀ p ∈ regFns, ∀ k ∈ p.2, k = .bool ∨ k = .int ∨ k = .float := by decide +kernel

theorem regFns_order : regFns.Pairwise fun p q => p.1 = q.1 → widensAll q.2 p.2 = true := by decide +kernel

theorem fits_consts {fo : FloatOps F} {vs ws : List (Value F)} {cs : List (Const F)} {ts : List Ty}
    (hv : vs.map (·.node) = cs.map Const.node) (h : Fits fo vs ts ws) :
    ∃ cs' : List (Const F), ws.map (·.node) = cs'.map Const.node ∧ cs'.map Const.kind = ts.map Ty.kind ∧
      Forall2 (fun a b => Converts fo a b.kind b) cs cs' := by
  induction h generalizing cs with
  | nil =>
    have : cs = [] := by simpa using hv.symm
    subst this
    exact ⟨[], rfl, rfl, .nil⟩
  | @cons v w t vs ts ws hp hf ih =>
    cases cs with
    | nil => simp at hv
    | cons c cs =>
      simp only [List.map_cons, List.cons.injEq] at hv
      obtain ⟨cs', h1, h2, h3⟩ := ih hv.2
      have : ∃ c', w.node = c'.node ∧ Converts fo c t.kind c' := by
        generalize t.kind = k at hp
        cases hp with
        | same h =>
          rw [hv.1, kindOf_node] at h
          cases Option.some.inj h
          exact ⟨c, hv.1, .same c⟩
        | @const d d' _ l hc =>
          cases node_inj hv.1
          exact ⟨d', rfl, hc⟩
        | boolVar => obtain ⟨h, _⟩ := hv; cases c <;> simp [Const.node] at h
      obtain ⟨c', e1, e2⟩ := this
      refine ⟨c' :: cs', by simp [e1, h1], by simp [converts_kind e2, h2], .cons ?_ h3⟩
      rw [converts_kind e2]; exact e2

theorem forall2_widens {fo : FloatOps F} {cs cs' : List (Const F)}
    (h : Forall2 (fun a b => Converts fo a b.kind b) cs cs') :
    Forall2 Widens (cs.map Const.kind) (cs'.map Const.kind) := by
  induction h with
  | nil => exact .nil
  | cons h1 _ ih => exact .cons (converts_widens h1) ih

theorem forall2_converts_det {fo : FloatOps F} {cs c1 c2 : List (Const F)}
    (h1 : Forall2 (fun a b => Converts fo a b.kind b) cs c1)
    (h2 : Forall2 (fun a b => Converts fo a b.kind b) cs c2) (h : c1.map Const.kind = c2.map Const.kind) : c1 = c2 := by
  induction h1 generalizing c2 with
  | nil => cases h2; rfl
  | cons ha _ ih =>
    cases h2 with
    | cons hb hc =>
      simp only [List.map_cons, List.cons.injEq] at h
      rw [h.1] at ha
      rw [converts_det ha hb, ih hc h.2]

theorem consts_fit (fo : FloatOps F) {vs : List (Value F)} {cs : List (Const F)} {sig : List Kind}
    (hv : vs.map (·.node) = cs.map Const.node) (h : Forall2 Widens (cs.map Const.kind) sig) :
    ∃ ws, Fits fo vs (sig.map Ty.bare) ws := by
  generalize hk : cs.map Const.kind = ks at h
  induction h generalizing vs cs with
  | nil =>
    have h1 : cs = [] := by simpa using hk
    subst h1
    have h2 : vs = [] := by simpa using hv
    subst h2
    exact ⟨[], .nil⟩
  | cons h1 _ ih =>
    cases cs with
    | nil => simp at hk
    | cons c cs =>
      cases vs with
      | nil => simp at hv
      | cons v vs =>
        simp only [List.map_cons, List.cons.injEq] at hv hk
        obtain ⟨ws, hw⟩ := ih hv.2 hk.2
        rw [← hk.1] at h1
        obtain ⟨c', hc'⟩ := widens_converts fo h1
        obtain ⟨n, l⟩ := v
        simp only at hv
        refine ⟨⟨c'.node, l⟩ :: ws, .cons ?_ hw⟩
        rw [hv.1]
        exact .const l hc'

theorem map_bare_kind (sig : List Kind) : (sig.map Ty.bare).map Ty.kind = sig := by
  rw [List.map_map]
  induction sig with
  | nil => rfl
  | cons k ks ih => simp [Ty.bare, ih] at *

theorem selects_det {fn : Fn} {ks s1 s2 : List Kind} (h1 : Selects fn ks s1) (h2 : Selects fn ks s2) : s1 = s2 :=
  widensAll_antisymm (h1.2.2 s2 h2.1 h2.2.1) (h2.2.2 s1 h1.1 h1.2.1)

theorem selects_length {fn : Fn} {ks s : List Kind} (h : Selects fn ks s) : s.length = ks.length := by
  have := h.2.1
  clear h
  induction this with
  | nil => rfl
  | cons _ _ ih => simp [ih]

theorem applies_det {fo : FloatOps F} {fn fn' : Fn} {cs : List (Const F)} {o o' : Option (Const F)}
    (h : Applies fo fn cs o) (h' : Applies fo fn' cs o') (hn : fn.name = fn'.name) : fn = fn' ∧ o = o' := by
  obtain ⟨s, a, h1, h2, h3, h4⟩ := h
  obtain ⟨s', a', h1', h2', h3', h4'⟩ := h'
  have hfn : fn = fn' := regFns_unique (fn, s) (sig_regFns fn s h1.1) (fn', s') (sig_regFns fn' s' h1'.1) hn
    (by show s.length = s'.length; rw [selects_length h1, selects_length h1'])
  subst hfn
  refine ⟨rfl, ?_⟩
  cases selects_det h1 h1'
  cases forall2_converts_det h3 h3' (h2.trans h2'.symm)
  rw [h4, h4']

/-- The error of a call that the default function table cannot resolve. -/
def CallMessage (fo : FloatOps F) (name : Str) (vs : List (Value F)) (e : Err) : Prop :=
  (∀ r ∈ fnRegs fo, r.1 ≠ name) ∧ e = ⟨c!"failed to resolve '" ++ name ++ c!"'", none⟩ ∨
  (∃ r ∈ fnRegs fo, r.1 = name) ∧ ∃ ts, Values.typesOf vs = .ok ts ∧
    e = ⟨c!"failed to resolve overload for '" ++ name ++ c!"' with argument pack (" ++ Types.printList ts ++ c!")", none⟩

/-- Calling a default function on constants. -/
theorem resolve_consts (fo : FloatOps F) (name : Str) (vs : List (Value F)) (cs : List (Const F))
    (hv : vs.map (·.node) = cs.map Const.node) :
    (∃ fn out, fn.name = name ∧ Applies fo fn cs out ∧
      FnTable.resolve fo (defaultFns fo) name vs = deliver out) ∨
    ((∀ fn out, fn.name = name → ¬ Applies fo fn cs out) ∧
      ∃ e : Err, e.location = none ∧ FnTable.resolve fo (defaultFns fo) name vs = .err e ∧ CallMessage fo name vs e) := by
  have hty : ∀ v ∈ vs, kindOf v.node ≠ none := by
    intro v hm
    have : v.node ∈ vs.map (·.node) := List.mem_map_of_mem hm
    rw [hv] at this
    obtain ⟨c, _, hc⟩ := List.mem_map.mp this
    rw [← hc, kindOf_node]; simp
  rcases resolve_spec fo (fnRegs fo) name vs hty with ⟨f, ws, h1, older, ps, newer, h2, h3, h4⟩ | ⟨h1, h2⟩
  · left
    unfold fnRegs at h2
    obtain ⟨t1, t2, e1, e2, e3⟩ := List.map_eq_append_iff.mp h2
    obtain ⟨p, t3, e4, e5, e6⟩ := List.map_eq_cons_iff.mp e3
    subst e4
    obtain ⟨fn, sig, f'⟩ := p
    simp only [Prod.mk.injEq] at e5
    obtain ⟨hn, rfl, rfl⟩ := e5
    obtain ⟨cs', g1, g2, g3⟩ := fits_consts hv h3
    rw [map_bare_kind] at g2
    have hmem : (fn, sig, f') ∈ fnTable fo := by rw [e1]; simp
    have hreg : regFns = t1.map (fun p => (p.1, p.2.1)) ++ (fn, sig) :: t3.map (fun p => (p.1, p.2.1)) := by
      rw [← regFns_eq fo, e1]; simp
    refine ⟨fn, fn.meaning fo cs', hn, ⟨sig, cs', ⟨?_, ?_, ?_⟩, g2, g3, rfl⟩, ?_⟩
    · exact regFns_sig (fn, sig) (by rw [hreg]; simp)
    · rw [← g2]; exact forall2_widens g3
    · intro sig' hs' hw'
      have hr := sig_regFns fn sig' hs'
      rw [hreg] at hr
      rcases List.mem_append.mp hr with hr | hr
      · have := regFns_order
        rw [hreg, List.pairwise_append] at this
        exact (widensAll_iff _ _).mp (this.2.2 _ hr (fn, sig) (by simp) rfl)
      · rcases List.mem_cons.mp hr with hr | hr
        · cases hr
          rw [← widensAll_iff]
          clear hw' hs' hreg hmem g2 h3 hn h2 e1 e3
          induction sig with
          | nil => rfl
          | cons k ks ih => simp [widensAll, widensB, ih]
        · obtain ⟨q, hq, hqe⟩ := List.mem_map.mp hr
          obtain ⟨fn'', sig'', f''⟩ := q
          simp only [Prod.mk.injEq] at hqe
          obtain ⟨rfl, rfl⟩ := hqe
          exfalso
          refine h4 (fn''.name, f'', sig''.map Ty.bare) ?_ hn (consts_fit fo hv hw')
          rw [← e6]
          exact List.mem_map.mpr ⟨_, hq, rfl⟩
    · rw [tableOf_fnRegs] at h1
      simp only [FnTable.resolve, h1, Res.bind_ok]
      exact fnTable_ok fo (fn, sig, f') hmem cs' g2 ws g1
  · right
    refine ⟨?_, ?_⟩
    · rintro fn out hn ⟨sig, cs', hs, g2, g3, _⟩
      have hr := sig_regFns fn sig hs.1
      rw [← regFns_eq fo] at hr
      obtain ⟨q, hq, hqe⟩ := List.mem_map.mp hr
      obtain ⟨fn'', sig'', f''⟩ := q
      simp only [Prod.mk.injEq] at hqe
      obtain ⟨rfl, rfl⟩ := hqe
      exact h1 (fn''.name, f'', sig''.map Ty.bare) (List.mem_map.mpr ⟨_, hq, rfl⟩) hn (consts_fit fo hv hs.2.1)
    · rw [tableOf_fnRegs] at h2
      rcases h2 with ⟨h3, h2⟩ | ⟨h3, ts, h4, h2⟩
      · exact ⟨_, rfl, by simp only [FnTable.resolve, h2]; rfl, .inl ⟨h3, rfl⟩⟩
      · exact ⟨_, rfl, by simp only [FnTable.resolve, h2]; rfl, .inr ⟨h3, ts, h4, rfl⟩⟩

/-- Kinds of references that the language can declare. -/
def RegisterKind (k : Kind) : Prop := k = .qubit ∨ k = .bit ∨ k = .qubitArray ∨ k = .bitArray

theorem promotesTo_register {fo : FloatOps F} {v w : Value F} {k k' : Kind} (h : kindOf v.node = some k)
    (hk : RegisterKind k) (hp : PromotesTo fo v k' w) : k' = k ∧ w = v := by
  cases hp with
  | same h1 => rw [h] at h1; exact ⟨(Option.some.inj h1).symm, rfl⟩
  | @const c c' _ l hc =>
    rw [kindOf_node] at h
    have h := Option.some.inj h
    subst h
    cases c <;> rcases hk with h | h | h | h <;> cases h
  | boolVar l hx =>
    simp [kindOf, hx] at h
    subst h
    rcases hk with h | h | h | h <;> cases h

/-- Calling a default function with a register reference among the arguments. -/
theorem resolve_register (fo : FloatOps F) (name : Str) (vs : List (Value F))
    (hty : ∀ v ∈ vs, kindOf v.node ≠ none) (v : Value F) (hv : v ∈ vs) (k : Kind) (hk : kindOf v.node = some k)
    (hr : RegisterKind k) :
    ∃ e : Err, e.location = none ∧ FnTable.resolve fo (defaultFns fo) name vs = .err e ∧ CallMessage fo name vs e := by
  rcases resolve_spec fo (fnRegs fo) name vs hty with ⟨f, ws, h1, older, ps, newer, h2, h3, h4⟩ | ⟨h1, h2⟩
  · exfalso
    have hmem : (name, f, ps) ∈ fnRegs fo := by rw [h2]; simp
    obtain ⟨⟨fn, sig, f'⟩, hq, hqe⟩ := List.mem_map.mp hmem
    simp only [Prod.mk.injEq] at hqe
    obtain ⟨_, _, rfl⟩ := hqe
    have hkinds := regFns_kinds (fn, sig) (by rw [← regFns_eq fo]; exact List.mem_map.mpr ⟨_, hq, rfl⟩)
    clear h1 h2 h4 hmem hq
    simp only at hkinds
    generalize hts : sig.map Ty.bare = ts at h3
    induction h3 generalizing sig with
    | nil => simp at hv
    | @cons v' w t vs ts ws hp hf ih =>
      cases sig with
      | nil => simp at hts
      | cons s sig =>
        simp only [List.map_cons, List.cons.injEq] at hts
        rcases List.mem_cons.mp hv with rfl | hv
        · have := (promotesTo_register hk hr hp).1
          rw [← hts.1] at this
          have hs := hkinds s (by simp)
          simp only [Ty.bare] at this
          subst this
          rcases hr with h | h | h | h <;> rw [h] at hs <;> simp at hs
        · exact ih (fun x hx => hty x (by simp [hx])) hv sig (fun k hk => hkinds k (by simp [hk])) hts.2
  · rw [tableOf_fnRegs] at h2
    rcases h2 with ⟨h3, h2⟩ | ⟨h3, ts, h4, h2⟩
    · exact ⟨_, rfl, by simp only [FnTable.resolve, h2]; rfl, .inl ⟨h3, rfl⟩⟩
    · exact ⟨_, rfl, by simp only [FnTable.resolve, h2]; rfl, .inr ⟨h3, ts, h4, rfl⟩⟩

end Qasm
