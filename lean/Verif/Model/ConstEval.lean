import Verif.Model.Overload
/-!
# Compile-time functions: `register_consteval_core_functions.{hpp,cpp}`

The integer functions work on `std::int64_t`. Where the C++ operation has undefined behaviour on the
given arguments (overflow, division by zero, bad shift amount) the outcome is `Res.ub`.
-/

namespace Qasm.ConstEval

variable {F α β γ : Type}

/-- `value->as_const_bool()->value`. -/
def asBool : ValueNode F → Option Bool
  | .constBool b => some b
  | _ => none

/-- `value->as_const_int()->value`. -/
def asInt : ValueNode F → Option Int64
  | .constInt i => some i
  | _ => none

/-- `value->as_const_float()->value`. -/
def asFloat : ValueNode F → Option F
  | .constFloat f => some f
  | _ => none

/-- Access through the result of a failed `as<...>()` (a null pointer) is undefined. -/
def get (p : ValueNode F → Option α) (v : Value F) : Res Err α :=
  match p v.node with
  | some a => .ok a
  | none => .ub

/-- `vs[i]`: out of range access is undefined. -/
def nth (vs : List (Value F)) (i : Nat) : Res Err (Value F) :=
  match vs[i]? with
  | some v => .ok v
  | none => .ub

/-- `uf_cp<ReturnValue, ParamValue, F>::operator()`, register_consteval_core_functions.hpp:39-46. -/
def ufCp (inj : β → ValueNode F) (p : ValueNode F → Option α) (f : α → Res Err β) : CoreFn F := fun vs =>
  (Values.checkConstAll vs).bind fun _ =>
  (nth vs 0).bind fun v0 => (get p v0).bind fun a =>
  (f a).bind fun r => .ok (some ⟨inj r, none⟩)

/-- `bf_cp<ReturnValue, ParamValue, F>::operator()`, register_consteval_core_functions.hpp:51-59. -/
def bfCp (inj : β → ValueNode F) (p : ValueNode F → Option α) (f : α → α → Res Err β) : CoreFn F := fun vs =>
  (Values.checkConstAll vs).bind fun _ =>
  (nth vs 0).bind fun v0 => (get p v0).bind fun a =>
  (nth vs 1).bind fun v1 => (get p v1).bind fun b =>
  (f a b).bind fun r => .ok (some ⟨inj r, none⟩)

/-- `tcnd`, register_consteval_core_functions.hpp:129. -/
def tcnd (c : Bool) (a b : α) : α := if c then a else b

/-- `tf_cp<ParamValue, tcnd>::operator()`, register_consteval_core_functions.hpp:64-73, 129-132. -/
def tfCp (inj : α → ValueNode F) (p : ValueNode F → Option α) : CoreFn F := fun vs =>
  (Values.checkConstAll vs).bind fun _ =>
  (nth vs 0).bind fun v0 => (get asBool v0).bind fun c =>
  (nth vs 1).bind fun v1 => (get p v1).bind fun a =>
  (nth vs 2).bind fun v2 => (get p v2).bind fun b =>
  .ok (some ⟨inj (tcnd c a b), none⟩)

/-- Signed 64-bit result of an arithmetic operation: overflow is undefined. -/
def checked (z : Int) : Res Err Int64 :=
  if Int64.minValue.toInt ≤ z ∧ z ≤ Int64.maxValue.toInt then .ok (Int64.ofInt z) else .ub

/-- `std::negate{}` on int64, register_consteval_core_functions.hpp:76. -/
def negI (a : Int64) : Res Err Int64 := checked (-a.toInt)
/-- `std::plus{}` on int64, register_consteval_core_functions.hpp:79. -/
def addI (a b : Int64) : Res Err Int64 := checked (a.toInt + b.toInt)
/-- `std::minus{}` on int64, register_consteval_core_functions.hpp:81. -/
def subI (a b : Int64) : Res Err Int64 := checked (a.toInt - b.toInt)
/-- `std::multiplies{}` on int64, register_consteval_core_functions.hpp:84. -/
def mulI (a b : Int64) : Res Err Int64 := checked (a.toInt * b.toInt)
/-- `std::divides{}` on int64, register_consteval_core_functions.hpp:86: truncates; division by zero
and `INT64_MIN / -1` are undefined. -/
def divI (a b : Int64) : Res Err Int64 :=
  if b.toInt = 0 then .ub else checked (Int.tdiv a.toInt b.toInt)
/-- `std::modulus{}` on int64, register_consteval_core_functions.hpp:87: undefined whenever the
quotient is. -/
def modI (a b : Int64) : Res Err Int64 :=
  if b.toInt = 0 then .ub
  else (checked (Int.tdiv a.toInt b.toInt)).bind fun _ => checked (Int.tmod a.toInt b.toInt)
/-- `std::abs` on int64, register_consteval_core_functions.hpp:164,166. -/
def absI (a : Int64) : Res Err Int64 := if a.toInt < 0 then checked (-a.toInt) else .ok a
/-- `shl`, register_consteval_core_functions.hpp:118: shift amounts outside 0..63 are undefined. -/
def shlI (a b : Int64) : Res Err Int64 :=
  if b.toInt < 0 ∨ b.toInt ≥ 64 then .ub else .ok (a <<< b)
/-- `shr`, register_consteval_core_functions.hpp:120. -/
def shrI (a b : Int64) : Res Err Int64 :=
  if b.toInt < 0 ∨ b.toInt ≥ 64 then .ub else .ok (a >>> b)

/-- `op_neg_f`, register_consteval_core_functions.hpp:75. -/
def op_neg_f (fo : FloatOps F) : CoreFn F := ufCp .constFloat asFloat fun a => .ok (fo.neg a)
/-- `op_neg_i`, register_consteval_core_functions.hpp:76. -/
def op_neg_i : CoreFn F := ufCp .constInt asInt negI
/-- `op_add_ff`, register_consteval_core_functions.hpp:78. -/
def op_add_ff (fo : FloatOps F) : CoreFn F := bfCp .constFloat asFloat fun a b => .ok (fo.add a b)
/-- `op_sub_ff`, register_consteval_core_functions.hpp:80. -/
def op_sub_ff (fo : FloatOps F) : CoreFn F := bfCp .constFloat asFloat fun a b => .ok (fo.sub a b)
/-- `op_mul_ff`, register_consteval_core_functions.hpp:83. -/
def op_mul_ff (fo : FloatOps F) : CoreFn F := bfCp .constFloat asFloat fun a b => .ok (fo.mul a b)
/-- `op_div_ff`, register_consteval_core_functions.hpp:85. -/
def op_div_ff (fo : FloatOps F) : CoreFn F := bfCp .constFloat asFloat fun a b => .ok (fo.div a b)
/-- `op_pow_ff`, register_consteval_core_functions.hpp:90. -/
def op_pow_ff (fo : FloatOps F) : CoreFn F := bfCp .constFloat asFloat fun a b => .ok (fo.pow a b)
/-- `op_add_ii`, register_consteval_core_functions.hpp:79. -/
def op_add_ii : CoreFn F := bfCp .constInt asInt addI
/-- `op_sub_ii`, register_consteval_core_functions.hpp:81. -/
def op_sub_ii : CoreFn F := bfCp .constInt asInt subI
/-- `op_mul_ii`, register_consteval_core_functions.hpp:84. -/
def op_mul_ii : CoreFn F := bfCp .constInt asInt mulI
/-- `op_div_ii`, register_consteval_core_functions.hpp:86. -/
def op_div_ii : CoreFn F := bfCp .constInt asInt divI
/-- `op_mod_ii`, register_consteval_core_functions.hpp:87. -/
def op_mod_ii : CoreFn F := bfCp .constInt asInt modI
/-- `op_shl_ii`, register_consteval_core_functions.hpp:119. -/
def op_shl_ii : CoreFn F := bfCp .constInt asInt shlI
/-- `op_shr_ii`, register_consteval_core_functions.hpp:121. -/
def op_shr_ii : CoreFn F := bfCp .constInt asInt shrI
/-- `op_eq_ff`, register_consteval_core_functions.hpp:92. -/
def op_eq_ff (fo : FloatOps F) : CoreFn F := bfCp .constBool asFloat fun a b => .ok (fo.eq a b)
/-- `op_ne_ff`, register_consteval_core_functions.hpp:93. -/
def op_ne_ff (fo : FloatOps F) : CoreFn F := bfCp .constBool asFloat fun a b => .ok (fo.ne a b)
/-- `op_ge_ff`, register_consteval_core_functions.hpp:94. -/
def op_ge_ff (fo : FloatOps F) : CoreFn F := bfCp .constBool asFloat fun a b => .ok (fo.ge a b)
/-- `op_gt_ff`, register_consteval_core_functions.hpp:95. -/
def op_gt_ff (fo : FloatOps F) : CoreFn F := bfCp .constBool asFloat fun a b => .ok (fo.gt a b)
/-- `op_le_ff`, register_consteval_core_functions.hpp:96. -/
def op_le_ff (fo : FloatOps F) : CoreFn F := bfCp .constBool asFloat fun a b => .ok (fo.le a b)
/-- `op_lt_ff`, register_consteval_core_functions.hpp:97. -/
def op_lt_ff (fo : FloatOps F) : CoreFn F := bfCp .constBool asFloat fun a b => .ok (fo.lt a b)
/-- `op_eq_ii`, register_consteval_core_functions.hpp:99. -/
def op_eq_ii : CoreFn F := bfCp .constBool asInt fun a b => .ok (decide (a = b))
/-- `op_ne_ii`, register_consteval_core_functions.hpp:100. -/
def op_ne_ii : CoreFn F := bfCp .constBool asInt fun a b => .ok (decide (a ≠ b))
/-- `op_ge_ii`, register_consteval_core_functions.hpp:101. -/
def op_ge_ii : CoreFn F := bfCp .constBool asInt fun a b => .ok (decide (a ≥ b))
/-- `op_gt_ii`, register_consteval_core_functions.hpp:102. -/
def op_gt_ii : CoreFn F := bfCp .constBool asInt fun a b => .ok (decide (a > b))
/-- `op_le_ii`, register_consteval_core_functions.hpp:103. -/
def op_le_ii : CoreFn F := bfCp .constBool asInt fun a b => .ok (decide (a ≤ b))
/-- `op_lt_ii`, register_consteval_core_functions.hpp:104. -/
def op_lt_ii : CoreFn F := bfCp .constBool asInt fun a b => .ok (decide (a < b))
/-- `op_eq_bb`, register_consteval_core_functions.hpp:106 (`false < true`). -/
def op_eq_bb : CoreFn F := bfCp .constBool asBool fun a b => .ok (a == b)
/-- `op_ne_bb`, register_consteval_core_functions.hpp:107 (`false < true`). -/
def op_ne_bb : CoreFn F := bfCp .constBool asBool fun a b => .ok (a != b)
/-- `op_ge_bb`, register_consteval_core_functions.hpp:108 (`false < true`). -/
def op_ge_bb : CoreFn F := bfCp .constBool asBool fun a b => .ok (a || !b)
/-- `op_gt_bb`, register_consteval_core_functions.hpp:109 (`false < true`). -/
def op_gt_bb : CoreFn F := bfCp .constBool asBool fun a b => .ok (a && !b)
/-- `op_le_bb`, register_consteval_core_functions.hpp:110 (`false < true`). -/
def op_le_bb : CoreFn F := bfCp .constBool asBool fun a b => .ok (!a || b)
/-- `op_lt_bb`, register_consteval_core_functions.hpp:111 (`false < true`). -/
def op_lt_bb : CoreFn F := bfCp .constBool asBool fun a b => .ok (!a && b)
/-- `op_binv_i`, register_consteval_core_functions.hpp:113. -/
def op_binv_i : CoreFn F := ufCp .constInt asInt fun a => .ok (~~~a)
/-- `op_band_ii`, register_consteval_core_functions.hpp:114. -/
def op_band_ii : CoreFn F := bfCp .constInt asInt fun a b => .ok (a &&& b)
/-- `op_bxor_ii`, register_consteval_core_functions.hpp:115. -/
def op_bxor_ii : CoreFn F := bfCp .constInt asInt fun a b => .ok (a ^^^ b)
/-- `op_bor_ii`, register_consteval_core_functions.hpp:116. -/
def op_bor_ii : CoreFn F := bfCp .constInt asInt fun a b => .ok (a ||| b)
/-- `op_linv_b`, register_consteval_core_functions.hpp:123. -/
def op_linv_b : CoreFn F := ufCp .constBool asBool fun a => .ok (!a)
/-- `op_land_bb`, register_consteval_core_functions.hpp:124. -/
def op_land_bb : CoreFn F := bfCp .constBool asBool fun a b => .ok (a && b)
/-- `op_lxor_bb`, register_consteval_core_functions.hpp:125-126 (`!lhs ^ !rhs`). -/
def op_lxor_bb : CoreFn F := bfCp .constBool asBool fun a b => .ok (Bool.xor (!a) (!b))
/-- `op_lor_bb`, register_consteval_core_functions.hpp:127. -/
def op_lor_bb : CoreFn F := bfCp .constBool asBool fun a b => .ok (a || b)
/-- `op_tcnd_bff`, register_consteval_core_functions.hpp:130. -/
def op_tcnd_bff : CoreFn F := tfCp .constFloat asFloat
/-- `op_tcnd_bii`, register_consteval_core_functions.hpp:131. -/
def op_tcnd_bii : CoreFn F := tfCp .constInt asInt
/-- `op_tcnd_bbb`, register_consteval_core_functions.hpp:132. -/
def op_tcnd_bbb : CoreFn F := tfCp .constBool asBool
/-- `fn_sqrt_f`, register_consteval_core_functions.hpp:135. -/
def fn_sqrt_f (fo : FloatOps F) : CoreFn F := ufCp .constFloat asFloat fun a => .ok (fo.sqrt a)
/-- `fn_exp_f`, register_consteval_core_functions.hpp:137. -/
def fn_exp_f (fo : FloatOps F) : CoreFn F := ufCp .constFloat asFloat fun a => .ok (fo.exp a)
/-- `fn_log_f`, register_consteval_core_functions.hpp:139. -/
def fn_log_f (fo : FloatOps F) : CoreFn F := ufCp .constFloat asFloat fun a => .ok (fo.log a)
/-- `fn_sin_f`, register_consteval_core_functions.hpp:141. -/
def fn_sin_f (fo : FloatOps F) : CoreFn F := ufCp .constFloat asFloat fun a => .ok (fo.sin a)
/-- `fn_cos_f`, register_consteval_core_functions.hpp:143. -/
def fn_cos_f (fo : FloatOps F) : CoreFn F := ufCp .constFloat asFloat fun a => .ok (fo.cos a)
/-- `fn_tan_f`, register_consteval_core_functions.hpp:145. -/
def fn_tan_f (fo : FloatOps F) : CoreFn F := ufCp .constFloat asFloat fun a => .ok (fo.tan a)
/-- `fn_sinh_f`, register_consteval_core_functions.hpp:147. -/
def fn_sinh_f (fo : FloatOps F) : CoreFn F := ufCp .constFloat asFloat fun a => .ok (fo.sinh a)
/-- `fn_cosh_f`, register_consteval_core_functions.hpp:149. -/
def fn_cosh_f (fo : FloatOps F) : CoreFn F := ufCp .constFloat asFloat fun a => .ok (fo.cosh a)
/-- `fn_tanh_f`, register_consteval_core_functions.hpp:151. -/
def fn_tanh_f (fo : FloatOps F) : CoreFn F := ufCp .constFloat asFloat fun a => .ok (fo.tanh a)
/-- `fn_asin_f`, register_consteval_core_functions.hpp:153. -/
def fn_asin_f (fo : FloatOps F) : CoreFn F := ufCp .constFloat asFloat fun a => .ok (fo.asin a)
/-- `fn_acos_f`, register_consteval_core_functions.hpp:155. -/
def fn_acos_f (fo : FloatOps F) : CoreFn F := ufCp .constFloat asFloat fun a => .ok (fo.acos a)
/-- `fn_atan_f`, register_consteval_core_functions.hpp:157. -/
def fn_atan_f (fo : FloatOps F) : CoreFn F := ufCp .constFloat asFloat fun a => .ok (fo.atan a)
/-- `fn_asinh_f`, register_consteval_core_functions.hpp:159. -/
def fn_asinh_f (fo : FloatOps F) : CoreFn F := ufCp .constFloat asFloat fun a => .ok (fo.asinh a)
/-- `fn_acosh_f`, register_consteval_core_functions.hpp:161. -/
def fn_acosh_f (fo : FloatOps F) : CoreFn F := ufCp .constFloat asFloat fun a => .ok (fo.acosh a)
/-- `fn_atanh_f`, register_consteval_core_functions.hpp:163. -/
def fn_atanh_f (fo : FloatOps F) : CoreFn F := ufCp .constFloat asFloat fun a => .ok (fo.atanh a)
/-- `fn_abs_f`, register_consteval_core_functions.hpp:165. -/
def fn_abs_f (fo : FloatOps F) : CoreFn F := ufCp .constFloat asFloat fun a => .ok (fo.abs a)
/-- `fn_abs_i`, register_consteval_core_functions.hpp:166. -/
def fn_abs_i : CoreFn F := ufCp .constInt asInt absI

/-- The registrations of `register_consteval_core_functions`, register_consteval_core_functions.cpp:15-85,
in order: name, parameter type specification, function. -/
def registrations (fo : FloatOps F) : List (Str × Str × CoreFn F) :=
  [
    (c!"operator-", c!"f", op_neg_f fo),
    (c!"operator-", c!"i", op_neg_i),
    (c!"operator+", c!"ff", op_add_ff fo),
    (c!"operator+", c!"ii", op_add_ii),
    (c!"operator-", c!"ff", op_sub_ff fo),
    (c!"operator-", c!"ii", op_sub_ii),
    (c!"operator*", c!"ff", op_mul_ff fo),
    (c!"operator*", c!"ii", op_mul_ii),
    (c!"operator/", c!"ff", op_div_ff fo),
    (c!"operator/", c!"ii", op_div_ii),
    (c!"operator%", c!"ii", op_mod_ii),
    (c!"operator**", c!"ff", op_pow_ff fo),
    (c!"operator==", c!"ff", op_eq_ff fo),
    (c!"operator!=", c!"ff", op_ne_ff fo),
    (c!"operator>=", c!"ff", op_ge_ff fo),
    (c!"operator>", c!"ff", op_gt_ff fo),
    (c!"operator<=", c!"ff", op_le_ff fo),
    (c!"operator<", c!"ff", op_lt_ff fo),
    (c!"operator==", c!"ii", op_eq_ii),
    (c!"operator!=", c!"ii", op_ne_ii),
    (c!"operator>=", c!"ii", op_ge_ii),
    (c!"operator>", c!"ii", op_gt_ii),
    (c!"operator<=", c!"ii", op_le_ii),
    (c!"operator<", c!"ii", op_lt_ii),
    (c!"operator==", c!"bb", op_eq_bb),
    (c!"operator!=", c!"bb", op_ne_bb),
    (c!"operator>=", c!"bb", op_ge_bb),
    (c!"operator>", c!"bb", op_gt_bb),
    (c!"operator<=", c!"bb", op_le_bb),
    (c!"operator<", c!"bb", op_lt_bb),
    (c!"operator~", c!"i", op_binv_i),
    (c!"operator&", c!"ii", op_band_ii),
    (c!"operator^", c!"ii", op_bxor_ii),
    (c!"operator|", c!"ii", op_bor_ii),
    (c!"operator<<", c!"ii", op_shl_ii),
    (c!"operator>>", c!"ii", op_shr_ii),
    (c!"operator!", c!"b", op_linv_b),
    (c!"operator&&", c!"bb", op_land_bb),
    (c!"operator^^", c!"bb", op_lxor_bb),
    (c!"operator||", c!"bb", op_lor_bb),
    (c!"operator?:", c!"bff", op_tcnd_bff),
    (c!"operator?:", c!"bii", op_tcnd_bii),
    (c!"operator?:", c!"bbb", op_tcnd_bbb),
    (c!"sqrt", c!"f", fn_sqrt_f fo),
    (c!"exp", c!"f", fn_exp_f fo),
    (c!"log", c!"f", fn_log_f fo),
    (c!"sin", c!"f", fn_sin_f fo),
    (c!"cos", c!"f", fn_cos_f fo),
    (c!"tan", c!"f", fn_tan_f fo),
    (c!"sinh", c!"f", fn_sinh_f fo),
    (c!"cosh", c!"f", fn_cosh_f fo),
    (c!"tanh", c!"f", fn_tanh_f fo),
    (c!"asin", c!"f", fn_asin_f fo),
    (c!"acos", c!"f", fn_acos_f fo),
    (c!"atan", c!"f", fn_atan_f fo),
    (c!"asinh", c!"f", fn_asinh_f fo),
    (c!"acosh", c!"f", fn_acosh_f fo),
    (c!"atanh", c!"f", fn_atanh_f fo),
    (c!"abs", c!"f", fn_abs_f fo),
    (c!"abs", c!"i", fn_abs_i)]

end Qasm.ConstEval
