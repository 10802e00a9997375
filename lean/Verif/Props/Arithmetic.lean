import Verif.Lemmas.Value
/-!
# Properties of operators on constants (C20, C22, C23)

All are about `visitExpression fo a.scopes e`, the value the analyser `a` gives to the expression `e`, for
every analyser reached by constructing a default analyser and analysing programs, and all operand
expressions whatsoever: `h₁` and `h₂` only say which values these have.
-/

namespace Qasm

open Spec Sem

attribute [local irreducible] defaultInstrs defaultFns defaultVars

variable {F : Type} {fo : FloatOps F} {a : Analyzer F} {e₁ e₂ : Expr F} {x y : Int64} {l₁ l₂ : Option Loc}

private theorem ints (ha : Reached fo a) (h₁ : visitExpression fo a.scopes e₁ = .ok ⟨.constInt x, l₁⟩)
    (h₂ : visitExpression fo a.scopes e₂ = .ok ⟨.constInt y, l₂⟩) (op : BinOp) (hop : [.int, .int] ∈ (Fn.bin op).signatures)
    (l : Option Loc) : visitExpression fo a.scopes (.bin l op e₁ e₂) = give l (intBin op x y) := by
  obtain ⟨D, henv⟩ := reached_env ha
  exact bin_value henv (c := .int x) (d := .int y) h₁ h₂ (applies_self fo hop)

private theorem fit_some {z : Int} (h : -2 ^ 63 ≤ z ∧ z < 2 ^ 63) : ∃ i : Int64, i.toInt = z ∧ fit z = some i := by
  refine ⟨Int64.ofInt z, Int64.toInt_ofInt_of_le h.1 h.2, ?_⟩
  rw [fit, if_pos h]

private theorem give_fit (l : Option Loc) (z : Int) :
    (-2 ^ 63 ≤ z ∧ z < 2 ^ 63 ∧ ∃ i : Int64, i.toInt = z ∧ give (F := F) l ((fit z).map .int) = .ok ⟨.constInt i, l⟩) ∨
    (¬(-2 ^ 63 ≤ z ∧ z < 2 ^ 63) ∧ give (F := F) l ((fit z).map .int) = .ub) := by
  by_cases h : -2 ^ 63 ≤ z ∧ z < 2 ^ 63
  · obtain ⟨i, h1, h2⟩ := fit_some h
    exact .inl ⟨h.1, h.2, i, h1, by rw [h2]; rfl⟩
  · exact .inr ⟨h, by rw [fit, if_neg h]; rfl⟩

/-- C20. The sum of two ints is exact if it fits, and otherwise undefined. -/
theorem C20_add (ha : Reached fo a) (h₁ : visitExpression fo a.scopes e₁ = .ok ⟨.constInt x, l₁⟩)
    (h₂ : visitExpression fo a.scopes e₂ = .ok ⟨.constInt y, l₂⟩) (l : Option Loc) :
    (-2 ^ 63 ≤ x.toInt + y.toInt ∧ x.toInt + y.toInt < 2 ^ 63 ∧
      ∃ z : Int64, z.toInt = x.toInt + y.toInt ∧ visitExpression fo a.scopes (.bin l .add e₁ e₂) = .ok ⟨.constInt z, l⟩) ∨
    (¬(-2 ^ 63 ≤ x.toInt + y.toInt ∧ x.toInt + y.toInt < 2 ^ 63) ∧ visitExpression fo a.scopes (.bin l .add e₁ e₂) = .ub) := by
  rw [ints ha h₁ h₂ .add (by decide)]
  exact give_fit l _

/-- C20. The difference of two ints is exact if it fits, and otherwise undefined. -/
theorem C20_sub (ha : Reached fo a) (h₁ : visitExpression fo a.scopes e₁ = .ok ⟨.constInt x, l₁⟩)
    (h₂ : visitExpression fo a.scopes e₂ = .ok ⟨.constInt y, l₂⟩) (l : Option Loc) :
    (-2 ^ 63 ≤ x.toInt - y.toInt ∧ x.toInt - y.toInt < 2 ^ 63 ∧
      ∃ z : Int64, z.toInt = x.toInt - y.toInt ∧ visitExpression fo a.scopes (.bin l .sub e₁ e₂) = .ok ⟨.constInt z, l⟩) ∨
    (¬(-2 ^ 63 ≤ x.toInt - y.toInt ∧ x.toInt - y.toInt < 2 ^ 63) ∧ visitExpression fo a.scopes (.bin l .sub e₁ e₂) = .ub) := by
  rw [ints ha h₁ h₂ .sub (by decide)]
  exact give_fit l _

/-- C20. The product of two ints is exact if it fits, and otherwise undefined. -/
theorem C20_mul (ha : Reached fo a) (h₁ : visitExpression fo a.scopes e₁ = .ok ⟨.constInt x, l₁⟩)
    (h₂ : visitExpression fo a.scopes e₂ = .ok ⟨.constInt y, l₂⟩) (l : Option Loc) :
    (-2 ^ 63 ≤ x.toInt * y.toInt ∧ x.toInt * y.toInt < 2 ^ 63 ∧
      ∃ z : Int64, z.toInt = x.toInt * y.toInt ∧ visitExpression fo a.scopes (.bin l .mul e₁ e₂) = .ok ⟨.constInt z, l⟩) ∨
    (¬(-2 ^ 63 ≤ x.toInt * y.toInt ∧ x.toInt * y.toInt < 2 ^ 63) ∧ visitExpression fo a.scopes (.bin l .mul e₁ e₂) = .ub) := by
  rw [ints ha h₁ h₂ .mul (by decide)]
  exact give_fit l _

/-- C20. Unary minus is exact, except for the smallest int, where it is undefined. -/
theorem C20_neg (ha : Reached fo a) (h₁ : visitExpression fo a.scopes e₁ = .ok ⟨.constInt x, l₁⟩) (l : Option Loc) :
    (x.toInt ≠ -2 ^ 63 ∧
      ∃ z : Int64, z.toInt = -x.toInt ∧ visitExpression fo a.scopes (.un l .neg e₁) = .ok ⟨.constInt z, l⟩) ∨
    (x.toInt = -2 ^ 63 ∧ visitExpression fo a.scopes (.un l .neg e₁) = .ub) := by
  obtain ⟨D, henv⟩ := reached_env ha
  rw [un_value henv (c := .int x) h₁ (applies_self fo (show [Kind.int] ∈ (Fn.un .neg).signatures by decide))]
  have h1 := x.toInt_lt
  have h2 := x.le_toInt
  rcases give_fit (F := F) l (-x.toInt) with ⟨_, _, h⟩ | ⟨h, g⟩
  · exact .inl ⟨by omega, h⟩
  · exact .inr ⟨by omega, g⟩

/-- C20. `abs` of an int is exact, except for the smallest int, where it is undefined. -/
theorem C20_abs (ha : Reached fo a) (h₁ : visitExpression fo a.scopes e₁ = .ok ⟨.constInt x, l₁⟩) (l : Option Loc) :
    (x.toInt ≠ -2 ^ 63 ∧
      ∃ z : Int64, z.toInt = x.toInt.natAbs ∧ visitExpression fo a.scopes (.call l c!"abs" [e₁]) = .ok ⟨.constInt z, l⟩) ∨
    (x.toInt = -2 ^ 63 ∧ visitExpression fo a.scopes (.call l c!"abs" [e₁]) = .ub) := by
  obtain ⟨D, henv⟩ := reached_env ha
  have hl : visitList fo a.scopes [e₁] = .ok [⟨.constInt x, l₁⟩] := by
    unfold visitExpression at h₁
    simp [visitList, h₁]
  rw [show c!"abs" = Fn.abs.name from rfl, call_value henv (cs := [.int x]) hl rfl
    (applies_self fo (show [Kind.int] ∈ Fn.abs.signatures by decide))]
  have h1 := x.toInt_lt
  have h2 := x.le_toInt
  rcases give_fit (F := F) l x.toInt.natAbs with ⟨_, _, h⟩ | ⟨h, g⟩
  · exact .inl ⟨by omega, h⟩
  · exact .inr ⟨by omega, g⟩

/-- C20. Quotient `q` and remainder `m` of two ints satisfy `q * y + m = x`, the remainder is smaller than the
divisor and has the sign of the dividend (these determine both). Division by zero and of the smallest int by -1 is
undefined, and so is the remainder. -/
theorem C20_div_mod (ha : Reached fo a) (h₁ : visitExpression fo a.scopes e₁ = .ok ⟨.constInt x, l₁⟩)
    (h₂ : visitExpression fo a.scopes e₂ = .ok ⟨.constInt y, l₂⟩) (l : Option Loc) :
    (y.toInt ≠ 0 ∧ ¬(x.toInt = -2 ^ 63 ∧ y.toInt = -1) ∧ ∃ q m : Int64,
      visitExpression fo a.scopes (.bin l .div e₁ e₂) = .ok ⟨.constInt q, l⟩ ∧
      visitExpression fo a.scopes (.bin l .mod e₁ e₂) = .ok ⟨.constInt m, l⟩ ∧
      q.toInt * y.toInt + m.toInt = x.toInt ∧ m.toInt.natAbs < y.toInt.natAbs ∧
      (0 ≤ x.toInt → 0 ≤ m.toInt) ∧ (x.toInt ≤ 0 → m.toInt ≤ 0)) ∨
    ((y.toInt = 0 ∨ x.toInt = -2 ^ 63 ∧ y.toInt = -1) ∧
      visitExpression fo a.scopes (.bin l .div e₁ e₂) = .ub ∧ visitExpression fo a.scopes (.bin l .mod e₁ e₂) = .ub) := by
  rw [ints ha h₁ h₂ .div (by decide), ints ha h₁ h₂ .mod (by decide)]
  have hx1 := x.toInt_lt
  have hx2 := x.le_toInt
  have hy1 := y.toInt_lt
  have hy2 := y.le_toInt
  simp only [intBin]
  by_cases h0 : y = 0
  · right
    exact ⟨.inl (by rw [h0]; rfl), by rw [if_pos h0]; rfl, by rw [if_pos (.inl h0)]; rfl⟩
  have hy0 : y.toInt ≠ 0 := fun h => h0 ((toInt_zero_iff y).mp h)
  by_cases hov : x.toInt = -2 ^ 63 ∧ y.toInt = -1
  · right
    have : fit (x.toInt.tdiv y.toInt) = none := by rw [hov.1, hov.2]; decide
    exact ⟨.inr hov, by rw [if_neg h0, this]; rfl, by rw [if_pos (.inr this)]; rfl⟩
  · left
    have hq : -2 ^ 63 ≤ x.toInt.tdiv y.toInt ∧ x.toInt.tdiv y.toInt < 2 ^ 63 := by
      have hd : (x.toInt.tdiv y.toInt).natAbs = x.toInt.natAbs / y.toInt.natAbs := Int.natAbs_tdiv ..
      by_cases hone : y.toInt.natAbs = 1
      · have hcase : y.toInt = 1 ∨ y.toInt = -1 := by omega
        rcases hcase with h | h
        · rw [h, Int.tdiv_one]; omega
        · rw [h, Int.tdiv_neg, Int.tdiv_one]; omega
      · have h2 : 2 ≤ y.toInt.natAbs := by omega
        have h3 : x.toInt.natAbs / y.toInt.natAbs ≤ x.toInt.natAbs / 2 := Nat.div_le_div_left h2 (by omega)
        have h4 : x.toInt.natAbs ≤ 2 ^ 63 := by omega
        omega
    have hm : -2 ^ 63 ≤ x.toInt.tmod y.toInt ∧ x.toInt.tmod y.toInt < 2 ^ 63 := by
      have hd : (x.toInt.tmod y.toInt).natAbs = x.toInt.natAbs % y.toInt.natAbs := Int.natAbs_tmod ..
      have := Nat.mod_lt x.toInt.natAbs (show y.toInt.natAbs > 0 by omega)
      omega
    obtain ⟨q, hq1, hq2⟩ := fit_some hq
    obtain ⟨m, hm1, hm2⟩ := fit_some hm
    refine ⟨hy0, hov, q, m, by rw [if_neg h0, hq2]; rfl, by rw [if_neg (by rw [hq2]; simp [h0]), hm2]; rfl, ?_, ?_, ?_, ?_⟩
    · rw [hq1, hm1]; exact Int.tdiv_mul_add_tmod ..
    · rw [hm1]
      have hd : (x.toInt.tmod y.toInt).natAbs = x.toInt.natAbs % y.toInt.natAbs := Int.natAbs_tmod ..
      rw [hd]
      exact Nat.mod_lt _ (by omega)
    · rw [hm1]; exact fun h => Int.tmod_nonneg _ h
    · rw [hm1]
      intro h
      have h1 : (-x.toInt).tmod y.toInt = -(x.toInt.tmod y.toInt) := Int.neg_tmod ..
      have h2 := Int.tmod_nonneg (a := -x.toInt) y.toInt (by omega)
      omega

/-! ## C22 -/

/-- C22. Comparisons of ints are those of the integers. -/
theorem C22_ints (ha : Reached fo a) (h₁ : visitExpression fo a.scopes e₁ = .ok ⟨.constInt x, l₁⟩)
    (h₂ : visitExpression fo a.scopes e₂ = .ok ⟨.constInt y, l₂⟩) (l : Option Loc) :
    visitExpression fo a.scopes (.bin l .eq e₁ e₂) = .ok ⟨.constBool (x.toInt = y.toInt), l⟩ ∧
    visitExpression fo a.scopes (.bin l .ne e₁ e₂) = .ok ⟨.constBool (x.toInt ≠ y.toInt), l⟩ ∧
    visitExpression fo a.scopes (.bin l .lt e₁ e₂) = .ok ⟨.constBool (x.toInt < y.toInt), l⟩ ∧
    visitExpression fo a.scopes (.bin l .le e₁ e₂) = .ok ⟨.constBool (x.toInt ≤ y.toInt), l⟩ ∧
    visitExpression fo a.scopes (.bin l .gt e₁ e₂) = .ok ⟨.constBool (x.toInt > y.toInt), l⟩ ∧
    visitExpression fo a.scopes (.bin l .ge e₁ e₂) = .ok ⟨.constBool (x.toInt ≥ y.toInt), l⟩ :=
  ⟨ints ha h₁ h₂ .eq (by decide) l, ints ha h₁ h₂ .ne (by decide) l, ints ha h₁ h₂ .lt (by decide) l,
   ints ha h₁ h₂ .le (by decide) l, ints ha h₁ h₂ .gt (by decide) l, ints ha h₁ h₂ .ge (by decide) l⟩

/-- C22. Comparisons and boolean operators on bools; `false` is 0 and `true` is 1. -/
theorem C22_bools {b c : Bool} (ha : Reached fo a) (h₁ : visitExpression fo a.scopes e₁ = .ok ⟨.constBool b, l₁⟩)
    (h₂ : visitExpression fo a.scopes e₂ = .ok ⟨.constBool c, l₂⟩) (l : Option Loc) :
    visitExpression fo a.scopes (.bin l .eq e₁ e₂) = .ok ⟨.constBool (b.toNat = c.toNat), l⟩ ∧
    visitExpression fo a.scopes (.bin l .ne e₁ e₂) = .ok ⟨.constBool (b.toNat ≠ c.toNat), l⟩ ∧
    visitExpression fo a.scopes (.bin l .lt e₁ e₂) = .ok ⟨.constBool (b.toNat < c.toNat), l⟩ ∧
    visitExpression fo a.scopes (.bin l .le e₁ e₂) = .ok ⟨.constBool (b.toNat ≤ c.toNat), l⟩ ∧
    visitExpression fo a.scopes (.bin l .gt e₁ e₂) = .ok ⟨.constBool (b.toNat > c.toNat), l⟩ ∧
    visitExpression fo a.scopes (.bin l .ge e₁ e₂) = .ok ⟨.constBool (b.toNat ≥ c.toNat), l⟩ ∧
    visitExpression fo a.scopes (.bin l .land e₁ e₂) = .ok ⟨.constBool (b && c), l⟩ ∧
    visitExpression fo a.scopes (.bin l .lor e₁ e₂) = .ok ⟨.constBool (b || c), l⟩ ∧
    visitExpression fo a.scopes (.bin l .lxor e₁ e₂) = .ok ⟨.constBool (b ^^ c), l⟩ ∧
    visitExpression fo a.scopes (.un l .lnot e₁) = .ok ⟨.constBool (!b), l⟩ := by
  obtain ⟨D, henv⟩ := reached_env ha
  have key : ∀ op, [.bool, .bool] ∈ (Fn.bin op).signatures →
      visitExpression fo a.scopes (.bin l op e₁ e₂) = give l (boolBin op b c) := fun op hop =>
    bin_value henv (c := .bool b) (d := .bool c) h₁ h₂ (applies_self fo hop)
  rw [key .eq (by decide), key .ne (by decide), key .lt (by decide), key .le (by decide), key .gt (by decide),
    key .ge (by decide), key .land (by decide), key .lor (by decide), key .lxor (by decide),
    un_value henv (c := .bool b) (l := l) (op := .lnot) h₁
      (applies_self fo (show [Kind.bool] ∈ (Fn.un .lnot).signatures by decide))]
  cases b <;> cases c <;> simp [boolBin, give, Fn.meaning, Const.node]

/-- C22. Comparisons of floats are those of the floating-point operations. -/
theorem C22_floats {f g : F} (ha : Reached fo a) (h₁ : visitExpression fo a.scopes e₁ = .ok ⟨.constFloat f, l₁⟩)
    (h₂ : visitExpression fo a.scopes e₂ = .ok ⟨.constFloat g, l₂⟩) (l : Option Loc) :
    visitExpression fo a.scopes (.bin l .eq e₁ e₂) = .ok ⟨.constBool (fo.eq f g), l⟩ ∧
    visitExpression fo a.scopes (.bin l .ne e₁ e₂) = .ok ⟨.constBool (fo.ne f g), l⟩ ∧
    visitExpression fo a.scopes (.bin l .lt e₁ e₂) = .ok ⟨.constBool (fo.lt f g), l⟩ ∧
    visitExpression fo a.scopes (.bin l .le e₁ e₂) = .ok ⟨.constBool (fo.le f g), l⟩ ∧
    visitExpression fo a.scopes (.bin l .gt e₁ e₂) = .ok ⟨.constBool (fo.gt f g), l⟩ ∧
    visitExpression fo a.scopes (.bin l .ge e₁ e₂) = .ok ⟨.constBool (fo.ge f g), l⟩ := by
  obtain ⟨D, henv⟩ := reached_env ha
  have key : ∀ op, [.float, .float] ∈ (Fn.bin op).signatures →
      visitExpression fo a.scopes (.bin l op e₁ e₂) = give l (floatBin fo op f g) := fun op hop =>
    bin_value henv (c := .float f) (d := .float g) h₁ h₂ (applies_self fo hop)
  exact ⟨key .eq (by decide), key .ne (by decide), key .lt (by decide), key .le (by decide), key .gt (by decide),
    key .ge (by decide)⟩

/-! ## C23 -/

private theorem bit_eq (x : Int64) (n : Nat) (hn : n < 64) : bit x.toInt n = x.toBitVec.getLsbD n := by
  have h1 : x.toInt.fmod (2 ^ (n + 1)) = ((x.toBitVec.toNat % 2 ^ (n + 1) : Nat) : Int) := by
    have h2 : (2 : Int) ^ (n + 1) ∣ 2 ^ 64 := ⟨2 ^ (64 - (n + 1)), by rw [← Int.pow_add]; congr 1; omega⟩
    rw [Int.fmod_eq_emod_of_nonneg _ (Int.pow_nonneg (by decide)), ← Int64.toInt_toBitVec, BitVec.toInt_eq_toNat_bmod,
      ← Int.emod_emod_of_dvd _ h2, Int.natCast_emod, Int.natCast_pow]
    have h3 : ((x.toBitVec.toNat : Int).bmod (2 ^ 64)) % 2 ^ 64 = (x.toBitVec.toNat : Int) % 2 ^ 64 :=
      Int.bmod_emod (m := 2 ^ 64) ..
    rw [h3, Int.emod_emod_of_dvd _ h2]; rfl
  rw [bit, h1, BitVec.getLsbD, Nat.testBit_eq_decide_div_mod_eq, Nat.mod_pow_succ]
  have h4 : x.toBitVec.toNat % 2 ^ n < 2 ^ n := Nat.mod_lt _ (Nat.two_pow_pos n)
  have h5 : ((2 : Int) ^ n) = ((2 ^ n : Nat) : Int) := by rw [Int.natCast_pow]; rfl
  rw [h5]
  generalize x.toBitVec.toNat % 2 ^ n = r at *
  have h6 : x.toBitVec.toNat / 2 ^ n % 2 < 2 := Nat.mod_lt _ (by decide)
  generalize x.toBitVec.toNat / 2 ^ n % 2 = q at *
  have h7 : q = 0 ∨ q = 1 := by omega
  rcases h7 with rfl | rfl
  · simp; omega
  · simp; omega

/-- C23. `&`, `|`, `^` and `~` work on every bit of the two's complement representation. -/
theorem C23_bitwise (ha : Reached fo a) (h₁ : visitExpression fo a.scopes e₁ = .ok ⟨.constInt x, l₁⟩)
    (h₂ : visitExpression fo a.scopes e₂ = .ok ⟨.constInt y, l₂⟩) (l : Option Loc) :
    ∃ i j k m : Int64,
      visitExpression fo a.scopes (.bin l .band e₁ e₂) = .ok ⟨.constInt i, l⟩ ∧
      visitExpression fo a.scopes (.bin l .bor e₁ e₂) = .ok ⟨.constInt j, l⟩ ∧
      visitExpression fo a.scopes (.bin l .bxor e₁ e₂) = .ok ⟨.constInt k, l⟩ ∧
      visitExpression fo a.scopes (.un l .bnot e₁) = .ok ⟨.constInt m, l⟩ ∧
      ∀ n < 64, bit i.toInt n = (bit x.toInt n && bit y.toInt n) ∧ bit j.toInt n = (bit x.toInt n || bit y.toInt n) ∧
        bit k.toInt n = (bit x.toInt n ^^ bit y.toInt n) ∧ bit m.toInt n = !bit x.toInt n := by
  obtain ⟨D, henv⟩ := reached_env ha
  refine ⟨x &&& y, x ||| y, x ^^^ y, ~~~x, ints ha h₁ h₂ .band (by decide) l, ints ha h₁ h₂ .bor (by decide) l,
    ints ha h₁ h₂ .bxor (by decide) l, ?_, ?_⟩
  · rw [un_value henv (c := .int x) (l := l) (op := .bnot) h₁
      (applies_self fo (show [Kind.int] ∈ (Fn.un .bnot).signatures by decide)), not_eq]; rfl
  · intro n hn
    simp only [bit_eq _ n hn]
    simp [hn]

/-- C23. Shifts by 0 to 63 multiply by a power of two modulo 2^64 and divide by it rounding down; other
shifts are undefined. -/
theorem C23_shift (ha : Reached fo a) (h₁ : visitExpression fo a.scopes e₁ = .ok ⟨.constInt x, l₁⟩)
    (h₂ : visitExpression fo a.scopes e₂ = .ok ⟨.constInt y, l₂⟩) (l : Option Loc) :
    (0 ≤ y.toInt ∧ y.toInt < 64 ∧ ∃ i j : Int64,
      visitExpression fo a.scopes (.bin l .shl e₁ e₂) = .ok ⟨.constInt i, l⟩ ∧
      visitExpression fo a.scopes (.bin l .shr e₁ e₂) = .ok ⟨.constInt j, l⟩ ∧
      (∃ k : Int, x.toInt * 2 ^ y.toInt.toNat = i.toInt + k * 2 ^ 64) ∧
      j.toInt * 2 ^ y.toInt.toNat ≤ x.toInt ∧ x.toInt < (j.toInt + 1) * 2 ^ y.toInt.toNat) ∨
    (¬(0 ≤ y.toInt ∧ y.toInt < 64) ∧ visitExpression fo a.scopes (.bin l .shl e₁ e₂) = .ub ∧
      visitExpression fo a.scopes (.bin l .shr e₁ e₂) = .ub) := by
  rw [ints ha h₁ h₂ .shl (by decide), ints ha h₁ h₂ .shr (by decide)]
  simp only [intBin]
  by_cases h : 0 ≤ y.toInt ∧ y.toInt < 64
  · left
    rw [if_pos h, if_pos h]
    refine ⟨h.1, h.2, _, _, rfl, rfl, ?_, ?_, ?_⟩
    · refine ⟨(x.toInt * 2 ^ y.toInt.toNat - (wrap (x.toInt * 2 ^ y.toInt.toNat)).toInt) / 2 ^ 64, ?_⟩
      have : (wrap (x.toInt * 2 ^ y.toInt.toNat)).toInt = (x.toInt * 2 ^ y.toInt.toNat).bmod (2 ^ 64) := Int64.toInt_ofInt
      rw [this]
      have h2 : (2 ^ 64 : Int) ∣ x.toInt * 2 ^ y.toInt.toNat - (x.toInt * 2 ^ y.toInt.toNat).bmod (2 ^ 64) :=
        Int.dvd_self_sub_bmod
      rw [Int.ediv_mul_cancel h2]
      omega
    all_goals
      have h2 : (0 : Int) < 2 ^ y.toInt.toNat := Int.pow_pos (by decide)
      have h3 : (wrap (x.toInt.fdiv (2 ^ y.toInt.toNat))).toInt = x.toInt / 2 ^ y.toInt.toNat := by
        rw [wrap, Int.fdiv_eq_ediv_of_nonneg _ (Int.le_of_lt h2)]
        have := x.toInt_lt
        have := x.le_toInt
        have h4 : (1 : Int) ≤ 2 ^ y.toInt.toNat := h2
        refine Int64.toInt_ofInt_of_le ?_ ?_
        · rw [Int.le_ediv_iff_mul_le h2]
          have : (2 ^ 63 : Int) * 1 ≤ 2 ^ 63 * 2 ^ y.toInt.toNat := Int.mul_le_mul_of_nonneg_left h4 (by decide)
          omega
        · refine Int.ediv_lt_of_lt_mul h2 ?_
          have : (2 ^ 63 : Int) * 1 ≤ 2 ^ 63 * 2 ^ y.toInt.toNat := Int.mul_le_mul_of_nonneg_left h4 (by decide)
          omega
      rw [h3]
    · exact Int.ediv_mul_le _ (by omega)
    · exact Int.lt_ediv_add_one_mul_self _ h2
  · right
    rw [if_neg h, if_neg h]
    exact ⟨h, rfl, rfl⟩

section Examples
open Sample

/-- The hypotheses: a default analyser after a program, and expressions with integer values. -/
example : ∃ a : Analyzer Int, Reached Sample.fo a ∧ visitExpression Sample.fo a.scopes (int (-7)) = .ok ⟨.constInt (-7), none⟩ ∧
    visitExpression Sample.fo a.scopes (.bin none .add (int 1) (int 1)) = .ok ⟨.constInt 2, none⟩ := by
  obtain ⟨a, ha⟩ := default30
  have hr : Reached Sample.fo a := .fresh ha
  have h1 : ∀ i, visitExpression Sample.fo a.scopes (int i) = .ok ⟨.constInt i, none⟩ := fun i => by
    simp [visitExpression, visit, int, locate, Expr.loc]
  refine ⟨a, hr, h1 _, ?_⟩
  rcases C20_add hr (h1 1) (h1 1) none with ⟨_, _, z, hz, h⟩ | ⟨h, _⟩
  · rw [h, show z = 2 from Int64.toInt_inj.mp (hz.trans (by decide))]
  · exact absurd (by decide) h
end Examples

end Qasm
