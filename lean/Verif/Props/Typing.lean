import Verif.Lemmas.Typing
import Verif.Lemmas.Accept
import Verif.Spec.Sample
/-!
# Properties of operators and functions in expressions (C18, C19, C24, C25)

All are about `visitExpression fo a.scopes e`, the value the analyser `a` gives to the expression `e`, for
every analyser reached by constructing a default analyser and analysing programs, and all operand
expressions whatsoever: the hypotheses on operands only say which values these have.
-/

namespace Qasm

open Spec Sem

attribute [local irreducible] defaultInstrs defaultFns defaultVars

variable {F : Type} {fo : FloatOps F} {a : Analyzer F} {e e₁ e₂ : Expr F} {b c d : Const F} {l₀ l₁ l₂ : Option Loc}

private theorem literal_value (scopes : List (Scope F)) (c : Const F) :
    visitExpression fo scopes (literal c) = .ok ⟨c.node, none⟩ := by
  cases c <;> simp [literal, visitExpression, visit, locate, Expr.loc, Const.node]

private theorem reapply {fn : Fn} {cs : List (Const F)} {ks : List Kind} (hs : ks ∈ fn.signatures) (h : cs.map Const.kind = ks) :
    Applies fo fn cs (fn.meaning fo cs) := applies_self fo (by rw [h]; exact hs)

/-- C18. A binary operator on two constants converts both to the kind given by the table `binKind`, and
applies at that kind; the result has the kind given by `binResult`. -/
theorem C18_binary (ha : Reached fo a) (h₁ : visitExpression fo a.scopes e₁ = .ok ⟨c.node, l₁⟩)
    (h₂ : visitExpression fo a.scopes e₂ = .ok ⟨d.node, l₂⟩) {op : BinOp} {k : Kind}
    (hk : binKind op c.kind d.kind = some k) (l : Option Loc) :
    ∃ c' d' : Const F, Converts fo c k c' ∧ Converts fo d k d' ∧
      visitExpression fo a.scopes (.bin l op e₁ e₂) = visitExpression fo a.scopes (.bin l op (literal c') (literal d')) ∧
      ∀ w, visitExpression fo a.scopes (.bin l op e₁ e₂) = .ok w → kindOf w.node = some (binResult op k) := by
  obtain ⟨D, henv⟩ := reached_env ha
  rcases bin_selects op (kind_isConst c) (kind_isConst d) with ⟨m, m1, m2⟩ | ⟨m1, _⟩
  · rw [hk] at m1
    cases m1
    obtain ⟨cs', h1, h2, h3⟩ := applies_of_selects (fo := fo) (cs := [c, d]) m2
    match cs', h2 with
    | [c', d'], .cons g1 (.cons g2 .nil) =>
      simp only [List.map_cons, List.map_nil, List.cons.injEq, and_true] at h1
      refine ⟨c', d', by rw [← h1.1]; exact g1, by rw [← h1.2]; exact g2, ?_, ?_⟩
      · rw [bin_value henv h₁ h₂ h3, bin_value henv (literal_value _ c') (literal_value _ d') (reapply m2.1 (by simp [h1]))]
      · intro w hw
        rw [bin_value henv h₁ h₂ h3] at hw
        cases hr : (Fn.bin op).meaning fo [c', d'] with
        | none => rw [hr] at hw; cases hw
        | some r =>
          rw [hr] at hw
          cases hw
          rw [kindOf_node, meaning_bin m2.1 h1.1 h1.2 hr]
  · rw [hk] at m1; cases m1

/-- C18. A binary operator for which the table has no entry is an error. -/
theorem C18_binary_rejected (ha : Reached fo a) (h₁ : visitExpression fo a.scopes e₁ = .ok ⟨c.node, l₁⟩)
    (h₂ : visitExpression fo a.scopes e₂ = .ok ⟨d.node, l₂⟩) {op : BinOp} (hk : binKind op c.kind d.kind = none)
    (l : Option Loc) : ∃ err, visitExpression fo a.scopes (.bin l op e₁ e₂) = .err err := by
  obtain ⟨D, henv⟩ := reached_env ha
  rcases bin_selects op (kind_isConst c) (kind_isConst d) with ⟨m, m1, _⟩ | ⟨_, m2⟩
  · rw [hk] at m1; cases m1
  · unfold visitExpression at h₁ h₂ ⊢
    simp only [visit, h₁, h₂, Res.bind_ok, bin_name]
    exact locate_errs (call_not_ok henv (.bin op) _ (bin_arity op) [c, d] rfl m2)

/-- C18. A unary operator on a constant converts it to the kind given by the table `unKind`, and applies at that
kind; the result has the same kind. -/
theorem C18_unary (ha : Reached fo a) (h₁ : visitExpression fo a.scopes e₁ = .ok ⟨c.node, l₁⟩) {op : UnOp} {k : Kind}
    (hk : unKind op c.kind = some k) (l : Option Loc) :
    ∃ c' : Const F, Converts fo c k c' ∧
      visitExpression fo a.scopes (.un l op e₁) = visitExpression fo a.scopes (.un l op (literal c')) ∧
      ∀ w, visitExpression fo a.scopes (.un l op e₁) = .ok w → kindOf w.node = some k := by
  obtain ⟨D, henv⟩ := reached_env ha
  rcases un_selects op (kind_isConst c) with ⟨m, m1, m2⟩ | ⟨m1, _⟩
  · rw [hk] at m1
    cases m1
    obtain ⟨cs', h1, h2, h3⟩ := applies_of_selects (fo := fo) (cs := [c]) m2
    match cs', h2 with
    | [c'], .cons g1 .nil =>
      simp only [List.map_cons, List.map_nil, List.cons.injEq, and_true] at h1
      refine ⟨c', by rw [← h1]; exact g1, ?_, ?_⟩
      · rw [un_value henv h₁ h3, un_value henv (literal_value _ c') (reapply m2.1 (by simp [h1]))]
      · intro w hw
        rw [un_value henv h₁ h3] at hw
        cases hr : (Fn.un op).meaning fo [c'] with
        | none => rw [hr] at hw; cases hw
        | some r =>
          rw [hr] at hw
          cases hw
          rw [kindOf_node, meaning_un (by rw [h1]; exact m2.1) h1 hr]
  · rw [hk] at m1; cases m1

/-- C18. A unary operator for which the table has no entry is an error. -/
theorem C18_unary_rejected (ha : Reached fo a) (h₁ : visitExpression fo a.scopes e₁ = .ok ⟨c.node, l₁⟩) {op : UnOp}
    (hk : unKind op c.kind = none) (l : Option Loc) : ∃ err, visitExpression fo a.scopes (.un l op e₁) = .err err := by
  obtain ⟨D, henv⟩ := reached_env ha
  rcases un_selects op (kind_isConst c) with ⟨m, m1, _⟩ | ⟨_, m2⟩
  · rw [hk] at m1; cases m1
  · unfold visitExpression at h₁ ⊢
    simp only [visit, h₁, Res.bind_ok, un_name]
    exact locate_errs (call_not_ok henv (.un op) _ (un_arity op) [c] rfl m2)

/-- C18. Arithmetic operators on floats are the float operations. -/
theorem C18_float_operators (ha : Reached fo a) {x y : F} (h₁ : visitExpression fo a.scopes e₁ = .ok ⟨.constFloat x, l₁⟩)
    (h₂ : visitExpression fo a.scopes e₂ = .ok ⟨.constFloat y, l₂⟩) (l : Option Loc) :
    (∀ op f, (op, f) ∈ floatOperators fo → visitExpression fo a.scopes (.bin l op e₁ e₂) = .ok ⟨.constFloat (f x y), l⟩) ∧
    visitExpression fo a.scopes (.un l .neg e₁) = .ok ⟨.constFloat (fo.neg x), l⟩ := by
  obtain ⟨D, henv⟩ := reached_env ha
  constructor
  · intro op f hf
    simp only [floatOperators, List.mem_cons, List.not_mem_nil, or_false, Prod.mk.injEq] at hf
    rcases hf with ⟨rfl, rfl⟩ | ⟨rfl, rfl⟩ | ⟨rfl, rfl⟩ | ⟨rfl, rfl⟩ | ⟨rfl, rfl⟩
    · exact bin_value henv (c := .float x) (d := .float y) h₁ h₂ (reapply (fn := .bin .add) (ks := [.float, .float]) (by decide) rfl)
    · exact bin_value henv (c := .float x) (d := .float y) h₁ h₂ (reapply (fn := .bin .sub) (ks := [.float, .float]) (by decide) rfl)
    · exact bin_value henv (c := .float x) (d := .float y) h₁ h₂ (reapply (fn := .bin .mul) (ks := [.float, .float]) (by decide) rfl)
    · exact bin_value henv (c := .float x) (d := .float y) h₁ h₂ (reapply (fn := .bin .div) (ks := [.float, .float]) (by decide) rfl)
    · exact bin_value henv (c := .float x) (d := .float y) h₁ h₂ (reapply (fn := .bin .pow) (ks := [.float, .float]) (by decide) rfl)
  · exact un_value henv (c := .float x) h₁ (reapply (fn := .un .neg) (ks := [.float]) (by decide) rfl)

private theorem one_arg {scopes : List (Scope F)} (h : visitExpression fo scopes e₁ = .ok ⟨c.node, l₁⟩) :
    visitList fo scopes [e₁] = .ok [⟨c.node, l₁⟩] := by
  unfold visitExpression at h
  simp [visitList, h]

/-- C18. A mathematical function on a constant is the float function on the constant converted to float. -/
theorem C18_functions (ha : Reached fo a) (h₁ : visitExpression fo a.scopes e₁ = .ok ⟨c.node, l₁⟩) (l : Option Loc) :
    ∃ x, Converts fo c .float (.float x) ∧ ∀ name f, (name, f) ∈ floatFunctions fo →
      visitExpression fo a.scopes (.call l name [e₁]) = .ok ⟨.constFloat (f x), l⟩ := by
  obtain ⟨D, henv⟩ := reached_env ha
  obtain ⟨c', g1, g2⟩ := convert_exists fo c (k := .float) (by cases c <;> constructor)
  obtain ⟨x, rfl⟩ := kind_float g2
  refine ⟨x, g1, ?_⟩
  have key : ∀ m : MathFn, visitExpression fo a.scopes (.call l (Fn.math m).name [e₁]) = .ok ⟨.constFloat (m.meaning fo x), l⟩ := by
    intro m
    exact call_value henv (fn := .math m) (cs := [c]) (o := some (.float (m.meaning fo x))) (one_arg h₁) rfl
      ⟨[.float], [.float x], math_selects m (kind_isConst c), rfl, .cons g1 .nil, rfl⟩
  intro name f hf
  simp only [floatFunctions, List.mem_cons, List.not_mem_nil, or_false, Prod.mk.injEq] at hf
  rcases hf with ⟨rfl, rfl⟩ | ⟨rfl, rfl⟩ | ⟨rfl, rfl⟩ | ⟨rfl, rfl⟩ | ⟨rfl, rfl⟩ | ⟨rfl, rfl⟩ | ⟨rfl, rfl⟩ | ⟨rfl, rfl⟩ |
    ⟨rfl, rfl⟩ | ⟨rfl, rfl⟩ | ⟨rfl, rfl⟩ | ⟨rfl, rfl⟩ | ⟨rfl, rfl⟩ | ⟨rfl, rfl⟩ | ⟨rfl, rfl⟩
  · exact key .sqrt
  · exact key .exp
  · exact key .log
  · exact key .sin
  · exact key .cos
  · exact key .tan
  · exact key .sinh
  · exact key .cosh
  · exact key .tanh
  · exact key .asin
  · exact key .acos
  · exact key .atan
  · exact key .asinh
  · exact key .acosh
  · exact key .atanh

/-- C18. `abs` of a float is the float operation, and of a bool that of the bool as an int (for ints, see
`C20_abs`). -/
theorem C18_abs (ha : Reached fo a) (l : Option Loc) :
    (∀ (x : F) e₁ l₁, visitExpression fo a.scopes e₁ = .ok ⟨.constFloat x, l₁⟩ →
      visitExpression fo a.scopes (.call l c!"abs" [e₁]) = .ok ⟨.constFloat (fo.abs x), l⟩) ∧
    (∀ b e₁ l₁, visitExpression fo a.scopes e₁ = .ok ⟨.constBool b, l₁⟩ →
      visitExpression fo a.scopes (.call l c!"abs" [e₁]) = .ok ⟨.constInt (if b then 1 else 0), l⟩) := by
  obtain ⟨D, henv⟩ := reached_env ha
  constructor
  · intro x e₁ l₁ h₁
    exact call_value henv (fn := .abs) (cs := [.float x]) (o := some (.float (fo.abs x))) (one_arg (c := .float x) h₁) rfl
      (reapply (fn := .abs) (ks := [.float]) (by decide) rfl)
  · intro b e₁ l₁ h₁
    have f0 : fit ((0 : Int64).toInt.natAbs : Int) = some 0 := by decide +kernel
    have f1 : fit ((1 : Int64).toInt.natAbs : Int) = some 1 := by decide +kernel
    have : Applies fo .abs [.bool b] (some (.int (if b then 1 else 0))) := by
      cases b
      · exact ⟨[.int], [.int 0], abs_selects (kind_isConst (.bool false : Const F)), rfl, .cons .falseInt .nil, by
          rw [Fn.meaning, f0]; rfl⟩
      · exact ⟨[.int], [.int 1], abs_selects (kind_isConst (.bool true : Const F)), rfl, .cons .trueInt .nil, by
          rw [Fn.meaning, f1]; rfl⟩
    exact call_value henv (fn := .abs) (cs := [.bool b]) (one_arg (c := .bool b) h₁) rfl this

/-- C19. The kind of an expression is determined by the kinds of its parts, by the rules `typing`: if these give
a kind then analysis gives a value of that kind, and if they do not it gives an error, unless folding leaves
defined behaviour (`.ub`, see C21). `env` gives the kinds of the names. -/
theorem C19_typing (ha : Reached fo a) (env : Str → Option Kind)
    (henv : ∀ x, match env x with
      | some k => ∃ w, visitExpression fo a.scopes (.ident none x) = .ok w ∧ kindOf w.node = some k
      | none => ∃ err, visitExpression fo a.scopes (.ident none x) = .err err)
    (e : Expr F) (he : Simple e) :
    visitExpression fo a.scopes e = .ub ∨
    match typing env e with
    | some k => ∃ w, visitExpression fo a.scopes e = .ok w ∧ kindOf w.node = some k
    | none => ∃ err, visitExpression fo a.scopes e = .err err := by
  obtain ⟨D, hD⟩ := reached_env ha
  exact typed hD (fun x => .inr (henv x)) e he

/-- C24. The conditional operator gives the branch selected by the condition, converted to the common kind of
the two branches. -/
theorem C24_selects (ha : Reached fo a) {t : Bool} (h : visitExpression fo a.scopes e = .ok ⟨.constBool t, l₀⟩)
    (h₁ : visitExpression fo a.scopes e₁ = .ok ⟨c.node, l₁⟩) (h₂ : visitExpression fo a.scopes e₂ = .ok ⟨d.node, l₂⟩)
    (l : Option Loc) :
    ∃ r : Const F, Converts fo (if t then c else d) (join c.kind d.kind) r ∧
      visitExpression fo a.scopes (.tern l e e₁ e₂) = .ok ⟨r.node, l⟩ := by
  obtain ⟨D, henv⟩ := reached_env ha
  rcases cond_selects (i := .bool) (.inl rfl) (kind_isConst c) (kind_isConst d) with ⟨_, m2⟩ | ⟨m1, _⟩
  · obtain ⟨cs', h1, h2, h3⟩ := applies_of_selects (fo := fo) (cs := [.bool t, c, d]) m2
    match cs', h2 with
    | [b', c', d'], .cons g0 (.cons g1 (.cons g2 .nil)) =>
      simp only [List.map_cons, List.map_nil, List.cons.injEq, and_true] at h1
      obtain ⟨t', rfl⟩ := kind_bool h1.1
      have : t' = t := by cases g0; rfl
      subst this
      refine ⟨if t' then c' else d', ?_, ?_⟩
      · cases t'
        · rw [← h1.2.2]; exact g2
        · rw [← h1.2.1]; exact g1
      · rw [tern_value henv (b := .bool t') h h₁ h₂ h3]
        rfl
  · exact absurd rfl m1

/-- C24. The condition must be a bool. -/
theorem C24_condition (ha : Reached fo a) (h : visitExpression fo a.scopes e = .ok ⟨b.node, l₀⟩) (hb : b.kind ≠ .bool)
    (h₁ : visitExpression fo a.scopes e₁ = .ok ⟨c.node, l₁⟩) (h₂ : visitExpression fo a.scopes e₂ = .ok ⟨d.node, l₂⟩)
    (l : Option Loc) : ∃ err, visitExpression fo a.scopes (.tern l e e₁ e₂) = .err err := by
  obtain ⟨D, henv⟩ := reached_env ha
  rcases cond_selects (kind_isConst b) (kind_isConst c) (kind_isConst d) with ⟨m1, _⟩ | ⟨_, m2⟩
  · exact absurd m1 hb
  · unfold visitExpression at h h₁ h₂ ⊢
    simp only [visit, h, h₁, h₂, Res.bind_ok]
    exact locate_errs (call_not_ok henv .cond _ cond_arity [b, c, d] rfl m2)

/-- C24. An error in either branch is reported, whatever the condition. -/
theorem C24_branches (h : visitExpression fo a.scopes e = .ok ⟨b.node, l₀⟩) (l : Option Loc) :
    (∀ err, visitExpression fo a.scopes e₁ = .err err →
      visitExpression fo a.scopes (.tern l e e₁ e₂) = .err ⟨err.message, err.location.or l⟩) ∧
    (∀ w err, visitExpression fo a.scopes e₁ = .ok w → visitExpression fo a.scopes e₂ = .err err →
      visitExpression fo a.scopes (.tern l e e₁ e₂) = .err ⟨err.message, err.location.or l⟩) := by
  unfold visitExpression at h ⊢
  constructor
  · intro err h₁
    simp only [visit, h, h₁, Res.bind_ok, Res.bind_err]
    obtain ⟨m, x⟩ := err
    cases x <;> rfl
  · intro w err h₁ h₂
    simp only [visit, h, h₁, h₂, Res.bind_ok, Res.bind_err]
    obtain ⟨m, x⟩ := err
    cases x <;> rfl

/-- A reference to a variable or to elements of one. -/
def IsReference (w : Value F) : Prop := (∃ x, w.node = .variableRef x) ∨ ∃ x is, w.node = .indexRef x is

private theorem reference_const {w : Value F} (h : IsReference w) (c : Const F) : w.node ≠ c.node := by
  rcases h with ⟨x, h⟩ | ⟨x, is, h⟩ <;> rw [h] <;> cases c <;> simp [Const.node]

/-- C25. An operator applied to a reference is an error. -/
theorem C25_operators (ha : Reached fo a) {w w₁ w₂ : Value F} (h : visitExpression fo a.scopes e = .ok w)
    (h₁ : visitExpression fo a.scopes e₁ = .ok w₁) (h₂ : visitExpression fo a.scopes e₂ = .ok w₂) (l : Option Loc) :
    (∀ op, IsReference w₁ → ∃ err, visitExpression fo a.scopes (.un l op e₁) = .err err) ∧
    (∀ op, IsReference w₁ ∨ IsReference w₂ → ∃ err, visitExpression fo a.scopes (.bin l op e₁ e₂) = .err err) ∧
    (IsReference w ∨ IsReference w₁ ∨ IsReference w₂ → ∃ err, visitExpression fo a.scopes (.tern l e e₁ e₂) = .err err) := by
  obtain ⟨D, henv⟩ := reached_env ha
  have g := value_good henv h
  have g₁ := value_good henv h₁
  have g₂ := value_good henv h₂
  unfold visitExpression at h h₁ h₂ ⊢
  refine ⟨?_, ?_, ?_⟩
  · intro op hr
    simp only [visit, h₁, Res.bind_ok]
    exact locate_errs (call_register henv _ [w₁] (by simpa using g₁) w₁ (by simp) (reference_const hr))
  · intro op hr
    simp only [visit, h₁, h₂, Res.bind_ok]
    have hg : ∀ v ∈ [w₁, w₂], GoodNode v.node := by simp [g₁, g₂]
    rcases hr with hr | hr
    · exact locate_errs (call_register henv _ _ hg w₁ (by simp) (reference_const hr))
    · exact locate_errs (call_register henv _ _ hg w₂ (by simp) (reference_const hr))
  · intro hr
    simp only [visit, h, h₁, h₂, Res.bind_ok]
    have hg : ∀ v ∈ [w, w₁, w₂], GoodNode v.node := by simp [g, g₁, g₂]
    rcases hr with hr | hr | hr
    · exact locate_errs (call_register henv _ _ hg w (by simp) (reference_const hr))
    · exact locate_errs (call_register henv _ _ hg w₁ (by simp) (reference_const hr))
    · exact locate_errs (call_register henv _ _ hg w₂ (by simp) (reference_const hr))

/-- C25. A function applied to arguments one of which is a reference is an error. -/
theorem C25_functions (ha : Reached fo a) {args : List (Expr F)} {ws : List (Value F)}
    (h : Forall2 (fun e w => visitExpression fo a.scopes e = .ok w) args ws) {w : Value F} (hw : w ∈ ws) (hr : IsReference w)
    (name : Str) (l : Option Loc) : ∃ err, visitExpression fo a.scopes (.call l name args) = .err err := by
  obtain ⟨D, henv⟩ := reached_env ha
  have hg := nodes_good henv h
  have hl : visitList fo a.scopes args = .ok ws := by
    clear hw hg
    induction h with
    | nil => simp [visitList]
    | cons h1 _ ih =>
      unfold visitExpression at h1
      simp [visitList, h1, ih]
  unfold visitExpression
  simp only [visit, hl, Res.bind_ok]
  exact locate_errs (call_register henv _ ws hg w hw (reference_const hr))

/-! ## Examples -/

section
open Sample

/-- The value a fresh default analyser gives to an expression. -/
private def valueOf (e : Expr Int) : Option (Res Err (Value Int)) :=
  match Analyzer.default Sample.fo [3, 0] with
  | .ok a => some (visitExpression Sample.fo a.scopes e)
  | _ => none

-- `1 + 2.0`, `true + true`, `1 == true`, `~2.0`, `sqrt(true)`
example : binKind .add .int .float = some .float ∧ binKind .add .bool .bool = some .int ∧
    binKind .eq .int .bool = some .int ∧ binResult .eq .int = .bool ∧ unKind .bnot .float = none := by decide
example : valueOf (.bin none .add (int 1) (.floatLit none 2)) = some (.ok ⟨.constFloat 3, none⟩) := by decide +kernel
example : valueOf (.bin none .add (.boolLit none true) (.boolLit none true)) = some (.ok ⟨.constInt 2, none⟩) := by decide +kernel
example : valueOf (.bin none .eq (int 1) (.boolLit none true)) = some (.ok ⟨.constBool true, none⟩) := by decide +kernel
example : (valueOf (.un none .bnot (.floatLit none 2))).any (fun r => match r with | .err _ => true | _ => false) = true := by
  decide +kernel
example : valueOf (.call none c!"sqrt" [.boolLit none true]) = some (.ok ⟨.constFloat 1, none⟩) := by decide +kernel
-- the kind of `true ? 1 : abs(2.5)`, and that `1 && true` has none
example : typing (F := Int) (fun _ => none) (.tern none (.boolLit none true) (int 1) (.call none c!"abs" [.floatLit none 2])) =
    some .float := by decide +kernel
example : typing (F := Int) (fun _ => none) (.bin none .land (int 1) (.boolLit none true)) = none := by decide +kernel
-- `false ? 1 : 2.0` is a float, `false ? q : 2` is an error in the branch not selected
example : valueOf (.tern none (.boolLit none false) (int 1) (.floatLit none 2)) = some (.ok ⟨.constFloat 2, none⟩) := by decide +kernel
example : messages (program [qubits c!"q" 2, gate c!"Rx" [.tern none (.boolLit none false) (name c!"q") (int 2)] [name c!"q"]])
    = some [c!"failed to resolve overload for 'operator?:' with argument pack (bool, qubit array, int)"] := by decide +kernel
example : messages (program [qubits c!"q" 2, gate c!"Rx" [.tern none (.boolLit none false) (name c!"z") (int 2)] [name c!"q"]])
    = some [c!"failed to resolve variable 'z'"] := by decide +kernel
end

end Qasm
