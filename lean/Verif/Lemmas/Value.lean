import Verif.Spec.Typing
import Verif.Lemmas.Operand
/-!
# Values of expressions in a reachable analyser
-/

namespace Qasm

open Spec Sem

attribute [local irreducible] defaultInstrs defaultFns defaultVars

variable {F : Type}

theorem selects_self {fn : Fn} {ks : List Kind} (h : ks ∈ fn.signatures) : Selects fn ks ks := by
  refine ⟨h, ?_, fun _ _ h => h⟩
  rw [← widensAll_iff]
  clear h
  induction ks with
  | nil => rfl
  | cons k ks ih => simp [widensAll, widensB, ih]

theorem applies_self (fo : FloatOps F) {fn : Fn} {cs : List (Const F)} (h : cs.map Const.kind ∈ fn.signatures) :
    Applies fo fn cs (fn.meaning fo cs) := by
  refine ⟨_, cs, selects_self h, rfl, ?_, rfl⟩
  clear h
  induction cs with
  | nil => exact .nil
  | cons c cs ih => exact .cons (.same c) ih

/-- What an expression gives when a function is applied to the constants. -/
def give (l : Option Loc) (o : Option (Const F)) : Res Err (Value F) :=
  match o with
  | some r => .ok ⟨r.node, l⟩
  | none => .ub

section
variable {fo : FloatOps F} {D : List VarLink} {scopes : List (Scope F)}

theorem un_value (henv : EnvOk fo D scopes) {op : UnOp} {e : Expr F} {c : Const F} {l l₁ : Option Loc} {o : Option (Const F)}
    (h : visitExpression fo scopes e = .ok ⟨c.node, l₁⟩) (ha : Applies fo (.un op) [c] o) :
    visitExpression fo scopes (.un l op e) = give l o := by
  unfold visitExpression at h ⊢
  simp only [visit, h, Res.bind_ok, un_name]
  rw [callFunction_consts henv (.un op) _ [c] rfl o ha]
  cases o <;> rfl

theorem bin_value (henv : EnvOk fo D scopes) {op : BinOp} {e₁ e₂ : Expr F} {c d : Const F} {l l₁ l₂ : Option Loc}
    {o : Option (Const F)} (h₁ : visitExpression fo scopes e₁ = .ok ⟨c.node, l₁⟩)
    (h₂ : visitExpression fo scopes e₂ = .ok ⟨d.node, l₂⟩) (ha : Applies fo (.bin op) [c, d] o) :
    visitExpression fo scopes (.bin l op e₁ e₂) = give l o := by
  unfold visitExpression at h₁ h₂ ⊢
  simp only [visit, h₁, h₂, Res.bind_ok, bin_name]
  rw [callFunction_consts henv (.bin op) _ [c, d] rfl o ha]
  cases o <;> rfl

theorem tern_value (henv : EnvOk fo D scopes) {e e₁ e₂ : Expr F} {b c d : Const F} {l l₀ l₁ l₂ : Option Loc}
    {o : Option (Const F)} (h : visitExpression fo scopes e = .ok ⟨b.node, l₀⟩)
    (h₁ : visitExpression fo scopes e₁ = .ok ⟨c.node, l₁⟩)
    (h₂ : visitExpression fo scopes e₂ = .ok ⟨d.node, l₂⟩) (ha : Applies fo .cond [b, c, d] o) :
    visitExpression fo scopes (.tern l e e₁ e₂) = give l o := by
  unfold visitExpression at h h₁ h₂ ⊢
  simp only [visit, h, h₁, h₂, Res.bind_ok]
  rw [show c!"operator?:" = Fn.cond.name from rfl, callFunction_consts henv .cond _ [b, c, d] rfl o ha]
  cases o <;> rfl

theorem call_value (henv : EnvOk fo D scopes) {fn : Fn} {args : List (Expr F)} {vs : List (Value F)} {cs : List (Const F)}
    {l : Option Loc} {o : Option (Const F)} (h : visitList fo scopes args = .ok vs)
    (hv : vs.map (·.node) = cs.map Const.node) (ha : Applies fo fn cs o) :
    visitExpression fo scopes (.call l fn.name args) = give l o := by
  unfold visitExpression
  simp only [visit, h, Res.bind_ok]
  rw [callFunction_consts henv fn _ cs hv o ha]
  cases o <;> rfl

end

/-! ## The state of a reachable analyser -/

theorem env_state {fo : FloatOps F} {D : List VarLink} {a : Analyzer F} (henv : EnvOk fo D a.scopes) :
    ∃ v u b vars, a = stateOf fo v D u b vars := by
  obtain ⟨sc, hsc, g1, g2, g3⟩ := henv.scope
  obtain ⟨v, scopes, u⟩ := a
  obtain ⟨vt, ft, it, b, vars⟩ := sc
  dsimp only at hsc g1 g2 g3
  subst hsc g1 g2 g3
  exact ⟨v, u, b, vars, rfl⟩

theorem visitVariable_env {fo : FloatOps F} {D : List VarLink} {a a' : Analyzer F} (henv : EnvOk fo D a.scopes)
    {l : Option Loc} {as : List (AnnotationData F)} {n : Ident} {t : TypeAst} {es : List Err}
    (h : visitVariable fo a l as n t = .ok (es, a')) : ∃ D', EnvOk fo D' a'.scopes := by
  obtain ⟨v, u, b, vars, rfl⟩ := env_state henv
  rw [visitVariable] at h
  rcases buildSemanticType_spec t with ⟨ty, h1, h2⟩ | ⟨e, _, h1, _⟩
  · rw [h1] at h
    cases h3 : visitAnnotations fo (stateOf fo v D u b vars).scopes as with
    | ok x =>
      rw [h3] at h
      have hadd : Analyzer.addVariable { stateOf fo v D u b vars with nextUid := (stateOf fo v D u b vars).nextUid + 1 }
          ⟨(stateOf fo v D u b vars).nextUid, n.name, ty, x.2, n.loc⟩ =
          .ok (stateOf fo v D (u + 1) b (vars ++ [⟨u, n.name, ty, x.2, n.loc⟩])) := rfl
      simp only [Res.bind_ok] at h
      rw [hadd] at h
      simp only [SVariable.link] at h
      have hu : (stateOf fo v D u b vars).nextUid = u := rfl
      rcases registerVariable_spec fo v D (u + 1) b (vars ++ [⟨u, n.name, ty, x.2, n.loc⟩]) ⟨u, n.name, ty⟩ with
        ⟨g1, g2⟩ | ⟨e, _, g1, _, _⟩
      · rw [hu, g1] at h
        cases h
        exact ⟨_, stateOf_env (declsOk_cons henv.decls h2 g2) ..⟩
      · rw [hu, g1] at h
        cases h
        exact ⟨D, stateOf_env henv.decls ..⟩
    | _ => rw [h3] at h; cases h
  · rw [h1] at h
    cases h
    exact ⟨D, henv⟩

theorem visitStatement_env {fo : FloatOps F} {D : List VarLink} {a a' : Analyzer F} (henv : EnvOk fo D a.scopes)
    {s : Stmt F} {es : List Err} (h : visitStatement fo a s = .ok (es, a')) : ∃ D', EnvOk fo D' a'.scopes := by
  by_cases hd : IsDecl s
  · cases s with
    | var => exact visitVariable_env henv h
    | gate | nonGate | asm => cases hd
  · obtain ⟨sc, hsc, g1, g2, g3⟩ := henv.scope
    obtain ⟨r, hr⟩ := visitStatement_frame fo (bare sc) s hd
    have := hr a.apiVersion sc a.nextUid rfl
    obtain ⟨ver, scopes, u⟩ := a
    cases hsc
    rw [this] at h
    cases r with
    | ok x =>
      cases h
      exact ⟨D, henv.decls, addOpt sc x.2, rfl, by cases x.2 <;> exact g1, by cases x.2 <;> exact g2, by cases x.2 <;> exact g3⟩
    | _ => cases h

theorem visitBlock_env {fo : FloatOps F} (ss : List (Stmt F)) : ∀ {D : List VarLink} {a a' : Analyzer F}, EnvOk fo D a.scopes →
    ∀ {es : List Err}, visitBlock fo a ss = .ok (es, a') → ∃ D', EnvOk fo D' a'.scopes := by
  induction ss with
  | nil => intro D a a' henv es h; cases h; exact ⟨D, henv⟩
  | cons s ss ih =>
    intro D a a' henv es h
    simp only [visitBlock] at h
    cases h1 : visitStatement fo a s with
    | ok r =>
      rw [h1] at h
      obtain ⟨D', h2⟩ := visitStatement_env (es := r.1) (a' := r.2) henv h1
      simp only [Res.bind_ok, Log.after] at h
      cases h3 : visitBlock fo r.2 ss with
      | ok q => rw [h3] at h; cases h; exact ih h2 (es := q.1) (a' := q.2) h3
      | _ => rw [h3] at h; cases h
    | _ => rw [h1] at h; cases h

theorem reached_env {fo : FloatOps F} {a : Analyzer F} (h : Reached fo a) : ∃ D, EnvOk fo D a.scopes := by
  induction h with
  | fresh h => rw [default_state h]; exact ⟨[], stateOf_env declsOk_nil ..⟩
  | analyzed _ h ih =>
    obtain ⟨D, henv⟩ := ih
    rename_i a a' p r _
    unfold analyze visitProgram at h
    cases h1 : visitBlock fo a p.block.statements with
    | ok x =>
      obtain ⟨D', henv'⟩ := visitBlock_env _ henv (es := x.1) (a' := x.2) h1
      refine ⟨D', ?_⟩
      obtain ⟨sc, hsc, _⟩ := henv'.scope
      simp only [h1, Res.bind_ok, hsc] at h
      split at h
      · cases h
      · cases h; exact henv'
    | _ => rw [h1] at h; cases h

/-! ## Kinds of results -/

/-- `Selects` as a function. -/
def selectsB (fn : Fn) (args sig : List Kind) : Bool :=
  decide (sig ∈ fn.signatures) && widensAll args sig &&
    fn.signatures.all fun sig' => !widensAll args sig' || widensAll sig sig'

theorem selectsB_iff (fn : Fn) (args sig : List Kind) : selectsB fn args sig = true ↔ Selects fn args sig := by
  simp only [selectsB, Selects, Bool.and_eq_true, decide_eq_true_eq, List.all_eq_true, Bool.or_eq_true, Bool.not_eq_true',
    widensAll_iff, ← Bool.not_eq_true, and_assoc]
  refine and_congr_right fun _ => and_congr_right fun _ => ?_
  constructor
  · intro h s hs hw
    exact (h s hs).resolve_left (fun h => h hw)
  · intro h s hs
    by_cases hw : Forall2 Widens args s
    · exact .inr (h s hs hw)
    · exact .inl hw

/-- No signature accepts the arguments. -/
def rejectsB (fn : Fn) (args : List Kind) : Bool := fn.signatures.all fun sig => !widensAll args sig

theorem rejects {fo : FloatOps F} {fn : Fn} {cs : List (Const F)} (h : rejectsB fn (cs.map Const.kind) = true)
    (o : Option (Const F)) : ¬ Applies fo fn cs o := by
  rintro ⟨sig, cs', hs, _⟩
  simp only [rejectsB, List.all_eq_true, Bool.not_eq_true', ← Bool.not_eq_true, widensAll_iff] at h
  exact h sig hs.1 hs.2.1

theorem convert_exists (fo : FloatOps F) (c : Const F) {k : Kind} (h : Widens c.kind k) :
    ∃ c' : Const F, Converts fo c k c' ∧ c'.kind = k := by
  generalize hj : c.kind = j at h
  cases h with
  | same => subst hj; exact ⟨c, .same c, rfl⟩
  | boolInt =>
    obtain ⟨b, rfl⟩ := kind_bool hj
    cases b
    · exact ⟨_, .falseInt, rfl⟩
    · exact ⟨_, .trueInt, rfl⟩
  | boolFloat =>
    obtain ⟨b, rfl⟩ := kind_bool hj
    exact ⟨_, .boolFloat b, rfl⟩
  | intFloat =>
    obtain ⟨b, rfl⟩ := kind_int hj
    exact ⟨_, .intFloat b, rfl⟩

theorem applies_of_selects {fo : FloatOps F} {fn : Fn} {cs : List (Const F)} {sig : List Kind}
    (h : Selects fn (cs.map Const.kind) sig) :
    ∃ cs' : List (Const F), cs'.map Const.kind = sig ∧ Forall2 (fun a b => Converts fo a b.kind b) cs cs' ∧
      Applies fo fn cs (fn.meaning fo cs') := by
  have key : ∀ (cs : List (Const F)) (sig : List Kind), Forall2 Widens (cs.map Const.kind) sig →
      ∃ cs' : List (Const F), cs'.map Const.kind = sig ∧ Forall2 (fun a b => Converts fo a b.kind b) cs cs' := by
    intro cs
    induction cs with
    | nil => intro sig h; cases h; exact ⟨[], rfl, .nil⟩
    | cons c cs ih =>
      intro sig h
      cases h with
      | cons h1 h2 =>
        obtain ⟨c', g1, g2⟩ := convert_exists fo c h1
        obtain ⟨cs', g3, g4⟩ := ih _ h2
        exact ⟨c' :: cs', by rw [List.map_cons, g2, g3], .cons (by rw [g2]; exact g1) g4⟩
  obtain ⟨cs', h1, h2⟩ := key cs sig h.2.1
  exact ⟨cs', h1, h2, sig, cs', h, h1, h2, rfl⟩

theorem kind_isConst (c : Const F) : IsConstKind c.kind := by
  cases c
  · exact .inl rfl
  · exact .inr (.inl rfl)
  · exact .inr (.inr rfl)

theorem un_selects (op : UnOp) {j : Kind} (hj : IsConstKind j) :
    (∃ m, unKind op j = some m ∧ Selects (.un op) [j] [m]) ∨ (unKind op j = none ∧ rejectsB (.un op) [j] = true) := by
  simp only [← selectsB_iff]
  rcases hj with rfl | rfl | rfl <;> cases op <;>
    first | exact .inl ⟨_, rfl, by decide⟩ | exact .inr ⟨rfl, by decide⟩

theorem bin_selects (op : BinOp) {j k : Kind} (hj : IsConstKind j) (hk : IsConstKind k) :
    (∃ m, binKind op j k = some m ∧ Selects (.bin op) [j, k] [m, m]) ∨
    (binKind op j k = none ∧ rejectsB (.bin op) [j, k] = true) := by
  simp only [← selectsB_iff]
  rcases hj with rfl | rfl | rfl <;> rcases hk with rfl | rfl | rfl <;> cases op <;>
    first | exact .inl ⟨_, rfl, by decide⟩ | exact .inr ⟨rfl, by decide⟩

theorem cond_selects {i j k : Kind} (hi : IsConstKind i) (hj : IsConstKind j) (hk : IsConstKind k) :
    (i = .bool ∧ Selects .cond [i, j, k] [.bool, join j k, join j k]) ∨ (i ≠ .bool ∧ rejectsB .cond [i, j, k] = true) := by
  simp only [← selectsB_iff]
  rcases hi with rfl | rfl | rfl <;> rcases hj with rfl | rfl | rfl <;> rcases hk with rfl | rfl | rfl <;>
    first | exact .inl ⟨rfl, by decide⟩ | exact .inr ⟨by decide, by decide⟩

theorem meaning_un {fo : FloatOps F} {op : UnOp} {c r : Const F} {k : Kind} (hs : [c.kind] ∈ (Fn.un op).signatures) (hk : c.kind = k)
    (h : (Fn.un op).meaning fo [c] = some r) : r.kind = k := by
  subst hk
  cases op <;> cases c <;> simp [Fn.signatures, Const.kind] at hs <;> simp only [Fn.meaning] at h
  · cases hf : fit (-_) <;> rw [hf] at h <;> cases h; rfl
  all_goals cases h; rfl

theorem meaning_bin {fo : FloatOps F} {op : BinOp} {c d r : Const F} {k : Kind} (hs : [k, k] ∈ (Fn.bin op).signatures)
    (hc : c.kind = k) (hd : d.kind = k) (h : (Fn.bin op).meaning fo [c, d] = some r) : r.kind = binResult op k := by
  have fitk : ∀ (z : Int) (r : Const F), (fit z).map .int = some r → r.kind = .int := by
    intro z r h
    cases hf : fit z <;> rw [hf] at h <;> cases h; rfl
  cases c with
  | bool b =>
    cases hc
    obtain ⟨b', rfl⟩ := kind_bool hd
    cases op <;> simp [Fn.signatures, Const.kind] at hs <;> simp only [Fn.meaning, boolBin] at h <;> cases h <;> rfl
  | float f =>
    cases hc
    obtain ⟨g, rfl⟩ := kind_float hd
    cases op <;> simp [Fn.signatures, Const.kind] at hs <;> simp only [Fn.meaning, floatBin] at h <;> cases h <;> rfl
  | int i =>
    cases hc
    obtain ⟨j, rfl⟩ := kind_int hd
    cases op <;> simp [Fn.signatures, Const.kind] at hs <;> simp only [Fn.meaning, intBin] at h
    all_goals first
      | (cases h; rfl)
      | exact fitk _ _ h
      | (split at h
         · cases h
         · exact fitk _ _ h)
      | (split at h
         · cases h; rfl
         · cases h)

end Qasm
