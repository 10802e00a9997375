import Verif.Lemmas.Value
/-!
# The kinds of expressions
-/

namespace Qasm

open Spec Sem

attribute [local irreducible] defaultInstrs defaultFns defaultVars

variable {F : Type} {fo : FloatOps F} {D : List VarLink} {scopes : List (Scope F)}

theorem call_not_ok (henv : EnvOk fo D scopes) (fn : Fn) (vs : List (Value F))
    (hn : ∃ sig ∈ fn.signatures, sig.length = vs.length) (cs : List (Const F)) (hcs : vs.map (·.node) = cs.map Const.node)
    (hr : rejectsB fn (cs.map Const.kind) = true) : ∃ err, callFunction fo scopes fn.name vs = .err err := by
  have hg : ∀ v ∈ vs, GoodNode v.node := by
    intro v hv
    have : v.node ∈ vs.map (·.node) := List.mem_map_of_mem hv
    rw [hcs] at this
    obtain ⟨c, _, hc⟩ := List.mem_map.mp this
    exact .inl ⟨c, hc.symm⟩
  have hno : ∀ (fn' : Fn) (cs' : List (Const F)) (o : Option (Const F)), vs.map (·.node) = cs'.map Const.node → fn'.name = fn.name →
      ¬ Applies fo fn' cs' o := by
    intro fn' cs' o hc' hn' ha
    rw [hcs] at hc'
    have hce : cs' = cs := (List.map_inj_right (fun _ _ => node_inj)).mp hc'.symm
    subst hce
    obtain ⟨sig, hs1, hs2⟩ := hn
    obtain ⟨sig', cs'', h1, _⟩ := id ha
    have hlen : vs.length = cs'.length := by
      have := congrArg List.length hcs
      simpa using this
    have : fn' = fn := regFns_unique (fn', sig') (sig_regFns fn' sig' h1.1) (fn, sig) (sig_regFns fn sig hs1) hn'
      (by show sig'.length = sig.length; rw [selects_length h1, hs2, hlen, List.length_map])
    subst this
    exact rejects hr o ha
  rcases callFunction_spec henv fn.name vs hg with ⟨fn', cs', r, h1, h2, h3, _⟩ | ⟨fn', cs', h1, h2, h3, _⟩ | ⟨_, e, _, h⟩
  · exact absurd h3 (hno fn' cs' _ h1 h2)
  · exact absurd h3 (hno fn' cs' _ h1 h2)
  · exact ⟨e, h⟩

/-- Operators and functions reject references. -/
theorem call_register (henv : EnvOk fo D scopes) (name : Str) (vs : List (Value F)) (hg : ∀ v ∈ vs, GoodNode v.node)
    (v : Value F) (hv : v ∈ vs) (hn : ∀ c : Const F, v.node ≠ c.node) : ∃ err, callFunction fo scopes name vs = .err err := by
  have hno : ∀ cs : List (Const F), vs.map (·.node) ≠ cs.map Const.node := by
    intro cs h
    have : v.node ∈ vs.map (·.node) := List.mem_map_of_mem hv
    rw [h] at this
    obtain ⟨c, _, hc⟩ := List.mem_map.mp this
    exact hn c hc.symm
  rcases callFunction_spec henv name vs hg with ⟨_, cs, _, h, _⟩ | ⟨_, cs, h, _⟩ | ⟨_, e, _, h⟩
  · exact absurd h (hno cs)
  · exact absurd h (hno cs)
  · exact ⟨e, h⟩

theorem value_good (henv : EnvOk fo D scopes) {e : Expr F} {w : Value F} (h : visitExpression fo scopes e = .ok w) :
    GoodNode w.node := eval_good henv.decls ((visitExpression_ok_iff henv e w).mp h).2

theorem const_or_not (w : Value F) : (∃ c : Const F, w.node = c.node) ∨ ∀ c : Const F, w.node ≠ c.node := by
  by_cases h : ∃ c : Const F, w.node = c.node
  · exact .inl h
  · exact .inr fun c hc => h ⟨c, hc⟩

theorem kind_register (henv : EnvOk fo D scopes) {e : Expr F} {w : Value F} (h : visitExpression fo scopes e = .ok w)
    (hn : ∀ c : Const F, w.node ≠ c.node) : ∃ k, kindOf w.node = some k ∧ ¬ IsConstKind k := by
  rcases value_good henv h with ⟨c, hc⟩ | ⟨k, hk, hr⟩
  · exact absurd hc (hn c)
  · exact ⟨k, hk, by rcases hr with rfl | rfl | rfl | rfl <;> decide⟩

/-- What the kind of an expression says about its analysis. -/
def Typed (t : Option Kind) (r : Res Err (Value F)) : Prop :=
  r = .ub ∨ match t with
    | some k => ∃ w, r = .ok w ∧ kindOf w.node = some k
    | none => ∃ err, r = .err err

theorem typed_give {l : Option Loc} {k : Kind} {o : Option (Const F)} (h : ∀ r, o = some r → r.kind = k) :
    Typed (some k) (give l o) := by
  cases o with
  | none => exact .inl rfl
  | some r => exact .inr ⟨_, rfl, by rw [kindOf_node, h r rfl]⟩

/-- An argument: undefined, an error, a constant or a reference. -/
theorem arg_cases (henv : EnvOk fo D scopes) {env : Str → Option Kind} {e : Expr F}
    (h : Typed (typing env e) (visitExpression fo scopes e)) :
    visitExpression fo scopes e = .ub ∨
    (∃ err, visitExpression fo scopes e = .err err ∧ constOnly (typing env e) = none) ∨
    (∃ (c : Const F) (l : Option Loc), visitExpression fo scopes e = .ok ⟨c.node, l⟩ ∧ constOnly (typing env e) = some c.kind) ∨
    (∃ w, visitExpression fo scopes e = .ok w ∧ (∀ c : Const F, w.node ≠ c.node) ∧ constOnly (typing env e) = none) := by
  rcases h with h | h
  · exact .inl h
  right
  rw [constOnly]
  cases ht : typing env e with
  | none =>
    rw [ht] at h
    obtain ⟨err, h⟩ := h
    exact .inl ⟨err, h, rfl⟩
  | some k =>
    rw [ht] at h
    obtain ⟨w, h1, h2⟩ := h
    right
    rcases const_or_not w with ⟨c, hc⟩ | hn
    · left
      obtain ⟨n, l⟩ := w
      dsimp only at hc
      subst hc
      rw [kindOf_node] at h2
      cases h2
      exact ⟨c, l, h1, by simp [Option.filter, kind_isConst]⟩
    · right
      obtain ⟨k', g1, g2⟩ := kind_register henv h1 hn
      rw [h2] at g1
      cases g1
      exact ⟨w, h1, hn, by simp [Option.filter, g2]⟩

theorem locate_errs {l : Option Loc} {r : Res Err (Value F)} (h : ∃ err, r = .err err) : ∃ err, locate l r = .err err := by
  obtain ⟨e, rfl⟩ := h; exact ⟨_, rfl⟩

theorem nodes_good (henv : EnvOk fo D scopes) {es : List (Expr F)} {ws : List (Value F)}
    (h : Forall2 (fun e w => visitExpression fo scopes e = .ok w) es ws) : ∀ w ∈ ws, GoodNode w.node := by
  induction h with
  | nil => simp
  | cons h1 _ ih =>
    intro w hw
    rcases List.mem_cons.mp hw with rfl | hw
    · exact value_good henv h1
    · exact ih w hw

/-- An argument list: undefined, an error, constants, or values with a reference among them. -/
theorem args_cases (henv : EnvOk fo D scopes) {env : Str → Option Kind} {es : List (Expr F)}
    (h : ∀ e ∈ es, Typed (typing env e) (visitExpression fo scopes e)) :
    visitList fo scopes es = .ub ∨
    (∃ err, visitList fo scopes es = .err err ∧ typingAll env es = none) ∨
    (∃ (vs : List (Value F)) (cs : List (Const F)), visitList fo scopes es = .ok vs ∧ vs.map (·.node) = cs.map Const.node ∧
      typingAll env es = some (cs.map Const.kind)) ∨
    (∃ vs, visitList fo scopes es = .ok vs ∧ (∀ v ∈ vs, GoodNode v.node) ∧
      (∃ v ∈ vs, ∀ c : Const F, v.node ≠ c.node) ∧ typingAll env es = none) := by
  induction es with
  | nil => exact .inr (.inr (.inl ⟨[], [], by simp [visitList], rfl, by simp [typingAll]⟩))
  | cons e es ih =>
    have ih := ih fun x hx => h x (List.mem_cons_of_mem _ hx)
    rw [visitList, typingAll]
    rw [show locate e.loc (visit fo scopes e) = visitExpression fo scopes e from rfl]
    rcases arg_cases henv (h e (List.mem_cons_self ..)) with g | ⟨err, g1, g2⟩ | ⟨c, l, g1, g2⟩ | ⟨w, g1, g2, g3⟩
    · exact .inl (by rw [g]; rfl)
    · exact .inr (.inl ⟨err, by rw [g1]; rfl, by rw [g2]; rfl⟩)
    · rw [g1, g2]
      rcases ih with k | ⟨err, k1, k2⟩ | ⟨vs, cs, k1, k2, k3⟩ | ⟨vs, k1, k2, ⟨v, k3, k4⟩, k5⟩
      · exact .inl (by rw [k]; rfl)
      · exact .inr (.inl ⟨err, by rw [k1]; rfl, by rw [k2]; rfl⟩)
      · exact .inr (.inr (.inl ⟨⟨c.node, l⟩ :: vs, c :: cs, by rw [k1]; rfl, by simp [k2], by rw [k3]; rfl⟩))
      · refine .inr (.inr (.inr ⟨⟨c.node, l⟩ :: vs, by rw [k1]; rfl, ?_, ⟨v, List.mem_cons_of_mem _ k3, k4⟩, by rw [k5]; rfl⟩))
        intro v hv
        rcases List.mem_cons.mp hv with rfl | hv
        · exact .inl ⟨c, rfl⟩
        · exact k2 v hv
    · rw [g1, g3]
      have hgood := value_good henv g1
      rcases ih with k | ⟨err, k1, k2⟩ | ⟨vs, cs, k1, k2, k3⟩ | ⟨vs, k1, k2, _, k5⟩
      · exact .inl (by rw [k]; rfl)
      · exact .inr (.inl ⟨err, by rw [k1]; rfl, rfl⟩)
      · refine .inr (.inr (.inr ⟨w :: vs, by rw [k1]; rfl, ?_, ⟨w, List.mem_cons_self .., g2⟩, rfl⟩))
        intro v hv
        rcases List.mem_cons.mp hv with rfl | hv
        · exact hgood
        · have : v.node ∈ vs.map (·.node) := List.mem_map_of_mem hv
          rw [k2] at this
          obtain ⟨c, _, hc⟩ := List.mem_map.mp this
          exact .inl ⟨c, hc.symm⟩
      · refine .inr (.inr (.inr ⟨w :: vs, by rw [k1]; rfl, ?_, ⟨w, List.mem_cons_self .., g2⟩, rfl⟩))
        intro v hv
        rcases List.mem_cons.mp hv with rfl | hv
        · exact hgood
        · exact k2 v hv

theorem typed_un (henv : EnvOk fo D scopes) {env : Str → Option Kind} {l : Option Loc} {op : UnOp} {e : Expr F}
    (h : Typed (typing env e) (visitExpression fo scopes e)) :
    Typed (typing env (.un l op e)) (visitExpression fo scopes (.un l op e)) := by
  have hv : visitExpression fo scopes (.un l op e) = locate l ((visitExpression fo scopes e).bind fun v =>
    callFunction fo scopes (c!"operator" ++ unSymbol op) [v]) := by simp [visitExpression, visit, Expr.loc]
  rw [typing]
  rcases arg_cases henv h with g | ⟨err, g1, g2⟩ | ⟨c, l₁, g1, g2⟩ | ⟨w, g1, g2, g3⟩
  · exact .inl (by rw [hv, g]; rfl)
  · rw [hv, g1, g2]; exact .inr ⟨_, rfl⟩
  · rw [g2, Option.bind_some]
    rcases un_selects op (kind_isConst c) with ⟨m, k1, k2⟩ | ⟨k1, k2⟩
    · obtain ⟨cs', h1, h2, h3⟩ := applies_of_selects (fo := fo) (cs := [c]) k2
      rw [un_value henv g1 h3, k1]
      refine typed_give fun r hr => ?_
      match cs', h1 with
      | [c'], h1 =>
        simp only [List.map_cons, List.map_nil, List.cons.injEq, and_true] at h1
        exact meaning_un (by rw [h1]; exact k2.1) h1 hr
    · rw [k1, hv, g1, Res.bind_ok, un_name]
      exact .inr (locate_errs (call_not_ok henv (.un op) _ (un_arity op) [c] rfl k2))
  · rw [g3, hv, g1, Res.bind_ok]
    exact .inr (locate_errs (call_register henv _ [w] (by simpa using value_good henv g1) w (by simp) g2))

theorem typed_bin (henv : EnvOk fo D scopes) {env : Str → Option Kind} {l : Option Loc} {op : BinOp} {a b : Expr F}
    (ha : Typed (typing env a) (visitExpression fo scopes a)) (hb : Typed (typing env b) (visitExpression fo scopes b)) :
    Typed (typing env (.bin l op a b)) (visitExpression fo scopes (.bin l op a b)) := by
  have hv : visitExpression fo scopes (.bin l op a b) = locate l ((visitExpression fo scopes a).bind fun v =>
    (visitExpression fo scopes b).bind fun w => callFunction fo scopes (c!"operator" ++ binSymbol op) [v, w]) := by
    simp [visitExpression, visit, Expr.loc]
  rw [typing]
  rcases arg_cases henv ha with g | ⟨err, g1, g2⟩ | ⟨c, l₁, g1, g2⟩ | ⟨w, g1, g2, g3⟩
  · exact .inl (by rw [hv, g]; rfl)
  · rw [hv, g1, g2]; exact .inr ⟨_, rfl⟩
  · rcases arg_cases henv hb with k | ⟨err, k1, k2⟩ | ⟨d, l₂, k1, k2⟩ | ⟨w, k1, k2, k3⟩
    · exact .inl (by rw [hv, g1, k]; rfl)
    · rw [hv, g1, k1, g2, k2]; exact .inr ⟨_, rfl⟩
    · rw [g2, k2, Option.bind_some, Option.bind_some]
      rcases bin_selects op (kind_isConst c) (kind_isConst d) with ⟨m, m1, m2⟩ | ⟨m1, m2⟩
      · obtain ⟨cs', h1, h2, h3⟩ := applies_of_selects (fo := fo) (cs := [c, d]) m2
        rw [bin_value henv g1 k1 h3, m1, Option.map_some]
        refine typed_give fun r hr => ?_
        match cs', h1 with
        | [c', d'], h1 =>
          simp only [List.map_cons, List.map_nil, List.cons.injEq, and_true] at h1
          exact meaning_bin m2.1 h1.1 h1.2 hr
      · rw [m1, hv, g1, k1, Res.bind_ok, Res.bind_ok, bin_name]
        exact .inr (locate_errs (call_not_ok henv (.bin op) _ (bin_arity op) [c, d] rfl m2))
    · rw [g2, k3, hv, g1, k1, Res.bind_ok, Res.bind_ok]
      exact .inr (locate_errs (call_register henv _ _ (by
        simp only [List.mem_cons, List.not_mem_nil, or_false]
        rintro v (rfl | rfl)
        · exact .inl ⟨c, rfl⟩
        · exact value_good henv k1) w (by simp) k2))
  · rw [g3]
    rcases arg_cases henv hb with k | ⟨err, k1, _⟩ | ⟨d, l₂, k1, _⟩ | ⟨w', k1, _⟩
    · exact .inl (by rw [hv, g1, k]; rfl)
    · rw [hv, g1, k1]; exact .inr ⟨_, rfl⟩
    all_goals
      rw [hv, g1, k1, Res.bind_ok, Res.bind_ok]
      exact .inr (locate_errs (call_register henv _ _ (by
        simp only [List.mem_cons, List.not_mem_nil, or_false]
        rintro v (rfl | rfl)
        · exact value_good henv g1
        · exact value_good henv k1) w (by simp) g2))

theorem typed_tern (henv : EnvOk fo D scopes) {env : Str → Option Kind} {l : Option Loc} {e a b : Expr F}
    (he : Typed (typing env e) (visitExpression fo scopes e))
    (ha : Typed (typing env a) (visitExpression fo scopes a)) (hb : Typed (typing env b) (visitExpression fo scopes b)) :
    Typed (typing env (.tern l e a b)) (visitExpression fo scopes (.tern l e a b)) := by
  have hlist : visitExpression fo scopes (.tern l e a b) =
      locate l ((visitList fo scopes [e, a, b]).bind fun vs => callFunction fo scopes c!"operator?:" vs) := by
    rw [visitExpression, show (Expr.tern l e a b).loc = l from rfl]
    simp only [visit, visitList]
    cases locate e.loc (visit fo scopes e) <;> try rfl
    cases locate a.loc (visit fo scopes a) <;> try rfl
    cases locate b.loc (visit fo scopes b) <;> rfl
  have htyp : typing env (.tern l e a b) = (typingAll env [e, a, b]).bind fun
      | [i, j, k] => if i = .bool then some (join j k) else none
      | _ => none := by
    simp only [typing, typingAll]
    cases constOnly (typing env e) <;> simp
    cases constOnly (typing env a) <;> simp
    cases constOnly (typing env b) <;> simp
  rw [htyp]
  rcases args_cases henv (env := env) (es := [e, a, b]) (by
      simp only [List.mem_cons, List.not_mem_nil, or_false]
      rintro x (rfl | rfl | rfl) <;> assumption) with g | ⟨err, g1, g2⟩ | ⟨vs, cs, g1, g2, g3⟩ | ⟨vs, g1, g2, ⟨v, g3, g4⟩, g5⟩
  · exact .inl (by rw [hlist, g]; rfl)
  · rw [hlist, g1, g2]; exact .inr ⟨_, rfl⟩
  · rw [hlist, g1, g3, Res.bind_ok, Option.bind_some]
    have hlen : vs.length = 3 := by
      simp only [visitList] at g1
      cases h1 : locate e.loc (visit fo scopes e) <;> rw [h1] at g1 <;> simp at g1
      cases h2 : locate a.loc (visit fo scopes a) <;> rw [h2] at g1 <;> simp at g1
      cases h3 : locate b.loc (visit fo scopes b) <;> rw [h3] at g1 <;> simp at g1
      subst g1
      rfl
    match cs, (show cs.length = 3 by have := congrArg List.length g2; simpa [hlen] using this.symm) with
    | [i, j, k], _ =>
      rcases cond_selects (kind_isConst i) (kind_isConst j) (kind_isConst k) with ⟨m1, m2⟩ | ⟨m1, m2⟩
      · obtain ⟨cs', h1, h2, h3⟩ := applies_of_selects (fo := fo) (cs := [i, j, k]) m2
        rw [show c!"operator?:" = Fn.cond.name from rfl, callFunction_consts henv .cond vs _ g2 _ h3]
        simp only [List.map_cons, List.map_nil, m1, if_true]
        match cs', h1 with
        | [i', j', k'], h1 =>
          simp only [List.map_cons, List.map_nil, List.cons.injEq, and_true] at h1
          obtain ⟨t, rfl⟩ := kind_bool h1.1
          simp only [Fn.meaning]
          refine .inr ⟨_, rfl, ?_⟩
          dsimp only
          cases t <;> simp [kindOf_node, h1]
      · simp only [List.map_cons, List.map_nil, if_neg m1]
        exact .inr (locate_errs (call_not_ok henv .cond vs (by rw [hlen]; exact cond_arity) _ g2 m2))
  · rw [hlist, g1, g5, Res.bind_ok]
    exact .inr (locate_errs (call_register henv _ vs g2 v g3 g4))

theorem math_mem (f : MathFn) : f.name ∈ mathNames := by cases f <;> decide

theorem math_of_mem {name : Str} (h : name ∈ mathNames) : ∃ f : MathFn, f.name = name := by
  simp only [mathNames, List.mem_cons, List.not_mem_nil, or_false] at h
  rcases h with rfl | rfl | rfl | rfl | rfl | rfl | rfl | rfl | rfl | rfl | rfl | rfl | rfl | rfl | rfl
  · exact ⟨.sqrt, rfl⟩
  · exact ⟨.exp, rfl⟩
  · exact ⟨.log, rfl⟩
  · exact ⟨.sin, rfl⟩
  · exact ⟨.cos, rfl⟩
  · exact ⟨.tan, rfl⟩
  · exact ⟨.sinh, rfl⟩
  · exact ⟨.cosh, rfl⟩
  · exact ⟨.tanh, rfl⟩
  · exact ⟨.asin, rfl⟩
  · exact ⟨.acos, rfl⟩
  · exact ⟨.atan, rfl⟩
  · exact ⟨.asinh, rfl⟩
  · exact ⟨.acosh, rfl⟩
  · exact ⟨.atanh, rfl⟩

theorem math_selects (f : MathFn) {k : Kind} (hk : IsConstKind k) : Selects (.math f) [k] [.float] := by
  rw [← selectsB_iff]
  rcases hk with rfl | rfl | rfl <;> cases f <;> decide

theorem abs_selects {k : Kind} (hk : IsConstKind k) :
    Selects .abs [k] [if k = .float then .float else .int] := by
  rw [← selectsB_iff]
  rcases hk with rfl | rfl | rfl <;> decide

theorem identifier_fn {fn : Fn} (h : ∀ c ∈ fn.name, c.isAlphanum = true ∨ c = '_') : (∃ f, fn = .math f) ∨ fn = .abs := by
  have hall : ∀ fn ∈ allFns, (fn.name.all fun c => c.isAlphanum || c = '_') = true → (fn.name ∈ mathNames ∨ fn = .abs) := by decide
  have h1 : (fn.name.all fun c => c.isAlphanum || c = '_') = true := by
    rw [List.all_eq_true]; intro c hc; simpa using h c hc
  rcases hall fn (mem_allFns fn) h1 with h2 | h2
  · rcases fn with op | op | _ | f | _
    · cases op <;> exact absurd h2 (by decide)
    · cases op <;> exact absurd h2 (by decide)
    · exact absurd h2 (by decide)
    · exact .inl ⟨f, rfl⟩
    · exact .inr rfl
  · exact .inr h2

/-- Calls of functions on constants. -/
theorem call_consts (henv : EnvOk fo D scopes) (name : Str) (hn : ∀ c ∈ name, c.isAlphanum = true ∨ c = '_')
    (vs : List (Value F)) (cs : List (Const F)) (hcs : vs.map (·.node) = cs.map Const.node) :
    callFunction fo scopes name vs = .ub ∨
    (∃ r : Const F, callFunction fo scopes name vs = .ok ⟨r.node, none⟩ ∧ callKind name (cs.map Const.kind) = some r.kind) ∨
    ((∃ err, callFunction fo scopes name vs = .err err) ∧ callKind name (cs.map Const.kind) = none) := by
  have hg : ∀ v ∈ vs, GoodNode v.node := by
    intro v hv
    have : v.node ∈ vs.map (·.node) := List.mem_map_of_mem hv
    rw [hcs] at this
    obtain ⟨c, _, hc⟩ := List.mem_map.mp this
    exact .inl ⟨c, hc.symm⟩
  have habs : c!"abs" ∉ mathNames := by decide
  rcases callFunction_spec henv name vs hg with ⟨fn, cs', r, h1, rfl, h3, h4⟩ | ⟨fn, cs', h1, h2, h3, h4⟩ | ⟨hno, e, _, h⟩
  · right; left
    rw [hcs] at h1
    have hce : cs' = cs := (List.map_inj_right (fun _ _ => node_inj)).mp h1.symm
    subst hce
    refine ⟨r, h4, ?_⟩
    obtain ⟨sig, cs'', k1, k2, k3, k4⟩ := h3
    rcases identifier_fn hn with ⟨f, rfl⟩ | rfl
    · have hsig : sig = [.float] := by simpa [Fn.signatures] using k1.1
      have hlen := selects_length k1
      subst hsig
      match cs', hlen with
      | [c], _ =>
        match cs'', k2 with
        | [c''], k2 =>
          simp only [List.map_cons, List.map_nil, List.cons.injEq, and_true] at k2
          obtain ⟨x, rfl⟩ := kind_float k2
          cases k4
          simp [callKind, Fn.name, math_mem, Const.kind]
    · have hlen := selects_length k1
      have hone : sig.length = 1 := by
        have := k1.1
        simp [Fn.signatures] at this
        rcases this with rfl | rfl <;> rfl
      rw [hone] at hlen
      match cs', (show cs'.length = 1 by simpa using hlen.symm) with
      | [c], _ =>
        have hs := selects_det k1 (abs_selects (kind_isConst c))
        subst hs
        match cs'', k2 with
        | [c''], k2 =>
          simp only [List.map_cons, List.map_nil, List.cons.injEq, and_true] at k2
          simp only [callKind, Fn.name, List.map_cons, List.map_nil, if_neg habs, if_true]
          rw [← k2]
          cases c'' with
          | bool => split at k2 <;> cases k2
          | int i =>
            simp only [Fn.meaning] at k4
            cases hf : fit (i.toInt.natAbs : Int) <;> rw [hf] at k4 <;> cases k4
            rfl
          | float => cases k4; rfl
  · exact .inl h4
  · right; right
    refine ⟨⟨e, h⟩, ?_⟩
    match cs with
    | [] => rfl
    | _ :: _ :: _ => rfl
    | [c] =>
      have key : ∀ fn : Fn, fn.name = name → ∀ sig, ¬ Selects fn [c.kind] sig := by
        intro fn hfn sig hsel
        obtain ⟨cs', _, _, h3⟩ := applies_of_selects (fo := fo) (cs := [c]) hsel
        exact hno ⟨fn, [c], _, hcs, hfn, h3⟩
      simp only [List.map_cons, List.map_nil, callKind]
      rw [if_neg, if_neg]
      · rintro rfl
        exact key .abs rfl _ (abs_selects (kind_isConst c))
      · intro hm
        obtain ⟨f, hf⟩ := math_of_mem hm
        exact key (.math f) hf _ (math_selects f (kind_isConst c))

mutual
theorem typed {env : Str → Option Kind} (henv : EnvOk fo D scopes)
    (hid : ∀ x, Typed (env x) (visitExpression fo scopes (.ident none x))) :
    ∀ e : Expr F, Simple e → Typed (typing env e) (visitExpression fo scopes e)
  | .boolLit l v, _ => by
    rw [typing]
    exact .inr ⟨⟨(Const.bool v).node, l⟩, by simp [visitExpression, visit, locate, Expr.loc, Const.node], rfl⟩
  | .intLit l v, _ => by
    rw [typing]
    exact .inr ⟨⟨(Const.int v).node, l⟩, by simp [visitExpression, visit, locate, Expr.loc, Const.node], rfl⟩
  | .floatLit l v, _ => by
    rw [typing]
    exact .inr ⟨⟨(Const.float v).node, l⟩, by simp [visitExpression, visit, locate, Expr.loc, Const.node], rfl⟩
  | .ident l x, _ => by
    have := hid x
    rw [typing]
    simp only [visitExpression, visit] at this ⊢
    unfold Typed at this ⊢
    cases h : Analyzer.resolveVariable scopes x with
    | ok w =>
      rw [h] at this
      rcases this with h | this
      · cases h
      · right
        cases hk : env x with
        | none => rw [hk] at this; obtain ⟨_, h⟩ := this; cases h
        | some k =>
          rw [hk] at this
          obtain ⟨w', h1, h2⟩ := this
          cases h1
          exact ⟨_, rfl, h2⟩
    | err e =>
      rw [h] at this
      rcases this with h | this
      · cases h
      · right
        cases hk : env x with
        | none => exact ⟨_, rfl⟩
        | some k => rw [hk] at this; obtain ⟨_, h, _⟩ := this; cases h
    | exn c =>
      rw [h] at this
      rcases this with h | this
      · cases h
      · cases hk : env x with
        | none => rw [hk] at this; obtain ⟨_, h⟩ := this; cases h
        | some k => rw [hk] at this; obtain ⟨_, h, _⟩ := this; cases h
    | ub => exact .inl rfl
  | .index .., hs => hs.elim
  | .un l op e, hs => typed_un henv (typed henv hid e hs)
  | .bin l op a b, hs => typed_bin henv (typed henv hid a hs.1) (typed henv hid b hs.2)
  | .tern l e a b, hs => typed_tern henv (typed henv hid e hs.1) (typed henv hid a hs.2.1) (typed henv hid b hs.2.2)
  | .call l name args, hs => by
    have hl := typedAll henv hid args hs.2
    have hv : visitExpression fo scopes (.call l name args) =
        locate l ((visitList fo scopes args).bind fun vs => callFunction fo scopes name vs) := by
      simp [visitExpression, visit, Expr.loc]
    rw [typing]
    rcases args_cases henv hl with g | ⟨err, g1, g2⟩ | ⟨vs, cs, g1, g2, g3⟩ | ⟨vs, g1, g2, ⟨v, g3, g4⟩, g5⟩
    · exact .inl (by rw [hv, g]; rfl)
    · rw [hv, g1, g2]; exact .inr ⟨_, rfl⟩
    · rw [hv, g1, g3, Res.bind_ok, Option.bind_some]
      rcases call_consts henv name hs.1 vs cs g2 with k | ⟨r, k1, k2⟩ | ⟨⟨err, k1⟩, k2⟩
      · exact .inl (by rw [k]; rfl)
      · rw [k1, k2]; exact .inr ⟨_, rfl, by rw [kindOf_node]⟩
      · rw [k1, k2]; exact .inr ⟨_, rfl⟩
    · rw [hv, g1, g5, Res.bind_ok]
      exact .inr (locate_errs (call_register henv _ vs g2 v g3 g4))
theorem typedAll {env : Str → Option Kind} (henv : EnvOk fo D scopes)
    (hid : ∀ x, Typed (env x) (visitExpression fo scopes (.ident none x))) :
    ∀ es : List (Expr F), SimpleAll es → ∀ e ∈ es, Typed (typing env e) (visitExpression fo scopes e)
  | [], _ => by simp
  | e :: es, hs => List.forall_mem_cons.mpr ⟨typed henv hid e hs.1, typedAll henv hid es hs.2⟩
end

end Qasm
