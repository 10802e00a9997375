import Verif.Lemmas.Params
/-!
# Helper lemmas: gates and modifiers
-/

namespace Qasm

open Spec Sem

variable {F : Type}

/-- The parameter specification of an instruction as a function. -/
def specOk (name : Str) (ks : List Kind) : Bool :=
  match InstructionSet.getInstructionParamTypes name with
  | .ok none => ks = []
  | .ok (some s) => Types.fromSpec s = some (ks.map Ty.bare)
  | _ => false

theorem specOk_spec {name : Str} {ks : List Kind} (h : specOk name ks = true) :
    ∃ sp, InstructionSet.getInstructionParamTypes name = .ok sp ∧ SpecOf sp ks := by
  unfold specOk at h
  split at h
  · exact ⟨_, ‹_›, .inl ⟨rfl, by simpa using h⟩⟩
  · exact ⟨_, ‹_›, .inr ⟨_, rfl, by simpa using h⟩⟩
  · cases h

theorem named_facts : ∀ e ∈ namedGates, InstructionSet.isNonGate e.1 = false ∧ specOk e.1 e.2.2 = true ∧
    InstructionSet.isTwoQubitGate e.1 = decide (e.2.1 = 2) ∧ (e.2.1 = 1 ∨ e.2.1 = 2) ∧
    (∀ k ∈ e.2.2, k = .int ∨ k = .float) := by decide +kernel

theorem named_unique : ∀ e ∈ namedGates, ∀ e' ∈ namedGates, e.1 = e'.1 → e = e' := by decide +kernel

theorem named_complete {name : Str} (h : InstructionSet.isNamedGate name = true) :
    ∃ n ks, (name, n, ks) ∈ namedGates := by
  have key : ∀ x ∈ InstructionSet.singleQubitNamedGateList ++ InstructionSet.twoQubitNamedGateList,
      ∃ e ∈ namedGates, e.1 = x := by decide +kernel
  have hm : name ∈ InstructionSet.singleQubitNamedGateList ++ InstructionSet.twoQubitNamedGateList := by
    simpa [InstructionSet.isNamedGate, InstructionSet.isSingleQubitNamedGate, InstructionSet.isTwoQubitNamedGate,
      InstructionSet.contains] using h
  obtain ⟨⟨x, n, ks⟩, h1, rfl⟩ := key name hm
  exact ⟨n, ks, h1⟩

theorem not_register_of {k : Kind} (h : k = .int ∨ k = .float) : ¬ RegisterKind k := by
  rcases h with rfl | rfl <;> simp [RegisterKind]

/-- The parameter kinds of the modifiers. -/
def modifierKinds (name : Str) : List Kind := if name = c!"pow" then [.float] else []

theorem modifier_facts : ∀ name ∈ modifiers, InstructionSet.isNonGate name = false ∧
    specOk name (modifierKinds name) = true ∧ (∀ k ∈ modifierKinds name, k = .int ∨ k = .float) := by decide +kernel

theorem modifiers_cases {name : Str} (h : name ∈ modifiers) : name = c!"inv" ∨ name = c!"pow" ∨ name = c!"ctrl" := by
  simpa [modifiers] using h

theorem resolveParameters_named (fo : FloatOps F) {name : Str} {n : Nat} {ks : List Kind}
    (h : (name, n, ks) ∈ namedGates) (vs : List (Value F)) (hg : ∀ v ∈ vs, GoodNode v.node) :
    (∃ ws, resolveParameters fo name vs = .ok ws ∧ Convs fo vs ks ws) ∨
    (∃ err : Err, err.location = none ∧ resolveParameters fo name vs = .err err ∧ ¬∃ ws, Convs fo vs ks ws) := by
  obtain ⟨h1, h2, _, _, h5⟩ := named_facts _ h
  obtain ⟨sp, h6, h7⟩ := specOk_spec h2
  exact resolveParameters_gate fo name sp ks vs h1 h6 h7 (fun k hk => not_register_of (h5 k hk)) hg

theorem resolveParameters_modifier (fo : FloatOps F) {name : Str} (h : name ∈ modifiers)
    (vs : List (Value F)) (hg : ∀ v ∈ vs, GoodNode v.node) :
    (∃ ws, resolveParameters fo name vs = .ok ws ∧ Convs fo vs (modifierKinds name) ws) ∨
    (∃ err : Err, err.location = none ∧ resolveParameters fo name vs = .err err ∧
      ¬∃ ws, Convs fo vs (modifierKinds name) ws) := by
  obtain ⟨h1, h2, h5⟩ := modifier_facts _ h
  obtain ⟨sp, h6, h7⟩ := specOk_spec h2
  exact resolveParameters_gate fo name sp _ vs h1 h6 h7 (fun k hk => not_register_of (h5 k hk)) hg

theorem modifier_isGateModifier (name : Str) : InstructionSet.isGateModifier name = true ↔ name ∈ modifiers := by
  simp [InstructionSet.isGateModifier, InstructionSet.isInvGateModifier, InstructionSet.isPowGateModifier,
    InstructionSet.isCtrlGateModifier, modifiers, InstructionSet.invGateModifierName, InstructionSet.powGateModifierName,
    InstructionSet.ctrlGateModifierName, or_assoc]

theorem isNonGate_iff (name : Str) : InstructionSet.isNonGate name = true ↔ name ∈ nonGates := by
  simp [InstructionSet.isNonGate, InstructionSet.contains, nonGates, InstructionSet.nonGateList]

theorem resolveParameters_unknown (fo : FloatOps F) {name : Str} (h1 : ¬∃ n ks, (name, n, ks) ∈ namedGates)
    (h2 : name ∉ modifiers) (h3 : name ∉ nonGates) (vs : List (Value F)) :
    ∃ err : Err, err.location = none ∧ resolveParameters fo name vs = .err err := by
  have hn : InstructionSet.isNamedGate name = false := by
    rw [← Bool.not_eq_true]; exact fun h => h1 (named_complete h)
  have hg : InstructionSet.isNonGate name = false := by
    rw [← Bool.not_eq_true]; exact fun h => h3 ((isNonGate_iff name).mp h)
  have hm : InstructionSet.isGateModifier name = false := by
    rw [← Bool.not_eq_true]; exact fun h => h2 ((modifier_isGateModifier name).mp h)
  refine ⟨_, ?_, by simp only [resolveParameters, InstructionSet.getInstructionParamTypes, hn, hg, hm]; rfl⟩
  rfl

/-! ## Names -/

theorem two_prefix (r : Str) : InstructionSet.isTwoQubitGate (c!"2q_" ++ r) = true := by
  simp [InstructionSet.isTwoQubitGate, InstructionSet.isTwoQubitGateComposition, InstructionSet.startsWith,
    InstructionSet.twoQubitGateCompositionPrefix, List.isPrefixOf]

theorem one_prefix (r : Str) : InstructionSet.isTwoQubitGate (c!"1q_" ++ r) = false := by
  simp [InstructionSet.isTwoQubitGate, InstructionSet.isTwoQubitGateComposition, InstructionSet.startsWith,
    InstructionSet.twoQubitGateCompositionPrefix, List.isPrefixOf, InstructionSet.isTwoQubitNamedGate,
    InstructionSet.contains, InstructionSet.twoQubitNamedGateList]

/-- Names and arity of an accepted gate. -/
structure GateNames (g : Gate F) (n : Nat) (s : SGate F) : Prop where
  terminal : gateTerminalName s = rootName g
  resolution : gateResolutionName s = refName g
  two : InstructionSet.isTwoQubitGate (refName g) = decide (n = 2)
  arity : n = 1 ∨ n = 2

theorem gateOk_names {fo : FloatOps F} {D : List VarLink} {g : Gate F} {n : Nat} {s : SGate F}
    (h : GateOk fo D g n s) : GateNames g n s := by
  induction h with
  | named h1 =>
    obtain ⟨_, _, h3, h4, _⟩ := named_facts _ h1
    exact ⟨by simp [gateTerminalName, rootName], by simp [gateResolutionName, refName], by simpa [refName] using h3, h4⟩
  | inv _ _ ih => exact ⟨by simp [gateTerminalName, rootName, ih.terminal], by
      simp [gateResolutionName, refName, ih.terminal]; rfl, by simp [refName]; exact one_prefix _, .inl rfl⟩
  | pow _ _ _ ih => exact ⟨by simp [gateTerminalName, rootName, ih.terminal], by
      simp [gateResolutionName, refName, ih.terminal]; rfl, by simp [refName]; exact one_prefix _, .inl rfl⟩
  | ctrl _ _ ih => exact ⟨by simp [gateTerminalName, rootName, ih.terminal], by
      simp [gateResolutionName, refName, ih.terminal]; rfl, by simp [refName]; exact two_prefix _, .inr rfl⟩

/-- The arity is determined by the gate. -/
theorem gateOk_arity {fo : FloatOps F} {D : List VarLink} {g : Gate F} {n m : Nat} {s t : SGate F}
    (h : GateOk fo D g n s) (h' : GateOk fo D g m t) : n = m := by
  have h1 := gateOk_names h
  have h2 := gateOk_names h'
  have := h1.two.symm.trans h2.two
  rcases h1.arity with rfl | rfl <;> rcases h2.arity with rfl | rfl <;> simp at this <;> rfl

theorem checkGate_ok {g : Gate F} {s : SGate F} (h : GateNames g 1 s) : checkGate (some s) = .ok () := by
  simp [checkGate, h.resolution, h.two]

theorem checkGate_err {g : Gate F} {n : Nat} {s : SGate F} (h : GateNames g n s) (hn : n ≠ 1) :
    ∃ e : Err, e.location = none ∧ checkGate (some s) = .err e := by
  rcases h.arity with rfl | rfl
  · exact absurd rfl hn
  · exact ⟨_, rfl, by simp only [checkGate, h.resolution, h.two]; rfl⟩

/-! ## `visit_gate` -/

theorem visitGate_of_ok {fo : FloatOps F} {D : List VarLink} {scopes : List (Scope F)} (henv : EnvOk fo D scopes)
    {g : Gate F} {n : Nat} {s : SGate F} (h : GateOk fo D g n s) : visitGate fo scopes g = .ok ([], .ok s) := by
  have rest : ∀ {l as name ps ks ws sas} {inner : Option (SGate F)},
      (∀ vs : List (Value F), (∀ v ∈ vs, GoodNode v.node) →
        (∃ ws, resolveParameters fo name vs = .ok ws ∧ Convs fo vs ks ws) ∨
        (∃ err : Err, err.location = none ∧ resolveParameters fo name vs = .err err ∧ ¬∃ ws, Convs fo vs ks ws)) →
      EvalParams fo D ps ks ws → checkGate inner = .ok () → EvalAnnotations fo D as sas →
      visitGateRest fo scopes l as name inner ps = .ok ([], .ok (.mk name inner ws sas l)) := by
    intro l as name ps ks ws sas inner hr hp hc ha
    obtain ⟨vs, h1, h2⟩ := evalParams_iff.mp hp
    have h3 : resolveParameters fo name vs = .ok ws := by
      rcases hr vs (evalAll_good henv.decls h1) with ⟨ws', h4, h5⟩ | ⟨_, _, _, h5⟩
      · rw [h4, convs_det h2 h5]
      · exact absurd ⟨_, h2⟩ h5
    simp only [visitGateRest, visitList_of_evalAll henv h1, Res.bind_ok, h3, hc, visitAnnotations_of_eval henv ha]
  induction h with
  | named h1 h2 h3 =>
    rw [visitGate]
    exact rest (fun vs hv => resolveParameters_named fo h1 vs hv) h2 rfl h3
  | inv h1 h2 ih =>
    rw [visitGate, ih]
    simp only [Res.bind_ok, Log.after]
    rw [rest (ks := []) (fun vs hv => resolveParameters_modifier fo (by decide) vs hv) .nil
      (checkGate_ok (gateOk_names h1)) h2]
    rfl
  | pow h1 hp h2 ih =>
    rw [visitGate, ih]
    simp only [Res.bind_ok, Log.after]
    rw [rest (ks := [.float]) (fun vs hv => resolveParameters_modifier fo (by decide) vs hv) hp
      (checkGate_ok (gateOk_names h1)) h2]
    rfl
  | ctrl h1 h2 ih =>
    rw [visitGate, ih]
    simp only [Res.bind_ok, Log.after]
    rw [rest (ks := []) (fun vs hv => resolveParameters_modifier fo (by decide) vs hv) .nil
      (checkGate_ok (gateOk_names h1)) h2]
    rfl

theorem visitGate_of_undef {fo : FloatOps F} {D : List VarLink} {scopes : List (Scope F)} (henv : EnvOk fo D scopes)
    {g : Gate F} (h : UndefGate fo D g) : visitGate fo scopes g = .ub := by
  induction h with
  | named h => simp [visitGate, visitGateRest, visitList_of_undef henv h]
  | inner _ ih => simp [visitGate, ih]
  | modifier h1 h2 => simp [visitGate, visitGate_of_ok henv h1, visitGateRest, visitList_of_undef henv h2, Log.after]

/-- The outcomes of `visitGateRest`. -/
theorem visitGateRest_cases {fo : FloatOps F} {D : List VarLink} {scopes : List (Scope F)} (henv : EnvOk fo D scopes)
    (l : Option Loc) (as : List (AnnotationData F)) (name : Str) (inner : Option (SGate F)) (ps : List (Expr F))
    (ks : List Kind)
    (hr : ∀ vs : List (Value F), (∀ v ∈ vs, GoodNode v.node) →
      (∃ ws, resolveParameters fo name vs = .ok ws ∧ Convs fo vs ks ws) ∨
      (∃ err : Err, resolveParameters fo name vs = .err err)) :
    (∃ ws sas, visitGateRest fo scopes l as name inner ps = .ok ([], .ok (.mk name inner ws sas l)) ∧
      EvalParams fo D ps ks ws ∧ checkGate inner = .ok () ∧ EvalAnnotations fo D as sas) ∨
    (visitGateRest fo scopes l as name inner ps = .ub ∧ (as = [] → UndefList fo D ps)) ∨
    (∃ e, visitGateRest fo scopes l as name inner ps = .ok ([], .error e)) ∨
    (∃ e errs s, visitGateRest fo scopes l as name inner ps = .ok (e :: errs, .ok s) ∧ as ≠ []) := by
  unfold visitGateRest
  rcases visitList_all henv ps with ⟨vs, h1, h2⟩ | ⟨h1, h2⟩ | ⟨err, h1, _⟩
  · rw [h1, Res.bind_ok]
    rcases hr vs (evalAll_good henv.decls h2) with ⟨ws, h3, h4⟩ | ⟨err, h3⟩
    · rw [h3, Res.bind_ok]
      have hc : checkGate inner = .ok () ∨ ∃ e, checkGate inner = .err e := by
        unfold checkGate
        split
        · exact .inl rfl
        · split
          · exact .inr ⟨_, rfl⟩
          · exact .inl rfl
      rcases hc with hc | ⟨e, hc⟩
      · rw [hc, Res.bind_ok]
        rcases visitAnnotations_cases henv as with ⟨sas, h5, h6⟩ | ⟨h5, h6⟩ | ⟨x, errs, sas, h5, h6⟩ <;> simp only [h5]
        · exact .inl ⟨ws, sas, rfl, evalParams_iff.mpr ⟨vs, h2, h4⟩, trivial, h6⟩
        · exact .inr (.inl ⟨rfl, fun h => absurd h h6⟩)
        · exact .inr (.inr (.inr ⟨_, _, _, rfl, h6⟩))
      · rw [hc]
        exact .inr (.inr (.inl ⟨_, rfl⟩))
    · rw [h3]
      exact .inr (.inr (.inl ⟨_, rfl⟩))
  · rw [h1]
    exact .inr (.inl ⟨rfl, fun _ => h2⟩)
  · rw [h1]
    exact .inr (.inr (.inl ⟨_, rfl⟩))

theorem visitGate_cases {fo : FloatOps F} {D : List VarLink} {scopes : List (Scope F)} (henv : EnvOk fo D scopes) :
    ∀ (g : Gate F), ShapedGate g →
    (∃ n s, visitGate fo scopes g = .ok ([], .ok s) ∧ GateOk fo D g n s) ∨
    (visitGate fo scopes g = .ub ∧ (PlainGate g → UndefGate fo D g)) ∨
    (∃ errs e, visitGate fo scopes g = .ok (errs, .error e) ∧ (PlainGate g → errs = [])) ∨
    (∃ e errs s, visitGate fo scopes g = .ok (e :: errs, .ok s) ∧ ¬ PlainGate g)
  | .mk l as name none ps, hs => by
    rw [ShapedGate] at hs
    rw [visitGate]
    by_cases hn : ∃ n ks, (name, n, ks) ∈ namedGates
    · obtain ⟨n, ks, hn⟩ := hn
      rcases visitGateRest_cases henv l as name none ps ks (fun vs hv => by
          rcases resolveParameters_named fo hn vs hv with h | ⟨e, _, h, _⟩
          · exact .inl h
          · exact .inr ⟨e, h⟩) with ⟨ws, sas, h1, h2, _, h4⟩ | ⟨h1, h2⟩ | ⟨e, h1⟩ | ⟨e, errs, s, h1, h2⟩
      · exact .inl ⟨n, _, h1, .named hn h2 h4⟩
      · exact .inr (.inl ⟨h1, fun hp => .named (h2 hp)⟩)
      · exact .inr (.inr (.inl ⟨[], e, h1, fun _ => rfl⟩))
      · exact .inr (.inr (.inr ⟨e, errs, s, h1, h2⟩))
    · rcases visitGateRest_cases henv l as name none ps [] (fun vs _ => by
          obtain ⟨e, _, h⟩ := resolveParameters_unknown fo hn hs.1 hs.2 vs
          exact .inr ⟨e, h⟩) with ⟨ws, sas, h1, h2, _, h4⟩ | ⟨h1, h2⟩ | ⟨e, h1⟩ | ⟨e, errs, s, h1, h2⟩
      · exfalso
        obtain ⟨vs, h5, _⟩ := evalParams_iff.mp h2
        obtain ⟨e, _, h⟩ := resolveParameters_unknown fo hn hs.1 hs.2 vs
        simp [visitGateRest, visitList_of_evalAll henv h5, h] at h1
      · exact .inr (.inl ⟨h1, fun hp => .named (h2 hp)⟩)
      · exact .inr (.inr (.inl ⟨[], e, h1, fun _ => rfl⟩))
      · exact .inr (.inr (.inr ⟨e, errs, s, h1, h2⟩))
  | .mk l as name (some g) ps, hs => by
    rw [ShapedGate] at hs
    have hr : ∀ vs : List (Value F), (∀ v ∈ vs, GoodNode v.node) →
        (∃ ws, resolveParameters fo name vs = .ok ws ∧ Convs fo vs (modifierKinds name) ws) ∨
        (∃ err : Err, resolveParameters fo name vs = .err err) := fun vs hv => by
      rcases resolveParameters_modifier fo hs.1 vs hv with h | ⟨e, _, h, _⟩
      · exact .inl h
      · exact .inr ⟨e, h⟩
    rw [visitGate]
    rcases visitGate_cases henv g hs.2 with ⟨n, s, h1, h2⟩ | ⟨h1, h2⟩ | ⟨errs, e, h1, h2⟩ | ⟨e, errs, s, h1, h2⟩
    · rw [h1]
      simp only [Res.bind_ok, Log.after]
      rcases visitGateRest_cases henv l as name (some s) ps _ hr with
        ⟨ws, sas, h3, h4, h5, h6⟩ | ⟨h3, h4⟩ | ⟨e, h3⟩ | ⟨e, errs, s', h3, h4⟩ <;> rw [h3]
      · left
        have hn : n = 1 := by
          by_cases hn : n = 1
          · exact hn
          · obtain ⟨e, _, he⟩ := checkGate_err (gateOk_names h2) hn
            rw [h5] at he; cases he
        subst hn
        rcases modifiers_cases hs.1 with rfl | rfl | rfl
        · simp only [modifierKinds] at h4
          cases h4
          exact ⟨1, _, rfl, .inv h2 h6⟩
        · exact ⟨1, _, rfl, .pow h2 h4 h6⟩
        · simp only [modifierKinds] at h4
          cases h4
          exact ⟨2, _, rfl, .ctrl h2 h6⟩
      · exact .inr (.inl ⟨rfl, fun hp => .modifier h2 (h4 hp.1)⟩)
      · exact .inr (.inr (.inl ⟨_, _, rfl, fun _ => rfl⟩))
      · exact .inr (.inr (.inr ⟨_, _, _, rfl, fun hp => h4 hp.1⟩))
    · rw [h1]
      exact .inr (.inl ⟨rfl, fun hp => .inner (h2 hp.2)⟩)
    · rw [h1]
      exact .inr (.inr (.inl ⟨_, _, rfl, fun hp => h2 hp.2⟩))
    · rw [h1]
      simp only [Res.bind_ok, Log.after]
      rcases visitGateRest_cases henv l as name (some s) ps _ hr with
        ⟨ws, sas, h3, _⟩ | ⟨h3, h4⟩ | ⟨e, h3⟩ | ⟨e, errs, s', h3, h4⟩ <;> rw [h3]
      · exact .inr (.inr (.inr ⟨_, _, _, rfl, fun hp => h2 hp.2⟩))
      · exact .inr (.inl ⟨rfl, fun hp => absurd hp.2 h2⟩)
      · exact .inr (.inr (.inl ⟨_, _, rfl, fun hp => absurd hp.2 h2⟩))
      · exact .inr (.inr (.inr ⟨_, _, _, rfl, fun hp => h2 hp.2⟩))

end Qasm
