import Verif.Lemmas.Fails
import Verif.Lemmas.Stmt
/-!
# Helper lemmas: the messages and positions of errors in gates and statements
-/

namespace Qasm

open Spec Sem

variable {F : Type}

/-! ## Parameters -/

theorem paramFails_det {fo : FloatOps F} {name : Str} {vs : List (Value F)} {ks : List Kind} {m m' : Str}
    (h : ParamFails fo name vs ks m) (h' : ParamFails fo name vs ks m') : m = m' := by
  induction h with
  | here h1 =>
    cases h' with
    | here => rfl
    | later h2 h3 => exact absurd ⟨_, _, h2, h3⟩ h1
  | later h1 h2 _ ih =>
    cases h' with
    | here h3 => exact absurd ⟨_, _, h1, h2⟩ h3
    | later _ _ h3 => exact ih h3

theorem paramFails_not {fo : FloatOps F} {name : Str} {vs ws : List (Value F)} {ks : List Kind} {m : Str}
    (h : ParamFails fo name vs ks m) : ¬ Convs fo vs ks ws := by
  induction h generalizing ws with
  | here h1 =>
    intro h
    obtain ⟨c, c', _, h2, h3, _⟩ := convs_inv h
    exact h1 ⟨c, c', h2, h3⟩
  | later _ _ _ ih =>
    intro h
    obtain ⟨_, _, _, _, _, h4, _⟩ := convs_inv h
    exact ih h4

theorem print_kind {v : Value F} {t : Ty} (h : kindOf v.node = some t.kind) : Types.print t = kindText v.node := by
  simp [Types.print, kindText, h, kindName_eq]

theorem promoteParameters_fails (fo : FloatOps F) (name : Str) (spec : Str) (ks : List Kind) (vs : List (Value F))
    (hspec : Types.fromSpec spec = some (ks.map Ty.bare)) (hnum : ∀ k ∈ ks, ¬ RegisterKind k)
    (hlen : vs.length = ks.length) (hg : ∀ v ∈ vs, GoodNode v.node) :
    (∃ ws, promoteParameters fo name spec vs = .ok ws ∧ Convs fo vs ks ws) ∨
    (∃ m, promoteParameters fo name spec vs = .err ⟨m, none⟩ ∧ ParamFails fo name vs ks m) := by
  induction spec generalizing ks vs with
  | nil =>
    simp only [Types.fromSpec, Option.some.injEq] at hspec
    have : ks = [] := by cases ks <;> simp_all
    subst this
    have : vs = [] := by cases vs <;> simp_all
    subst this
    exact .inl ⟨[], rfl, .nil⟩
  | cons c cs ih =>
    simp only [Types.fromSpec] at hspec
    cases hc : Types.fromSpecChar c with
    | none => rw [hc] at hspec; cases hspec
    | some t =>
      rw [hc] at hspec
      simp only [Option.map_eq_some_iff] at hspec
      obtain ⟨ts, h1, h2⟩ := hspec
      rcases ks with _ | ⟨k, ks⟩
      · simp at h2
      simp only [List.map_cons, List.cons.injEq] at h2
      obtain ⟨rfl, rfl⟩ := h2
      rcases vs with _ | ⟨v, vs⟩
      · simp at hlen
      simp only [List.length_cons, Nat.add_right_cancel_iff] at hlen
      have hgv := hg v (by simp)
      have hih := ih ks vs h1 (fun k hk => hnum k (by simp [hk])) hlen (fun w hw => hg w (by simp [hw]))
      obtain ⟨tv, ht1, ht2⟩ : ∃ tv, Values.typeOf v = .ok tv ∧ kindOf v.node = some tv.kind := by
        obtain ⟨kv, hkv⟩ := Option.ne_none_iff_exists'.mp (good_typed hgv)
        obtain ⟨tv, h1, h2⟩ := typeOf_ok hkv
        exact ⟨tv, h1, by rw [hkv, h2]⟩
      simp only [promoteParameters, hc, ht1, Res.bind_ok, print_kind ht2]
      rcases hgv with ⟨d, hd⟩ | ⟨kv, hkv, hr⟩
      · obtain ⟨n, l⟩ := v
        simp only at hd
        subst hd
        rw [kindOf_node] at ht2
        have ht2 := Option.some.inj ht2
        by_cases hw : Widens d.kind k
        · obtain ⟨d', hd'⟩ := widens_converts fo hw
          have hcp : Values.checkPromote tv (.bare k) = true := (C15_check_promote _ _).mpr (ht2 ▸ hw)
          have hp : Values.promote fo ⟨d.node, l⟩ (.bare k) = .ok (some ⟨d'.node, l⟩) :=
            (promote_some_iff fo _ _ (by rw [kindOf_node]; simp) _).mpr (.const l hd')
          rw [if_pos hcp, hp, Res.bind_ok]
          rcases hih with ⟨ws, h3, h4⟩ | ⟨m, h3, h4⟩
          · exact .inl ⟨_, by rw [h3]; rfl, .cons hd' h4⟩
          · exact .inr ⟨m, by rw [h3]; rfl, .later rfl hd' h4⟩
        · have hcp : ¬ Values.checkPromote tv (.bare k) = true := fun h => hw (ht2 ▸ (C15_check_promote _ _).mp h)
          rw [if_neg hcp]
          refine .inr ⟨_, rfl, .here ?_⟩
          rintro ⟨e, e', h7, h8⟩
          have := node_inj h7
          subst this
          exact hw (converts_widens h8)
      · rw [hkv] at ht2
        have ht2 := Option.some.inj ht2
        have hcp : ¬ Values.checkPromote tv (.bare k) = true := by
          intro h
          have := (C15_registers tv (.bare k) kv hr (.inl ht2.symm)).mp h
          rw [← ht2] at this
          simp only [Ty.bare] at this
          exact hnum k (by simp) (this ▸ hr)
        rw [if_neg hcp]
        refine .inr ⟨_, rfl, .here ?_⟩
        rintro ⟨e, e', h7, h8⟩
        exact not_register_const e (h7 ▸ hkv) hr

theorem paramsFail_det {fo : FloatOps F} {name : Str} {vs : List (Value F)} {ks : List Kind} {m m' : Str}
    (h : ParamsFail fo name vs ks m) (h' : ParamsFail fo name vs ks m') : m = m' := by
  cases h with
  | none h1 h2 =>
    cases h' with
    | none => rfl
    | count h3 => exact absurd h1 h3
    | kind h3 _ => subst h1; exact absurd (List.length_eq_zero_iff.mp h3) h2
  | count h1 h2 =>
    cases h' with
    | none h3 => exact absurd h3 h1
    | count => rfl
    | kind h3 _ => exact absurd h3 h2
  | kind h1 h2 =>
    cases h' with
    | none h3 h4 => subst h3; exact absurd (List.length_eq_zero_iff.mp h1) h4
    | count _ h3 => exact absurd h1 h3
    | kind _ h3 => exact paramFails_det h2 h3

theorem paramsFail_not {fo : FloatOps F} {name : Str} {vs ws : List (Value F)} {ks : List Kind} {m : Str}
    (h : ParamsFail fo name vs ks m) : ¬ Convs fo vs ks ws := by
  intro hc
  have hl := (convs_length hc).1
  cases h with
  | none h1 h2 => subst h1; exact h2 (List.length_eq_zero_iff.mp hl)
  | count _ h2 => exact h2 hl
  | kind _ h => exact paramFails_not h hc

theorem resolveParameters_fails (fo : FloatOps F) (name : Str) (sp : Option Str) (ks : List Kind) (vs : List (Value F))
    (hng : InstructionSet.isNonGate name = false) (hsp : InstructionSet.getInstructionParamTypes name = .ok sp)
    (hks : SpecOf sp ks) (hne : sp ≠ some []) (hnum : ∀ k ∈ ks, ¬ RegisterKind k) (hg : ∀ v ∈ vs, GoodNode v.node) :
    (∃ ws, resolveParameters fo name vs = .ok ws ∧ Convs fo vs ks ws) ∨
    (∃ m, resolveParameters fo name vs = .err ⟨m, none⟩ ∧ ParamsFail fo name vs ks m) := by
  simp only [resolveParameters, hng, hsp, Res.bind_ok, Bool.false_eq_true, if_false]
  rcases hks with ⟨rfl, rfl⟩ | ⟨s, rfl, hs⟩
  · simp only
    cases vs with
    | nil => exact .inl ⟨[], rfl, .nil⟩
    | cons v vs => exact .inr ⟨_, rfl, .none rfl (by simp)⟩
  · have hl := fromSpec_map hs
    rw [List.length_map] at hl
    simp only
    by_cases h : vs.length ≠ s.length
    · rw [if_pos h]
      rw [← hl] at h
      rw [← hl]
      refine .inr ⟨_, rfl, .count ?_ h⟩
      rintro rfl
      have : s = [] := List.length_eq_zero_iff.mp hl.symm
      exact hne (by rw [this])
    · rw [if_neg h]
      have h' : vs.length = ks.length := by rw [hl]; exact Classical.not_not.mp h
      rcases promoteParameters_fails fo name s ks vs hs hnum h' hg with h1 | ⟨m, h1, h2⟩
      · exact .inl h1
      · exact .inr ⟨m, h1, .kind h' h2⟩

/-- No instruction has an empty list of parameter types. -/
def specNonempty (name : Str) : Bool :=
  match InstructionSet.getInstructionParamTypes name with
  | .ok (some []) => false
  | _ => true

theorem specNonempty_spec {name : Str} {sp : Option Str} (h : specNonempty name = true)
    (h' : InstructionSet.getInstructionParamTypes name = .ok sp) : sp ≠ some [] := by
  rintro rfl
  simp [specNonempty, h'] at h

theorem named_nonempty : ∀ e ∈ namedGates, specNonempty e.1 = true := by decide +kernel
theorem modifier_nonempty : ∀ name ∈ modifiers, specNonempty name = true := by decide +kernel

theorem namedParams_fails (fo : FloatOps F) {name : Str} {n : Nat} {ks : List Kind}
    (h : (name, n, ks) ∈ namedGates) (vs : List (Value F)) (hg : ∀ v ∈ vs, GoodNode v.node) :
    (∃ ws, resolveParameters fo name vs = .ok ws ∧ Convs fo vs ks ws) ∨
    (∃ m, resolveParameters fo name vs = .err ⟨m, none⟩ ∧ ParamsFail fo name vs ks m) := by
  obtain ⟨h1, h2, _, _, h5⟩ := named_facts _ h
  obtain ⟨sp, h6, h7⟩ := specOk_spec h2
  exact resolveParameters_fails fo name sp ks vs h1 h6 h7 (specNonempty_spec (named_nonempty _ h) h6)
    (fun k hk => not_register_of (h5 k hk)) hg

theorem modifierParams_fails (fo : FloatOps F) {name : Str} (h : name ∈ modifiers)
    (vs : List (Value F)) (hg : ∀ v ∈ vs, GoodNode v.node) :
    (∃ ws, resolveParameters fo name vs = .ok ws ∧ Convs fo vs (modifierParams name) ws) ∨
    (∃ m, resolveParameters fo name vs = .err ⟨m, none⟩ ∧ ParamsFail fo name vs (modifierParams name) m) := by
  obtain ⟨h1, h2, h5⟩ := modifier_facts _ h
  obtain ⟨sp, h6, h7⟩ := specOk_spec h2
  exact resolveParameters_fails fo name sp _ vs h1 h6 h7 (specNonempty_spec (modifier_nonempty _ h) h6)
    (fun k hk => not_register_of (h5 k hk)) hg

theorem unknownParams_fails (fo : FloatOps F) {name : Str} (h1 : ¬∃ n ks, (name, n, ks) ∈ namedGates)
    (h2 : name ∉ modifiers) (h3 : name ∉ nonGates) (vs : List (Value F)) :
    resolveParameters fo name vs = .err ⟨c!"couldn't find instruction '" ++ name ++ c!"'", none⟩ := by
  have hn : InstructionSet.isNamedGate name = false := by
    rw [← Bool.not_eq_true]; exact fun h => h1 (named_complete h)
  have hg : InstructionSet.isNonGate name = false := by
    rw [← Bool.not_eq_true]; exact fun h => h3 ((isNonGate_iff name).mp h)
  have hm : InstructionSet.isGateModifier name = false := by
    rw [← Bool.not_eq_true]; exact fun h => h2 ((modifier_isGateModifier name).mp h)
  simp only [resolveParameters, InstructionSet.getInstructionParamTypes, hn, hg, hm]; rfl

theorem checkGate_multi {g : Gate F} {n : Nat} {s : SGate F} (h : GateNames g n s) (hn : n ≠ 1) :
    checkGate (some s) = .err ⟨c!"trying to apply a gate modifier to a multi-qubit gate", none⟩ := by
  rcases h.arity with rfl | rfl
  · exact absurd rfl hn
  · simp only [checkGate, h.resolution, h.two]; rfl

/-! ## Gates -/

theorem gateRest_of_list {fo : FloatOps F} {scopes : List (Scope F)} {l as name inner ps} {m : Str} {p : Option Loc}
    (h : visitList fo scopes ps = .err ⟨m, p⟩) :
    visitGateRest fo scopes l as name inner ps = .ok ([], .error ⟨m, p.or l⟩) := by
  simp [visitGateRest, h, context_or]

theorem gateRest_of_params {fo : FloatOps F} {scopes : List (Scope F)} {l as name inner ps} {vs : List (Value F)} {m : Str}
    (h : visitList fo scopes ps = .ok vs) (h' : resolveParameters fo name vs = .err ⟨m, none⟩) :
    visitGateRest fo scopes l as name inner ps = .ok ([], .error ⟨m, l⟩) := by
  simp [visitGateRest, h, h', context_or]

theorem gateRest_of_check {fo : FloatOps F} {scopes : List (Scope F)} {l as name inner ps} {vs ws : List (Value F)} {m : Str}
    (h : visitList fo scopes ps = .ok vs) (h' : resolveParameters fo name vs = .ok ws)
    (h'' : checkGate inner = .err ⟨m, none⟩) :
    visitGateRest fo scopes l as name inner ps = .ok ([], .error ⟨m, l⟩) := by
  simp [visitGateRest, h, h', h'', context_or]

theorem visitGate_of_fails {fo : FloatOps F} {D : List VarLink} {scopes : List (Scope F)} (henv : EnvOk fo D scopes)
    {g : Gate F} {m : Str} {p : Option Loc} (h : GateFails fo D g m p) (hs : ShapedGate g) :
    visitGate fo scopes g = .ok ([], .error ⟨m, p⟩) := by
  induction h with
  | parameters h => rw [visitGate]; exact gateRest_of_list (visitList_of_fails henv h)
  | unknown h h1 =>
    rw [ShapedGate] at hs
    rw [visitGate]
    exact gateRest_of_params (visitList_of_evalAll henv h) (unknownParams_fails fo h1 hs.1 hs.2 _)
  | named h h1 h2 =>
    rw [visitGate]
    refine gateRest_of_params (visitList_of_evalAll henv h) ?_
    rcases namedParams_fails fo h1 _ (evalAll_good henv.decls h) with ⟨ws, _, h3⟩ | ⟨m', h3, h4⟩
    · exact absurd h3 (paramsFail_not h2)
    · rw [h3, paramsFail_det h2 h4]
  | inner _ ih =>
    rw [ShapedGate] at hs
    rw [visitGate, ih hs.2]
    simp [context_or]
  | modifierParameters h1 h2 =>
    rw [visitGate, visitGate_of_ok henv h1]
    simp [gateRest_of_list (visitList_of_fails henv h2), Log.after]
  | modifier h1 h h2 =>
    rw [ShapedGate] at hs
    rw [visitGate, visitGate_of_ok henv h1, Res.bind_ok]
    simp only
    rw [gateRest_of_params (m := _) (visitList_of_evalAll henv h) ?_]
    · rfl
    · rcases modifierParams_fails fo hs.1 _ (evalAll_good henv.decls h) with ⟨ws, _, h3⟩ | ⟨m', h3, h4⟩
      · exact absurd h3 (paramsFail_not h2)
      · rw [h3, paramsFail_det h2 h4]
  | multi h1 h hn =>
    rw [ShapedGate] at hs
    obtain ⟨vs, h2, h3⟩ := evalParams_iff.mp h
    rw [visitGate, visitGate_of_ok henv h1, Res.bind_ok]
    simp only
    rcases modifierParams_fails fo hs.1 _ (evalAll_good henv.decls h2) with ⟨ws, h4, _⟩ | ⟨m', _, h4⟩
    · rw [gateRest_of_check (visitList_of_evalAll henv h2) h4 (checkGate_multi (gateOk_names h1) hn)]
      rfl
    · exact absurd h3 (paramsFail_not h4)

theorem visitGate_fails {fo : FloatOps F} {D : List VarLink} {scopes : List (Scope F)} (henv : EnvOk fo D scopes) :
    ∀ (g : Gate F), ShapedGate g → PlainGate g → ∀ {errs : List Err} {e : Err},
      visitGate fo scopes g = .ok (errs, .error e) → errs = [] ∧ GateFails fo D g e.message e.location
  | .mk l as name none ps, hs, hp, errs, e, h => by
    rw [ShapedGate] at hs
    rw [visitGate] at h
    rcases visitList_all henv ps with ⟨vs, h1, h2⟩ | ⟨h1, h2⟩ | ⟨err, h1, _⟩
    · by_cases hn : ∃ n ks, (name, n, ks) ∈ namedGates
      · obtain ⟨n, ks, hn⟩ := hn
        rcases namedParams_fails fo hn vs (evalAll_good henv.decls h2) with ⟨ws, h3, _⟩ | ⟨m, h3, h4⟩
        · rw [PlainGate] at hp
          subst hp
          simp [visitGateRest, h1, h3, checkGate, visitAnnotations] at h
        · rw [gateRest_of_params h1 h3] at h
          cases h
          exact ⟨rfl, .named h2 hn h4⟩
      · rw [gateRest_of_params h1 (unknownParams_fails fo hn hs.1 hs.2 vs)] at h
        cases h
        exact ⟨rfl, .unknown h2 hn⟩
    · simp [visitGateRest, h1] at h
    · rw [gateRest_of_list (m := err.message) (p := err.location) h1] at h
      cases h
      exact ⟨rfl, .parameters (visitList_fails henv ps h1)⟩
  | .mk l as name (some g) ps, hs, hp, errs, e, h => by
    rw [ShapedGate] at hs
    rw [PlainGate] at hp
    obtain ⟨rfl, hp⟩ := hp
    rw [visitGate] at h
    rcases visitGate_cases henv g hs.2 with ⟨n, s, h1, h2⟩ | ⟨h1, h2⟩ | ⟨errs', e', h1, h2⟩ | ⟨e', errs', s, h1, h2⟩
    · rw [h1, Res.bind_ok] at h
      simp only at h
      rcases visitList_all henv ps with ⟨vs, h3, h4⟩ | ⟨h3, h4⟩ | ⟨err, h3, _⟩
      · rcases modifierParams_fails fo hs.1 vs (evalAll_good henv.decls h4) with ⟨ws, h5, h6⟩ | ⟨m, h5, h6⟩
        · by_cases hn : n = 1
          · subst hn
            simp [visitGateRest, h3, h5, checkGate_ok (gateOk_names h2), visitAnnotations, Log.after] at h
          · rw [gateRest_of_check h3 h5 (checkGate_multi (gateOk_names h2) hn)] at h
            cases h
            exact ⟨rfl, .multi h2 (evalParams_iff.mpr ⟨vs, h4, h6⟩) hn⟩
        · rw [gateRest_of_params h3 h5] at h
          cases h
          exact ⟨rfl, .modifier h2 h4 h6⟩
      · simp [visitGateRest, h3, Log.after] at h
      · rw [gateRest_of_list (m := err.message) (p := err.location) h3] at h
        cases h
        exact ⟨rfl, .modifierParameters h2 (visitList_fails henv ps h3)⟩
    · rw [h1] at h; cases h
    · obtain ⟨g1, g2⟩ := visitGate_fails henv g hs.2 hp h1
      subst g1
      rw [h1] at h
      cases h
      refine ⟨rfl, ?_⟩
      rw [err_eta e']
      simp only [context_or]
      exact .inner g2
    · exact absurd hp h2

/-! ## Instructions -/

theorem resolveInstruction_fails {fo : FloatOps F} {D : List VarLink} {scopes : List (Scope F)} (henv : EnvOk fo D scopes)
    (name : Str) (vs : List (Value F)) (hg : ∀ v ∈ vs, GoodNode v.node) {e : Err}
    (h : Analyzer.resolveInstruction fo scopes name vs = .err e) : e = ⟨resolutionMessage name vs, none⟩ := by
  obtain ⟨s, rfl, _, h2, _⟩ := henv.scope
  have hty : ∀ v ∈ vs, kindOf v.node ≠ none := fun v hv => good_typed (hg v hv)
  obtain ⟨ts, hts, _⟩ := typesOf_ok hty
  have hp := printList_kinds hts hty
  rcases resolve_spec fo instrRegs name vs hty with ⟨tag, ws, h3, _⟩ | ⟨h3, h4⟩
  · simp [Analyzer.resolveInstruction, h2, ← tableOf_instrRegs, h3] at h
  · rcases h4 with ⟨_, h4⟩ | ⟨_, _, _, h4⟩ <;>
    · simp only [Analyzer.resolveInstruction, h2, ← tableOf_instrRegs, h4, hts, Res.bind_ok, hp] at h
      cases h
      rfl

theorem gate_resolves {fo : FloatOps F} {D : List VarLink} {scopes : List (Scope F)} (henv : EnvOk fo D scopes)
    {g : Gate F} {n : Nat} {s : SGate F} (h1 : GateOk fo D g n s) {es : List (Expr F)} {vs : List (Value F)}
    (h2 : EvalAll fo D es vs) :
    (∃ ks, Analyzer.resolveInstruction fo scopes (refName g) vs = .ok (refOf (refName g) ks, vs) ∧ vs.length = n ∧
      Forall2 (fun v k => IsQubits v.node k) vs ks) ∨
    (Analyzer.resolveInstruction fo scopes (refName g) vs = .err ⟨resolutionMessage (refName g) vs, none⟩ ∧
      ¬(vs.length = n ∧ ∃ ks, Forall2 (fun v k => IsQubits v.node k) vs ks)) := by
  have hg := evalAll_good henv.decls h2
  rcases resolveInstruction_spec henv (refName g) vs hg with ⟨ks, g1, g2, g3⟩ | ⟨e, g0, g1, g2⟩
  · obtain ⟨g4, g5⟩ := (gate_kinds h1 ks).mp g3
    have hq : Forall2 (fun v k => IsQubits v.node k) vs ks := forall2_and (forall2_kinds.mp g2) g5
    exact .inl ⟨ks, g1, by rw [← g4]; exact forall2_length hq, hq⟩
  · refine .inr ⟨by rw [g1, resolveInstruction_fails henv _ _ hg g1], ?_⟩
    rintro ⟨h3, ks, h4⟩
    have hk : vs.map (fun v => kindOf v.node) = ks.map some := forall2_kinds.mpr (forall2_imp h4 fun _ _ h => h.1)
    have hks : ∀ k ∈ ks, k = .qubit ∨ k = .qubitArray := fun k hk => by
      obtain ⟨v, _, h⟩ := forall2_right h4 k hk; exact h.2
    exact absurd ((gate_kinds h1 ks).mpr ⟨by rw [← forall2_length h4, h3], hks⟩) (g2 ks hk)

theorem checkGateInstruction_fails {fo : FloatOps F} {D : List VarLink} (hD : DeclsOk D) {es : List (Expr F)}
    {vs : List (Value F)} {ks : List Kind} (h : EvalAll fo D es vs) (hk : Forall2 (fun v k => IsQubits v.node k) vs ks) :
    (checkGateInstruction vs = .ok () ∧ ¬(∃ v ∈ vs, ∃ w ∈ vs, elements v.node ≠ elements w.node)) ∨
    (checkGateInstruction vs = .err ⟨c!"qubit operands indices have different sizes", none⟩ ∧
      ∃ v ∈ vs, ∃ w ∈ vs, elements v.node ≠ elements w.node) := by
  rcases checkGateInstruction_spec hD h hk with ⟨h1, h2⟩ | ⟨e, _, h1, h2⟩
  · refine .inl ⟨h1, ?_⟩
    rintro ⟨v, hv, w, hw, hn⟩
    exact hn (h2 v hv w hw)
  · refine .inr ⟨?_, ?_⟩
    · unfold checkGateInstruction at h1 ⊢
      split at h1
      · rw [if_pos ‹_›]; rfl
      · cases h1
    · refine Classical.byContradiction fun hno => h2 fun v hv w hw => ?_
      refine Classical.byContradiction fun hne => hno ⟨v, hv, w, hw, hne⟩

theorem visitGateInstruction_of_fails {fo : FloatOps F} {D : List VarLink} {a : Analyzer F} (henv : EnvOk fo D a.scopes)
    {l as g es} {m : Str} {p : Option Loc} (hs : ShapedGate g) (h : StmtFails fo D (.gate l as g es) m p) :
    visitGateInstruction fo a l as g es = .ok ([⟨m, p⟩], a) := by
  unfold visitGateInstruction
  cases h with
  | gate h => rw [visitGate_of_fails henv h hs]; simp [Log.after, context_or]
  | gateOperands h1 h2 =>
    rw [visitGate_of_ok henv h1]
    simp [visitList_of_fails henv h2, Log.after, context_or]
  | gateKinds h1 h2 h3 =>
    rw [visitGate_of_ok henv h1]
    rcases gate_resolves henv h1 h2 with ⟨ks, _, g1, g2⟩ | ⟨g1, _⟩
    · exact absurd ⟨g1, ks, g2⟩ h3
    · simp [visitList_of_evalAll henv h2, (gateOk_names h1).resolution, g1, Log.after, context_or]
  | gateSizes h1 h2 h3 h4 h5 =>
    rw [visitGate_of_ok henv h1]
    rcases gate_resolves henv h1 h2 with ⟨ks, g1, _, g2⟩ | ⟨_, g1⟩
    · rcases checkGateInstruction_fails henv.decls h2 g2 with ⟨_, h6⟩ | ⟨h6, _⟩
      · exact absurd h5 h6
      · simp [visitList_of_evalAll henv h2, (gateOk_names h1).resolution, g1, h6, Log.after, context_or]
    · exact absurd ⟨h3, _, h4⟩ g1

theorem visitGateInstruction_fails {fo : FloatOps F} {D : List VarLink} {a : Analyzer F} (henv : EnvOk fo D a.scopes)
    (l : Option Loc) (as : List (AnnotationData F)) (g : Gate F) (es : List (Expr F)) (hs : ShapedGate g)
    (hp : PlainStmt (.gate l as g es)) {e : Err} {errs : List Err} {a' : Analyzer F} (hadd : ∀ t, ∃ a', a.addStatement t = .ok a')
    (h : visitGateInstruction fo a l as g es = .ok (e :: errs, a')) :
    StmtFails fo D (.gate l as g es) e.message e.location := by
  obtain ⟨hp1, hp2⟩ := hp
  subst hp1
  unfold visitGateInstruction at h
  rcases visitGate_cases henv g hs with ⟨n, s, h1, h2⟩ | ⟨h1, h2⟩ | ⟨errs', e', h1, h2⟩ | ⟨e', errs', s, h1, h2⟩
  · rw [h1, Res.bind_ok] at h
    simp only at h
    rcases visitList_all henv es with ⟨vs, h3, h4⟩ | ⟨h3, h4⟩ | ⟨err, h3, h4⟩
    · simp only [h3, Res.bind_ok, (gateOk_names h2).resolution] at h
      rcases gate_resolves henv h2 h4 with ⟨ks, g1, g2, g3⟩ | ⟨g1, g2⟩
      · simp only [g1, Res.bind_ok] at h
        rcases checkGateInstruction_fails henv.decls h4 g3 with ⟨g6, g7⟩ | ⟨g6, g7⟩
        · obtain ⟨a'', ha''⟩ := hadd (.gate (refOf (refName g) ks) s vs [] l)
          simp [g6, visitAnnotations, ha'', catchInto, Log.after] at h
        · rw [g6] at h
          cases h
          exact .gateSizes h2 h4 g2 g3 g7
      · rw [g1] at h
        cases h
        exact .gateKinds h2 h4 g2
    · rw [h3] at h; cases h
    · rw [h3] at h
      cases h
      have := visitList_fails henv es h3
      rw [err_eta err]
      simp only [context_or]
      exact .gateOperands h2 this
  · rw [h1] at h; cases h
  · obtain ⟨g1, g2⟩ := visitGate_fails henv g hs hp2 h1
    subst g1
    rw [h1] at h
    cases h
    rw [err_eta e']
    simp only [context_or]
    exact .gate g2
  · exact absurd hp2 h2

/-! ## Instructions that are not gates -/

theorem nonGateParamsFail_not {fo : FloatOps F} {name : Str} {vs ws : List (Value F)} {ks : List Kind} {m : Str}
    (h : NonGateParamsFail fo name vs m) (hk : ks ∈ nonGateParams name) : ¬ Convs fo vs ks ws := by
  intro hc
  have hl := (convs_length hc).1
  cases h with
  | count h => exact h ks hk hl
  | @kind ks' _ h1 h2 h3 =>
    have : ks' = ks := by
      have hl' := h2.symm.trans hl
      unfold nonGateParams at hk h1
      split at hk
      · rename_i hm
        rw [if_pos hm] at h1
        simp only [List.mem_cons, List.not_mem_nil, or_false] at hk h1
        rcases hk with rfl | rfl <;> rcases h1 with rfl | rfl <;> first | rfl | simp at hl'
      · rename_i hm
        rw [if_neg hm] at h1
        split at hk
        · rename_i hw
          rw [if_pos hw] at h1
          simp only [List.mem_singleton] at hk h1
          rw [hk, h1]
        · rename_i hw
          rw [if_neg hw] at h1
          simp only [List.mem_singleton] at hk h1
          rw [hk, h1]
    subst this
    exact paramFails_not h3 hc

theorem nonGateParams_det {name : Str} {ks ks' : List Kind} (h : ks ∈ nonGateParams name) (h' : ks' ∈ nonGateParams name)
    (hl : ks.length = ks'.length) : ks = ks' := by
  unfold nonGateParams at h h'
  split at h
  · rename_i hm
    rw [if_pos hm] at h'
    simp only [List.mem_cons, List.not_mem_nil, or_false] at h h'
    rcases h with rfl | rfl <;> rcases h' with rfl | rfl <;> first | rfl | simp at hl
  · rename_i hm
    rw [if_neg hm] at h'
    split at h
    · rename_i hw
      rw [if_pos hw] at h'
      simp only [List.mem_singleton] at h h'
      rw [h, h']
    · rename_i hw
      rw [if_neg hw] at h'
      simp only [List.mem_singleton] at h h'
      rw [h, h']

theorem nonGateParamsFail_det {fo : FloatOps F} {name : Str} {vs : List (Value F)} {m m' : Str}
    (h : NonGateParamsFail fo name vs m) (h' : NonGateParamsFail fo name vs m') : m = m' := by
  cases h with
  | count h1 =>
    cases h' with
    | count => rfl
    | kind h2 h3 _ => exact absurd h3 (h1 _ h2)
  | kind h2 h3 h4 =>
    cases h' with
    | count h1 => exact absurd h3 (h1 _ h2)
    | kind h5 h6 h7 =>
      have := nonGateParams_det h2 h5 (h3.symm.trans h6)
      subst this
      exact paramFails_det h4 h7

theorem nonGateParams_fails (fo : FloatOps F) {name : Str} (hn : name ∈ nonGates) (vs : List (Value F))
    (hw : name = c!"wait" → vs ≠ []) (hg : ∀ v ∈ vs, GoodNode v.node) :
    (∃ ks ws, resolveParameters fo name vs = .ok ws ∧ ks ∈ nonGateParams name ∧ Convs fo vs ks ws) ∨
    (∃ m, resolveParameters fo name vs = .err ⟨m, none⟩ ∧ NonGateParamsFail fo name vs m) := by
  have hng := (isNonGate_iff name).mpr hn
  simp only [resolveParameters, hng, if_true]
  have hcase : name = c!"measure" ∨ name ∈ [c!"reset", c!"init", c!"barrier"] ∨ name = c!"wait" := by
    simp only [nonGates, List.mem_cons, List.not_mem_nil, or_false] at hn ⊢
    rcases hn with h | h | h | h | h <;> simp [h]
  rcases hcase with rfl | hs | rfl
  · have hnp : nonGateParams c!"measure" = [[], [.float, .float, .float]] := rfl
    rw [count_measure, hnp]
    by_cases h3 : vs.length = 3
    · simp only [h3, if_true]
      rcases promoteParameters_fails fo c!"measure" c!"fff" [.float, .float, .float] vs rfl
        (by intro k hk hr; simp at hk; subst hk; rcases hr with h | h | h | h <;> cases h) h3 hg with ⟨ws, h1, h2⟩ | ⟨m, h1, h2⟩
      · exact .inl ⟨_, ws, h1, by simp, h2⟩
      · exact .inr ⟨m, h1, .kind (ks := [.float, .float, .float]) (by rw [hnp]; simp) h3 h2⟩
    · simp only [h3, if_false]
      cases vs with
      | nil => exact .inl ⟨[], [], rfl, by simp, .nil⟩
      | cons v vs =>
        simp only [List.isEmpty_cons]
        refine .inr ⟨_, rfl, .count ?_⟩
        rw [hnp]
        intro ks hk
        simp only [List.mem_cons, List.not_mem_nil, or_false] at hk
        rcases hk with rfl | rfl
        · simp
        · exact h3
  · have hnm : name ≠ c!"measure" := by rintro rfl; simp at hs
    have hnw : name ≠ c!"wait" := by rintro rfl; simp at hs
    have hnp : nonGateParams name = [[]] := by simp [nonGateParams, hnm, hnw]
    rw [count_simple name hs, hnp]
    cases vs with
    | nil => exact .inl ⟨[], [], rfl, by simp, .nil⟩
    | cons v vs =>
      simp only [List.isEmpty_cons]
      refine .inr ⟨_, rfl, .count ?_⟩
      rw [hnp]
      intro ks hk
      simp only [List.mem_singleton] at hk
      subst hk
      simp
  · have hnp : nonGateParams c!"wait" = [[.int]] := rfl
    rw [count_wait, hnp]
    by_cases h3 : vs.length = 1
    · simp only [h3, if_true]
      rcases promoteParameters_fails fo c!"wait" c!"i" [.int] vs rfl
        (by intro k hk hr; simp at hk; subst hk; rcases hr with h | h | h | h <;> cases h) h3 hg with ⟨ws, h1, h2⟩ | ⟨m, h1, h2⟩
      · exact .inl ⟨_, ws, h1, by simp, h2⟩
      · exact .inr ⟨m, h1, .kind (ks := [.int]) (by rw [hnp]; simp) h3 h2⟩
    · simp only [h3, if_false]
      cases vs with
      | nil => exact absurd rfl (hw rfl)
      | cons v vs =>
        simp only [List.isEmpty_cons]
        refine .inr ⟨_, rfl, .count ?_⟩
        rw [hnp]
        intro ks hk
        simp only [List.mem_singleton] at hk
        subst hk
        exact h3

theorem nonGate_resolves {fo : FloatOps F} {D : List VarLink} {scopes : List (Scope F)} (henv : EnvOk fo D scopes)
    {name : Str} (hn : name ∈ nonGates) {es : List (Expr F)} {vs : List (Value F)} (h2 : EvalAll fo D es vs) :
    (∃ ks, Analyzer.resolveInstruction fo scopes name vs = .ok (refOf name ks, vs) ∧
      Forall2 (fun v k => kindOf v.node = some k) vs ks ∧ NonGateOperands name ks) ∨
    (Analyzer.resolveInstruction fo scopes name vs = .err ⟨resolutionMessage name vs, none⟩ ∧
      ¬∃ ks, Forall2 (fun v k => kindOf v.node = some k) vs ks ∧ NonGateOperands name ks) := by
  have hg := evalAll_good henv.decls h2
  rcases resolveInstruction_spec henv name vs hg with ⟨ks, g1, g2, g3⟩ | ⟨e, g0, g1, g2⟩
  · exact .inl ⟨ks, g1, forall2_kinds.mp g2, (nonGate_kinds hn ks).mp g3⟩
  · refine .inr ⟨by rw [g1, resolveInstruction_fails henv _ _ hg g1], ?_⟩
    rintro ⟨ks, h3, h4⟩
    exact absurd ((nonGate_kinds hn ks).mpr h4) (g2 ks (forall2_kinds.mpr h3))

theorem checkNonGate_message {name : Str} {vs : List (Value F)} {e : Err} (h : checkNonGateInstruction name vs = .err e) :
    name = c!"measure" ∧ e = ⟨c!"qubit and bit indices have different sizes", none⟩ := by
  unfold checkNonGateInstruction at h
  split at h
  · rename_i hm
    split at h
    · cases h
      exact ⟨(isMeasure_iff name).mp hm, rfl⟩
    · cases h
  · cases h

theorem evalAll_ne_nil {fo : FloatOps F} {D : List VarLink} {es : List (Expr F)} {vs : List (Value F)}
    (h : EvalAll fo D es vs) (he : es ≠ []) : vs ≠ [] := by
  cases h with
  | nil => exact absurd rfl he
  | cons => simp

theorem nonGateOk_params {fo : FloatOps F} {D : List VarLink} {name : Str} {ps : List (Expr F)} :
    NonGateParamsOk fo D name ps ↔ ∃ ks ∈ nonGateParams name, ∃ vs ws, EvalAll fo D ps vs ∧ Convs fo vs ks ws := by
  constructor
  · rintro ⟨ks, h1, ws, h2⟩
    obtain ⟨vs, h3, h4⟩ := evalParams_iff.mp h2
    exact ⟨ks, h1, vs, ws, h3, h4⟩
  · rintro ⟨ks, h1, vs, ws, h3, h4⟩
    exact ⟨ks, h1, ws, evalParams_iff.mpr ⟨vs, h3, h4⟩⟩

theorem visitNonGate_of_fails {fo : FloatOps F} {D : List VarLink} {a : Analyzer F} (henv : EnvOk fo D a.scopes)
    {l as name es ps} {m : Str} {p : Option Loc} (hn : name ∈ nonGates) (hw : name = c!"wait" → ps ≠ [])
    (h : StmtFails fo D (.nonGate l as name es ps) m p) :
    visitNonGateInstruction fo a l as name es ps = .ok ([⟨m, p⟩], a) := by
  unfold visitNonGateInstruction
  cases h with
  | operands h => simp [visitList_of_fails henv h, context_or]
  | kinds h1 h2 =>
    rcases nonGate_resolves henv hn h1 with ⟨ks, _, g1, g2⟩ | ⟨g1, _⟩
    · exact absurd ⟨ks, g1, g2⟩ h2
    · simp [visitList_of_evalAll henv h1, g1, context_or]
  | parameters h1 h2 h3 h4 =>
    rcases nonGate_resolves henv hn h1 with ⟨ks, g1, _⟩ | ⟨_, g2⟩
    · simp [visitList_of_evalAll henv h1, g1, visitList_of_fails henv h4, context_or]
    · exact absurd ⟨_, h2, h3⟩ g2
  | parameterKinds h1 h2 h3 h4 h5 =>
    rcases nonGate_resolves henv hn h1 with ⟨ks, g1, _⟩ | ⟨_, g2⟩
    · rcases nonGateParams_fails fo hn _ (fun h => evalAll_ne_nil h4 (hw h)) (evalAll_good henv.decls h4) with
        ⟨ks, ws, _, g3, g4⟩ | ⟨m', g3, g4⟩
      · exact absurd g4 (nonGateParamsFail_not h5 g3)
      · simp [visitList_of_evalAll henv h1, g1, visitList_of_evalAll henv h4, g3, context_or, nonGateParamsFail_det h5 g4]
    · exact absurd ⟨_, h2, h3⟩ g2
  | @measureSizes _ _ b q _ n k kn km h1 h2 h3 h4 h5 h6 =>
    have he : EvalAll fo D [b, q] [⟨n, b.loc⟩, ⟨k, q.loc⟩] := .cons ⟨rfl, h1⟩ (.cons ⟨rfl, h3⟩ .nil)
    obtain ⟨ks, hks, vs, ws, h7, h8⟩ := nonGateOk_params.mp h5
    have hc : checkNonGateInstruction c!"measure" [⟨n, b.loc⟩, ⟨k, q.loc⟩] =
        .err ⟨c!"qubit and bit indices have different sizes", none⟩ := by
      rcases elements_eq_of_kinds henv.decls (v := ⟨n, b.loc⟩) (w := ⟨k, q.loc⟩) h1 h3 h2 h4 with ⟨_, g⟩ | ⟨e, _, g, _⟩
      · exact absurd g h6
      · rw [g, (checkNonGate_message g).2]
    rcases nonGate_resolves henv hn he with ⟨ks', g1, _⟩ | ⟨_, g2⟩
    · rcases nonGateParams_fails fo hn _ (fun h => evalAll_ne_nil h7 (hw h)) (evalAll_good henv.decls h7) with
        ⟨ks'', ws', g5, g3, g4⟩ | ⟨m', g3, g4⟩
      · simp [visitList_of_evalAll henv he, g1, visitList_of_evalAll henv h7, g5, hc, context_or]
      · exact absurd h8 (nonGateParamsFail_not g4 hks)
    · refine absurd ⟨[kn, km], .cons h2.1 (.cons h4.1 .nil), .inl ⟨rfl, ?_⟩⟩ g2
      rcases h2.2 with rfl | rfl <;> rcases h4.2 with rfl | rfl <;> simp

theorem visitNonGate_fails {fo : FloatOps F} {D : List VarLink} {a : Analyzer F} (henv : EnvOk fo D a.scopes)
    (l : Option Loc) (as : List (AnnotationData F)) (name : Str) (es ps : List (Expr F)) (hn : name ∈ nonGates)
    (hw : name = c!"wait" → ps ≠ []) (hp : PlainStmt (.nonGate l as name es ps)) {e : Err} {errs : List Err}
    {a' : Analyzer F} (hadd : ∀ t, ∃ a', a.addStatement t = .ok a')
    (h : visitNonGateInstruction fo a l as name es ps = .ok (e :: errs, a')) :
    StmtFails fo D (.nonGate l as name es ps) e.message e.location := by
  rw [PlainStmt] at hp
  subst hp
  unfold visitNonGateInstruction at h
  rcases visitList_all henv es with ⟨vs, h1, h2⟩ | ⟨h1, h2⟩ | ⟨err, h1, h2⟩
  · simp only [h1, Res.bind_ok] at h
    rcases nonGate_resolves henv hn h2 with ⟨ks, g1, g2, g3⟩ | ⟨g1, g2⟩
    · simp only [g1, Res.bind_ok] at h
      rcases visitList_all henv ps with ⟨pvs, h3, h4⟩ | ⟨h3, h4⟩ | ⟨err, h3, h4⟩
      · simp only [h3, Res.bind_ok] at h
        rcases nonGateParams_fails fo hn _ (fun h => evalAll_ne_nil h4 (hw h)) (evalAll_good henv.decls h4) with
          ⟨pks, ws, g5, g6, g7⟩ | ⟨m', g5, g6⟩
        · simp only [g5, Res.bind_ok] at h
          cases hc : checkNonGateInstruction name vs with
          | ok x =>
            obtain ⟨a'', ha''⟩ := hadd (.nonGate (refOf name ks) name vs ws [] l)
            simp [hc, visitAnnotations, ha'', catchInto, Log.after] at h
          | err x =>
            rw [hc] at h
            obtain ⟨rfl, rfl⟩ := checkNonGate_message hc
            cases h
            have hk' : ∃ kn km, ks = [kn, km] ∧ (kn = .bit ∨ kn = .bitArray) ∧ (km = .qubit ∨ km = .qubitArray) := by
              rcases g3 with ⟨_, hk⟩ | ⟨hk, _⟩
              · simp only [List.mem_cons, List.not_mem_nil, or_false] at hk
                rcases hk with rfl | rfl | rfl | rfl <;> exact ⟨_, _, rfl, by simp, by simp⟩
              · simp at hk
            obtain ⟨kn, km, rfl, hkn, hkm⟩ := hk'
            obtain ⟨v, w, rfl, hv, hw'⟩ := forall2_two g2
            obtain ⟨b, q, rfl, hb, hq⟩ := forall2_two h2
            refine .measureSizes hb.2 ⟨hv, hkn⟩ hq.2 ⟨hw', hkm⟩ (nonGateOk_params.mpr ⟨_, g6, _, _, h4, g7⟩) ?_
            rcases elements_eq_of_kinds henv.decls hb.2 hq.2 ⟨hv, hkn⟩ ⟨hw', hkm⟩ with ⟨g, _⟩ | ⟨e, _, _, g⟩
            · rw [g] at hc; cases hc
            · exact g
          | exn c => unfold checkNonGateInstruction at hc; split at hc <;> (try split at hc) <;> cases hc
          | ub => unfold checkNonGateInstruction at hc; split at hc <;> (try split at hc) <;> cases hc
        · rw [g5] at h
          cases h
          exact .parameterKinds h2 g2 g3 h4 g6
      · rw [h3] at h; cases h
      · rw [h3] at h
        cases h
        have := visitList_fails henv ps h3
        rw [err_eta err]
        simp only [context_or]
        exact .parameters h2 g2 g3 this
    · rw [g1] at h
      cases h
      exact .kinds h2 g2
  · rw [h1] at h; cases h
  · rw [h1] at h
    cases h
    have := visitList_fails henv es h1
    rw [err_eta err]
    simp only [context_or]
    exact .operands this

/-! ## Declarations -/

theorem buildSemanticType_fails (t : TypeAst) :
    (∃ ty, buildSemanticType t = .ok ty ∧ TypeOk t ty) ∨
    (buildSemanticType t = .err ⟨c!"unknown type \"" ++ t.name ++ c!"\"", none⟩ ∧ t.name ≠ c!"qubit" ∧ t.name ≠ c!"bit") ∨
    (∃ n, buildSemanticType t = .err ⟨c!"found " ++ t.name ++ c!" array of size <= 0", none⟩ ∧
      (t.name = c!"qubit" ∨ t.name = c!"bit") ∧ t.size = some n ∧ n.toInt ≤ 0) := by
  obtain ⟨name, size⟩ := t
  have h0 : Int64.toInt 0 = 0 := by decide
  unfold buildSemanticType
  by_cases hq : name = c!"qubit"
  · subst hq
    cases size with
    | none => exact .inl ⟨_, rfl, .qubit⟩
    | some n =>
      by_cases hn : n > 0
      · exact .inl ⟨⟨.qubitArray, n⟩, by simp [hn], .qubits (by have := Int64.lt_iff_toInt_lt.mp hn; rwa [h0] at this)⟩
      · refine .inr (.inr ⟨n, by simp [hn]; rfl, .inl rfl, rfl, ?_⟩)
        have := mt Int64.lt_iff_toInt_lt.mpr hn
        rw [h0] at this
        omega
  · by_cases hb : name = c!"bit"
    · subst hb
      cases size with
      | none => exact .inl ⟨_, rfl, .bit⟩
      | some n =>
        by_cases hn : n > 0
        · exact .inl ⟨⟨.bitArray, n⟩, by simp [hn], .bits (by have := Int64.lt_iff_toInt_lt.mp hn; rwa [h0] at this)⟩
        · refine .inr (.inr ⟨n, by simp [hn]; rfl, .inr rfl, rfl, ?_⟩)
          have := mt Int64.lt_iff_toInt_lt.mpr hn
          rw [h0] at this
          omega
    · exact .inr (.inl ⟨by simp [hq, hb]; rfl, hq, hb⟩)

theorem typeOk_name {t : TypeAst} {ty : Ty} (h : TypeOk t ty) : t.name = c!"qubit" ∨ t.name = c!"bit" := by
  cases h <;> simp

theorem typeOk_size {t : TypeAst} {ty : Ty} (h : TypeOk t ty) {n : Int64} (hn : t.size = some n) : 0 < n.toInt := by
  cases h with
  | qubit => cases hn
  | bit => cases hn
  | qubits h => cases hn; exact h
  | bits h => cases hn; exact h

/-- What is reported for a declaration, with the kind of the problem. -/
theorem declFails_message {fo : FloatOps F} {D : List VarLink} {l as} {name : Ident} {typ : TypeAst} {m : Str} {p : Option Loc}
    (h : StmtFails fo D (.var (F := F) l as name typ) m p) : p = l ∧
    ((∃ t, TypeOk typ t) → m = c!"trying to redeclare variable '" ++ name.name ++ c!"'") ∧
    ((¬∃ t, TypeOk typ t) → buildSemanticType typ = .err ⟨m, none⟩) := by
  cases h with
  | unknownType h1 h2 =>
    refine ⟨rfl, ?_, fun _ => ?_⟩
    · rintro ⟨t, ht⟩
      rcases typeOk_name ht with h | h
      · exact absurd h h1
      · exact absurd h h2
    · rcases buildSemanticType_fails typ with ⟨ty, _, ht⟩ | ⟨h, _⟩ | ⟨_, _, h, _⟩
      · rcases typeOk_name ht with h | h
        · exact absurd h h1
        · exact absurd h h2
      · exact h
      · rcases h with h | h
        · exact absurd h h1
        · exact absurd h h2
  | @size _ _ _ _ n h1 h2 h3 =>
    refine ⟨rfl, ?_, fun _ => ?_⟩
    · rintro ⟨t, ht⟩
      have := typeOk_size ht h2
      omega
    · rcases buildSemanticType_fails typ with ⟨ty, _, ht⟩ | ⟨_, h4, h5⟩ | ⟨n', h, _⟩
      · have := typeOk_size ht h2
        omega
      · rcases h1 with h | h
        · exact absurd h h4
        · exact absurd h h5
      · exact h
  | redeclared h1 => exact ⟨rfl, fun _ => rfl, fun h => absurd ⟨_, h1⟩ h⟩

/-- A declaration whose type is not accepted. -/
theorem visitStatement_badType {fo : FloatOps F} (v : Version) {D : List VarLink} (u : Nat) (b : SBlock F)
    (vars : List (SVariable F)) (l : Option Loc) (as : List (AnnotationData F)) (name : Ident) (typ : TypeAst)
    (h : ¬∃ t, TypeOk typ t) : ∃ m, StmtFails fo D (.var l as name typ) m l ∧
      visitStatement fo (stateOf fo v D u b vars) (.var l as name typ) = .ok ([⟨m, l⟩], stateOf fo v D u b vars) := by
  rcases buildSemanticType_fails typ with ⟨ty, _, ht⟩ | ⟨h1, h2, h3⟩ | ⟨n, h1, h2, h3, h4⟩
  · exact absurd ⟨_, ht⟩ h
  · refine ⟨_, .unknownType h2 h3, ?_⟩
    rw [visitStatement, visitVariable, h1]
    simp [context_or]
  · refine ⟨_, .size h2 h3 h4, ?_⟩
    rw [visitStatement, visitVariable, h1]
    simp [context_or]

end Qasm
