import Verif.Lemmas.Custom
import Verif.Lemmas.Analyze
import Verif.Lemmas.Names
import Verif.Lemmas.FailsStmt
/-!
# Helper lemmas: statements and programs for any registrations
-/

namespace Qasm

open Spec Sem Analyzer

variable {F : Type} {fo : FloatOps F} {scopes : List (Scope F)} {ls : List (Level F)}

/-! ## Annotations -/

theorem visitAnnotationOperands_iff (h : Forall2 HoldsLevel scopes ls) (loc : Option Loc) (es : List (Expr F))
    (vs : List (Value F)) :
    visitAnnotationOperands fo scopes loc es = .ok ([], vs) ↔ Forall2 (EvalIn fo ls) es vs := by
  induction es generalizing vs with
  | nil =>
    rw [visitAnnotationOperands]
    exact ⟨fun h => (by cases h; exact .nil), fun h => (by cases h; rfl)⟩
  | cons e es ih =>
    rw [visitAnnotationOperands]
    constructor
    · intro h0
      cases hv : visit fo scopes e with
      | ok v =>
        rw [hv] at h0
        obtain ⟨⟨errs, us⟩, h1, h2⟩ := Res.bind_eq_ok.1 h0
        simp only [Res.ok.injEq, Prod.mk.injEq] at h2
        obtain ⟨rfl, rfl⟩ := h2
        exact .cons ((visit_iff h e v).1 hv) ((ih us).1 h1)
      | err x =>
        rw [hv] at h0
        obtain ⟨⟨errs, us⟩, h1, h2⟩ := Res.bind_eq_ok.1 h0
        simp at h2
      | exn c => rw [hv] at h0; cases h0
      | ub => rw [hv] at h0; cases h0
    · intro h0
      cases h0 with
      | cons h1 h2 => rw [(visit_iff h e _).2 h1]; simp only [(ih _).2 h2, Res.bind_ok]

theorem visitAnnotations_iff (h : Forall2 HoldsLevel scopes ls) (as : List (AnnotationData F)) (sas : List (SAnnotation F)) :
    visitAnnotations fo scopes as = .ok ([], sas) ↔ AnnotationsIn fo ls as sas := by
  induction as generalizing sas with
  | nil =>
    rw [visitAnnotations]
    exact ⟨fun h => (by cases h; exact .nil), fun h => (by cases h; rfl)⟩
  | cons a as ih =>
    rw [visitAnnotations, Res.bind_eq_ok]
    constructor
    · rintro ⟨⟨errs, vs⟩, h1, h2⟩
      obtain ⟨⟨errs', sas'⟩, h3, h4⟩ := Res.bind_eq_ok.1 h2
      simp only [Res.ok.injEq, Prod.mk.injEq, List.append_eq_nil_iff] at h4
      obtain ⟨⟨rfl, rfl⟩, rfl⟩ := h4
      exact .cons ⟨rfl, rfl, rfl, (visitAnnotationOperands_iff h ..).1 h1⟩ ((ih _).1 h3)
    · intro h0
      cases h0 with
      | @cons _ s _ sas h1 h2 =>
        obtain ⟨i, o, vs, l⟩ := s
        obtain ⟨h3, h4, h5, h6⟩ := h1
        simp only at h3 h4 h5 h6
        subst h3 h4 h5
        exact ⟨_, (visitAnnotationOperands_iff h ..).2 h6, by simp only [(ih _).2 h2, Res.bind_ok, List.append_nil]⟩

/-! ## Parameters -/

theorem paramsIn_length {vs ws : List (Value F)} {ks : List Kind} (h : ParamsIn fo vs ks ws) : vs.length = ks.length := by
  induction h with
  | nil => rfl
  | cons _ _ ih => simp [ih]

theorem promotesTo_widens {v w : Value F} {k k' : Kind} (h : PromotesTo fo v k w) (hk : kindOf v.node = some k') :
    Widens k' k := by
  cases h with
  | same h => rw [h] at hk; cases hk; exact .same _
  | const l h => rw [kindOf_node] at hk; cases hk; exact converts_widens h
  | boolVar l h => simp only [kindOf, h, Option.some.injEq] at hk; subst hk; exact .boolInt

theorem promoteParameters_iff (name spec : Str) (ks : List Kind) (vs ws : List (Value F))
    (hspec : Types.fromSpec spec = some (ks.map Ty.bare)) (hlen : vs.length = ks.length) :
    promoteParameters fo name spec vs = .ok ws ↔ ParamsIn fo vs ks ws := by
  induction spec generalizing ks vs ws with
  | nil =>
    simp only [Types.fromSpec, Option.some.injEq] at hspec
    have : ks = [] := by cases ks <;> simp_all
    subst this
    have : vs = [] := by cases vs <;> simp_all
    subst this
    rw [promoteParameters]
    exact ⟨fun h => (by cases h; exact .nil), fun h => (by cases h; rfl)⟩
  | cons c cs ih =>
    simp only [Types.fromSpec] at hspec
    cases hc : Types.fromSpecChar c with
    | none => rw [hc] at hspec; cases hspec
    | some t =>
      rw [hc] at hspec
      simp only [Option.map_eq_some_iff] at hspec
      obtain ⟨ts, h1, h2⟩ := hspec
      rcases ks with _ | ⟨k, ks⟩
      · simp at h2
      simp only [List.map_cons, List.cons.injEq] at h2
      obtain ⟨rfl, rfl⟩ := h2
      rcases vs with _ | ⟨v, vs⟩
      · simp at hlen
      simp only [List.length_cons, Nat.add_right_cancel_iff] at hlen
      simp only [promoteParameters, hc, Res.bind_eq_ok]
      constructor
      · rintro ⟨tp, h3, h4⟩
        have hk := kindOf_of_typeOf h3
        split at h4
        · next hcp =>
          obtain ⟨o, h5, h6⟩ := Res.bind_eq_ok.1 h4
          obtain ⟨rest, h7, h8⟩ := Res.bind_eq_ok.1 h6
          cases h8
          have hr := (ih ks vs rest h1 hlen).1 h7
          cases o with
          | some w => exact .cons (.passed (promote_iff.1 h5)) hr
          | none =>
            refine .cons (.lost hk ((C15_check_promote _ _).1 hcp) ?_) hr
            rintro ⟨w, hw⟩
            have hw : Values.promote fo v (.bare k) = _ := promote_iff.2 hw
            rw [hw] at h5
            cases h5
        · cases h4
      · intro h0
        generalize hkk : k :: ks = kks at h0
        generalize hvv : v :: vs = vvs at h0
        cases h0 with
        | nil => cases hkk
        | @cons v' vs' k' ks' us us' h3 h4 =>
          cases hkk
          cases hvv
          have h4 := (ih ks vs us' h1 hlen).2 h4
          obtain ⟨kv, hkv, hwd⟩ : ∃ kv, kindOf v.node = some kv ∧ Widens kv k := by
            cases h3 with
            | passed h => 
              obtain ⟨kv, hkv⟩ := Option.ne_none_iff_exists'.mp (promotesTo_kind h)
              exact ⟨kv, hkv, promotesTo_widens h hkv⟩
            | lost h g _ => exact ⟨_, h, g⟩
          obtain ⟨tp, h5, h6⟩ := typeOf_ok hkv
          have hcp : Values.checkPromote tp (.bare k) = true := (C15_check_promote _ _).2 (h6 ▸ hwd)
          refine ⟨tp, h5, ?_⟩
          rw [if_pos hcp]
          cases h3 with
          | passed h =>
            have h : Values.promote fo v (.bare k) = _ := promote_iff.2 h
            rw [h, Res.bind_ok, h4]
            rfl
          | lost _ _ h =>
            have h : Values.promote fo v (.bare k) = .ok none :=
              (promote_none_iff fo v (.bare k) (by rw [hkv]; simp)).2 fun w hw => h ⟨w, hw⟩
            rw [h, Res.bind_ok, h4]
            rfl

theorem resolveParameters_gate_iff (name : Str) (sp : Option Str) (ks : List Kind) (vs ws : List (Value F))
    (hng : InstructionSet.isNonGate name = false) (hsp : InstructionSet.getInstructionParamTypes name = .ok sp)
    (hks : SpecOf sp ks) : resolveParameters fo name vs = .ok ws ↔ ParamsIn fo vs ks ws := by
  simp only [resolveParameters, hng, hsp, Res.bind_ok, Bool.false_eq_true, if_false]
  rcases hks with ⟨rfl, rfl⟩ | ⟨s, rfl, hs⟩
  · simp only
    cases vs with
    | nil => exact ⟨fun h => (by cases h; exact .nil), fun h => (by cases h; rfl)⟩
    | cons v vs => exact ⟨fun h => (by cases h), fun h => (by cases h)⟩
  · have hl := fromSpec_map hs
    rw [List.length_map] at hl
    simp only
    by_cases h : vs.length ≠ s.length
    · rw [if_pos h]
      exact ⟨fun h => (by cases h), fun h' => absurd (by rw [paramsIn_length h', hl]) h⟩
    · rw [if_neg h]
      exact promoteParameters_iff name s ks vs ws hs (by rw [hl]; exact Classical.not_not.mp h)

theorem resolveParameters_named_iff {name : Str} {n : Nat} {ks : List Kind} (h : (name, n, ks) ∈ namedGates)
    (vs ws : List (Value F)) : resolveParameters fo name vs = .ok ws ↔ ParamsIn fo vs ks ws := by
  obtain ⟨h1, h2, _⟩ := named_facts _ h
  obtain ⟨sp, h6, h7⟩ := specOk_spec h2
  exact resolveParameters_gate_iff name sp ks vs ws h1 h6 h7

theorem resolveParameters_modifier_iff {name : Str} (h : name ∈ modifiers) (vs ws : List (Value F)) :
    resolveParameters fo name vs = .ok ws ↔ ParamsIn fo vs (modifierParameters name) ws := by
  obtain ⟨h1, h2, _⟩ := modifier_facts _ h
  obtain ⟨sp, h6, h7⟩ := specOk_spec h2
  exact resolveParameters_gate_iff name sp _ vs ws h1 h6 h7

theorem paramsIn_nil {vs ws : List (Value F)} : ParamsIn fo vs [] ws ↔ vs = [] ∧ ws = [] :=
  ⟨fun h => (by cases h; exact ⟨rfl, rfl⟩), fun ⟨h1, h2⟩ => (by subst h1 h2; exact .nil)⟩

theorem resolveParameters_nonGate_iff {name : Str} (hn : name ∈ nonGates) (vs ws : List (Value F))
    (hw : name = c!"wait" → vs ≠ []) :
    resolveParameters fo name vs = .ok ws ↔ ∃ ks, (name, ks) ∈ nonGateParameters ∧ ParamsIn fo vs ks ws := by
  have hng := (isNonGate_iff name).mpr hn
  simp only [resolveParameters, hng, if_true]
  have hcase : name = c!"measure" ∨ name ∈ [c!"reset", c!"init", c!"barrier"] ∨ name = c!"wait" := by
    simp only [nonGates, List.mem_cons, List.not_mem_nil, or_false] at hn ⊢
    rcases hn with h | h | h | h | h <;> simp [h]
  have none_case : (if vs.isEmpty = true then (.ok [] : Res Err (List (Value F))) else
      .err (Err.mk0 (c!"instruction '" ++ name ++ c!"' does not have an overload with "
        ++ decNat vs.length ++ c!" parameters."))) = .ok ws ↔ vs = [] ∧ ws = [] := by
    cases vs with
    | nil => simp [eq_comm]
    | cons => simp
  rcases hcase with rfl | hs | rfl
  · have hks : ∀ ks, (c!"measure", ks) ∈ nonGateParameters ↔ ks = [] ∨ ks = [.float, .float, .float] := by
      intro ks; simp [nonGateParameters]
    simp only [hks, or_and_right, exists_or, exists_eq_left, paramsIn_nil]
    rw [count_measure]
    by_cases h3 : vs.length = 3
    · simp only [h3, if_true]
      rw [promoteParameters_iff c!"measure" c!"fff" [.float, .float, .float] vs ws rfl h3]
      constructor
      · exact .inr
      · rintro (⟨rfl, _⟩ | h)
        · cases h3
        · exact h
    · simp only [h3, if_false]
      rw [none_case]
      exact ⟨.inl, fun h => h.elim id fun h => absurd (paramsIn_length h) h3⟩
  · have hks : ∀ ks, (name, ks) ∈ nonGateParameters ↔ ks = [] := by
      intro ks
      simp only [List.mem_cons, List.not_mem_nil, or_false] at hs
      rcases hs with rfl | rfl | rfl <;> simp [nonGateParameters]
    simp only [hks, exists_eq_left, paramsIn_nil]
    rw [count_simple name hs]
    exact none_case
  · have hks : ∀ ks, (c!"wait", ks) ∈ nonGateParameters ↔ ks = [.int] := by
      intro ks; simp [nonGateParameters]
    simp only [hks, exists_eq_left]
    rw [count_wait]
    by_cases h1 : vs.length = 1
    · simp only [h1, if_true]
      exact promoteParameters_iff c!"wait" c!"i" [.int] vs ws rfl h1
    · simp only [h1, if_false]
      rw [none_case]
      exact ⟨fun h => absurd h.1 (hw rfl), fun h => absurd (paramsIn_length h) h1⟩

/-! ## Gates -/

theorem gateIn_names {g : Gate F} {n : Nat} {s : SGate F} (h : GateHere fo ls g n s) : GateNames g n s := by
  induction h with
  | @named l as name ps n ks vs ws sas h =>
    obtain ⟨_, _, h3, h4, _⟩ := named_facts _ h
    exact ⟨rfl, rfl, h3, h4⟩
  | @modified l as name g s ps vs ws sas hm _ _ _ _ ih =>
    rcases modifiers_cases hm with rfl | rfl | rfl
    · refine ⟨ih.terminal, by simp only [gateResolutionName, ih.terminal]; rfl, ?_, .inl rfl⟩
      exact one_prefix _
    · refine ⟨ih.terminal, by simp only [gateResolutionName, ih.terminal]; rfl, ?_, .inl rfl⟩
      exact one_prefix _
    · refine ⟨ih.terminal, by simp only [gateResolutionName, ih.terminal]; rfl, ?_, .inr rfl⟩
      exact two_prefix _

theorem visitGateRest_iff (h : Forall2 HoldsLevel scopes ls) (loc : Option Loc) (as : List (AnnotationData F)) (name : Str)
    (inner : Option (SGate F)) (ps : List (Expr F)) (s : SGate F) :
    visitGateRest fo scopes loc as name inner ps = .ok ([], .ok s) ↔
      ∃ vs ws sas, ArgsIn fo ls ps vs ∧ resolveParameters fo name vs = .ok ws ∧ checkGate inner = .ok () ∧
        AnnotationsIn fo ls as sas ∧ s = .mk name inner ws sas loc := by
  unfold visitGateRest
  constructor
  · intro h0
    split at h0
    · next ws hw =>
      obtain ⟨vs, h1, h2⟩ := Res.bind_eq_ok.1 hw
      obtain ⟨us, h3, h4⟩ := Res.bind_eq_ok.1 h2
      obtain ⟨_, h5, h6⟩ := Res.bind_eq_ok.1 h4
      simp only [Res.ok.injEq] at h6
      subst h6
      obtain ⟨⟨errs, sas⟩, h7, h8⟩ := Res.bind_eq_ok.1 h0
      simp only [Res.ok.injEq, Prod.mk.injEq, Except.ok.injEq] at h8
      obtain ⟨rfl, rfl⟩ := h8
      exact ⟨vs, _, sas, (visitList_iff h ..).1 h1, h3, h5, (visitAnnotations_iff h ..).1 h7, rfl⟩
    · cases h0
    · cases h0
    · cases h0
  · rintro ⟨vs, ws, sas, h1, h2, h3, h4, rfl⟩
    rw [(visitList_iff h ..).2 h1, Res.bind_ok, h2, Res.bind_ok, h3, Res.bind_ok]
    simp only [(visitAnnotations_iff h ..).2 h4, Res.bind_ok]

theorem visitGate_iff (h : Forall2 HoldsLevel scopes ls) : ∀ (g : Gate F), ShapedGate g → ∀ s,
    visitGate fo scopes g = .ok ([], .ok s) ↔ ∃ n, GateHere fo ls g n s
  | .mk loc as name none ps, hs, s => by
    rw [visitGate, visitGateRest_iff h]
    constructor
    · rintro ⟨vs, ws, sas, h1, h2, _, h4, rfl⟩
      by_cases hn : ∃ n ks, (name, n, ks) ∈ namedGates
      · obtain ⟨n, ks, hn⟩ := hn
        exact ⟨n, .named hn h1 ((resolveParameters_named_iff hn ..).1 h2) h4⟩
      · obtain ⟨e, _, he⟩ := resolveParameters_unknown fo hn hs.1 hs.2 vs
        rw [he] at h2
        cases h2
    · rintro ⟨n, h0⟩
      cases h0 with
      | named h1 h2 h3 h4 => exact ⟨_, _, _, h2, (resolveParameters_named_iff h1 ..).2 h3, rfl, h4, rfl⟩
  | .mk loc as name (some g) ps, hs, s => by
    rw [visitGate, Res.bind_eq_ok]
    constructor
    · rintro ⟨⟨errs, r⟩, h1, h2⟩
      cases r with
      | error e => simp at h2
      | ok inner =>
        obtain ⟨rfl, h2'⟩ := after_nil_inv h2
        obtain ⟨n, hg⟩ := (visitGate_iff h g hs.2 inner).1 h1
        obtain ⟨vs, ws, sas, h3, h4, h5, h6, rfl⟩ := (visitGateRest_iff h ..).1 h2'
        have hn : n = 1 := by
          apply Classical.byContradiction
          intro hn
          obtain ⟨e, he⟩ := checkGate_err (gateIn_names hg) hn
          rw [he.2] at h5
          cases h5
        subst hn
        exact ⟨_, .modified hs.1 hg h3 ((resolveParameters_modifier_iff hs.1 ..).1 h4) h6⟩
    · rintro ⟨n, h0⟩
      cases h0 with
      | modified h1 h2 h3 h4 h5 =>
        refine ⟨_, (visitGate_iff h g hs.2 _).2 ⟨_, h2⟩, ?_⟩
        simp only
        rw [(visitGateRest_iff h ..).2 ⟨_, _, _, h3, (resolveParameters_modifier_iff h1 ..).2 h4,
          checkGate_ok (gateIn_names h2), h5, rfl⟩]
        rfl

/-! ## Instructions -/

theorem toNat_mod (i : Int64) : i.toUInt64.toNat = (i.toInt % 2 ^ 64).toNat := by
  have h1 : i.toInt = i.toBitVec.toInt := rfl
  have h2 : i.toUInt64.toNat = i.toBitVec.toNat := rfl
  rw [h1, h2, BitVec.toInt_eq_toNat_cond]
  have := i.toBitVec.isLt
  split <;> omega

theorem qubitCount_eq (v : Value F) : qubitCount v = qubitsIn v := by
  unfold qubitCount qubitsIn countsFor registerSize
  split <;> simp_all [toNat_mod]

theorem bitCount_eq (v : Value F) : bitCount v = bitsIn v := by
  unfold bitCount bitsIn countsFor registerSize
  split <;> simp_all [toNat_mod]

theorem checkGateInstruction_iff (ws : List (Value F)) :
    checkGateInstruction ws = .ok () ↔ ∀ v ∈ ws, ∀ w ∈ ws, qubitsIn v = qubitsIn w := by
  have h : checkGateInstruction ws = .ok () ↔ adjacentDiffer (ws.map qubitCount) = false := by
    unfold checkGateInstruction
    cases adjacentDiffer (ws.map qubitCount) <;> simp
  rw [h, adjacentDiffer_iff]
  simp only [List.mem_map, forall_exists_index, and_imp, forall_apply_eq_imp_iff₂, qubitCount_eq]

theorem checkNonGateInstruction_iff (name : Str) (ws : List (Value F)) :
    checkNonGateInstruction name ws = .ok () ↔ (name = c!"measure" → (ws.map qubitsIn).sum = (ws.map bitsIn).sum) := by
  have h1 : ws.map qubitCount = ws.map qubitsIn := List.map_congr_left fun v _ => qubitCount_eq v
  have h2 : ws.map bitCount = ws.map bitsIn := List.map_congr_left fun v _ => bitCount_eq v
  unfold checkNonGateInstruction
  rw [h1, h2]
  by_cases hm : name = c!"measure"
  · rw [if_pos ((isMeasure_iff name).2 hm)]
    by_cases h : (ws.map qubitsIn).sum = (ws.map bitsIn).sum <;> simp [h, hm]
  · rw [if_neg (fun h => hm ((isMeasure_iff name).1 h))]
    simp [hm]

theorem catchInto_iff {a a' : Analyzer F} {loc : Option Loc} {r : Res Err (Analyzer F)} :
    catchInto a loc r = .ok ([], a') ↔ r = .ok a' := by
  cases r <;> simp [catchInto]

/-- The end of all instruction visitors. -/
theorem finish_iff {a a' : Analyzer F} (h : Forall2 HoldsLevel a.scopes ls) (as : List (AnnotationData F)) (loc : Option Loc)
    (f : List (SAnnotation F) → SStatement F) :
    ((visitAnnotations fo a.scopes as).bind fun ra => Log.after ra.1 (catchInto a loc (a.addStatement (f ra.2)))) = .ok ([], a') ↔
      ∃ sas, AnnotationsIn fo ls as sas ∧ a.addStatement (f sas) = .ok a' := by
  rw [Res.bind_eq_ok]
  constructor
  · rintro ⟨⟨errs, sas⟩, h1, h2⟩
    obtain ⟨h3, h4⟩ := after_nil_inv h2
    dsimp only at h3 h4
    subst h3
    exact ⟨sas, (visitAnnotations_iff h ..).1 h1, catchInto_iff.1 h4⟩
  · rintro ⟨sas, h1, h2⟩
    refine ⟨_, (visitAnnotations_iff h ..).2 h1, ?_⟩
    simp only [catchInto_iff.2 h2]
    rfl

theorem visitGateInstruction_iff {a a' : Analyzer F} (h : Forall2 HoldsLevel a.scopes ls) (loc : Option Loc)
    (as : List (AnnotationData F)) {g : Gate F} (hg : ShapedGate g) (es : List (Expr F)) :
    visitGateInstruction fo a loc as g es = .ok ([], a') ↔
      ∃ t, InstrIn fo ls (.gate loc as g es) t ∧ a.addStatement t = .ok a' := by
  rw [visitGateInstruction, Res.bind_eq_ok]
  constructor
  · rintro ⟨⟨errs, r⟩, h1, h2⟩
    obtain ⟨h3, h4⟩ := after_nil_inv h2
    dsimp only at h3 h4
    subst h3
    cases r with
    | error e => simp at h4
    | ok s =>
      obtain ⟨n, hn⟩ := (visitGate_iff h g hg s).1 h1
      dsimp only at h4
      split at h4
      · simp at h4
      · cases h4
      · cases h4
      · next i hi =>
        obtain ⟨vs, h5, h6⟩ := Res.bind_eq_ok.1 hi
        obtain ⟨⟨j, ws⟩, h7, h8⟩ := Res.bind_eq_ok.1 h6
        obtain ⟨_, h9, h10⟩ := Res.bind_eq_ok.1 h8
        simp only [Res.ok.injEq] at h10
        subst h10
        obtain ⟨sas, h11, h12⟩ := (finish_iff h as loc fun sas => .gate j s ws sas loc).1 h4
        rw [(gateIn_names hn).resolution] at h7
        exact ⟨_, .gate hn ((visitList_iff h ..).1 h5) ((resolveInstruction_iff h ..).1 h7)
          ((checkGateInstruction_iff ws).1 h9) h11, h12⟩
  · rintro ⟨t, h0, ha⟩
    cases h0 with
    | @gate _ _ _ _ n s vs i ws sas h1 h2 h3 h4 h5 =>
      refine ⟨_, (visitGate_iff h g hg s).2 ⟨_, h1⟩, ?_⟩
      simp only
      rw [(visitList_iff h ..).2 h2, Res.bind_ok, (gateIn_names h1).resolution, (resolveInstruction_iff h ..).2 h3, Res.bind_ok]
      simp only [(checkGateInstruction_iff ws).2 h4, Res.bind_ok]
      rw [(finish_iff h as loc fun sas => .gate i s ws sas loc).2 ⟨sas, h5, ha⟩]
      rfl

theorem visitNonGateInstruction_iff {a a' : Analyzer F} (h : Forall2 HoldsLevel a.scopes ls) (loc : Option Loc)
    (as : List (AnnotationData F)) {name : Str} {es ps : List (Expr F)} (hs : ShapedStmt (.nonGate loc as name es ps)) :
    visitNonGateInstruction fo a loc as name es ps = .ok ([], a') ↔
      ∃ t, InstrIn fo ls (.nonGate loc as name es ps) t ∧ a.addStatement t = .ok a' := by
  rw [visitNonGateInstruction]
  have hw : ∀ us, ArgsIn fo ls ps us → name = c!"wait" → us ≠ [] := by
    rintro us hu hn rfl
    cases hu
    exact hs.2.2.1 hn rfl
  constructor
  · intro h4
    split at h4
    · simp at h4
    · cases h4
    · cases h4
    · next i us' hi =>
      obtain ⟨vs, h5, h6⟩ := Res.bind_eq_ok.1 hi
      obtain ⟨⟨j, ws⟩, h7, h8⟩ := Res.bind_eq_ok.1 h6
      obtain ⟨us, h9, h10⟩ := Res.bind_eq_ok.1 h8
      obtain ⟨us2, h11, h12⟩ := Res.bind_eq_ok.1 h10
      obtain ⟨_, h13, h14⟩ := Res.bind_eq_ok.1 h12
      simp only [Res.ok.injEq, Prod.mk.injEq] at h14
      obtain ⟨rfl, rfl⟩ := h14
      obtain ⟨sas, h15, h16⟩ := (finish_iff h as loc fun sas => .nonGate j name ws us2 sas loc).1 h4
      have h9 := (visitList_iff h ..).1 h9
      obtain ⟨ks, h17, h18⟩ := (resolveParameters_nonGate_iff hs.2.1 us us2 (hw us h9)).1 h11
      exact ⟨_, .nonGate ((visitList_iff h ..).1 h5) ((resolveInstruction_iff h ..).1 h7) h9 h17 h18
        ((checkNonGateInstruction_iff name ws).1 h13) h15, h16⟩
  · rintro ⟨t, h0, ha⟩
    cases h0 with
    | @nonGate _ _ _ _ _ vs i ws ks us us' sas h1 h2 h3 h4 h5 h6 h7 =>
      rw [(visitList_iff h ..).2 h1, Res.bind_ok, (resolveInstruction_iff h ..).2 h2, Res.bind_ok, (visitList_iff h ..).2 h3,
        Res.bind_ok, (resolveParameters_nonGate_iff hs.2.1 us us' (hw us h3)).2 ⟨ks, h4, h5⟩, Res.bind_ok]
      simp only [(checkNonGateInstruction_iff name ws).2 h6, Res.bind_ok]
      rw [(finish_iff h as loc fun sas => .nonGate i name ws us' sas loc).2 ⟨sas, h7, ha⟩]

theorem visitInstruction_iff {a a' : Analyzer F} (h : Forall2 HoldsLevel a.scopes ls) {s : Stmt F} (hs : ShapedStmt s)
    (hd : ¬ IsDecl s) : visitStatement fo a s = .ok ([], a') ↔ ∃ t, InstrIn fo ls s t ∧ a.addStatement t = .ok a' := by
  cases s with
  | var => exact absurd trivial hd
  | gate l as g es => exact visitGateInstruction_iff h l as hs.2.1 es
  | nonGate l as name es ps => exact visitNonGateInstruction_iff h l as hs
  | asm l as n c =>
    rw [visitStatement, visitAsmDeclaration]
    refine (finish_iff h as l fun sas => .asm n c sas l).trans ⟨?_, ?_⟩
    · rintro ⟨sas, h1, h2⟩
      exact ⟨_, .asm h1, h2⟩
    · rintro ⟨t, h1, h2⟩
      cases h1 with
      | asm h1 => exact ⟨_, h1, h2⟩

/-! ## Declarations and blocks -/

theorem buildSemanticType_iff (t : TypeAst) (ty : Ty) : buildSemanticType t = .ok ty ↔ TypeOk t ty := by
  rcases buildSemanticType_fails t with ⟨ty', h1, h2⟩ | ⟨h1, h2, h3⟩ | ⟨n, h1, h2, h3, h4⟩
  · rw [h1]
    exact ⟨fun h => (by cases h; exact h2), fun h => (by rw [typeOk_det h h2])⟩
  · rw [h1]
    exact ⟨fun h => (by cases h), fun h => ((typeOk_name h).elim h2 h3).elim⟩
  · rw [h1]
    exact ⟨fun h => (by cases h), fun h => absurd (typeOk_size h h3) (by omega)⟩

theorem holds_find_none {s : Scope F} {l : Level F} (h : HoldsLevel s l) (name : Str) :
    VariableTable.find s.variableTable name = none ↔ name ∉ l.vars.map (·.1) := by
  rw [h.1, Option.map_eq_none_iff, List.find?_eq_none]
  simp only [decide_eq_true_eq, List.mem_map, not_exists, not_and]

/-- The scope after a declaration. -/
def declareIn (s : Scope F) (x : SVariable F) : Scope F :=
  { s with variables := s.variables ++ [x], variableTable := (x.name, ⟨.variableRef x.link, none⟩) :: s.variableTable }

theorem visitVariable_iff {s : Scope F} {ss : List (Scope F)} {r : Level F} (v : Version) (u : Nat)
    (h : Forall2 HoldsLevel (s :: ss) (r :: ls)) (loc : Option Loc) (as : List (AnnotationData F)) (name : Ident) (typ : TypeAst)
    (a' : Analyzer F) :
    visitVariable fo ⟨v, s :: ss, u⟩ loc as name typ = .ok ([], a') ↔
      ∃ t sas, TypeOk typ t ∧ name.name ∉ r.vars.map (·.1) ∧ AnnotationsIn fo (r :: ls) as sas ∧
        a' = ⟨v, declareIn s ⟨u, name.name, t, sas, name.loc⟩ :: ss, u + 1⟩ := by
  have hs : HoldsLevel s r := by cases h; assumption
  rw [visitVariable]
  constructor
  · intro h0
    split at h0
    · simp at h0
    · cases h0
    · cases h0
    · next t ht =>
      obtain ⟨⟨errs, sas⟩, h1, h2⟩ := Res.bind_eq_ok.1 h0
      obtain ⟨h3, h4⟩ := after_nil_inv h2
      dsimp only at h3 h4
      subst h3
      simp only [addVariable, modifyCurrent, Res.bind_ok] at h4
      have h5 := catchInto_iff.1 h4
      simp only [registerVariable, modifyCurrent, VariableTable.add] at h5
      cases hf : VariableTable.find s.variableTable name.name with
      | some w => rw [hf] at h5; cases h5
      | none =>
        rw [hf] at h5
        simp only [Res.bind_ok, Res.ok.injEq] at h5
        exact ⟨t, sas, (buildSemanticType_iff ..).1 ht, (holds_find_none hs _).1 hf, (visitAnnotations_iff h ..).1 h1, h5.symm⟩
  · rintro ⟨t, sas, h1, h2, h3, rfl⟩
    rw [(buildSemanticType_iff ..).2 h1]
    simp only [(visitAnnotations_iff h ..).2 h3, Res.bind_ok, addVariable, modifyCurrent, registerVariable, VariableTable.add,
      (holds_find_none hs _).2 h2, catchInto, SVariable.link]
    rfl

/-- The state of an analyser after statements that declare `vs` and denote `ts`. -/
def stateAfter (v : Version) (s : Scope F) (ss : List (Scope F)) (u : Nat) (vs : List (SVariable F)) (ts : List (SStatement F)) :
    Analyzer F :=
  ⟨v, { s with block := blockAfter s.block ts, variables := s.variables ++ vs,
               variableTable := (vs.map fun x => (x.name, ⟨.variableRef x.link, none⟩)).reverse ++ s.variableTable } :: ss,
    u + vs.length⟩

theorem holds_declared {s : Scope F} {r : Level F} (h : HoldsLevel s r) (x : SVariable F) (hn : x.name ∉ r.vars.map (·.1)) :
    HoldsLevel (declareIn s x) { r with vars := r.vars ++ [(x.name, ⟨.variableRef x.link, none⟩)] } := by
  refine ⟨fun m => ?_, h.2⟩
  have hf := (holds_find_none h x.name).2 hn
  simp only [declareIn, VariableTable.find, List.find?_append, h.1]
  by_cases hm : x.name = m
  · subst hm
    rw [h.1, Option.map_eq_none_iff] at hf
    simp [hf]
  · simp [hm]

theorem visitBlock_iff (stmts : List (Stmt F)) (hst : ∀ s ∈ stmts, ShapedStmt s) :
    ∀ {s : Scope F} {ss : List (Scope F)} {r : Level F} (v : Version) (u : Nat) (_ : Forall2 HoldsLevel (s :: ss) (r :: ls))
      (a' : Analyzer F), visitBlock fo ⟨v, s :: ss, u⟩ stmts = .ok ([], a') ↔
        ∃ vs ts, ExecIn fo (r :: ls) u stmts vs ts ∧ a' = stateAfter v s ss u vs ts := by
  induction stmts with
  | nil =>
    intro s ss r v u h a'
    rw [visitBlock]
    constructor
    · intro h0
      cases h0
      exact ⟨[], [], .nil, by simp [stateAfter, blockAfter]⟩
    · rintro ⟨vs, ts, h0, rfl⟩
      cases h0
      simp [stateAfter, blockAfter]
  | cons st stmts ih =>
    intro s ss r v u h a'
    replace ih := @ih fun s hs => hst s (List.mem_cons_of_mem _ hs)
    have hst := hst st (List.mem_cons_self ..)
    have hs : HoldsLevel s r := by cases h; assumption
    have hss : Forall2 HoldsLevel ss ls := by cases h; assumption
    have key : visitBlock fo ⟨v, s :: ss, u⟩ (st :: stmts) = .ok ([], a') ↔
        ∃ a1, visitStatement fo ⟨v, s :: ss, u⟩ st = .ok ([], a1) ∧ visitBlock fo a1 stmts = .ok ([], a') := by
      rw [visitBlock, Res.bind_eq_ok]
      constructor
      · rintro ⟨⟨errs, a1⟩, h1, h2⟩
        obtain ⟨h3, h4⟩ := after_nil_inv h2
        dsimp only at h3 h4
        subst h3
        exact ⟨a1, h1, h4⟩
      · rintro ⟨a1, h1, h2⟩
        refine ⟨_, h1, ?_⟩
        simp only [h2]
        rfl
    rw [key]
    by_cases hd : IsDecl st
    · cases st with
      | gate => exact hd.elim
      | nonGate => exact hd.elim
      | asm => exact hd.elim
      | var l as name typ =>
        simp only [visitStatement, visitVariable_iff v u h]
        constructor
        · rintro ⟨a1, ⟨t, sas, h1, h2, h3, rfl⟩, h4⟩
          obtain ⟨vs, ts, h5, rfl⟩ := (ih v (u + 1) (.cons (holds_declared hs ⟨u, name.name, t, sas, name.loc⟩ h2) hss) a').1 h4
          exact ⟨_, _, .decl h1 h2 h3 h5, by simp [stateAfter, declareIn, SVariable.link, Nat.add_assoc, Nat.add_comm 1]⟩
        · rintro ⟨vs, ts, h0, rfl⟩
          cases h0 with
          | @decl _ _ _ _ _ _ _ _ t sas vs _ h1 h2 h3 h4 =>
            refine ⟨_, ⟨t, sas, h1, h2, h3, rfl⟩, ?_⟩
            rw [(ih v (u + 1) (.cons (holds_declared hs ⟨u, name.name, t, sas, name.loc⟩ h2) hss) _).2 ⟨_, _, h4, rfl⟩]
            simp [stateAfter, declareIn, SVariable.link, Nat.add_assoc, Nat.add_comm 1]
          | instr h1 _ => cases h1
    · have hi := fun a1 => visitInstruction_iff (fo := fo) (a := ⟨v, s :: ss, u⟩) (a' := a1) h hst hd
      simp only [hi]
      constructor
      · rintro ⟨a1, ⟨t, h1, h2⟩, h3⟩
        cases h2
        obtain ⟨vs, ts, h5, rfl⟩ := (ih v u (.cons (a := { s with block := addTo s.block t }) hs hss) a').1 h3
        exact ⟨_, _, .instr h1 h5, by simp [stateAfter, blockAfter]⟩
      · rintro ⟨vs, ts, h0, rfl⟩
        cases h0 with
        | decl => exact absurd trivial hd
        | @instr _ _ _ _ t _ ts h1 h2 =>
          refine ⟨_, ⟨t, h1, rfl⟩, ?_⟩
          have := (ih v u (.cons (a := { s with block := addTo s.block t }) hs hss) _).2 ⟨_, _, h2, rfl⟩
          exact this

/-! ## Programs -/

theorem valueOk_iff (vs : List (SVariable F)) (w : Value F) : SProgram.valueOk vs w = true ↔ ClosedValue vs w := by
  obtain ⟨n, l⟩ := w
  unfold SProgram.valueOk ClosedValue
  cases n with
  | variableRef x =>
    simp only [List.contains_iff_mem, List.mem_map]
    constructor
    · rintro ⟨y, h1, h2⟩
      refine ⟨fun z hz => ?_, fun z hz => (by cases hz)⟩
      cases hz
      exact ⟨y, h1, h2⟩
    · rintro ⟨h, _⟩
      exact h x .whole
  | indexRef x is =>
    simp only [List.contains_iff_mem, List.mem_map, Bool.and_eq_true]
    constructor
    · rintro ⟨⟨y, h1, h2⟩, h3⟩
      refine ⟨fun z hz => ?_, fun z hz => ?_⟩
      · cases hz
        exact ⟨y, h1, h2⟩
      · cases hz
        simp at h3
    · rintro ⟨h, h'⟩
      refine ⟨h x .elements, ?_⟩
      cases is with
      | nil => exact absurd rfl (h' x)
      | cons => rfl
  | _ => exact ⟨fun _ => ⟨fun z hz => (by cases hz), fun z hz => (by cases hz)⟩, fun _ => rfl⟩

theorem closed_iff (v : Version) (w : SVersion) (b : SBlock F) (vs : List (SVariable F)) :
    SProgram.wellFormed ⟨v, w, b, vs⟩ = true ↔ ClosedProgram vs b.statements := by
  simp only [SProgram.wellFormed, SProgram.values, List.all_eq_true, List.mem_append, List.mem_flatMap, valueOk_iff, ClosedProgram,
    inInstr_iff]
  constructor
  · intro h
    refine ⟨fun t ht x hx => h x (.inl ⟨t, ht, hx⟩), fun x hx a ha y hy => h y (.inr ⟨x, hx, ?_⟩)⟩
    simp only [SProgram.annotationValues, List.mem_flatMap]
    exact ⟨a, ha, hy⟩
  · rintro ⟨h1, h2⟩ x (⟨t, ht, hx⟩ | ⟨y, hy, hx⟩)
    · exact h1 t ht x hx
    · simp only [SProgram.annotationValues, List.mem_flatMap] at hx
      obtain ⟨a, ha, hx⟩ := hx
      exact h2 y hy a ha x hx

/-- With no scope, nothing is analysed without errors. -/
theorem visitBlock_noScope (stmts : List (Stmt F)) (hst : ∀ s ∈ stmts, ShapedStmt s) (v : Version) (u : Nat) (a' : Analyzer F)
    (h : visitBlock fo ⟨v, [], u⟩ stmts = .ok ([], a')) : a'.scopes = [] := by
  cases stmts with
  | nil => cases h; rfl
  | cons st stmts =>
    exfalso
    rw [visitBlock] at h
    obtain ⟨⟨errs, a1⟩, h1, h2⟩ := Res.bind_eq_ok.1 h
    obtain ⟨h3, _⟩ := after_nil_inv h2
    dsimp only at h3
    subst h3
    by_cases hd : IsDecl st
    · cases st with
      | gate => exact hd.elim
      | nonGate => exact hd.elim
      | asm => exact hd.elim
      | var l as name typ =>
        simp only [visitStatement, visitVariable] at h1
        split at h1
        · simp at h1
        · cases h1
        · cases h1
        · obtain ⟨⟨errs, sas⟩, _, h2⟩ := Res.bind_eq_ok.1 h1
          obtain ⟨_, h4⟩ := after_nil_inv h2
          cases h4
    · obtain ⟨t, _, h4⟩ := (visitInstruction_iff (ls := []) .nil (hst st (List.mem_cons_self ..)) hd).1 h1
      cases h4

/-- Which programs an analyser accepts, whatever it knows. -/
theorem analyze_iff {s : Scope F} {ss : List (Scope F)} {r : Level F} (v : Version) (u : Nat)
    (h : Forall2 HoldsLevel (s :: ss) (r :: ls)) {p : ProgramAst F} (hp : ShapedProgram p) (a' : Analyzer F) (root : Option (SProgram F)) :
    analyze fo ⟨v, s :: ss, u⟩ p = .ok (a', ⟨root, []⟩) ↔
      VersionOk v p.version.items ∧ ∃ vs ts, ExecIn fo (r :: ls) u p.block.statements vs ts ∧
        ClosedProgram (s.variables ++ vs) (s.block.statements ++ ts) ∧ a' = stateAfter v s ss u vs ts ∧
        root = some ⟨v, ⟨p.version.items, p.version.loc⟩, blockAfter s.block ts, s.variables ++ vs⟩ := by
  have hb := blockAfter_statements s.block
  constructor
  · intro h0
    rw [analyze, Res.bind_eq_ok] at h0
    obtain ⟨⟨a1, r1⟩, h1, h2⟩ := h0
    rw [visitProgram, Res.bind_eq_ok] at h1
    obtain ⟨⟨errs, a2⟩, h3, h4⟩ := h1
    dsimp only at h4
    split at h4
    · cases h4
    · next sc rest hsc =>
      simp only [Res.ok.injEq, Prod.mk.injEq] at h4
      obtain ⟨rfl, rfl⟩ := h4
      split at h2
      · cases h2
      · next hwf =>
        simp only [Res.ok.injEq, Prod.mk.injEq, Result.mk.injEq, List.append_eq_nil_iff] at h2
        obtain ⟨rfl, rfl, h5, h6⟩ := h2
        subst h6
        obtain ⟨vs, ts, h7, rfl⟩ := (visitBlock_iff p.block.statements hp v u h a2).1 h3
        cases hsc
        have hv := (visitVersion_nil_iff v p.version).1 h5
        rw [visitVersion_of_ok hv] at hwf ⊢
        refine ⟨hv, vs, ts, h7, ?_, rfl, rfl⟩
        simp only [List.append_nil, List.isEmpty_nil, Bool.true_and, Option.map_some, Option.getD_some, Bool.not_eq_true', Bool.not_eq_false] at hwf
        have := (closed_iff ..).1 hwf
        rwa [hb] at this
  · rintro ⟨hv, vs, ts, h1, h2, rfl, rfl⟩
    rw [analyze, visitProgram, (visitBlock_iff p.block.statements hp v u h _).2 ⟨vs, ts, h1, rfl⟩]
    simp only [Res.bind_ok, stateAfter, visitVersion_of_ok hv]
    have h3 : SProgram.wellFormed ⟨v, ⟨p.version.items, p.version.loc⟩, blockAfter s.block ts, s.variables ++ vs⟩ = true :=
      (closed_iff ..).2 (by rw [hb]; exact h2)
    simp [h3]

/-- A program that is in order except for what its values refer to makes the analyser throw. -/
theorem analyze_open {s : Scope F} {ss : List (Scope F)} {r : Level F} (v : Version) (u : Nat)
    (h : Forall2 HoldsLevel (s :: ss) (r :: ls)) {p : ProgramAst F} (hp : ShapedProgram p) (hv : VersionOk v p.version.items)
    {vs : List (SVariable F)} {ts : List (SStatement F)} (h1 : ExecIn fo (r :: ls) u p.block.statements vs ts)
    (h2 : ¬ ClosedProgram (s.variables ++ vs) (s.block.statements ++ ts)) :
    analyze fo ⟨v, s :: ss, u⟩ p = .exn c!"std::runtime_error" := by
  rw [analyze, visitProgram, (visitBlock_iff p.block.statements hp v u h _).2 ⟨vs, ts, h1, rfl⟩]
  simp only [Res.bind_ok, stateAfter, visitVersion_of_ok hv]
  have h3 : SProgram.wellFormed ⟨v, ⟨p.version.items, p.version.loc⟩, blockAfter s.block ts, s.variables ++ vs⟩ = false := by
    rw [Bool.eq_false_iff]
    intro h3
    have := (closed_iff ..).1 h3
    rw [blockAfter_statements] at this
    exact h2 this
  simp [h3]

theorem analyze_noScope (v : Version) (u : Nat) {p : ProgramAst F} (hp : ShapedProgram p) (a' : Analyzer F)
    (root : Option (SProgram F)) : analyze fo ⟨v, [], u⟩ p ≠ .ok (a', ⟨root, []⟩) := by
  intro h0
  rw [analyze, Res.bind_eq_ok] at h0
  obtain ⟨⟨a1, r1⟩, h1, h2⟩ := h0
  rw [visitProgram, Res.bind_eq_ok] at h1
  obtain ⟨⟨errs, a2⟩, h3, h4⟩ := h1
  dsimp only at h4
  split at h4
  · cases h4
  · next sc rest hsc =>
    simp only [Res.ok.injEq, Prod.mk.injEq] at h4
    obtain ⟨rfl, rfl⟩ := h4
    split at h2
    · cases h2
    · simp only [Res.ok.injEq, Prod.mk.injEq, Result.mk.injEq, List.append_eq_nil_iff] at h2
      obtain ⟨rfl, rfl, h5, h6⟩ := h2
      subst h6
      rw [visitBlock_noScope _ hp v u _ h3] at hsc
      cases hsc

end Qasm
