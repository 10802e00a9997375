import Verif.Lemmas.ErrLoc
/-!
# Helper lemmas: the statement visitors against the specification of statements
-/

namespace Qasm

open Spec Sem

variable {F : Type}

/-! ## Parameters of the instructions that are not gates -/

/-- The parameter kinds of an instruction that is not a gate, by name and number of parameters. -/
def NonGateParams (name : Str) (ks : List Kind) : Prop :=
  (name = c!"measure" ∧ (ks = [] ∨ ks = [.float, .float, .float])) ∨
  (name ∈ [c!"reset", c!"init", c!"barrier"] ∧ ks = []) ∨ (name = c!"wait" ∧ (ks = [.int] ∨ ks = []))

theorem count_measure (n : Nat) : InstructionSet.getNonGateParamTypesWithParamCount c!"measure" n =
    if n = 3 then some c!"fff" else none := by
  have h : (InstructionSet.nonGateMap.filter fun e => e.1 == c!"measure") =
      [(c!"measure", none, c!"BQ"), (c!"measure", none, c!"WV"), (c!"measure", none, c!"BV"), (c!"measure", none, c!"WQ"),
       (c!"measure", some c!"fff", c!"BQ"), (c!"measure", some c!"fff", c!"WV"), (c!"measure", some c!"fff", c!"BV"),
       (c!"measure", some c!"fff", c!"WQ")] := by decide +kernel
  rw [InstructionSet.getNonGateParamTypesWithParamCount, h]
  simp only [InstructionSet.paramTypesWithCount, List.length_cons, List.length_nil]
  by_cases h0 : n = 0
  · subst h0; rfl
  · by_cases h3 : n = 3
    · subst h3; rfl
    · simp [h0, h3, Ne.symm h3]

theorem count_simple : ∀ name ∈ [c!"reset", c!"init", c!"barrier"], ∀ n,
    InstructionSet.getNonGateParamTypesWithParamCount name n = none := by
  intro name hn n
  have h : ∀ e ∈ (InstructionSet.nonGateMap.filter fun e => e.1 == name), e.2.1 = none := by
    revert name
    decide +kernel
  unfold InstructionSet.getNonGateParamTypesWithParamCount
  generalize (InstructionSet.nonGateMap.filter fun e => e.1 == name) = l at h
  induction l with
  | nil => rfl
  | cons e l ih =>
    obtain ⟨a, b, c⟩ := e
    have : b = none := h (a, b, c) (by simp)
    subst this
    simp only [InstructionSet.paramTypesWithCount]
    split
    · rfl
    · exact ih fun e he => h e (by simp [he])

theorem count_wait (n : Nat) : InstructionSet.getNonGateParamTypesWithParamCount c!"wait" n =
    if n = 1 then some c!"i" else none := by
  have h : (InstructionSet.nonGateMap.filter fun e => e.1 == c!"wait") =
      [(c!"wait", some c!"i", c!"Q"), (c!"wait", some c!"i", c!"V")] := by decide +kernel
  rw [InstructionSet.getNonGateParamTypesWithParamCount, h]
  simp only [InstructionSet.paramTypesWithCount, List.length_cons, List.length_nil]
  by_cases h0 : n = 1
  · subst h0; rfl
  · simp [h0, Ne.symm h0]

theorem convs_nil {fo : FloatOps F} {vs ws : List (Value F)} (h : Convs fo vs [] ws) : vs = [] ∧ ws = [] := by
  cases h; exact ⟨rfl, rfl⟩

theorem resolveParameters_nonGate (fo : FloatOps F) {name : Str} (hn : name ∈ nonGates) (vs : List (Value F))
    (hg : ∀ v ∈ vs, GoodNode v.node) :
    (∃ ks ws, resolveParameters fo name vs = .ok ws ∧ NonGateParams name ks ∧ Convs fo vs ks ws) ∨
    (∃ err : Err, resolveParameters fo name vs = .err err ∧ ¬∃ ks ws, NonGateParams name ks ∧ Convs fo vs ks ws) := by
  have hng := (isNonGate_iff name).mpr hn
  simp only [resolveParameters, hng, if_true]
  have hcase : name = c!"measure" ∨ name ∈ [c!"reset", c!"init", c!"barrier"] ∨ name = c!"wait" := by
    simp only [nonGates, List.mem_cons, List.not_mem_nil, or_false] at hn ⊢
    rcases hn with h | h | h | h | h <;> simp [h]
  rcases hcase with rfl | hs | rfl
  · rw [count_measure]
    by_cases h3 : vs.length = 3
    · simp only [h3, if_true]
      rcases promoteParameters_spec fo c!"measure" c!"fff" [.float, .float, .float] vs rfl
        (by intro k hk hr; simp at hk; subst hk; rcases hr with h | h | h | h <;> cases h) h3 hg with ⟨ws, h1, h2⟩ | ⟨e, _, h1, h2⟩
      · exact .inl ⟨_, ws, h1, .inl ⟨rfl, .inr rfl⟩, h2⟩
      · refine .inr ⟨e, h1, ?_⟩
        rintro ⟨ks, ws, hk, hc⟩
        rcases hk with ⟨_, rfl | rfl⟩ | ⟨hk, _⟩ | ⟨hk, _⟩
        · obtain ⟨rfl, _⟩ := convs_nil hc; simp at h3
        · exact h2 ⟨_, hc⟩
        · simp at hk
        · simp at hk
    · simp only [h3, if_false]
      cases vs with
      | nil => exact .inl ⟨[], [], rfl, .inl ⟨rfl, .inl rfl⟩, .nil⟩
      | cons v vs =>
        simp only [List.isEmpty_cons]
        refine .inr ⟨_, rfl, ?_⟩
        rintro ⟨ks, ws, hk, hc⟩
        have := (convs_length hc).1
        rcases hk with ⟨_, rfl | rfl⟩ | ⟨hk, _⟩ | ⟨hk, _⟩
        · simp at this
        · exact h3 this
        · simp at hk
        · simp at hk
  · rw [count_simple name hs]
    have hnm : name ≠ c!"measure" := by rintro rfl; simp at hs
    have hnw : name ≠ c!"wait" := by rintro rfl; simp at hs
    cases vs with
    | nil => exact .inl ⟨[], [], rfl, .inr (.inl ⟨hs, rfl⟩), .nil⟩
    | cons v vs =>
      simp only [List.isEmpty_cons]
      refine .inr ⟨_, rfl, ?_⟩
      rintro ⟨ks, ws, hk, hc⟩
      have := (convs_length hc).1
      rcases hk with ⟨h, _⟩ | ⟨_, rfl⟩ | ⟨h, _⟩
      · exact hnm h
      · simp at this
      · exact hnw h
  · rw [count_wait]
    by_cases h3 : vs.length = 1
    · simp only [h3, if_true]
      rcases promoteParameters_spec fo c!"wait" c!"i" [.int] vs rfl
        (by intro k hk hr; simp at hk; subst hk; rcases hr with h | h | h | h <;> cases h) h3 hg with ⟨ws, h1, h2⟩ | ⟨e, _, h1, h2⟩
      · exact .inl ⟨_, ws, h1, .inr (.inr ⟨rfl, .inl rfl⟩), h2⟩
      · refine .inr ⟨e, h1, ?_⟩
        rintro ⟨ks, ws, hk, hc⟩
        rcases hk with ⟨hk, _⟩ | ⟨hk, _⟩ | ⟨_, rfl | rfl⟩
        · simp at hk
        · simp at hk
        · exact h2 ⟨_, hc⟩
        · obtain ⟨rfl, _⟩ := convs_nil hc; simp at h3
    · simp only [h3, if_false]
      cases vs with
      | nil => exact .inl ⟨[], [], rfl, .inr (.inr ⟨rfl, .inr rfl⟩), .nil⟩
      | cons v vs =>
        simp only [List.isEmpty_cons]
        refine .inr ⟨_, rfl, ?_⟩
        rintro ⟨ks, ws, hk, hc⟩
        have := (convs_length hc).1
        rcases hk with ⟨hk, _⟩ | ⟨hk, _⟩ | ⟨_, rfl | rfl⟩
        · simp at hk
        · simp at hk
        · exact h3 this
        · simp at this

/-! ## States -/

attribute [local irreducible] defaultInstrs defaultFns defaultVars

/-- The state of a default analyser with the declarations `D`, the next free variable number `u`, the
block and the variables of its scope. -/
def stateOf (fo : FloatOps F) (v : Version) (D : List VarLink) (u : Nat) (b : SBlock F) (vars : List (SVariable F)) :
    Analyzer F :=
  ⟨v, [⟨D.map (fun x => (x.name, ⟨.variableRef x, none⟩)) ++ defaultVars fo, defaultFns fo, defaultInstrs, b, vars⟩], u⟩

theorem stateOf_env {fo : FloatOps F} {D : List VarLink} (hD : DeclsOk D) (v : Version) (u : Nat) (b : SBlock F)
    (vars : List (SVariable F)) : EnvOk fo D (stateOf fo v D u b vars).scopes :=
  ⟨hD, _, rfl, rfl, rfl, rfl⟩

/-- The block after adding a statement. -/
def addTo (b : SBlock F) (t : SStatement F) : SBlock F := ⟨b.statements ++ [t], Analyzer.blockLoc b.loc t.loc⟩

theorem addStatement_stateOf (fo : FloatOps F) (v : Version) (D : List VarLink) (u : Nat) (b : SBlock F)
    (vars : List (SVariable F)) (t : SStatement F) :
    (stateOf fo v D u b vars).addStatement t = .ok (stateOf fo v D u (addTo b t) vars) := rfl

/-! ## Instructions -/

theorem after_ok {α : Type} (es es' : List Err) (x : α) : Log.after es (.ok (es', x)) = .ok (es ++ es', x) := rfl
theorem after_ub {α : Type} (es : List Err) : Log.after es (.ub : Res Empty (Log α)) = .ub := rfl

theorem isMeasure_iff (name : Str) : InstructionSet.isMeasure name = true ↔ name = c!"measure" := by
  simp [InstructionSet.isMeasure, InstructionSet.measureName]

theorem elements_eq_of_kinds {fo : FloatOps F} {D : List VarLink} (hD : DeclsOk D) {b q : Expr F} {v w : Value F}
    {kv kw : Kind} (hb : Eval fo D b v.node) (hq : Eval fo D q w.node) (hv : IsBits v.node kv) (hw : IsQubits w.node kw) :
    (checkNonGateInstruction c!"measure" [v, w] = .ok () ∧ elements v.node = elements w.node) ∨
    (∃ e : Err, e.location = none ∧ checkNonGateInstruction c!"measure" [v, w] = .err e ∧ elements v.node ≠ elements w.node) := by
  have h1 := (counts hD hb).2 kv hv
  have h2 := (counts hD hq).1 kw hw
  have hm : InstructionSet.isMeasure c!"measure" = true := rfl
  simp only [checkNonGateInstruction, hm, if_true, List.map_cons, List.map_nil, List.sum_cons, List.sum_nil, h1.1, h1.2,
    h2.1, h2.2, Nat.zero_add, Nat.add_zero]
  by_cases h : elements v.node = elements w.node
  · left; simp [h]
  · right; exact ⟨_, rfl, by rw [if_pos (Ne.symm h)], h⟩

/-- The result of the common part of both instruction visitors. -/
theorem visitGateInstruction_of_ok {fo : FloatOps F} {D : List VarLink} {a : Analyzer F} (henv : EnvOk fo D a.scopes)
    {l as g es n s vs ks sas} (h1 : GateOk fo D g n s) (h2 : EvalAll fo D es vs) (h3 : vs.length = n)
    (h4 : Forall2 (fun v k => IsQubits v.node k) vs ks)
    (h5 : ∀ v ∈ vs, ∀ w ∈ vs, elements v.node = elements w.node) (h6 : EvalAnnotations fo D as sas) :
    visitGateInstruction fo a l as g es =
      catchInto a l (a.addStatement (.gate (refOf (refName g) ks) s vs sas l)) := by
  have hk : vs.map (fun v => kindOf v.node) = ks.map some := forall2_kinds.mpr (forall2_imp h4 fun _ _ h => h.1)
  have hks : ∀ k ∈ ks, k = .qubit ∨ k = .qubitArray := fun k hk => by
    obtain ⟨v, _, h⟩ := forall2_right h4 k hk; exact h.2
  have hr : Analyzer.resolveInstruction fo a.scopes (refName g) vs = .ok (refOf (refName g) ks, vs) := by
    rcases resolveInstruction_spec henv (refName g) vs (evalAll_good henv.decls h2) with ⟨ks', g1, g2, _⟩ | ⟨_, _, _, g2⟩
    · rw [g1]
      have : ks' = ks := by
        have := g2.symm.trans hk
        exact List.map_inj_right (fun _ _ h => Option.some.inj h) |>.mp this
      rw [this]
    · exact absurd ((gate_kinds h1 ks).mpr ⟨by rw [← forall2_length h4, h3], hks⟩) (g2 ks hk)
  have hc : checkGateInstruction vs = .ok () := by
    rcases checkGateInstruction_spec henv.decls h2 h4 with ⟨g1, _⟩ | ⟨_, _, _, g2⟩
    · exact g1
    · exact absurd h5 g2
  unfold visitGateInstruction
  rw [visitGate_of_ok henv h1, Res.bind_ok]
  simp only [visitList_of_evalAll henv h2, Res.bind_ok, (gateOk_names h1).resolution, hr, hc,
    visitAnnotations_of_eval henv h6]
  cases a.addStatement (.gate (refOf (refName g) ks) s vs sas l) <;> rfl

theorem visitGateInstruction_cases {fo : FloatOps F} {D : List VarLink} {a : Analyzer F} (henv : EnvOk fo D a.scopes)
    (l : Option Loc) (as : List (AnnotationData F)) (g : Gate F) (es : List (Expr F)) (hs : ShapedGate g)
    (hadd : ∀ t, ∃ a', a.addStatement t = .ok a') :
    (∃ t, visitGateInstruction fo a l as g es = catchInto a l (a.addStatement t) ∧ InstrOk fo D (.gate l as g es) t) ∨
    (visitGateInstruction fo a l as g es = .ub ∧ (PlainStmt (.gate l as g es) → UndefStmt fo D (.gate l as g es))) ∨
    (∃ e errs a', visitGateInstruction fo a l as g es = .ok (e :: errs, a') ∧
      (PlainStmt (.gate l as g es) → errs = [] ∧ a' = a ∧ ReportedAt (.gate l as g es) e)) := by
  have rep : ∀ e : Err, LocIn e (gateLocs g) ∨ LocIn e (exprsLocs es) → ReportedAt (.gate l as g es) (e.context l) := by
    intro e he
    refine ⟨LocIn.full ?_ (by simp [stmtLocs]), fun h => context_isSome h⟩
    rcases he with he | he <;> exact he.mono fun _ hm => by simp [stmtLocs, hm]
  unfold visitGateInstruction
  rcases visitGate_cases henv g hs with ⟨n, s, h1, h2⟩ | ⟨h1, h2⟩ | ⟨errs, e, h1, h2⟩ | ⟨e, errs, s, h1, h2⟩
  · rw [h1, Res.bind_ok]
    simp only
    rcases visitList_all henv es with ⟨vs, h3, h4⟩ | ⟨h3, h4⟩ | ⟨err, h3, h4⟩
    · have hg := evalAll_good henv.decls h4
      simp only [h3, Res.bind_ok, (gateOk_names h2).resolution]
      rcases resolveInstruction_spec henv (refName g) vs hg with ⟨ks, g1, g2, g3⟩ | ⟨e, g0, g1, g2⟩
      · simp only [g1, Res.bind_ok]
        obtain ⟨g4, g5⟩ := (gate_kinds h2 ks).mp g3
        have hq : Forall2 (fun v k => IsQubits v.node k) vs ks := forall2_and (forall2_kinds.mp g2) g5
        rcases checkGateInstruction_spec henv.decls h4 hq with ⟨g6, g7⟩ | ⟨e, g8, g6, g7⟩
        · simp only [g6, Res.bind_ok]
          rcases visitAnnotations_cases henv as with ⟨sas, a1, a2⟩ | ⟨a1, a2⟩ | ⟨e, errs, sas, a1, a2⟩
          · left
            refine ⟨.gate (refOf (refName g) ks) s vs sas l, ?_, .gate h2 h4 (by rw [← g4]; exact forall2_length hq) hq g7 a2⟩
            rw [a1, Res.bind_ok]
            dsimp only
            cases a.addStatement (.gate (refOf (refName g) ks) s vs sas l) <;> rfl
          · right; left
            exact ⟨by rw [a1]; rfl, fun hp => absurd hp.1 a2⟩
          · right; right
            obtain ⟨a', ha'⟩ := hadd (.gate (refOf (refName g) ks) s vs sas l)
            exact ⟨e, errs ++ [], a', by rw [a1]; simp [ha', catchInto, Log.after], fun hp => absurd hp.1 a2⟩
        · right; right
          exact ⟨e.context l, [], a, by rw [g6]; rfl, fun _ => ⟨rfl, rfl, rep e (.inl (.inl g8))⟩⟩
      · right; right
        exact ⟨e.context l, [], a, by rw [g1]; rfl, fun _ => ⟨rfl, rfl, rep e (.inl (.inl g0))⟩⟩
    · right; left
      exact ⟨by rw [h3]; rfl, fun _ => .gateOperands h2 h4⟩
    · right; right
      exact ⟨err.context l, [], a, by rw [h3]; rfl, fun _ => ⟨rfl, rfl, rep err (.inr (visitList_errLoc henv es err h3))⟩⟩
  · right; left
    exact ⟨by rw [h1]; rfl, fun hp => .gate (h2 hp.2)⟩
  · right; right
    rw [h1, Res.bind_ok]
    simp only [after_ok]
    cases errs with
    | nil => exact ⟨_, _, _, rfl, fun _ => ⟨rfl, rfl, rep e (.inl (visitGate_errLoc henv g h1))⟩⟩
    | cons x xs => exact ⟨_, _, _, rfl, fun hp => by have := h2 hp.2; cases this⟩
  · -- an annotation of the gate failed: there is an error already
    have key : (∃ es' a', visitGateInstruction fo a l as g es = .ok (e :: es', a')) ∨
        visitGateInstruction fo a l as g es = .ub := by
      unfold visitGateInstruction
      rw [h1, Res.bind_ok]
      simp only
      have inner : ∀ r : Res Empty (Log (Analyzer F)), (∀ c, r ≠ .exn c) →
          (∃ es' a', Log.after (e :: errs) r = .ok (e :: es', a')) ∨ Log.after (e :: errs) r = .ub := by
        intro r hr
        cases r with
        | ok x => exact .inl ⟨errs ++ x.1, x.2, rfl⟩
        | err e => exact e.elim
        | exn c => exact absurd rfl (hr c)
        | ub => exact .inr rfl
      apply inner
      intro c
      rcases visitList_all henv es with ⟨vs, h3, h4⟩ | ⟨h3, h4⟩ | ⟨err, h3, h4⟩
      · rw [h3, Res.bind_ok]
        rcases resolveInstruction_spec henv (gateResolutionName s) vs (evalAll_good henv.decls h4) with ⟨ks, g1, g2, g3⟩ | ⟨e, g0, g1, g2⟩
        · rw [g1, Res.bind_ok]
          unfold checkGateInstruction
          split
          · rename_i hx; split at hx <;> simp at hx ⊢
          · rename_i hx; split at hx <;> simp at hx
          · simp
          · rename_i i hi
            rcases visitAnnotations_cases henv as with ⟨sas, a1, a2⟩ | ⟨a1, a2⟩ | ⟨e, errs, sas, a1, a2⟩
            · obtain ⟨a', ha'⟩ := hadd (.gate i.1 s i.2 sas l)
              rw [a1]; simp [ha', catchInto, Log.after]
            · rw [a1]; simp
            · obtain ⟨a', ha'⟩ := hadd (.gate i.1 s i.2 sas l)
              rw [a1]; simp [ha', catchInto, Log.after]
        · rw [g1]; simp
      · rw [h3]; simp
      · rw [h3]; simp
    unfold visitGateInstruction at key
    rcases key with ⟨es', a', hk⟩ | hk
    · right; right; exact ⟨e, es', a', hk, fun hp => absurd hp.2 h2⟩
    · right; left; exact ⟨hk, fun hp => absurd hp.2 h2⟩

theorem visitGateInstruction_of_undef {fo : FloatOps F} {D : List VarLink} {a : Analyzer F} (henv : EnvOk fo D a.scopes)
    {l as g es} (h : UndefStmt fo D (.gate l as g es)) : visitGateInstruction fo a l as g es = .ub := by
  unfold visitGateInstruction
  cases h with
  | gate h => rw [visitGate_of_undef henv h]; rfl
  | gateOperands h1 h2 => rw [visitGate_of_ok henv h1]; simp [visitList_of_undef henv h2, Log.after]

/-! ## Instructions that are not gates -/

/-- What the specification says about an instruction that is not a gate, in the order of the visitor. -/
structure NonGateOk (fo : FloatOps F) (D : List VarLink) (l : Option Loc) (as : List (AnnotationData F)) (name : Str)
    (es ps : List (Expr F)) (t : SStatement F) (vs : List (Value F)) (ks : List Kind) (pvs : List (Value F))
    (pks : List Kind) (ws : List (Value F)) (sas : List (SAnnotation F)) : Prop where
  known : name ∈ nonGates
  operands : EvalAll fo D es vs
  kinds : Forall2 (fun v k => kindOf v.node = some k) vs ks
  operandKinds : NonGateOperands name ks
  parameters : EvalAll fo D ps pvs
  converted : Convs fo pvs pks ws
  paramKinds : NonGateParams name pks
  counts : checkNonGateInstruction name vs = .ok ()
  annotations : EvalAnnotations fo D as sas
  result : t = .nonGate (refOf name ks) name vs ws sas l

theorem forall2_nil {α β : Type} {R : α → β → Prop} {bs : List β} (h : Forall2 R [] bs) : bs = [] := by cases h; rfl

theorem forall2_cons {α β : Type} {R : α → β → Prop} {a : α} {as : List α} {bs : List β} (h : Forall2 R (a :: as) bs) :
    ∃ b bs', bs = b :: bs' ∧ R a b ∧ Forall2 R as bs' := by cases h with | cons h1 h2 => exact ⟨_, _, rfl, h1, h2⟩

theorem forall2_one {α β : Type} {R : α → β → Prop} {as : List α} {b : β} (h : Forall2 R as [b]) :
    ∃ a, as = [a] ∧ R a b := by
  cases h with
  | cons h1 h2 => cases h2; exact ⟨_, rfl, h1⟩

theorem forall2_two {α β : Type} {R : α → β → Prop} {as : List α} {b c : β} (h : Forall2 R as [b, c]) :
    ∃ a a', as = [a, a'] ∧ R a b ∧ R a' c := by
  cases h with
  | cons h1 h2 =>
    obtain ⟨a', rfl, h3⟩ := forall2_one h2
    exact ⟨_, _, rfl, h1, h3⟩

theorem checkNonGate_other {name : Str} (h : name ≠ c!"measure") (vs : List (Value F)) :
    checkNonGateInstruction name vs = .ok () := by
  have : InstructionSet.isMeasure name = false := by
    rw [← Bool.not_eq_true, isMeasure_iff]; exact h
  simp [checkNonGateInstruction, this]

theorem nonGateOk_iff {fo : FloatOps F} {D : List VarLink} (hD : DeclsOk D) {l : Option Loc} {as : List (AnnotationData F)}
    {name : Str} {es ps : List (Expr F)} {t : SStatement F} (hw : name = c!"wait" → ps ≠ []) :
    InstrOk fo D (.nonGate l as name es ps) t ↔
      ∃ vs ks pvs pks ws sas, NonGateOk fo D l as name es ps t vs ks pvs pks ws sas := by
  constructor
  · intro h
    cases h with
    | @measure _ _ b q _ n m kn km vs sas h1 h2 h3 h4 h5 h6 h7 =>
      have hp : ∃ pvs pks, EvalAll fo D ps pvs ∧ Convs fo pvs pks vs ∧ (pks = [] ∨ pks = [.float, .float, .float]) := by
        rcases h6 with h6 | h6 <;> obtain ⟨pvs, g1, g2⟩ := evalParams_iff.mp h6
        · exact ⟨pvs, _, g1, g2, .inl rfl⟩
        · exact ⟨pvs, _, g1, g2, .inr rfl⟩
      obtain ⟨pvs, pks, g1, g2, g3⟩ := hp
      refine ⟨[⟨n, b.loc⟩, ⟨m, q.loc⟩], [kn, km], pvs, pks, vs, sas, ⟨by simp [nonGates], .cons ⟨rfl, h1⟩ (.cons ⟨rfl, h3⟩ .nil),
        .cons h2.1 (.cons h4.1 .nil), .inl ⟨rfl, ?_⟩, g1, g2, .inl ⟨rfl, g3⟩, ?_, h7, rfl⟩⟩
      · rcases h2.2 with rfl | rfl <;> rcases h4.2 with rfl | rfl <;> simp
      · rcases elements_eq_of_kinds hD (v := ⟨n, b.loc⟩) (w := ⟨m, q.loc⟩) h1 h3 h2 h4 with ⟨g4, _⟩ | ⟨_, _, _, g4⟩
        · exact g4
        · exact absurd h5 g4
    | @simple _ _ _ q m k sas h1 h2 h3 h4 =>
      refine ⟨[⟨m, q.loc⟩], [k], [], [], [], sas, ⟨?_, .cons ⟨rfl, h2⟩ .nil, .cons h3.1 .nil, .inr ⟨?_, ?_⟩, .nil, .nil,
        .inr (.inl ⟨h1, rfl⟩), checkNonGate_other (by rintro rfl; simp at h1) _, h4, rfl⟩⟩
      · simp [nonGates] at h1 ⊢; rcases h1 with h | h | h <;> simp [h]
      · simp at h1 ⊢; rcases h1 with h | h | h <;> simp [h]
      · rcases h3.2 with rfl | rfl <;> simp
    | @wait _ _ q _ m k vs sas h2 h3 h4 h5 =>
      obtain ⟨pvs, g1, g2⟩ := evalParams_iff.mp h4
      refine ⟨[⟨m, q.loc⟩], [k], pvs, _, vs, sas, ⟨by simp [nonGates], .cons ⟨rfl, h2⟩ .nil, .cons h3.1 .nil,
        .inr ⟨by simp, ?_⟩, g1, g2, .inr (.inr ⟨rfl, .inl rfl⟩), checkNonGate_other (by simp) _, h5, rfl⟩⟩
      rcases h3.2 with rfl | rfl <;> simp
  · rintro ⟨vs, ks, pvs, pks, ws, sas, h⟩
    obtain ⟨h1, h2, h3, h4, h5, h6, h7, h8, h9, rfl⟩ := h
    rcases h4 with ⟨rfl, hk⟩ | ⟨hn, hk⟩
    · have hk' : ∃ kn km, ks = [kn, km] ∧ (kn = .bit ∨ kn = .bitArray) ∧ (km = .qubit ∨ km = .qubitArray) := by
        simp only [List.mem_cons, List.not_mem_nil, or_false] at hk
        rcases hk with rfl | rfl | rfl | rfl <;> exact ⟨_, _, rfl, by simp, by simp⟩
      obtain ⟨kn, km, rfl, hkn, hkm⟩ := hk'
      obtain ⟨v, w, rfl, hv, hw'⟩ := forall2_two h3
      obtain ⟨b, q, rfl, hb, hq⟩ := forall2_two h2
      obtain ⟨n, ln⟩ := v
      obtain ⟨m, lm⟩ := w
      obtain ⟨rfl, hb⟩ := hb
      obtain ⟨rfl, hq⟩ := hq
      refine .measure hb ⟨hv, hkn⟩ hq ⟨hw', hkm⟩ ?_ ?_ h9
      · rcases elements_eq_of_kinds hD (v := ⟨n, b.loc⟩) (w := ⟨m, q.loc⟩) hb hq ⟨hv, hkn⟩ ⟨hw', hkm⟩ with ⟨_, g⟩ | ⟨_, _, g, _⟩
        · exact g
        · rw [h8] at g; cases g
      · rcases h7 with ⟨_, rfl | rfl⟩ | ⟨h7, _⟩ | ⟨h7, _⟩
        · exact .inl (evalParams_iff.mpr ⟨_, h5, h6⟩)
        · exact .inr (evalParams_iff.mpr ⟨_, h5, h6⟩)
        · simp at h7
        · simp at h7
    · have hk' : ∃ k, ks = [k] ∧ (k = .qubit ∨ k = .qubitArray) := by
        simp only [List.mem_cons, List.not_mem_nil, or_false] at hk
        rcases hk with rfl | rfl <;> exact ⟨_, rfl, by simp⟩
      obtain ⟨k, rfl, hk1⟩ := hk'
      obtain ⟨v, rfl, hv⟩ := forall2_one h3
      obtain ⟨q, rfl, hq⟩ := forall2_one h2
      obtain ⟨m, lm⟩ := v
      obtain ⟨rfl, hq⟩ := hq
      rcases h7 with ⟨rfl, _⟩ | ⟨h7, rfl⟩ | ⟨rfl, h7⟩
      · simp at hn
      · obtain ⟨rfl, rfl⟩ := convs_nil h6
        have : ps = [] := by cases h5; rfl
        subst this
        exact .simple h7 hq ⟨hv, hk1⟩ h9
      · rcases h7 with rfl | rfl
        · exact .wait hq ⟨hv, hk1⟩ (evalParams_iff.mpr ⟨_, h5, h6⟩) h9
        · obtain ⟨rfl, rfl⟩ := convs_nil h6
          have : ps = [] := by cases h5; rfl
          exact absurd this (hw rfl)

theorem visitNonGate_of_ok {fo : FloatOps F} {D : List VarLink} {a : Analyzer F} (henv : EnvOk fo D a.scopes)
    {l as name es ps t vs ks pvs pks ws sas} (h : NonGateOk fo D l as name es ps t vs ks pvs pks ws sas) :
    visitNonGateInstruction fo a l as name es ps = catchInto a l (a.addStatement t) := by
  obtain ⟨h1, h2, h3, h4, h5, h6, h7, h8, h9, rfl⟩ := h
  have hk := forall2_kinds.mpr h3
  have hr : Analyzer.resolveInstruction fo a.scopes name vs = .ok (refOf name ks, vs) := by
    rcases resolveInstruction_spec henv name vs (evalAll_good henv.decls h2) with ⟨ks', g1, g2, _⟩ | ⟨_, _, _, g2⟩
    · rw [g1, List.map_inj_right (fun _ _ h => Option.some.inj h) |>.mp (g2.symm.trans hk)]
    · exact absurd ((nonGate_kinds h1 ks).mpr h4) (g2 ks hk)
  have hp : resolveParameters fo name pvs = .ok ws := by
    rcases resolveParameters_nonGate fo h1 pvs (evalAll_good henv.decls h5) with ⟨ks', ws', g1, g2, g3⟩ | ⟨_, _, g⟩
    · rw [g1]
      have hl := (convs_length g3).1.symm.trans (convs_length h6).1
      have : ks' = pks := by
        rcases g2 with ⟨g2, rfl | rfl⟩ | ⟨g2, rfl⟩ | ⟨g2, rfl | rfl⟩ <;> rcases h7 with ⟨h7, rfl | rfl⟩ | ⟨h7, rfl⟩ | ⟨h7, rfl | rfl⟩ <;>
          first | rfl | (exfalso; revert hl; simp; done) | (exfalso; subst g2; simp at h7)
      subst this
      rw [convs_det g3 h6]
    · exact absurd ⟨_, _, h7, h6⟩ g
  unfold visitNonGateInstruction
  simp only [visitList_of_evalAll henv h2, Res.bind_ok, hr, visitList_of_evalAll henv h5, hp, h8,
    visitAnnotations_of_eval henv h9]
  cases a.addStatement (.nonGate (refOf name ks) name vs ws sas l) <;> rfl

theorem visitNonGate_cases {fo : FloatOps F} {D : List VarLink} {a : Analyzer F} (henv : EnvOk fo D a.scopes)
    (l : Option Loc) (as : List (AnnotationData F)) (name : Str) (es ps : List (Expr F)) (hn : name ∈ nonGates)
    (hadd : ∀ t, ∃ a', a.addStatement t = .ok a') :
    (∃ t vs ks pvs pks ws sas, visitNonGateInstruction fo a l as name es ps = catchInto a l (a.addStatement t) ∧
      NonGateOk fo D l as name es ps t vs ks pvs pks ws sas) ∨
    (visitNonGateInstruction fo a l as name es ps = .ub ∧
      (PlainStmt (.nonGate l as name es ps) → UndefStmt fo D (.nonGate l as name es ps))) ∨
    (∃ e errs a', visitNonGateInstruction fo a l as name es ps = .ok (e :: errs, a') ∧
      (PlainStmt (.nonGate l as name es ps) → errs = [] ∧ a' = a ∧ ReportedAt (.nonGate l as name es ps) e)) := by
  have rep : ∀ e : Err, LocIn e (exprsLocs es) ∨ LocIn e (exprsLocs ps) →
      ReportedAt (.nonGate l as name es ps) (e.context l) := by
    intro e he
    refine ⟨LocIn.full ?_ (by simp [stmtLocs]), fun h => context_isSome h⟩
    rcases he with he | he <;> exact he.mono fun _ hm => by simp [stmtLocs, hm]
  unfold visitNonGateInstruction
  rcases visitList_all henv es with ⟨vs, h1, h2⟩ | ⟨h1, h2⟩ | ⟨err, h1, h2⟩
  · simp only [h1, Res.bind_ok]
    rcases resolveInstruction_spec henv name vs (evalAll_good henv.decls h2) with ⟨ks, g1, g2, g3⟩ | ⟨e, g0, g1, g2⟩
    · simp only [g1, Res.bind_ok]
      have hk := forall2_kinds.mp g2
      have ho := (nonGate_kinds hn ks).mp g3
      rcases visitList_all henv ps with ⟨pvs, h3, h4⟩ | ⟨h3, h4⟩ | ⟨err, h3, h4⟩
      · simp only [h3, Res.bind_ok]
        rcases resolveParameters_nonGate fo hn pvs (evalAll_good henv.decls h4) with ⟨pks, ws, g4, g5, g6⟩ | ⟨e, g4, _⟩
        · simp only [g4, Res.bind_ok]
          cases hc : checkNonGateInstruction name vs with
          | ok x =>
            simp only [Res.bind_ok]
            rcases visitAnnotations_cases henv as with ⟨sas, a1, a2⟩ | ⟨a1, a2⟩ | ⟨e, errs, sas, a1, a2⟩
            · left
              refine ⟨.nonGate (refOf name ks) name vs ws sas l, vs, ks, pvs, pks, ws, sas, ?_, hn, h2, hk, ho, h4, g6, g5, hc, a2, rfl⟩
              rw [a1, Res.bind_ok]
              dsimp only
              cases a.addStatement (.nonGate (refOf name ks) name vs ws sas l) <;> rfl
            · right; left
              exact ⟨by rw [a1]; rfl, fun hp => absurd hp a2⟩
            · right; right
              obtain ⟨a', ha'⟩ := hadd (.nonGate (refOf name ks) name vs ws sas l)
              exact ⟨e, errs ++ [], a', by rw [a1]; simp [ha', catchInto, Log.after], fun hp => absurd hp a2⟩
          | err e =>
            right; right
            refine ⟨e.context l, [], a, rfl, fun _ => ⟨rfl, rfl, rep e (.inl (.inl ?_))⟩⟩
            unfold checkNonGateInstruction at hc
            split at hc
            · split at hc <;> cases hc; rfl
            · cases hc
          | exn c => unfold checkNonGateInstruction at hc; split at hc <;> (try split at hc) <;> cases hc
          | ub => unfold checkNonGateInstruction at hc; split at hc <;> (try split at hc) <;> cases hc
        · right; right
          exact ⟨e.context l, [], a, by rw [g4]; rfl,
            fun _ => ⟨rfl, rfl, rep e (.inl (.inl (resolveParameters_errLoc _ _ _ g4)))⟩⟩
      · right; left
        exact ⟨by rw [h3]; rfl, fun _ => .parameters h2 hk ho h4⟩
      · right; right
        exact ⟨err.context l, [], a, by rw [h3]; rfl, fun _ => ⟨rfl, rfl, rep err (.inr (visitList_errLoc henv ps err h3))⟩⟩
    · right; right
      exact ⟨e.context l, [], a, by rw [g1]; rfl, fun _ => ⟨rfl, rfl, rep e (.inl (.inl g0))⟩⟩
  · right; left
    exact ⟨by rw [h1]; rfl, fun _ => .operands h2⟩
  · right; right
    exact ⟨err.context l, [], a, by rw [h1]; rfl, fun _ => ⟨rfl, rfl, rep err (.inl (visitList_errLoc henv es err h1))⟩⟩

theorem visitNonGate_of_undef {fo : FloatOps F} {D : List VarLink} {a : Analyzer F} (henv : EnvOk fo D a.scopes)
    {l as name es ps} (hn : name ∈ nonGates) (h : UndefStmt fo D (.nonGate l as name es ps)) :
    visitNonGateInstruction fo a l as name es ps = .ub := by
  unfold visitNonGateInstruction
  cases h with
  | operands h => rw [visitList_of_undef henv h]; rfl
  | @parameters _ _ _ _ _ vs ks h1 h2 h3 h4 =>
    have hk := forall2_kinds.mpr h2
    have hr : Analyzer.resolveInstruction fo a.scopes name vs = .ok (refOf name ks, vs) := by
      rcases resolveInstruction_spec henv name vs (evalAll_good henv.decls h1) with ⟨ks', g1, g2, _⟩ | ⟨_, _, _, g2⟩
      · rw [g1, List.map_inj_right (fun _ _ h => Option.some.inj h) |>.mp (g2.symm.trans hk)]
      · exact absurd ((nonGate_kinds hn ks).mpr h3) (g2 ks hk)
    simp [visitList_of_evalAll henv h1, hr, visitList_of_undef henv h4]

/-! ## All instructions -/

theorem addStatement_total (fo : FloatOps F) (v : Version) (D : List VarLink) (u : Nat) (b : SBlock F)
    (vars : List (SVariable F)) (t : SStatement F) : ∃ a', (stateOf fo v D u b vars).addStatement t = .ok a' :=
  ⟨_, addStatement_stateOf fo v D u b vars t⟩

theorem instrOk_loc {fo : FloatOps F} {D : List VarLink} {s : Stmt F} {t : SStatement F} (h : InstrOk fo D s t) :
    t.loc = s.loc ∧ ¬ IsDecl s := by
  cases h <;> exact ⟨rfl, fun h => h⟩

theorem visitStatement_of_ok {fo : FloatOps F} {D : List VarLink} (hD : DeclsOk D) (v : Version) (u : Nat) (b : SBlock F)
    (vars : List (SVariable F)) {s : Stmt F} {t : SStatement F} (h : InstrOk fo D s t) :
    visitStatement fo (stateOf fo v D u b vars) s = .ok ([], stateOf fo v D u (addTo b t) vars) := by
  have henv : EnvOk fo D (stateOf fo v D u b vars).scopes := stateOf_env hD v u b vars
  cases s with
  | var => exact absurd trivial (instrOk_loc h).2
  | gate l as g es =>
    cases h with
    | gate h1 h2 h3 h4 h5 h6 =>
      rw [visitStatement, visitGateInstruction_of_ok henv h1 h2 h3 h4 h5 h6, addStatement_stateOf]; rfl
  | nonGate l as name es ps =>
    have hw : name = c!"wait" → ps ≠ [] := by
      cases h with
      | measure => simp
      | simple h1 => rintro rfl; simp at h1
      | wait _ _ h1 => cases h1; simp
    obtain ⟨_, _, _, _, _, _, h'⟩ := (nonGateOk_iff hD hw).mp h
    rw [visitStatement, visitNonGate_of_ok henv h', addStatement_stateOf]; rfl
  | asm l as name code =>
    cases h with
    | asm h1 =>
      rw [visitStatement, visitAsmDeclaration, visitAnnotations_of_eval henv h1, Res.bind_ok, addStatement_stateOf]
      rfl

theorem visitStatement_of_undef {fo : FloatOps F} {D : List VarLink} (hD : DeclsOk D) (v : Version) (u : Nat) (b : SBlock F)
    (vars : List (SVariable F)) {s : Stmt F} (hs : ShapedStmt s) (h : UndefStmt fo D s) :
    visitStatement fo (stateOf fo v D u b vars) s = .ub := by
  have henv : EnvOk fo D (stateOf fo v D u b vars).scopes := stateOf_env hD v u b vars
  cases s with
  | var => cases h
  | gate l as g es => rw [visitStatement, visitGateInstruction_of_undef henv h]
  | nonGate l as name es ps => rw [visitStatement, visitNonGate_of_undef henv hs.2.1 h]
  | asm => cases h

theorem visitStatement_cases {fo : FloatOps F} {D : List VarLink} (hD : DeclsOk D) (v : Version) (u : Nat) (b : SBlock F)
    (vars : List (SVariable F)) (s : Stmt F) (hs : ShapedStmt s) (hd : ¬ IsDecl s) :
    (∃ t, visitStatement fo (stateOf fo v D u b vars) s = .ok ([], stateOf fo v D u (addTo b t) vars) ∧ InstrOk fo D s t) ∨
    (visitStatement fo (stateOf fo v D u b vars) s = .ub ∧ (PlainStmt s → UndefStmt fo D s)) ∨
    (∃ e errs a', visitStatement fo (stateOf fo v D u b vars) s = .ok (e :: errs, a') ∧
      (PlainStmt s → errs = [] ∧ a' = stateOf fo v D u b vars ∧ ReportedAt s e)) := by
  have henv : EnvOk fo D (stateOf fo v D u b vars).scopes := stateOf_env hD v u b vars
  cases s with
  | var => exact absurd trivial hd
  | gate l as g es =>
    rcases visitGateInstruction_cases henv l as g es hs.2.1 (addStatement_total fo v D u b vars) with ⟨t, h1, h2⟩ | h | h
    · left; exact ⟨t, by rw [visitStatement, h1, addStatement_stateOf]; rfl, h2⟩
    · right; left; exact h
    · right; right; exact h
  | nonGate l as name es ps =>
    rcases visitNonGate_cases henv l as name es ps hs.2.1 (addStatement_total fo v D u b vars) with ⟨t, vs, ks, pvs, pks, ws, sas, h1, h2⟩ | h | h
    · left
      exact ⟨t, by rw [visitStatement, h1, addStatement_stateOf]; rfl, (nonGateOk_iff hD hs.2.2.1).mpr ⟨_, _, _, _, _, _, h2⟩⟩
    · right; left; exact h
    · right; right; exact h
  | asm l as name code =>
    rw [visitStatement, visitAsmDeclaration]
    rcases visitAnnotations_cases henv as with ⟨sas, a1, a2⟩ | ⟨a1, a2⟩ | ⟨e, errs, sas, a1, a2⟩
    · left
      exact ⟨.asm name code sas l, by rw [a1, Res.bind_ok, addStatement_stateOf]; rfl, .asm a2⟩
    · right; left; exact ⟨by rw [a1]; rfl, fun hp => absurd hp a2⟩
    · right; right
      obtain ⟨a', ha'⟩ := addStatement_total fo v D u b vars (.asm name code sas l)
      exact ⟨e, errs ++ [], a', by rw [a1]; simp [ha', catchInto, Log.after], fun hp => absurd hp a2⟩

/-! ## Declarations -/

theorem buildSemanticType_spec (t : TypeAst) :
    (∃ ty, buildSemanticType t = .ok ty ∧ TypeOk t ty) ∨
    (∃ e : Err, e.location = none ∧ buildSemanticType t = .err e ∧ ¬∃ ty, TypeOk t ty) := by
  obtain ⟨name, size⟩ := t
  have h0 : Int64.toInt 0 = 0 := by decide
  unfold buildSemanticType
  by_cases hq : name = c!"qubit"
  · subst hq
    cases size with
    | none => exact .inl ⟨_, rfl, .qubit⟩
    | some n =>
      by_cases hn : n > 0
      · exact .inl ⟨⟨.qubitArray, n⟩, by simp [hn], .qubits (by have := Int64.lt_iff_toInt_lt.mp hn; rwa [h0] at this)⟩
      · refine .inr ⟨_, rfl, by simp [hn]; rfl, ?_⟩
        rintro ⟨ty, h⟩
        cases h with
        | qubits h => exact hn (Int64.lt_iff_toInt_lt.mpr (by rwa [h0]))
  · by_cases hb : name = c!"bit"
    · subst hb
      cases size with
      | none => exact .inl ⟨_, rfl, .bit⟩
      | some n =>
        by_cases hn : n > 0
        · exact .inl ⟨⟨.bitArray, n⟩, by simp [hn], .bits (by have := Int64.lt_iff_toInt_lt.mp hn; rwa [h0] at this)⟩
        · refine .inr ⟨_, rfl, by simp [hn]; rfl, ?_⟩
          rintro ⟨ty, h⟩
          cases h with
          | bits h => exact hn (Int64.lt_iff_toInt_lt.mpr (by rwa [h0]))
    · refine .inr ⟨_, rfl, by simp [hq, hb]; rfl, ?_⟩
      rintro ⟨ty, h⟩
      cases h <;> simp at hq hb

theorem typeOk_det {t : TypeAst} {a b : Ty} (h : TypeOk t a) (h' : TypeOk t b) : a = b := by
  cases h <;> cases h' <;> rfl

theorem declsOk_cons {D : List VarLink} (hD : DeclsOk D) {u : Nat} {name : Str} {typ : TypeAst} {t : Ty}
    (ht : TypeOk typ t) (hf : Fresh D name) : DeclsOk (⟨u, name, t⟩ :: D) := by
  refine ⟨.cons (fun x hx => Ne.symm (hf.2 x hx)) hD.names, ?_, ?_⟩
  · intro x hx
    rcases List.mem_cons.mp hx with rfl | hx
    · exact hf.1
    · exact hD.notBuiltin x hx
  · intro x hx
    rcases List.mem_cons.mp hx with rfl | hx
    · cases ht with
      | qubit => exact .inl ⟨.inl rfl, rfl⟩
      | bit => exact .inl ⟨.inr rfl, rfl⟩
      | qubits h => exact .inr ⟨.inl rfl, h⟩
      | bits h => exact .inr ⟨.inr rfl, h⟩
    · exact hD.kinds x hx

theorem declsOk_nil : DeclsOk [] := ⟨.nil, by simp, by simp⟩

theorem registerVariable_spec (fo : FloatOps F) (v : Version) (D : List VarLink) (u : Nat) (b : SBlock F)
    (vars : List (SVariable F)) (x : VarLink) :
    ((stateOf fo v D u b vars).registerVariable x.name ⟨.variableRef x, none⟩ = .ok (stateOf fo v (x :: D) u b vars) ∧
      Fresh D x.name) ∨
    (∃ e : Err, e.location = none ∧ (stateOf fo v D u b vars).registerVariable x.name ⟨.variableRef x, none⟩ = .err e ∧
      ¬ Fresh D x.name ∧ e = Err.mk0 (c!"trying to redeclare variable '" ++ x.name ++ c!"'")) := by
  have hfind : VariableTable.find (D.map (fun x => (x.name, (⟨.variableRef x, none⟩ : Value F))) ++ defaultVars fo) x.name =
      none ↔ Fresh D x.name := by
    rw [find_append, find_decls, find_defaultVars, Option.or_eq_none_iff, Option.map_eq_none_iff, Option.map_eq_none_iff,
      ← builtin_none, List.find?_eq_none]
    simp only [decide_eq_true_eq, Fresh, reserved]
    exact ⟨fun h => ⟨h.2, h.1⟩, fun h => ⟨h.2, h.1⟩⟩
  simp only [Analyzer.registerVariable, Analyzer.modifyCurrent, stateOf, VariableTable.add]
  cases hc : VariableTable.find (D.map (fun x => (x.name, (⟨.variableRef x, none⟩ : Value F))) ++ defaultVars fo) x.name with
  | none => exact .inl ⟨rfl, hfind.mp hc⟩
  | some w =>
    refine .inr ⟨_, ?_, rfl, (fun h => by rw [hfind.mpr h] at hc; cases hc), rfl⟩
    rfl

/-- The outcomes of a declaration without annotation errors. -/
theorem visitVariable_spec {fo : FloatOps F} {D : List VarLink} (hD : DeclsOk D) (v : Version) (u : Nat) (b : SBlock F)
    (vars : List (SVariable F)) (l : Option Loc) (as : List (AnnotationData F)) (name : Ident) (typ : TypeAst)
    {sas : List (SAnnotation F)} (ha : EvalAnnotations fo D as sas) :
    (∃ t, TypeOk typ t ∧ Fresh D name.name ∧ visitStatement fo (stateOf fo v D u b vars) (.var l as name typ) =
      .ok ([], stateOf fo v (⟨u, name.name, t⟩ :: D) (u + 1) b (vars ++ [⟨u, name.name, t, sas, name.loc⟩]))) ∨
    (∃ t e, TypeOk typ t ∧ ¬ Fresh D name.name ∧ (ReportedAt (.var (F := F) l as name typ) e ∧
      e = (Err.mk0 (c!"trying to redeclare variable '" ++ name.name ++ c!"'")).context l) ∧
      visitStatement fo (stateOf fo v D u b vars) (.var l as name typ) =
      .ok ([e], stateOf fo v D (u + 1) b (vars ++ [⟨u, name.name, t, sas, name.loc⟩]))) ∨
    (∃ e, (¬∃ t, TypeOk typ t) ∧ ReportedAt (.var (F := F) l as name typ) e ∧
      visitStatement fo (stateOf fo v D u b vars) (.var l as name typ) = .ok ([e], stateOf fo v D u b vars)) := by
  have henv : EnvOk fo D (stateOf fo v D u b vars).scopes := stateOf_env hD v u b vars
  have rep : ∀ e : Err, e.location = none → ReportedAt (.var (F := F) l as name typ) (e.context l) := by
    intro e he
    exact ⟨LocIn.full (.inl he) (by simp [stmtLocs]), fun h => context_isSome h⟩
  rw [visitStatement, visitVariable]
  rcases buildSemanticType_spec typ with ⟨t, h1, h2⟩ | ⟨e, h0, h1, h2⟩
  · simp only [h1, visitAnnotations_of_eval henv ha, Res.bind_ok]
    have hadd : Analyzer.addVariable { stateOf fo v D u b vars with nextUid := (stateOf fo v D u b vars).nextUid + 1 }
        ⟨(stateOf fo v D u b vars).nextUid, name.name, t, sas, name.loc⟩ =
        .ok (stateOf fo v D (u + 1) b (vars ++ [⟨u, name.name, t, sas, name.loc⟩])) := rfl
    rw [hadd]
    simp only [SVariable.link]
    rcases registerVariable_spec fo v D (u + 1) b (vars ++ [⟨u, name.name, t, sas, name.loc⟩]) ⟨u, name.name, t⟩ with ⟨g1, g2⟩ | ⟨e, g0, g1, g2, g3⟩
    · left
      refine ⟨t, h2, g2, ?_⟩
      have : (stateOf fo v D u b vars).nextUid = u := rfl
      rw [this, g1]; rfl
    · right; left
      refine ⟨t, e.context l, h2, g2, ⟨rep e g0, by rw [g3]⟩, ?_⟩
      have : (stateOf fo v D u b vars).nextUid = u := rfl
      rw [this, g1]; rfl
  · right; right
    exact ⟨e.context l, h2, rep e h0, by rw [h1]⟩

/-- The outcomes of a declaration. -/
theorem visitVariable_cases {fo : FloatOps F} {D : List VarLink} (hD : DeclsOk D) (v : Version) (u : Nat) (b : SBlock F)
    (vars : List (SVariable F)) (l : Option Loc) (as : List (AnnotationData F)) (name : Ident) (typ : TypeAst) :
    (∃ sas, EvalAnnotations fo D as sas) ∨
    visitStatement fo (stateOf fo v D u b vars) (.var l as name typ) = .ub ∨
    ∃ e errs a', visitStatement fo (stateOf fo v D u b vars) (.var l as name typ) = .ok (e :: errs, a') := by
  have henv : EnvOk fo D (stateOf fo v D u b vars).scopes := stateOf_env hD v u b vars
  rcases visitAnnotations_cases henv as with ⟨sas, a1, a2⟩ | ⟨a1, a2⟩ | ⟨e1, errs, sas, a1, a2⟩
  · exact .inl ⟨_, a2⟩
  · right
    rw [visitStatement, visitVariable]
    rcases buildSemanticType_spec typ with ⟨t, h1, h2⟩ | ⟨e, h0, h1, h2⟩
    · left; rw [h1, a1]; rfl
    · right; exact ⟨_, _, _, by rw [h1]⟩
  · right; right
    rw [visitStatement, visitVariable]
    rcases buildSemanticType_spec typ with ⟨t, h1, h2⟩ | ⟨e', h0, h1, h2⟩
    · simp only [h1, a1, Res.bind_ok]
      have hadd : Analyzer.addVariable { stateOf fo v D u b vars with nextUid := (stateOf fo v D u b vars).nextUid + 1 }
          ⟨(stateOf fo v D u b vars).nextUid, name.name, t, sas, name.loc⟩ =
          .ok (stateOf fo v D (u + 1) b (vars ++ [⟨u, name.name, t, sas, name.loc⟩])) := rfl
      rw [hadd]
      simp only [SVariable.link]
      rcases registerVariable_spec fo v D (u + 1) b (vars ++ [⟨u, name.name, t, sas, name.loc⟩]) ⟨u, name.name, t⟩ with ⟨g1, g2⟩ | ⟨e, g0, g1, g2, g3⟩
      · have : (stateOf fo v D u b vars).nextUid = u := rfl
        exact ⟨e1, _, _, by rw [this, g1]; rfl⟩
      · have : (stateOf fo v D u b vars).nextUid = u := rfl
        exact ⟨_, _, _, by rw [this, g1]; rfl⟩
    · exact ⟨_, _, _, by rw [h1]⟩

end Qasm
