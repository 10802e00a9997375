import Verif.Spec.Annotated
import Verif.Lemmas.FailsIn
/-!
# Helper lemmas: programs with annotations for any registrations
-/

namespace Qasm

open Spec Sem Analyzer

variable {F : Type} {fo : FloatOps F} {scopes : List (Scope F)} {ls : List (Level F)}

/-! ## Annotations -/

theorem operands_in (h : Forall2 HoldsLevel scopes ls) (loc : Option Loc) (es : List (Expr F)) {vs : List (Value F)} {errs : List Err}
    (h0 : visitAnnotationOperands fo scopes loc es = .ok (errs, vs)) : OperandsIn fo ls loc es vs errs := by
  induction es generalizing vs errs with
  | nil => rw [visitAnnotationOperands] at h0; cases h0; exact .nil
  | cons e es ih =>
    rw [visitAnnotationOperands] at h0
    cases hv : visit fo scopes e with
    | ok v =>
      rw [hv] at h0
      obtain ⟨⟨errs, us⟩, h1, h2⟩ := Res.bind_eq_ok.1 h0
      simp only [Res.ok.injEq, Prod.mk.injEq] at h2
      obtain ⟨rfl, rfl⟩ := h2
      exact .valid ((visit_iff h e v).1 hv) (ih h1)
    | err x =>
      rw [hv] at h0
      obtain ⟨⟨errs, us⟩, h1, h2⟩ := Res.bind_eq_ok.1 h0
      simp only [Res.ok.injEq, Prod.mk.injEq] at h2
      obtain ⟨rfl, rfl⟩ := h2
      rw [context_at]
      refine .invalid ?_ ⟨(visit_failsIn h e x).1 hv, ?_⟩ (ih h1)
      · rintro ⟨v, hn⟩
        rw [(visit_iff h e v).2 hn] at hv
        cases hv
      · rw [← context_at]
        exact ((visit_errAt h e x hv).mono (S' := loc :: exprLocs e) fun _ hm => by simp [hm]).full (by simp)
    | exn c => rw [hv] at h0; cases h0
    | ub => rw [hv] at h0; cases h0

theorem notes_in (h : Forall2 HoldsLevel scopes ls) (as : List (AnnotationData F)) {sas : List (SAnnotation F)} {errs : List Err}
    (h0 : visitAnnotations fo scopes as = .ok (errs, sas)) : NotesIn fo ls as sas errs := by
  induction as generalizing sas errs with
  | nil => rw [visitAnnotations] at h0; cases h0; exact .nil
  | cons a as ih =>
    rw [visitAnnotations, Res.bind_eq_ok] at h0
    obtain ⟨⟨es, vs⟩, h1, h2⟩ := h0
    obtain ⟨⟨errs', sas'⟩, h3, h4⟩ := Res.bind_eq_ok.1 h2
    simp only [Res.ok.injEq, Prod.mk.injEq] at h4
    obtain ⟨rfl, rfl⟩ := h4
    exact .cons (operands_in h _ _ h1) (ih h3)

/-! ## Gates -/

theorem unnotedGate_plain : ∀ g : Gate F, PlainGate (unnotedGate g)
  | .mk _ _ _ none _ => by simp [unnotedGate, PlainGate]
  | .mk _ _ _ (some g) _ => by simp [unnotedGate, PlainGate, unnotedGate_plain g]

theorem unnotedGate_shaped : ∀ g : Gate F, ShapedGate g → ShapedGate (unnotedGate g)
  | .mk _ _ _ none _, h => h
  | .mk _ _ _ (some g) _, h => ⟨h.1, unnotedGate_shaped g h.2⟩

theorem unnotedGate_notes : ∀ g : Gate F, ShapedGateAnnotations (unnotedGate g)
  | .mk _ _ _ none _ => by simp [unnotedGate, ShapedGateAnnotations, ShapedAnnotations]
  | .mk _ _ _ (some g) _ => by simp [unnotedGate, ShapedGateAnnotations, ShapedAnnotations, unnotedGate_notes g]

theorem unnoted_plain (s : Stmt F) : PlainStmt (unnoted s) := by
  cases s <;> simp [unnoted, PlainStmt, unnotedGate_plain]

theorem unnoted_shaped (s : Stmt F) (h : ShapedStmt s) : ShapedStmt (unnoted s) := by
  cases s with
  | var => simp [unnoted, ShapedStmt, ShapedAnnotations]
  | gate l as g es =>
    exact ⟨by simp [ShapedAnnotations], unnotedGate_shaped g h.2.1, unnotedGate_notes g, h.2.2.2⟩
  | nonGate => exact ⟨by simp [ShapedAnnotations], h.2⟩
  | asm => simp [unnoted, ShapedStmt, ShapedAnnotations]

theorem unnoted_decl (s : Stmt F) : IsDecl (unnoted s) ↔ IsDecl s := by cases s <;> rfl

theorem terminal_bare : ∀ s : SGate F, gateTerminalName (bareGate s) = gateTerminalName s
  | .mk _ none _ _ _ => rfl
  | .mk _ (some g) _ _ _ => by simp only [bareGate, gateTerminalName, terminal_bare g]

theorem resolution_bare : ∀ s : SGate F, gateResolutionName (bareGate s) = gateResolutionName s
  | .mk _ none _ _ _ => rfl
  | .mk _ (some g) _ _ _ => by simp only [bareGate, gateResolutionName, terminal_bare g]

theorem checkGate_bare (s : Option (SGate F)) : checkGate (s.map bareGate) = checkGate s := by
  cases s <;> simp only [checkGate, Option.map_none, Option.map_some, resolution_bare]

/-- What the rest of a gate does with and without annotations. -/
theorem visitGateRest_noted {l : Option Loc} {as : List (AnnotationData F)} {name : Str} {inner : Option (SGate F)}
    {ps : List (Expr F)} {errs : List Err} {x : Except Err (SGate F)}
    (h0 : visitGateRest fo scopes l as name inner ps = .ok (errs, x)) :
    (∃ ws sas, x = .ok (.mk name inner ws sas l) ∧ visitAnnotations fo scopes as = .ok (errs, sas) ∧
      visitGateRest fo scopes l [] name (inner.map bareGate) ps = .ok ([], .ok (.mk name (inner.map bareGate) ws [] l))) ∨
    (∃ e, x = .error e ∧ errs = [] ∧ visitGateRest fo scopes l [] name (inner.map bareGate) ps = .ok ([], .error e)) := by
  unfold visitGateRest at h0 ⊢
  rw [checkGate_bare]
  split at h0
  · next ws _ =>
    obtain ⟨⟨es, sas⟩, h1, h2⟩ := Res.bind_eq_ok.1 h0
    simp only [Res.ok.injEq, Prod.mk.injEq] at h2
    obtain ⟨rfl, rfl⟩ := h2
    exact .inl ⟨ws, sas, rfl, h1, by simp [visitAnnotations]⟩
  · next e _ =>
    cases h0
    exact .inr ⟨_, rfl, rfl, by simp⟩
  · cases h0
  · cases h0

/-- What a gate does with and without annotations. -/
theorem visitGate_noted (h : Forall2 HoldsLevel scopes ls) : ∀ (g : Gate F), ShapedGate g → ∀ {errs x},
    visitGate fo scopes g = .ok (errs, x) →
      GateNotes fo ls g errs ∧
      ((∃ s, x = .ok s ∧ visitGate fo scopes (unnotedGate g) = .ok ([], .ok (bareGate s)) ∧ GateNoted fo ls g s errs) ∨
        ∃ e, x = .error e ∧ visitGate fo scopes (unnotedGate g) = .ok ([], .error e))
  | .mk l as name none ps, hs, errs, x, h0 => by
    have hi := fun s => visitGate_iff (fo := fo) h (.mk l [] name none ps) (unnotedGate_shaped _ hs) s
    rw [visitGate] at h0
    rcases visitGateRest_noted h0 with ⟨ws, sas, rfl, h1, h2⟩ | ⟨e, rfl, rfl, h2⟩
    · have h3 : visitGate fo scopes (.mk l [] name none ps) = .ok ([], .ok (.mk name none ws [] l)) := by rw [visitGate]; exact h2
      obtain ⟨n, h4⟩ := (hi _).1 h3
      have h5 : GateNoted fo ls (.mk l as name none ps) (.mk name none ws sas l) errs := .named (notes_in h _ h1)
      exact ⟨.valid (n := n) (s := .mk name none ws sas l) h4 h5, .inl ⟨_, rfl, h3, h5⟩⟩
    · have h3 : visitGate fo scopes (.mk l [] name none ps) = .ok ([], .error e) := by rw [visitGate]; exact h2
      refine ⟨.named ?_, .inr ⟨e, rfl, h3⟩⟩
      rintro ⟨n, s, hn⟩
      rw [(hi s).2 ⟨n, hn⟩] at h3
      simp at h3
  | .mk l as name (some g) ps, hs, errs, x, h0 => by
    have hi := fun s => visitGate_iff (fo := fo) h (.mk l [] name (some (unnotedGate g)) ps) (unnotedGate_shaped (.mk l as name (some g) ps) hs) s
    have bad : ∀ {e}, visitGate fo scopes (.mk l [] name (some (unnotedGate g)) ps) = .ok ([], .error e) →
        ¬∃ n s, GateHere fo ls (.mk l [] name (some (unnotedGate g)) ps) n s := by
      rintro e h3 ⟨n, s, hn⟩
      rw [(hi s).2 ⟨n, hn⟩] at h3
      simp at h3
    rw [visitGate] at h0
    obtain ⟨⟨es, r⟩, h1, h2⟩ := Res.bind_eq_ok.1 h0
    obtain ⟨h3, h4⟩ := visitGate_noted h g hs.2 h1
    rcases h4 with ⟨s, rfl, h4, h5⟩ | ⟨e, rfl, h4⟩
    · dsimp only at h2
      unfold Log.after at h2
      obtain ⟨⟨es', r'⟩, h6, h7⟩ := Res.bind_eq_ok.1 h2
      simp only [Res.ok.injEq, Prod.mk.injEq] at h7
      obtain ⟨rfl, rfl⟩ := h7
      rcases visitGateRest_noted h6 with ⟨ws, sas, rfl, h8, h9⟩ | ⟨e, rfl, rfl, h9⟩
      · have h10 : visitGate fo scopes (.mk l [] name (some (unnotedGate g)) ps) =
            .ok ([], .ok (.mk name (some (bareGate s)) ws [] l)) := by
          rw [visitGate, h4]
          simp only [Option.map_some] at h9
          simp [Log.after, h9]
        obtain ⟨n, h11⟩ := (hi _).1 h10
        have h12 : GateNoted fo ls (.mk l as name (some g) ps) (.mk name (some s) ws sas l) (es ++ es') := .modified h5 (notes_in h _ h8)
        exact ⟨.valid (n := n) (s := .mk name (some s) ws sas l) h11 h12, .inl ⟨_, rfl, h10, h12⟩⟩
      · have h10 : visitGate fo scopes (.mk l [] name (some (unnotedGate g)) ps) = .ok ([], .error e) := by
          rw [visitGate, h4]
          simp only [Option.map_some] at h9
          simp [Log.after, h9]
        rw [List.append_nil]
        exact ⟨.modified (bad h10) h3, .inr ⟨e, rfl, h10⟩⟩
    · dsimp only at h2
      simp only [Res.ok.injEq, Prod.mk.injEq] at h2
      obtain ⟨rfl, rfl⟩ := h2
      have h10 : visitGate fo scopes (.mk l [] name (some (unnotedGate g)) ps) = .ok ([], .error (e.context l)) := by
        rw [visitGate, h4]
        simp
      exact ⟨.modified (bad h10) h3, .inr ⟨_, rfl, h10⟩⟩

/-! ## Statements -/

private theorem finish_noted {a a' : Analyzer F} {as : List (AnnotationData F)} {l : Option Loc} {es : List Err}
    {f : List (SAnnotation F) → SStatement F}
    (h : ((visitAnnotations fo a.scopes as).bind fun ra => Log.after ra.1 (catchInto a l (a.addStatement (f ra.2)))) = .ok (es, a')) :
    ∃ sas, visitAnnotations fo a.scopes as = .ok (es, sas) ∧ a.addStatement (f sas) = .ok a' ∧
      ∀ t, ∃ a0, a.addStatement t = .ok a0 := by
  obtain ⟨⟨es1, sas⟩, h1, h2⟩ := Res.bind_eq_ok.1 h
  refine ⟨sas, ?_⟩
  simp only [addStatement, modifyCurrent] at h2 ⊢
  cases hs : a.scopes with
  | nil => rw [hs] at h2; cases h2
  | cons s ss =>
    rw [hs] at h2 h1
    simp only [Res.bind_ok, catchInto, Log.after, List.append_nil, Res.ok.injEq, Prod.mk.injEq] at h2
    obtain ⟨rfl, rfl⟩ := h2
    exact ⟨h1, rfl, fun t => ⟨_, rfl⟩⟩

private theorem finish_unnoted {a a0 : Analyzer F} {l : Option Loc} {t : SStatement F} {f : List (SAnnotation F) → SStatement F}
    (ht : f [] = t) (h : a.addStatement t = .ok a0) :
    ((visitAnnotations fo a.scopes []).bind fun ra => Log.after ra.1 (catchInto a l (a.addStatement (f ra.2)))) = .ok ([], a0) := by
  subst ht
  simp [visitAnnotations, Log.after, h, catchInto]

/-- What an instruction does with and without annotations. -/
theorem visitInstruction_noted (hl : Forall2 HoldsLevel scopes ls) {a a' : Analyzer F} (ha : a.scopes = scopes) {s : Stmt F}
    (hsh : ShapedStmt s) (hd : ¬ IsDecl s) {es : List Err} (h : visitStatement fo a s = .ok (es, a')) :
    (∃ t a0, InstrNoted fo ls s t es ∧ a.addStatement t = .ok a' ∧ visitStatement fo a (unnoted s) = .ok ([], a0) ∧
      a.addStatement (bareInstr t) = .ok a0) ∨
    ∃ e es1, a' = a ∧ es = es1 ++ [e] ∧ NotesOfInvalid fo ls s es1 ∧ visitStatement fo a (unnoted s) = .ok ([e], a) := by
  have hi := fun a1 => visitInstruction_iff (fo := fo) (a := a) (a' := a1) (ha ▸ hl) (unnoted_shaped s hsh) (by rw [unnoted_decl]; exact hd)
  subst ha
  cases s with
  | var => exact absurd trivial hd
  | asm l as n c =>
    left
    simp only [visitStatement, visitAsmDeclaration] at h
    obtain ⟨sas, h1, h2, h3⟩ := finish_noted (f := fun r => .asm n c r l) h
    obtain ⟨a0, h3⟩ := h3 (.asm n c [] l)
    exact ⟨_, a0, .asm (notes_in hl _ h1), h2, finish_unnoted (fo := fo) (f := fun r => .asm n c r l) rfl h3, h3⟩
  | gate l as g ops =>
    simp only [visitStatement, visitGateInstruction] at h
    obtain ⟨⟨es1, r⟩, h1, h2⟩ := Res.bind_eq_ok.1 h
    obtain ⟨h3, h4⟩ := visitGate_noted hl g hsh.2.1 h1
    dsimp only at h2
    unfold Log.after at h2
    obtain ⟨⟨es2, a2⟩, h5, h6⟩ := Res.bind_eq_ok.1 h2
    simp only [Res.ok.injEq, Prod.mk.injEq] at h6
    obtain ⟨rfl, rfl⟩ := h6
    rcases h4 with ⟨s, rfl, h4, h7⟩ | ⟨e, rfl, h4⟩
    · dsimp only at h5
      split at h5
      · next e he =>
        cases h5
        refine .inr ⟨_, es1, rfl, rfl, h3, ?_⟩
        simp only [unnoted, visitStatement, visitGateInstruction, h4, Res.bind_ok, resolution_bare, he]
        rfl
      · cases h5
      · cases h5
      · next i hi' =>
        left
        obtain ⟨sas, h8, h9, h10⟩ := finish_noted (f := fun r => .gate i.1 s i.2 r l) h5
        obtain ⟨a0, h10⟩ := h10 (.gate i.1 (bareGate s) i.2 [] l)
        have h11 : visitStatement fo a (unnoted (.gate l as g ops)) = .ok ([], a0) := by
          simp only [unnoted, visitStatement, visitGateInstruction, h4, Res.bind_ok, resolution_bare, hi']
          have := finish_unnoted (fo := fo) (l := l) (f := fun r => .gate i.1 (bareGate s) i.2 r l) rfl h10
          rw [this]
          rfl
        refine ⟨.gate i.1 s i.2 sas l, a0, .gate ?_ h7 (notes_in hl _ h8), h9, h11, h10⟩
        obtain ⟨t, h12, h13⟩ := (hi a0).1 h11
        have : t = .gate i.1 (bareGate s) i.2 [] l := by
          simp only [addStatement, modifyCurrent] at h10 h13
          cases hs : a.scopes with
          | nil => rw [hs] at h10; cases h10
          | cons s0 ss =>
            rw [hs] at h10 h13
            simp only [Res.bind_ok, Res.ok.injEq] at h10 h13
            rw [← h10] at h13
            simp only [Analyzer.mk.injEq, List.cons.injEq, Scope.mk.injEq, SBlock.mk.injEq, List.append_cancel_left_eq, and_true,
              true_and] at h13
            exact h13.1
        subst this
        exact h12
    · cases h5
      refine .inr ⟨_, es1, rfl, rfl, h3, ?_⟩
      simp only [unnoted, visitStatement, visitGateInstruction, h4, Res.bind_ok]
      rfl
  | nonGate l as name ops ps =>
    simp only [visitStatement, visitNonGateInstruction] at h
    split at h
    · next e he =>
      cases h
      refine .inr ⟨_, [], rfl, rfl, rfl, ?_⟩
      simp only [unnoted, visitStatement, visitNonGateInstruction, he]
    · cases h
    · cases h
    · next i us he =>
      left
      obtain ⟨sas, h8, h9, h10⟩ := finish_noted (f := fun r => .nonGate i.1 name i.2 us r l) h
      obtain ⟨a0, h10⟩ := h10 (.nonGate i.1 name i.2 us [] l)
      have h11 : visitStatement fo a (unnoted (.nonGate l as name ops ps)) = .ok ([], a0) := by
        simp only [unnoted, visitStatement, visitNonGateInstruction, he]
        exact finish_unnoted (f := fun r => .nonGate i.1 name i.2 us r l) rfl h10
      refine ⟨.nonGate i.1 name i.2 us sas l, a0, .nonGate ?_ (notes_in hl _ h8), h9, h11, h10⟩
      obtain ⟨t, h12, h13⟩ := (hi a0).1 h11
      have : t = .nonGate i.1 name i.2 us [] l := by
        simp only [addStatement, modifyCurrent] at h10 h13
        cases hs : a.scopes with
        | nil => rw [hs] at h10; cases h10
        | cons s0 ss =>
          rw [hs] at h10 h13
          simp only [Res.bind_ok, Res.ok.injEq] at h10 h13
          rw [← h10] at h13
          simp only [Analyzer.mk.injEq, List.cons.injEq, Scope.mk.injEq, SBlock.mk.injEq, List.append_cancel_left_eq, and_true,
            true_and] at h13
          exact h13.1
      subst this
      exact h12

/-- What a declaration does. -/
theorem visitVariable_noted {s : Scope F} {ss : List (Scope F)} {r : Level F} {v : Version} {u : Nat}
    (hl : Forall2 HoldsLevel (s :: ss) (r :: ls)) {loc : Option Loc} {as : List (AnnotationData F)} {name : Ident} {typ : TypeAst}
    {a' : Analyzer F} {es : List Err} (h0 : visitVariable fo ⟨v, s :: ss, u⟩ loc as name typ = .ok (es, a')) :
    (∃ t sas, TypeOk typ t ∧ name.name ∉ r.vars.map (·.1) ∧ NotesIn fo (r :: ls) as sas es ∧
      a' = ⟨v, declareIn s ⟨u, name.name, t, sas, name.loc⟩ :: ss, u + 1⟩) ∨
    ((¬∃ t, TypeOk typ t) ∧ a' = ⟨v, s :: ss, u⟩ ∧ ∃ m, TypeFails typ m ∧ es = [⟨m, loc⟩]) ∨
    (∃ t sas es1, TypeOk typ t ∧ name.name ∈ r.vars.map (·.1) ∧ NotesIn fo (r :: ls) as sas es1 ∧
      es = es1 ++ [⟨c!"trying to redeclare variable '" ++ name.name ++ c!"'", loc⟩] ∧
      a' = ⟨v, redeclareIn s ⟨u, name.name, t, sas, name.loc⟩ :: ss, u + 1⟩) := by
  have h : HoldsLevel s r := by cases hl; assumption
  rw [visitVariable] at h0
  split at h0
  · next e he =>
    have : visitVariable fo ⟨v, s :: ss, u⟩ loc [] name typ = .ok (es, a') := by rw [visitVariable, he]; exact h0
    rcases visitVariable_plain h this with ⟨t, ht, _⟩ | h1 | ⟨t, ht, _⟩
    · rw [(buildSemanticType_iff ..).2 ht] at he; cases he
    · exact .inr (.inl h1)
    · rw [(buildSemanticType_iff ..).2 ht] at he; cases he
  · cases h0
  · cases h0
  · next t ht =>
    have ht := (buildSemanticType_iff ..).1 ht
    obtain ⟨⟨es1, sas⟩, h1, h2⟩ := Res.bind_eq_ok.1 h0
    have hn := notes_in hl _ h1
    simp only [addVariable, modifyCurrent, registerVariable, VariableTable.add, Res.bind_ok] at h2
    cases hf : VariableTable.find s.variableTable name.name with
    | none =>
      rw [hf] at h2
      cases h2
      rw [List.append_nil]
      exact .inl ⟨t, sas, ht, (holds_find_none h _).1 hf, hn, rfl⟩
    | some w =>
      rw [hf] at h2
      cases h2
      refine .inr (.inr ⟨t, sas, es1, ht, ?_, hn, rfl, rfl⟩)
      refine Classical.byContradiction fun hn => ?_
      rw [(holds_find_none h _).2 hn] at hf
      cases hf

end Qasm
