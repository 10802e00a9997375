import Verif.Spec.NotedStops
import Verif.Lemmas.Annotated
import Verif.Lemmas.Stops
/-!
# When the analysis of a program with annotations ends without a result: lemmas for C117
-/

namespace Qasm

open Spec Sem Analyzer

variable {F : Type} {fo : FloatOps F} {scopes : List (Scope F)} {ls : List (Level F)}

private theorem operands_ok (h : Forall2 HoldsLevel scopes ls) (l : Option Loc) (es : List (Expr F)) :
    (∃ x, visitAnnotationOperands fo scopes l es = .ok x) ↔ ∀ x ∈ es, ¬∃ o, StopsIn fo ls x o := by
  induction es with
  | nil => simp [visitAnnotationOperands]
  | cons e es ih =>
    rw [List.forall_mem_cons, ← ih, visitAnnotationOperands]
    simp only [← visit_stop h e]
    rcases Stop.cases (visit fo scopes e) with ⟨x, h1⟩ | ⟨x, h1⟩ | ⟨o, h1⟩
    · rw [h1]
      refine ⟨fun ⟨y, h2⟩ => ⟨fun ⟨o, h3⟩ => Stop.ne_ok h3, ?_⟩, fun ⟨_, y, h2⟩ => ⟨_, by simp only [h2, Res.bind_ok]; rfl⟩⟩
      obtain ⟨z, h3, _⟩ := Res.bind_eq_ok.1 h2
      exact ⟨z, h3⟩
    · rw [h1]
      refine ⟨fun ⟨y, h2⟩ => ⟨fun ⟨o, h3⟩ => Stop.ne_err h3, ?_⟩, fun ⟨_, y, h2⟩ => ⟨_, by simp only [h2, Res.bind_ok]; rfl⟩⟩
      obtain ⟨z, h3, _⟩ := Res.bind_eq_ok.1 h2
      exact ⟨z, h3⟩
    · rw [h1]
      refine ⟨?_, fun ⟨h2, _⟩ => absurd ⟨o, rfl⟩ h2⟩
      rintro ⟨y, h2⟩
      cases o <;> cases h2

private theorem operands_stop (h : Forall2 HoldsLevel scopes ls) (l : Option Loc) (es : List (Expr F)) (o : Stop) :
    visitAnnotationOperands fo scopes l es = o.as ↔
      ∃ before e after, es = before ++ e :: after ∧ (∀ x ∈ before, ¬∃ o', StopsIn fo ls x o') ∧ StopsIn fo ls e o := by
  induction es with
  | nil => exact ⟨fun h => absurd h Stop.ne_ok, fun ⟨b, e, a, h, _⟩ => by cases b <;> cases h⟩
  | cons e es ih =>
    have step : ∀ (hn : ¬∃ o', StopsIn fo ls e o'),
        (∃ before x after, es = before ++ x :: after ∧ (∀ y ∈ before, ¬∃ o', StopsIn fo ls y o') ∧ StopsIn fo ls x o) ↔
        ∃ before x after, e :: es = before ++ x :: after ∧ (∀ y ∈ before, ¬∃ o', StopsIn fo ls y o') ∧ StopsIn fo ls x o := by
      intro hn
      constructor
      · rintro ⟨b, x, a, rfl, h1, h2⟩
        exact ⟨e :: b, x, a, rfl, List.forall_mem_cons.2 ⟨hn, h1⟩, h2⟩
      · rintro ⟨b, x, a, h0, h1, h2⟩
        cases b with
        | nil => cases h0; exact absurd ⟨o, h2⟩ hn
        | cons y b => cases h0; exact ⟨b, x, a, rfl, fun y hy => h1 y (List.mem_cons_of_mem _ hy), h2⟩
    rcases Stop.cases (visit fo scopes e) with ⟨x, h1⟩ | ⟨x, h1⟩ | ⟨o1, h1⟩
    · have hn : ¬∃ o', StopsIn fo ls e o' := by
        rintro ⟨o', h2⟩
        rw [← visit_stop h, h1] at h2
        exact Stop.ne_ok h2
      rw [visitAnnotationOperands, h1, ← step hn, ← ih]
      exact ⟨fun h => (Stop.bind.1 h).elim id fun ⟨_, _, h⟩ => absurd h Stop.ne_ok, fun h => Stop.bind.2 (.inl h)⟩
    · have hn : ¬∃ o', StopsIn fo ls e o' := by
        rintro ⟨o', h2⟩
        rw [← visit_stop h, h1] at h2
        exact Stop.ne_err h2
      rw [visitAnnotationOperands, h1, ← step hn, ← ih]
      exact ⟨fun h => (Stop.bind.1 h).elim id fun ⟨_, _, h⟩ => absurd h Stop.ne_ok, fun h => Stop.bind.2 (.inl h)⟩
    · have h2 := (visit_stop h e o1).1 h1
      have h3 : visitAnnotationOperands fo scopes l (e :: es) = o1.as := by
        rw [visitAnnotationOperands, h1]
        cases o1 <;> rfl
      rw [h3]
      constructor
      · intro h4
        cases Stop.inj h4
        exact ⟨[], e, es, rfl, by simp, h2⟩
      · rintro ⟨b, x, a, h0, h4, h5⟩
        cases b with
        | nil =>
          cases h0
          have := (visit_stop h e o).2 h5
          rw [h1] at this
          cases Stop.inj this
          rfl
        | cons y b => cases h0; exact absurd ⟨_, h2⟩ (h4 e (List.mem_cons_self ..))

/-- Annotations end the analysis by the first operand that does so. -/
theorem visitAnnotations_stop (h : Forall2 HoldsLevel scopes ls) (as : List (AnnotationData F)) (o : Stop) :
    visitAnnotations fo scopes as = o.as ↔ NotesStop fo ls as o := by
  induction as with
  | nil => exact ⟨fun h => absurd h Stop.ne_ok, fun ⟨b, e, a, h, _⟩ => by cases b <;> cases h⟩
  | cons a as ih =>
    rw [visitAnnotations, Stop.bind, operands_stop h]
    have tail : ∀ r : Log (List (Value F)), ((visitAnnotations fo scopes as).bind fun rs =>
        .ok (r.1 ++ rs.1, ⟨a.interface, a.operation, r.2, a.loc⟩ :: rs.2)) = (o.as : Res Empty (Log (List (SAnnotation F)))) ↔
        NotesStop fo ls as o := by
      intro r
      rw [← ih]
      exact ⟨fun h => (Stop.bind.1 h).elim id fun ⟨_, _, h⟩ => absurd h Stop.ne_ok, fun h => Stop.bind.2 (.inl h)⟩
    simp only [tail]
    unfold NotesStop
    rw [List.flatMap_cons]
    constructor
    · rintro (⟨b, e, c, h1, h2, h3⟩ | ⟨r, h1, b, e, c, h2, h3, h4⟩)
      · exact ⟨b, e, c ++ as.flatMap (·.operands), by rw [h1]; simp, h2, h3⟩
      · refine ⟨a.operands ++ b, e, c, by rw [h2]; simp, ?_, h4⟩
        intro x hx
        rcases List.mem_append.1 hx with hx | hx
        · exact (operands_ok h ..).1 ⟨r, h1⟩ x hx
        · exact h3 x hx
    · rintro ⟨b, e, c, h1, h2, h3⟩
      rcases List.append_eq_append_iff.1 h1 with ⟨b', h4, h5⟩ | ⟨c', h4, h5⟩
      · subst h4
        obtain ⟨r, h6⟩ := (operands_ok h a.loc a.operands).2 fun x hx => h2 x (List.mem_append_left _ hx)
        exact .inr ⟨r, h6, b', e, c, h5, fun x hx => h2 x (List.mem_append_right _ hx), h3⟩
      · cases c' with
        | nil =>
          rw [List.append_nil] at h4
          subst h4
          obtain ⟨r, h6⟩ := (operands_ok h a.loc a.operands).2 h2
          exact .inr ⟨r, h6, [], e, c, h5.symm, by simp, h3⟩
        | cons y c' =>
          cases h5
          exact .inl ⟨b, e, c', h4, h2, h3⟩

private theorem visitGateRest_annotated {l : Option Loc} {as : List (AnnotationData F)} {name : Str} {inner : Option (SGate F)}
    {ps : List (Expr F)} {o : Stop} :
    visitGateRest fo scopes l as name inner ps = o.as ↔
      visitGateRest fo scopes l [] name (inner.map bareGate) ps = o.as ∨
      (∃ s, visitGateRest fo scopes l [] name (inner.map bareGate) ps = .ok ([], .ok s)) ∧ visitAnnotations fo scopes as = o.as := by
  unfold visitGateRest
  rw [checkGate_bare]
  split
  · next ws _ =>
    simp only [visitAnnotations, Res.bind_ok]
    constructor
    · intro h
      exact .inr ⟨⟨_, rfl⟩, (Stop.bind.1 h).elim id fun ⟨_, _, h⟩ => absurd h Stop.ne_ok⟩
    · rintro (h | ⟨_, h⟩)
      · exact absurd h Stop.ne_ok
      · exact Stop.bind.2 (.inl h)
  · refine ⟨fun h => absurd h Stop.ne_ok, ?_⟩
    rintro (h | ⟨⟨_, h⟩, _⟩)
    · exact h
    · simp at h
  · refine ⟨.inl, ?_⟩
    rintro (h | ⟨⟨_, h⟩, _⟩)
    · exact h
    · cases h
  · refine ⟨.inl, ?_⟩
    rintro (h | ⟨⟨_, h⟩, _⟩)
    · exact h
    · cases h

/-- When a gate with annotations ends the analysis. -/
theorem visitGate_notedStop (h : Forall2 HoldsLevel scopes ls) : ∀ (g : Gate F), ShapedGate g → ∀ (o : Stop),
    visitGate fo scopes g = o.as ↔ NotedGateStops fo ls g o
  | .mk l as name none ps, hs, o => by
    have hsg := unnotedGate_shaped (.mk l as name none ps) hs
    have hpg := unnotedGate_plain (Gate.mk l as name none ps)
    simp only [NotedGateStops]
    rw [← visitGate_stop h (.mk l [] name none ps) hsg hpg, ← visitAnnotations_stop h, visitGate, visitGate,
      visitGateRest_annotated]
    refine or_congr Iff.rfl (and_congr ?_ Iff.rfl)
    rw [exists_comm]
    refine exists_congr fun s => ?_
    rw [← visitGate_iff h (.mk l [] name none ps) hsg, visitGate]
    rfl
  | .mk l as name (some g) ps, hs, o => by
    have hsg := unnotedGate_shaped (.mk l as name (some g) ps) hs
    have hpg := unnotedGate_plain (Gate.mk l as name (some g) ps)
    have ih := visitGate_notedStop h g hs.2
    have valid : (∃ n s, GateHere fo ls (.mk l [] name (some (unnotedGate g)) ps) n s) ↔
        ∃ s, visitGate fo scopes (.mk l [] name (some (unnotedGate g)) ps) = .ok ([], .ok s) := by
      rw [exists_comm]
      exact exists_congr fun s => (visitGate_iff h _ hsg s).symm
    simp only [NotedGateStops, InTurn]
    rw [← visitGate_stop h (.mk l [] name (some (unnotedGate g)) ps) hsg hpg, valid,
      ← visitAnnotations_stop h, ← ih, visitGate, Stop.bind]
    have key : ∀ (es : List Err) (r : Except Err (SGate F)), visitGate fo scopes g = .ok (es, r) →
        ((match r with
          | .error e => (.ok (es, .error (e.context l)) : Res Empty (Log (Except Err (SGate F))))
          | .ok inner => Log.after es (visitGateRest fo scopes l as name (some inner) ps)) = o.as ↔
        (visitGate fo scopes (.mk l [] name (some (unnotedGate g)) ps) = o.as ∨
        (∃ s, visitGate fo scopes (.mk l [] name (some (unnotedGate g)) ps) = .ok ([], .ok s)) ∧
          visitAnnotations fo scopes as = o.as)) := by
      intro es r h1
      rcases (visitGate_noted h g hs.2 h1).2 with ⟨s, rfl, h2, _⟩ | ⟨e, rfl, h2⟩
      · have e1 : visitGate fo scopes (.mk l [] name (some (unnotedGate g)) ps) =
            visitGateRest fo scopes l [] name (some (bareGate s)) ps := by
          rw [visitGate, h2]
          simp only [Res.bind_ok, Log.after, List.nil_append]
          cases visitGateRest fo scopes l [] name (some (bareGate s)) ps <;> rfl
        dsimp only
        rw [after_stop, e1, visitGateRest_annotated]
        rfl
      · have e1 : visitGate fo scopes (.mk l [] name (some (unnotedGate g)) ps) = .ok ([], .error (e.context l)) := by
          rw [visitGate, h2]
          rfl
        rw [e1]
        refine ⟨fun h => absurd h Stop.ne_ok, ?_⟩
        rintro (h | ⟨⟨_, h⟩, _⟩)
        · exact absurd h Stop.ne_ok
        · simp at h
    refine or_congr Iff.rfl ?_
    constructor
    · rintro ⟨⟨es, r⟩, h1, h2⟩
      refine ⟨?_, (key es r h1).1 h2⟩
      rintro ⟨o', h3⟩
      rw [← ih, h1] at h3
      exact Stop.ne_ok h3
    · rintro ⟨h1, h2⟩
      rcases Stop.cases (visitGate fo scopes g) with ⟨⟨es, r⟩, h3⟩ | ⟨e, _⟩ | ⟨o', h3⟩
      · exact ⟨_, h3, (key es r h3).2 h2⟩
      · exact e.elim
      · exact absurd ⟨o', (ih o').1 h3⟩ h1

/-- After all else is valid, the annotations are analysed and the statement is added. -/
private theorem finish_notedStop {a : Analyzer F} {as : List (AnnotationData F)} {l : Option Loc} {f : List (SAnnotation F) → SStatement F}
    {o : Stop} (ha : a.scopes ≠ []) :
    ((visitAnnotations fo a.scopes as).bind fun ra => Log.after ra.1 (catchInto a l (a.addStatement (f ra.2)))) = o.as ↔
      visitAnnotations fo a.scopes as = o.as := by
  rw [Stop.bind]
  refine ⟨fun h => h.elim id fun ⟨r, _, h⟩ => ?_, .inl⟩
  rw [after_stop] at h
  exact absurd h (finish_stop (.inl ha))

/-- An instruction with annotations, in terms of what it does without them. -/
private theorem visitInstruction_annotated (h : Forall2 HoldsLevel scopes ls) {a : Analyzer F} (ha : a.scopes = scopes) (hne : scopes ≠ [])
    {s : Stmt F} (hs : ShapedStmt s) (o : Stop) :
    visitStatement fo a s = o.as ↔
      match s with
      | .var .. => visitStatement fo a s = o.as
      | .gate _ as g _ => InTurn (fun o => visitGate fo scopes g = o.as) (fun o => visitStatement fo a (unnoted s) = o.as ∨
          (∃ a', visitStatement fo a (unnoted s) = .ok ([], a')) ∧ visitAnnotations fo scopes as = o.as) o
      | .nonGate _ as _ _ _ => visitStatement fo a (unnoted s) = o.as ∨
          (∃ a', visitStatement fo a (unnoted s) = .ok ([], a')) ∧ visitAnnotations fo scopes as = o.as
      | .asm _ as _ _ => visitAnnotations fo scopes as = o.as := by
  subst ha
  have added : ∀ t l, ∃ a', Log.after [] (catchInto a l (a.addStatement t)) = .ok ([], a') := by
    obtain ⟨v, sc, u⟩ := a
    cases sc with
    | nil => exact absurd rfl hne
    | cons s ss => exact fun t l => ⟨_, rfl⟩
  cases s with
  | var => exact Iff.rfl
  | asm l as name code =>
    simp only [visitStatement, visitAsmDeclaration]
    exact finish_notedStop (f := fun r => .asm name code r l) hne
  | nonGate l as name es ps =>
    simp only [visitStatement, visitNonGateInstruction, unnoted]
    split
    · refine ⟨fun h => absurd h Stop.ne_ok, ?_⟩
      rintro (h | ⟨⟨_, h⟩, _⟩)
      · exact h
      · simp at h
    · refine ⟨.inl, ?_⟩
      rintro (h | ⟨⟨_, h⟩, _⟩)
      · exact h
      · cases h
    · refine ⟨.inl, ?_⟩
      rintro (h | ⟨⟨_, h⟩, _⟩)
      · exact h
      · cases h
    · next i us _ =>
      rw [finish_notedStop (f := fun r => .nonGate i.1 name i.2 us r l) hne]
      simp only [visitAnnotations, Res.bind_ok]
      obtain ⟨a', h1⟩ := added (.nonGate i.1 name i.2 us [] l) l
      rw [h1]
      exact ⟨fun h => .inr ⟨⟨_, rfl⟩, h⟩, fun h => h.elim (fun h => absurd h Stop.ne_ok) (·.2)⟩
  | gate l as g es =>
    simp only [visitStatement, visitGateInstruction, unnoted]
    rw [Stop.bind, InTurn]
    have key : ∀ (es1 : List Err) (r : Except Err (SGate F)), visitGate fo a.scopes g = .ok (es1, r) →
        (Log.after es1 (match r with
          | .error e => (.ok ([e.context l], a) : Res Empty (Log (Analyzer F)))
          | .ok g =>
            match ((visitList fo a.scopes es).bind fun ops =>
                (resolveInstruction fo a.scopes (gateResolutionName g) ops).bind fun i =>
                (checkGateInstruction i.2).bind fun _ => .ok i) with
            | .err e => .ok ([e.context l], a)
            | .exn c => .exn c
            | .ub => .ub
            | .ok i =>
              (visitAnnotations fo a.scopes as).bind fun ra =>
              Log.after ra.1 (catchInto a l (a.addStatement (.gate i.1 g i.2 ra.2 l)))) = o.as ↔
        (visitStatement fo a (.gate l [] (unnotedGate g) es) = o.as ∨
          (∃ a', visitStatement fo a (.gate l [] (unnotedGate g) es) = .ok ([], a')) ∧ visitAnnotations fo a.scopes as = o.as)) := by
      intro es1 r h1
      rw [after_stop]
      rcases (visitGate_noted h g hs.2.1 h1).2 with ⟨s, rfl, h2, _⟩ | ⟨e, rfl, h2⟩
      · simp only [visitStatement, visitGateInstruction, h2, Res.bind_ok, resolution_bare]
        generalize ((visitList fo a.scopes es).bind fun ops =>
          (resolveInstruction fo a.scopes (gateResolutionName s) ops).bind fun i =>
          (checkGateInstruction i.2).bind fun _ => .ok i) = X
        cases X with
        | err e =>
          refine ⟨fun h => absurd h Stop.ne_ok, ?_⟩
          rintro (h | ⟨⟨_, h⟩, _⟩)
          · exact absurd h Stop.ne_ok
          · simp [Log.after] at h
        | exn c =>
          refine ⟨fun h => .inl (after_stop.2 h), ?_⟩
          rintro (h | ⟨⟨_, h⟩, _⟩)
          · exact after_stop.1 h
          · cases h
        | ub =>
          refine ⟨fun h => .inl (after_stop.2 h), ?_⟩
          rintro (h | ⟨⟨_, h⟩, _⟩)
          · exact after_stop.1 h
          · cases h
        | ok i =>
          dsimp only
          rw [finish_notedStop (f := fun r => .gate i.1 s i.2 r l) hne]
          simp only [visitAnnotations, Res.bind_ok]
          obtain ⟨a', h3⟩ := added (.gate i.1 (bareGate s) i.2 [] l) l
          rw [h3]
          exact ⟨fun h => .inr ⟨⟨_, rfl⟩, h⟩, fun h => h.elim (fun h => absurd h Stop.ne_ok) (·.2)⟩
      · simp only [visitStatement, visitGateInstruction, h2, Res.bind_ok]
        refine ⟨fun h => absurd h Stop.ne_ok, ?_⟩
        rintro (h | ⟨⟨_, h⟩, _⟩)
        · exact absurd h Stop.ne_ok
        · simp [Log.after] at h
    refine or_congr Iff.rfl ?_
    constructor
    · rintro ⟨⟨es1, r⟩, h1, h2⟩
      refine ⟨?_, (key es1 r h1).1 h2⟩
      rintro ⟨o', h3⟩
      rw [h1] at h3
      exact Stop.ne_ok h3
    · rintro ⟨h1, h2⟩
      rcases Stop.cases (visitGate fo a.scopes g) with ⟨⟨es1, r⟩, h3⟩ | ⟨e, _⟩ | ⟨o', h3⟩
      · exact ⟨_, h3, (key es1 r h3).2 h2⟩
      · exact e.elim
      · exact absurd ⟨o', h3⟩ h1

/-- When a declaration with annotations ends the analysis. -/
theorem visitVariable_notedStop {s : Scope F} {ss : List (Scope F)} {v : Version} {u : Nat}
    (h : Forall2 HoldsLevel (s :: ss) ls) {loc : Option Loc} {as : List (AnnotationData F)} {name : Ident} {typ : TypeAst} {o : Stop} :
    visitVariable fo ⟨v, s :: ss, u⟩ loc as name typ = o.as ↔ (∃ t, TypeOk typ t) ∧ NotesStop fo ls as o := by
  rw [← visitAnnotations_stop h]
  unfold visitVariable
  split
  · next e he =>
    refine ⟨fun h => absurd h Stop.ne_ok, fun ⟨⟨t, ht⟩, _⟩ => ?_⟩
    rw [(buildSemanticType_iff ..).2 ht] at he
    cases he
  · next h => rcases buildSemanticType_fails typ with ⟨_, h1, _⟩ | ⟨h1, _⟩ | ⟨_, h1, _⟩ <;> rw [h1] at h <;> cases h
  · next h => rcases buildSemanticType_fails typ with ⟨_, h1, _⟩ | ⟨h1, _⟩ | ⟨_, h1, _⟩ <;> rw [h1] at h <;> cases h
  · next t ht =>
    rw [Stop.bind]
    refine ⟨fun h => ⟨⟨t, (buildSemanticType_iff ..).1 ht⟩, ?_⟩, fun h => .inl h.2⟩
    rcases h with h | ⟨r, _, h⟩
    · exact h
    · simp only [addVariable, modifyCurrent, registerVariable, VariableTable.add, Res.bind_ok] at h
      rw [after_stop] at h
      revert h
      split
      · simp only [Res.bind, catchInto]; exact fun h => absurd h Stop.ne_ok
      · simp only [Res.bind, catchInto]; exact fun h => absurd h Stop.ne_ok

/-- When a statement with annotations ends the analysis. -/
theorem visitStatement_notedStop {s : Scope F} {ss : List (Scope F)} {v : Version} {u : Nat}
    (h : Forall2 HoldsLevel (s :: ss) ls) {st : Stmt F} (hs : ShapedStmt st) (o : Stop) :
    visitStatement fo ⟨v, s :: ss, u⟩ st = o.as ↔ StmtStops fo ls st o := by
  by_cases hd : IsDecl st
  · cases st with
    | gate => exact hd.elim
    | nonGate => exact hd.elim
    | asm => exact hd.elim
    | var l as name typ => exact visitVariable_notedStop h
  · have hd' : ¬ IsDecl (unnoted st) := by rw [unnoted_decl]; exact hd
    have h1 := fun o => visitInstruction_stop (fo := fo) (a := ⟨v, s :: ss, u⟩) (o := o) h (.inl (by simp)) (unnoted_shaped st hs)
      (unnoted_plain st) hd'
    have h2 : (∃ a', visitStatement fo ⟨v, s :: ss, u⟩ (unnoted st) = .ok ([], a')) ↔ ∃ t, InstrIn fo ls (unnoted st) t := by
      constructor
      · rintro ⟨a', h3⟩
        obtain ⟨t, h4, _⟩ := (visitInstruction_iff h (unnoted_shaped st hs) hd').1 h3
        exact ⟨t, h4⟩
      · rintro ⟨t, h4⟩
        exact ⟨_, (visitInstruction_iff h (unnoted_shaped st hs) hd').2 ⟨t, h4, rfl⟩⟩
    rw [visitInstruction_annotated h rfl (by simp) hs]
    cases st with
    | var => exact absurd trivial hd
    | asm l as name code => exact visitAnnotations_stop h as o
    | nonGate l as name es ps =>
      dsimp only
      rw [h1, h2, visitAnnotations_stop h]
      rfl
    | gate l as g es =>
      dsimp only
      simp only [h1, h2, visitAnnotations_stop h, visitGate_notedStop h g hs.2.1]
      rfl

end Qasm
