import Verif.Lemmas.Frame
/-!
# Helper lemmas: what the visitors do to an analyser with any number of scopes
-/

namespace Qasm

open Spec Sem

variable {F : Type}

theorem resolveVariable_bare (scs : List (Scope F)) (name : Str) :
    Analyzer.resolveVariable (scs.map bare) name = Analyzer.resolveVariable scs name := by
  induction scs with
  | nil => rfl
  | cons s scs ih => simp only [List.map_cons, Analyzer.resolveVariable, ih]; rfl

theorem resolveFunction_bare (fo : FloatOps F) (scs : List (Scope F)) (name : Str) (vs : List (Value F)) :
    Analyzer.resolveFunction fo (scs.map bare) name vs = Analyzer.resolveFunction fo scs name vs := by
  simp only [Analyzer.resolveFunction, List.getLast?_map]
  cases scs.getLast? <;> rfl

theorem resolveInstruction_bares (fo : FloatOps F) (scs : List (Scope F)) (name : Str) (vs : List (Value F)) :
    Analyzer.resolveInstruction fo (scs.map bare) name vs = Analyzer.resolveInstruction fo scs name vs := by
  induction scs with
  | nil => rfl
  | cons s scs ih => simp only [List.map_cons, Analyzer.resolveInstruction, ih]; rfl

mutual
theorem visit_bares (fo : FloatOps F) (scs : List (Scope F)) (e : Expr F) : visit fo (scs.map bare) e = visit fo scs e := by
  cases e with
  | boolLit | intLit | floatLit => simp only [visit]
  | ident l n => simp only [visit, resolveVariable_bare]
  | index l e ixs => simp only [visit, visit_bares fo scs e, visitIndexList_bares fo scs ixs]
  | call l n args => simp only [visit, visitList_bares fo scs args, callFunction, resolveFunction_bare]
  | un l op e => simp only [visit, visit_bares fo scs e, callFunction, resolveFunction_bare]
  | bin l op a b => simp only [visit, visit_bares fo scs a, visit_bares fo scs b, callFunction, resolveFunction_bare]
  | tern l a b c =>
    simp only [visit, visit_bares fo scs a, visit_bares fo scs b, visit_bares fo scs c, callFunction, resolveFunction_bare]
theorem visitList_bares (fo : FloatOps F) (scs : List (Scope F)) (es : List (Expr F)) :
    visitList fo (scs.map bare) es = visitList fo scs es := by
  cases es with
  | nil => simp only [visitList]
  | cons e es => simp only [visitList, visit_bares fo scs e, visitList_bares fo scs es]
theorem visitIndexList_bares (fo : FloatOps F) (scs : List (Scope F)) (xs : List (IndexEntry F)) :
    visitIndexList fo (scs.map bare) xs = visitIndexList fo scs xs := by
  cases xs with
  | nil => simp only [visitIndexList]
  | cons x xs => simp only [visitIndexList, visitIndexEntry_bares fo scs x, visitIndexList_bares fo scs xs]
theorem visitIndexEntry_bares (fo : FloatOps F) (scs : List (Scope F)) (x : IndexEntry F) :
    visitIndexEntry fo (scs.map bare) x = visitIndexEntry fo scs x := by
  cases x with
  | item l e => simp only [visitIndexEntry, visit_bares fo scs e]
  | range l a b => simp only [visitIndexEntry, visit_bares fo scs a, visit_bares fo scs b]
end

theorem visitAnnotationOperands_bares (fo : FloatOps F) (scs : List (Scope F)) (l : Option Loc) (es : List (Expr F)) :
    visitAnnotationOperands fo (scs.map bare) l es = visitAnnotationOperands fo scs l es := by
  induction es with
  | nil => simp only [visitAnnotationOperands]
  | cons e es ih => simp only [visitAnnotationOperands, visit_bares fo scs e, ih]

theorem visitAnnotations_bares (fo : FloatOps F) (scs : List (Scope F)) (as : List (AnnotationData F)) :
    visitAnnotations fo (scs.map bare) as = visitAnnotations fo scs as := by
  induction as with
  | nil => simp only [visitAnnotations]
  | cons a as ih => simp only [visitAnnotations, visitAnnotationOperands_bares fo scs, ih]

theorem visitGate_bares (fo : FloatOps F) (scs : List (Scope F)) : ∀ g : Gate F, visitGate fo (scs.map bare) g = visitGate fo scs g
  | .mk l as name none ps => by simp only [visitGate, visitGateRest, visitList_bares fo scs, visitAnnotations_bares fo scs]
  | .mk l as name (some g) ps => by
    simp only [visitGate, visitGateRest, visitList_bares fo scs, visitAnnotations_bares fo scs, visitGate_bares fo scs g]

/-- What statements do to the current scope. -/
structure Effect (F : Type) where
  variableTable : VariableTable F
  variables : List (SVariable F)
  statements : List (SStatement F)
  nextUid : Nat

/-- The current scope after the effect. -/
def Effect.apply (x : Effect F) (sc : Scope F) : Scope F :=
  { sc with variableTable := x.variableTable, variables := sc.variables ++ x.variables, block := blockAfter sc.block x.statements }

theorem bare_apply {x : Effect F} {sc sc' : Scope F} (h : bare sc = bare sc') : bare (x.apply sc) = bare (x.apply sc') := by
  have h1 := congrArg Scope.fnTable h
  have h2 := congrArg Scope.instructionTable h
  simp only [bare] at h1 h2
  simp [bare, Effect.apply, h1, h2]

/-- New variable nodes have new identities. -/
def Effect.Fresh (u : Nat) (x : Effect F) : Prop := u ≤ x.nextUid ∧ ∀ y ∈ x.variables, u ≤ y.uid ∧ y.uid < x.nextUid

theorem Effect.fresh_nil {u : Nat} {tb : VariableTable F} {ts : List (SStatement F)} : Effect.Fresh u ⟨tb, [], ts, u⟩ :=
  ⟨Nat.le_refl _, by simp⟩

theorem Effect.fresh_one {u : Nat} {tb : VariableTable F} {ts : List (SStatement F)} {y : SVariable F} (h : y.uid = u) :
    Effect.Fresh u ⟨tb, [y], ts, u + 1⟩ := ⟨Nat.le_succ _, by simp [h]⟩

/-- What a statement does to an analyser: errors and an effect on the current scope that depend only on the tables. -/
theorem visitStatement_effect (fo : FloatOps F) (scs0 : List (Scope F)) (u : Nat) (s : Stmt F) :
    ∃ r : Res Empty (List Err × Effect F), (∀ x, r = .ok x → x.2.Fresh u) ∧ ∀ (v : Version) (sc : Scope F) (rest : List (Scope F)),
      (sc :: rest).map bare = scs0 →
      visitStatement fo ⟨v, sc :: rest, u⟩ s = r.bind fun x => .ok (x.1, ⟨v, x.2.apply sc :: rest, x.2.nextUid⟩) := by
  cases scs0 with
  | nil => exact ⟨.ub, by simp, fun v sc rest h => by simp at h⟩
  | cons s0 rest0 =>
  have key (sc : Scope F) (h : bare sc = s0) : s0.variableTable = sc.variableTable := by rw [← h]; rfl
  cases s with
  | var l as name typ =>
    refine ⟨match buildSemanticType typ with
      | .err e => .ok ([e.context l], ⟨s0.variableTable, [], [], u⟩)
      | .exn c => .exn c
      | .ub => .ub
      | .ok t => (visitAnnotations fo (s0 :: rest0) as).bind fun r =>
        let v : SVariable F := ⟨u, name.name, t, r.2, name.loc⟩
        match s0.variableTable.add name.name ⟨.variableRef v.link, none⟩ with
        | .ok tb => .ok (r.1, ⟨tb, [v], [], u + 1⟩)
        | .err e => .ok (r.1 ++ [e.context l], ⟨s0.variableTable, [v], [], u + 1⟩)
        | .exn c => .exn c
        | .ub => .ub, ?_, ?_⟩
    · intro x hx
      split at hx
      · cases hx; exact Effect.fresh_nil
      · cases hx
      · cases hx
      · cases hv : visitAnnotations fo (s0 :: rest0) as with
        | ok r =>
          rw [hv, Res.bind_ok] at hx
          dsimp only at hx
          split at hx
          · cases hx; exact Effect.fresh_one rfl
          · cases hx; exact Effect.fresh_one rfl
          · cases hx
          · cases hx
        | err e => exact e.elim
        | _ => rw [hv] at hx; cases hx
    intro v sc rest h
    have h0 := h
    simp only [List.map_cons, List.cons.injEq] at h
    have hk := key sc h.1
    rw [visitStatement, visitVariable]
    cases buildSemanticType typ with
    | err e => simp [Effect.apply, blockAfter, hk]
    | exn => rfl
    | ub => rfl
    | ok t =>
      dsimp only
      rw [← visitAnnotations_bares, h0]
      cases visitAnnotations fo (s0 :: rest0) as with
      | err e => exact e.elim
      | exn => rfl
      | ub => rfl
      | ok r =>
        simp only [Res.bind_ok, Analyzer.addVariable, Analyzer.modifyCurrent, Analyzer.registerVariable, hk]
        cases sc.variableTable.add name.name ⟨.variableRef (SVariable.link ⟨u, name.name, t, r.2, name.loc⟩), none⟩ with
        | ok tbl => simp [catchInto, after_ok, Effect.apply, blockAfter]
        | err e => simp [catchInto, after_ok, Effect.apply, blockAfter, Res.bind]
        | exn => rfl
        | ub => rfl
  | gate l as g es =>
    refine ⟨(visitGate fo (s0 :: rest0) g).bind fun r =>
      match r.2 with
      | .error e => .ok (r.1 ++ [e.context l], ⟨s0.variableTable, [], [], u⟩)
      | .ok g =>
        match ((visitList fo (s0 :: rest0) es).bind fun ops =>
            (Analyzer.resolveInstruction fo (s0 :: rest0) (gateResolutionName g) ops).bind fun i =>
            (checkGateInstruction i.2).bind fun _ => .ok i) with
        | .err e => .ok (r.1 ++ [e.context l], ⟨s0.variableTable, [], [], u⟩)
        | .exn c => .exn c
        | .ub => .ub
        | .ok i => (visitAnnotations fo (s0 :: rest0) as).bind fun ra =>
            .ok (r.1 ++ ra.1, ⟨s0.variableTable, [], [.gate i.1 g i.2 ra.2 l], u⟩), ?_, ?_⟩
    · intro x hx
      cases hg : visitGate fo (s0 :: rest0) g with
      | err e => exact e.elim
      | exn => rw [hg] at hx; cases hx
      | ub => rw [hg] at hx; cases hx
      | ok r =>
        rw [hg, Res.bind_ok] at hx
        split at hx
        · cases hx; exact Effect.fresh_nil
        · split at hx
          · cases hx; exact Effect.fresh_nil
          · cases hx
          · cases hx
          · cases hv : visitAnnotations fo (s0 :: rest0) as with
            | ok r => rw [hv, Res.bind_ok] at hx; cases hx; exact Effect.fresh_nil
            | err e => exact e.elim
            | _ => rw [hv] at hx; cases hx
    intro v sc rest h
    have h0 := h
    simp only [List.map_cons, List.cons.injEq] at h
    have hk := key sc h.1
    simp only [visitStatement, visitGateInstruction]
    rw [← visitGate_bares, ← visitAnnotations_bares]
    simp only [← visitList_bares fo (sc :: rest), ← resolveInstruction_bares fo (sc :: rest), h0]
    cases visitGate fo (s0 :: rest0) g with
    | ub => rfl
    | exn c => rfl
    | err e => exact e.elim
    | ok r =>
      obtain ⟨errs, r⟩ := r
      simp only [Res.bind_ok]
      cases r with
      | error e => simp [after_ok, Effect.apply, blockAfter, hk]
      | ok g =>
        dsimp only
        cases ((visitList fo (s0 :: rest0) es).bind fun ops =>
            (Analyzer.resolveInstruction fo (s0 :: rest0) (gateResolutionName g) ops).bind fun i =>
            (checkGateInstruction i.2).bind fun _ => .ok i) with
        | err e => simp [after_ok, Effect.apply, blockAfter, hk]
        | exn c => rfl
        | ub => rfl
        | ok i =>
          dsimp only
          cases visitAnnotations fo (s0 :: rest0) as with
          | ub => rfl
          | exn c => rfl
          | err e => exact e.elim
          | ok ra =>
            obtain ⟨ea, sas⟩ := ra
            simp only [Res.bind_ok, Analyzer.addStatement, Analyzer.modifyCurrent, catchInto, after_ok]
            simp [Effect.apply, blockAfter, addTo, hk]
  | nonGate l as name es ps =>
    refine ⟨match ((visitList fo (s0 :: rest0) es).bind fun ops =>
          (Analyzer.resolveInstruction fo (s0 :: rest0) name ops).bind fun i =>
          (visitList fo (s0 :: rest0) ps).bind fun ps =>
          (resolveParameters fo name ps).bind fun ps =>
          (checkNonGateInstruction name i.2).bind fun _ => .ok (i, ps)) with
        | .err e => .ok ([e.context l], ⟨s0.variableTable, [], [], u⟩)
        | .exn c => .exn c
        | .ub => .ub
        | .ok (i, ps) => (visitAnnotations fo (s0 :: rest0) as).bind fun ra =>
            .ok (ra.1, ⟨s0.variableTable, [], [.nonGate i.1 name i.2 ps ra.2 l], u⟩), ?_, ?_⟩
    · intro x hx
      split at hx
      · cases hx; exact Effect.fresh_nil
      · cases hx
      · cases hx
      · cases hv : visitAnnotations fo (s0 :: rest0) as with
        | ok r => rw [hv, Res.bind_ok] at hx; cases hx; exact Effect.fresh_nil
        | err e => exact e.elim
        | _ => rw [hv] at hx; cases hx
    intro v sc rest h
    have h0 := h
    simp only [List.map_cons, List.cons.injEq] at h
    have hk := key sc h.1
    simp only [visitStatement, visitNonGateInstruction]
    simp only [← visitList_bares fo (sc :: rest), ← resolveInstruction_bares fo (sc :: rest),
      ← visitAnnotations_bares fo (sc :: rest), h0]
    cases ((visitList fo (s0 :: rest0) es).bind fun ops =>
          (Analyzer.resolveInstruction fo (s0 :: rest0) name ops).bind fun i =>
          (visitList fo (s0 :: rest0) ps).bind fun ps =>
          (resolveParameters fo name ps).bind fun ps =>
          (checkNonGateInstruction name i.2).bind fun _ => .ok (i, ps)) with
    | err e => simp [Effect.apply, blockAfter, hk]
    | exn c => rfl
    | ub => rfl
    | ok i =>
      obtain ⟨i, ps⟩ := i
      dsimp only
      cases visitAnnotations fo (s0 :: rest0) as with
      | ub => rfl
      | exn c => rfl
      | err e => exact e.elim
      | ok ra =>
        obtain ⟨ea, sas⟩ := ra
        simp only [Res.bind_ok, Analyzer.addStatement, Analyzer.modifyCurrent, catchInto, after_ok]
        simp [Effect.apply, blockAfter, addTo, hk]
  | asm l as name code =>
    refine ⟨(visitAnnotations fo (s0 :: rest0) as).bind fun ra =>
      .ok (ra.1, ⟨s0.variableTable, [], [.asm name code ra.2 l], u⟩), ?_, ?_⟩
    · intro x hx
      cases hv : visitAnnotations fo (s0 :: rest0) as with
      | ok r => rw [hv, Res.bind_ok] at hx; cases hx; exact Effect.fresh_nil
      | err e => exact e.elim
      | _ => rw [hv] at hx; cases hx
    intro v sc rest h
    have h0 := h
    simp only [List.map_cons, List.cons.injEq] at h
    have hk := key sc h.1
    simp only [visitStatement, visitAsmDeclaration, ← visitAnnotations_bares fo (sc :: rest), h0]
    cases visitAnnotations fo (s0 :: rest0) as with
    | ub => rfl
    | exn c => rfl
    | err e => exact e.elim
    | ok ra =>
      obtain ⟨ea, sas⟩ := ra
      simp only [Res.bind_ok, Analyzer.addStatement, Analyzer.modifyCurrent, catchInto, after_ok]
      simp [Effect.apply, blockAfter, addTo, hk]

/-- One effect after another. -/
def Effect.andThen (x y : Effect F) : Effect F := ⟨y.variableTable, x.variables ++ y.variables, x.statements ++ y.statements, y.nextUid⟩

theorem apply_andThen (x y : Effect F) (sc : Scope F) : (x.andThen y).apply sc = y.apply (x.apply sc) := by
  simp [Effect.andThen, Effect.apply, blockAfter, List.foldl_append]

/-- The same for a list of statements. -/
theorem visitBlock_effect (fo : FloatOps F) (ss : List (Stmt F)) : ∀ (scs0 : List (Scope F)) (u : Nat),
    ∃ r : Res Empty (List Err × Effect F), (∀ x, r = .ok x → x.2.Fresh u) ∧ ∀ (v : Version) (sc : Scope F) (rest : List (Scope F)),
      (sc :: rest).map bare = scs0 →
      visitBlock fo ⟨v, sc :: rest, u⟩ ss = r.bind fun x => .ok (x.1, ⟨v, x.2.apply sc :: rest, x.2.nextUid⟩) := by
  induction ss with
  | nil =>
    intro scs0 u
    cases scs0 with
    | nil => exact ⟨.ub, by simp, fun v sc rest h => by simp at h⟩
    | cons s0 rest0 =>
      refine ⟨.ok ([], ⟨s0.variableTable, [], [], u⟩), fun x hx => by cases hx; exact Effect.fresh_nil, fun v sc rest h => ?_⟩
      simp only [List.map_cons, List.cons.injEq] at h
      simp [visitBlock, Effect.apply, blockAfter, ← h.1, bare]
  | cons s ss ih =>
    intro scs0 u
    obtain ⟨r1, f1, h1⟩ := visitStatement_effect fo scs0 u s
    cases r1 with
    | err e => exact e.elim
    | exn c => exact ⟨.exn c, by simp, fun v sc rest h => by rw [visitBlock, h1 v sc rest h]; rfl⟩
    | ub => exact ⟨.ub, by simp, fun v sc rest h => by rw [visitBlock, h1 v sc rest h]; rfl⟩
    | ok x =>
      cases scs0 with
      | nil => exact ⟨.ub, by simp, fun v sc rest h => by simp at h⟩
      | cons s0 rest0 =>
      obtain ⟨r2, f2, h2⟩ := ih (bare (x.2.apply s0) :: rest0) x.2.nextUid
      refine ⟨r2.bind fun y => .ok (x.1 ++ y.1, x.2.andThen y.2), ?_, fun v sc rest h => ?_⟩
      · intro z hz
        cases r2 with
        | err e => exact e.elim
        | exn => cases hz
        | ub => cases hz
        | ok y =>
          cases hz
          obtain ⟨a1, a2⟩ := f1 x rfl
          obtain ⟨b1, b2⟩ := f2 y rfl
          refine ⟨Nat.le_trans a1 b1, fun k hk => ?_⟩
          simp only [Effect.andThen, List.mem_append] at hk ⊢
          rcases hk with hk | hk
          · have := a2 k hk; omega
          · have := b2 k hk; omega
      rw [visitBlock, h1 v sc rest h, Res.bind_ok, Res.bind_ok]
      have hb : (x.2.apply sc :: rest).map bare = bare (x.2.apply s0) :: rest0 := by
        simp only [List.map_cons, List.cons.injEq] at h ⊢
        refine ⟨?_, h.2⟩
        rw [← h.1]
        exact bare_apply rfl
      rw [h2 v _ _ hb]
      cases r2 with
      | err e => exact e.elim
      | exn c => rfl
      | ub => rfl
      | ok y => simp only [Res.bind_ok, after_ok, apply_andThen]; rfl

end Qasm
