import Verif.Lemmas.Exec
/-!
# Helper lemmas: what the statement visitors depend on
-/

namespace Qasm

open Spec Sem

variable {F : Type}

/-- A scope with the given tables and nothing analysed yet. -/
def bare (s : Scope F) : Scope F := { s with block := ⟨[], none⟩, variables := [] }

mutual
theorem visit_tables (fo : FloatOps F) {s s' : Scope F} (h1 : s.variableTable = s'.variableTable) (h2 : s.fnTable = s'.fnTable) (e : Expr F) : visit fo [s] e = visit fo [s'] e := by
  cases e with
  | boolLit | intLit | floatLit => simp only [visit]
  | ident l n => simp only [visit, Analyzer.resolveVariable, h1]
  | index l e ixs => simp only [visit, visit_tables fo h1 h2 e, visitIndexList_tables fo h1 h2 ixs]
  | call l n args =>
    simp only [visit, visitList_tables fo h1 h2 args, callFunction, Analyzer.resolveFunction, h2, List.getLast?_singleton]
  | un l op e =>
    simp only [visit, visit_tables fo h1 h2 e, callFunction, Analyzer.resolveFunction, h2, List.getLast?_singleton]
  | bin l op a b =>
    simp only [visit, visit_tables fo h1 h2 a, visit_tables fo h1 h2 b, callFunction, Analyzer.resolveFunction, h2, List.getLast?_singleton]
  | tern l a b c =>
    simp only [visit, visit_tables fo h1 h2 a, visit_tables fo h1 h2 b, visit_tables fo h1 h2 c, callFunction, Analyzer.resolveFunction, h2,
      List.getLast?_singleton]
theorem visitList_tables (fo : FloatOps F) {s s' : Scope F} (h1 : s.variableTable = s'.variableTable) (h2 : s.fnTable = s'.fnTable) (es : List (Expr F)) : visitList fo [s] es = visitList fo [s'] es := by
  cases es with
  | nil => simp only [visitList]
  | cons e es => simp only [visitList, visit_tables fo h1 h2 e, visitList_tables fo h1 h2 es]
theorem visitIndexList_tables (fo : FloatOps F) {s s' : Scope F} (h1 : s.variableTable = s'.variableTable) (h2 : s.fnTable = s'.fnTable) (xs : List (IndexEntry F)) :
    visitIndexList fo [s] xs = visitIndexList fo [s'] xs := by
  cases xs with
  | nil => simp only [visitIndexList]
  | cons x xs => simp only [visitIndexList, visitIndexEntry_tables fo h1 h2 x, visitIndexList_tables fo h1 h2 xs]
theorem visitIndexEntry_tables (fo : FloatOps F) {s s' : Scope F} (h1 : s.variableTable = s'.variableTable) (h2 : s.fnTable = s'.fnTable) (x : IndexEntry F) :
    visitIndexEntry fo [s] x = visitIndexEntry fo [s'] x := by
  cases x with
  | item l e => simp only [visitIndexEntry, visit_tables fo h1 h2 e]
  | range l a b => simp only [visitIndexEntry, visit_tables fo h1 h2 a, visit_tables fo h1 h2 b]
end

theorem visitAnnotationOperands_tables (fo : FloatOps F) {s s' : Scope F} (h1 : s.variableTable = s'.variableTable) (h2 : s.fnTable = s'.fnTable) (l : Option Loc) (es : List (Expr F)) :
    visitAnnotationOperands fo [s] l es = visitAnnotationOperands fo [s'] l es := by
  induction es with
  | nil => simp only [visitAnnotationOperands]
  | cons e es ih => simp only [visitAnnotationOperands, visit_tables fo h1 h2 e, ih]

theorem visitAnnotations_tables (fo : FloatOps F) {s s' : Scope F} (h1 : s.variableTable = s'.variableTable) (h2 : s.fnTable = s'.fnTable) (as : List (AnnotationData F)) :
    visitAnnotations fo [s] as = visitAnnotations fo [s'] as := by
  induction as with
  | nil => simp only [visitAnnotations]
  | cons a as ih => simp only [visitAnnotations, visitAnnotationOperands_tables fo h1 h2, ih]

theorem visitGateRest_tables (fo : FloatOps F) {s s' : Scope F} (h1 : s.variableTable = s'.variableTable) (h2 : s.fnTable = s'.fnTable) (l : Option Loc) (as : List (AnnotationData F)) (name : Str)
    (inner : Option (SGate F)) (ps : List (Expr F)) :
    visitGateRest fo [s] l as name inner ps = visitGateRest fo [s'] l as name inner ps := by
  simp only [visitGateRest, visitList_tables fo h1 h2, visitAnnotations_tables fo h1 h2]

theorem visitGate_tables (fo : FloatOps F) {s s' : Scope F} (h1 : s.variableTable = s'.variableTable) (h2 : s.fnTable = s'.fnTable) : ∀ g : Gate F, visitGate fo [s] g = visitGate fo [s'] g
  | .mk l as name none ps => by simp only [visitGate, visitGateRest_tables fo h1 h2]
  | .mk l as name (some g) ps => by simp only [visitGate, visitGateRest_tables fo h1 h2, visitGate_tables fo h1 h2 g]

theorem visitList_bare (fo : FloatOps F) (s : Scope F) (es : List (Expr F)) : visitList fo [s] es = visitList fo [bare s] es :=
  visitList_tables fo (s := s) (s' := bare s) rfl rfl es

theorem visitAnnotations_bare (fo : FloatOps F) (s : Scope F) (as : List (AnnotationData F)) :
    visitAnnotations fo [s] as = visitAnnotations fo [bare s] as := visitAnnotations_tables fo (s := s) (s' := bare s) rfl rfl as

theorem visitGate_bare (fo : FloatOps F) (s : Scope F) (g : Gate F) : visitGate fo [s] g = visitGate fo [bare s] g :=
  visitGate_tables fo (s := s) (s' := bare s) rfl rfl g

theorem resolveInstruction_bare (fo : FloatOps F) (s : Scope F) (name : Str) (vs : List (Value F)) :
    Analyzer.resolveInstruction fo [s] name vs = Analyzer.resolveInstruction fo [bare s] name vs := by
  simp only [Analyzer.resolveInstruction, bare]

/-- The scope after an instruction that delivers the statement (if any). -/
def addOpt (s : Scope F) : Option (SStatement F) → Scope F
  | none => s
  | some t => { s with block := addTo s.block t }

/-- What an instruction does to an analyser with one scope: it appends errors and adds at most one
statement to the block; both depend only on the tables of the scope. -/
theorem visitStatement_frame (fo : FloatOps F) (s0 : Scope F) (s : Stmt F) (hd : ¬ IsDecl s) :
    ∃ r : Res Empty (List Err × Option (SStatement F)), ∀ (v : Version) (sc : Scope F) (u : Nat), bare sc = s0 →
      visitStatement fo ⟨v, [sc], u⟩ s = r.bind fun x => .ok (x.1, ⟨v, [addOpt sc x.2], u⟩) := by
  cases s with
  | var => exact absurd trivial hd
  | gate l as g es =>
    refine ⟨(visitGate fo [s0] g).bind fun r =>
      match r.2 with
      | .error e => .ok (r.1 ++ [e.context l], none)
      | .ok g =>
        match ((visitList fo [s0] es).bind fun ops =>
            (Analyzer.resolveInstruction fo [s0] (gateResolutionName g) ops).bind fun i =>
            (checkGateInstruction i.2).bind fun _ => .ok i) with
        | .err e => .ok (r.1 ++ [e.context l], none)
        | .exn c => .exn c
        | .ub => .ub
        | .ok i => (visitAnnotations fo [s0] as).bind fun ra => .ok (r.1 ++ ra.1, some (.gate i.1 g i.2 ra.2 l)), ?_⟩
    intro v sc u h
    subst h
    simp only [visitStatement, visitGateInstruction, visitGate_bare fo sc, visitList_bare fo sc, resolveInstruction_bare fo sc,
      visitAnnotations_bare fo sc]
    cases visitGate fo [bare sc] g with
    | ub => rfl
    | exn c => rfl
    | err e => exact e.elim
    | ok r =>
      obtain ⟨errs, r⟩ := r
      simp only [Res.bind_ok]
      cases r with
      | error e => simp [after_ok, addOpt]
      | ok g =>
        dsimp only
        cases ((visitList fo [bare sc] es).bind fun ops =>
            (Analyzer.resolveInstruction fo [bare sc] (gateResolutionName g) ops).bind fun i =>
            (checkGateInstruction i.2).bind fun _ => .ok i) with
        | err e => simp [after_ok, addOpt]
        | exn c => rfl
        | ub => rfl
        | ok i =>
          dsimp only
          cases visitAnnotations fo [bare sc] as with
          | ub => rfl
          | exn c => rfl
          | err e => exact e.elim
          | ok ra =>
            obtain ⟨ea, sas⟩ := ra
            simp only [Res.bind_ok, Analyzer.addStatement, Analyzer.modifyCurrent, catchInto, after_ok, addOpt, addTo]
            simp
  | nonGate l as name es ps =>
    refine ⟨match ((visitList fo [s0] es).bind fun ops =>
          (Analyzer.resolveInstruction fo [s0] name ops).bind fun i =>
          (visitList fo [s0] ps).bind fun ps =>
          (resolveParameters fo name ps).bind fun ps =>
          (checkNonGateInstruction name i.2).bind fun _ => .ok (i, ps)) with
        | .err e => .ok ([e.context l], none)
        | .exn c => .exn c
        | .ub => .ub
        | .ok (i, ps) => (visitAnnotations fo [s0] as).bind fun ra => .ok (ra.1, some (.nonGate i.1 name i.2 ps ra.2 l)), ?_⟩
    intro v sc u h
    subst h
    simp only [visitStatement, visitNonGateInstruction, visitList_bare fo sc, resolveInstruction_bare fo sc, visitAnnotations_bare fo sc]
    cases ((visitList fo [bare sc] es).bind fun ops =>
          (Analyzer.resolveInstruction fo [bare sc] name ops).bind fun i =>
          (visitList fo [bare sc] ps).bind fun ps =>
          (resolveParameters fo name ps).bind fun ps =>
          (checkNonGateInstruction name i.2).bind fun _ => .ok (i, ps)) with
    | err e => simp [addOpt]
    | exn c => rfl
    | ub => rfl
    | ok i =>
      obtain ⟨i, ps⟩ := i
      dsimp only
      cases visitAnnotations fo [bare sc] as with
      | ub => rfl
      | exn c => rfl
      | err e => exact e.elim
      | ok ra =>
        obtain ⟨ea, sas⟩ := ra
        simp only [Res.bind_ok, Analyzer.addStatement, Analyzer.modifyCurrent, catchInto, after_ok, addOpt, addTo]
        simp
  | asm l as name code =>
    refine ⟨(visitAnnotations fo [s0] as).bind fun ra => .ok (ra.1, some (.asm name code ra.2 l)), ?_⟩
    intro v sc u h
    subst h
    simp only [visitStatement, visitAsmDeclaration, visitAnnotations_bare fo sc]
    cases visitAnnotations fo [bare sc] as with
    | ub => rfl
    | exn c => rfl
    | err e => exact e.elim
    | ok ra =>
      obtain ⟨ea, sas⟩ := ra
      simp only [Res.bind_ok, Analyzer.addStatement, Analyzer.modifyCurrent, catchInto, after_ok, addOpt, addTo]
      simp

theorem bare_addOpt (s : Scope F) (o : Option (SStatement F)) : bare (addOpt s o) = bare s := by
  cases o <;> rfl

/-- The scope after the given statements. -/
def addAll (s : Scope F) (ts : List (SStatement F)) : Scope F := { s with block := blockAfter s.block ts }

/-- The same for a sequence of instructions. -/
theorem visitBlock_frame (fo : FloatOps F) (s0 : Scope F) (ss : List (Stmt F)) (hd : ∀ s ∈ ss, ¬ IsDecl s) :
    ∃ r : Res Empty (List Err × List (SStatement F)), ∀ (v : Version) (sc : Scope F) (u : Nat), bare sc = s0 →
      visitBlock fo ⟨v, [sc], u⟩ ss = r.bind fun x => .ok (x.1, ⟨v, [addAll sc x.2], u⟩) := by
  induction ss with
  | nil => exact ⟨.ok ([], []), fun v sc u _ => by simp [visitBlock, addAll, blockAfter]⟩
  | cons s ss ih =>
    obtain ⟨r1, h1⟩ := visitStatement_frame fo s0 s (hd s (by simp))
    obtain ⟨r2, h2⟩ := ih fun s hs => hd s (by simp [hs])
    refine ⟨r1.bind fun x => r2.bind fun y => .ok (x.1 ++ y.1, x.2.toList ++ y.2), ?_⟩
    intro v sc u h
    rw [visitBlock, h1 v sc u h]
    cases r1 with
    | ok x =>
      obtain ⟨es, o⟩ := x
      simp only [Res.bind_ok]
      rw [h2 v (addOpt sc o) u (by rw [bare_addOpt, h])]
      cases r2 with
      | ok y =>
        obtain ⟨es', ts⟩ := y
        simp only [Res.bind_ok, after_ok]
        cases o <;> simp [addAll, addOpt, blockAfter]
      | _ => rfl
    | _ => rfl

end Qasm
