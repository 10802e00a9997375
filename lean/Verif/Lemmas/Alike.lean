import Verif.Spec.Alike
import Verif.Lemmas.Value
import Verif.Lemmas.Strip
/-!
# Helper lemmas: constants of the same value are interchangeable
-/

namespace Qasm

open Spec Sem

variable {F : Type} {fo : FloatOps F}

theorem stripNode_const (c : Const F) : stripNode c.node = c.node := by cases c <;> rfl

mutual
/-- The value of an expression depends neither on positions nor on further declarations. -/
theorem eval_bare {D D' : List VarLink} (hD : ∀ x ∈ D, x ∈ D') : {e : Expr F} → {n : ValueNode F} → Eval fo D e n →
    Eval fo D' (stripExpr e) (stripNode n)
  | _, _, .boolLit _ b => .boolLit none b
  | _, _, .intLit _ i => .intLit none i
  | _, _, .floatLit _ f => .floatLit none f
  | _, _, .ident h => by
    refine .ident ?_
    cases h with
    | const h => rw [stripNode_const]; exact .const h
    | var h1 h2 h3 => exact .var h1 (hD _ h2) h3
  | _, _, .index h1 h2 h3 h4 => by
    refine .index (eval_bare hD h1) h2 (evalIndices_bare hD h3) ?_
    intro i hi
    simp only [List.mem_map] at hi
    obtain ⟨j, hj, rfl⟩ := hi
    exact h4 j hj
  | _, _, .call h1 h2 => by
    rw [stripNode_const]
    exact .call (evalConsts_bare hD h1) h2
  | _, _, .un h1 h2 => by
    have h1 := eval_bare hD h1
    rw [stripNode_const] at h1 ⊢
    exact .un h1 h2
  | _, _, .bin h1 h2 h => by
    have h1 := eval_bare hD h1
    have h2 := eval_bare hD h2
    rw [stripNode_const] at h1 h2 ⊢
    exact .bin h1 h2 h
  | _, _, .tern h1 h2 h3 h => by
    have h1 := eval_bare hD h1
    have h2 := eval_bare hD h2
    have h3 := eval_bare hD h3
    rw [stripNode_const] at h1 h2 h3 ⊢
    exact .tern h1 h2 h3 h
theorem evalConsts_bare {D D' : List VarLink} (hD : ∀ x ∈ D, x ∈ D') : {es : List (Expr F)} → {cs : List (Const F)} →
    EvalConsts fo D es cs → EvalConsts fo D' (stripExprs es) cs
  | _, _, .nil => .nil
  | _, _, .cons h1 h2 => by
    have h1 := eval_bare hD h1
    rw [stripNode_const] at h1
    exact .cons h1 (evalConsts_bare hD h2)
theorem evalIndices_bare {D D' : List VarLink} (hD : ∀ x ∈ D, x ∈ D') : {is : List (IndexEntry F)} → {ns : List (Int64 × Option Loc)} →
    EvalIndices fo D is ns → EvalIndices fo D' (stripEntries is) (ns.map fun i => (i.1, none))
  | _, _, .nil => .nil
  | _, _, .cons h1 h2 => by
    rw [List.map_append]
    exact .cons (evalEntry_bare hD h1) (evalIndices_bare hD h2)
theorem evalEntry_bare {D D' : List VarLink} (hD : ∀ x ∈ D, x ∈ D') : {i : IndexEntry F} → {ns : List (Int64 × Option Loc)} →
    EvalEntry fo D i ns → EvalEntry fo D' (stripEntry i) (ns.map fun i => (i.1, none))
  | _, _, .item h1 h2 => by
    have h1 := eval_bare hD h1
    rw [stripNode_const] at h1
    exact .item h1 h2
  | _, _, .range h1 c1 h2 c2 hr => by
    have h1 := eval_bare hD h1
    have h2 := eval_bare hD h2
    rw [stripNode_const] at h1 h2
    refine .range h1 c1 h2 c2 ⟨hr.1, ?_, ?_⟩
    · rw [List.map_map]; exact hr.2.1
    · intro i hi
      simp only [List.mem_map] at hi
      obtain ⟨j, -, rfl⟩ := hi
      rfl
end

mutual
theorem visit_alike {D : List VarLink} {scopes : List (Scope F)} (henv : EnvOk fo D scopes) : {e e' : Expr F} → Alike fo e e' →
    visit fo scopes (stripExpr e) = visit fo scopes (stripExpr e')
  | _, _, .value h1 h2 => by
    rw [visit_of_eval henv (eval_bare (by simp) h1), visit_of_eval henv (eval_bare (by simp) h2)]
  | _, _, .ident .. => rfl
  | _, _, .index h1 h2 => by
    simp only [stripExpr, visit, stripExpr_loc, visit_alike henv h1, visitIndexList_alike henv h2]
  | _, _, .call h => by simp only [stripExpr, visit, visitList_alike henv h]
  | _, _, .un h => by simp only [stripExpr, visit, stripExpr_loc, visit_alike henv h]
  | _, _, .bin h1 h2 => by simp only [stripExpr, visit, stripExpr_loc, visit_alike henv h1, visit_alike henv h2]
  | _, _, .tern h1 h2 h3 => by
    simp only [stripExpr, visit, stripExpr_loc, visit_alike henv h1, visit_alike henv h2, visit_alike henv h3]
theorem visitList_alike {D : List VarLink} {scopes : List (Scope F)} (henv : EnvOk fo D scopes) : {es es' : List (Expr F)} →
    AlikeList fo es es' → visitList fo scopes (stripExprs es) = visitList fo scopes (stripExprs es')
  | _, _, .nil => rfl
  | _, _, .cons h1 h2 => by
    simp only [stripExprs, visitList, stripExpr_loc, visit_alike henv h1, visitList_alike henv h2]
theorem visitIndexList_alike {D : List VarLink} {scopes : List (Scope F)} (henv : EnvOk fo D scopes) :
    {is is' : List (IndexEntry F)} → AlikeIndices fo is is' →
    visitIndexList fo scopes (stripEntries is) = visitIndexList fo scopes (stripEntries is')
  | _, _, .same (ns := ns) (ns' := ns') h1 h2 h3 h4 => by
    have hs : ns.map (fun i => (i.1, (none : Option Loc))) = ns'.map fun i => (i.1, none) := by
      have := congrArg (List.map fun i : Int64 => (i, (none : Option Loc))) h3
      simpa only [List.map_map, Function.comp_def] using this
    have k1 := visitIndexList_of_eval henv (evalIndices_bare (D' := D) (by simp) h1)
    have k2 := visitIndexList_of_eval henv (evalIndices_bare (D' := D) (by simp) h2)
    rw [← hs] at k2
    have hm : ¬ ∃ i ∈ ns.map (fun i => (i.1, (none : Option Loc))), i.1.toInt = 2 ^ 63 - 1 := by
      rintro ⟨i, hi, h⟩
      simp only [List.mem_map] at hi
      obtain ⟨j, hj, rfl⟩ := hi
      exact absurd h (Int.ne_of_lt (h4 j hj))
    rw [k1.resolve_right fun h => hm h.2, k2.resolve_right fun h => hm h.2]
  | _, _, .nil => rfl
  | _, _, .item h1 h2 => by
    simp only [stripEntries, stripEntry, visitIndexList, visitIndexEntry, stripExpr_loc, visit_alike henv h1,
      visitIndexList_alike henv h2]
  | _, _, .range h1 h2 h3 => by
    simp only [stripEntries, stripEntry, visitIndexList, visitIndexEntry, stripExpr_loc, visit_alike henv h1, visit_alike henv h2,
      visitIndexList_alike henv h3]
end

theorem visitAnnotationOperands_alike {D : List VarLink} {scopes : List (Scope F)} (henv : EnvOk fo D scopes) (l : Option Loc) :
    {es es' : List (Expr F)} → AlikeList fo es es' →
    visitAnnotationOperands fo scopes l (stripExprs es) = visitAnnotationOperands fo scopes l (stripExprs es')
  | _, _, .nil => rfl
  | _, _, .cons h1 h2 => by
    simp only [stripExprs, visitAnnotationOperands, visit_alike henv h1, visitAnnotationOperands_alike henv l h2]

theorem visitAnnotations_alike {D : List VarLink} {scopes : List (Scope F)} (henv : EnvOk fo D scopes)
    {as as' : List (AnnotationData F)} (h : Forall2 (AlikeAnnotation fo) as as') :
    visitAnnotations fo scopes (as.map stripAnnotation) = visitAnnotations fo scopes (as'.map stripAnnotation) := by
  induction h with
  | nil => rfl
  | cons h _ ih =>
    obtain ⟨h1, h2, h3⟩ := h
    simp only [List.map_cons, stripAnnotation, visitAnnotations, h1, h2, visitAnnotationOperands_alike henv none h3]
    rw [ih]

theorem visitGate_alike {D : List VarLink} {scopes : List (Scope F)} (henv : EnvOk fo D scopes) {g g' : Gate F}
    (h : AlikeGate fo g g') : visitGate fo scopes (stripGate g) = visitGate fo scopes (stripGate g') := by
  induction h with
  | plain h1 h2 => simp only [stripGate, visitGate, visitGateRest, visitList_alike henv h2, visitAnnotations_alike henv h1]
  | modified h1 _ h2 ih =>
    simp only [stripGate, visitGate, visitGateRest, visitList_alike henv h2, visitAnnotations_alike henv h1, ih]

theorem visitStatement_alike {D : List VarLink} {a : Analyzer F} (henv : EnvOk fo D a.scopes) {s s' : Stmt F}
    (h : AlikeStmt fo s s') : visitStatement fo a (stripStmt s) = visitStatement fo a (stripStmt s') := by
  cases h with
  | var h => simp only [stripStmt, visitStatement, visitVariable, visitAnnotations_alike henv h]
  | gate h1 h2 h3 =>
    simp only [stripStmt, visitStatement, visitGateInstruction, visitAnnotations_alike henv h1, visitGate_alike henv h2,
      visitList_alike henv h3]
  | nonGate h1 h2 h3 =>
    simp only [stripStmt, visitStatement, visitNonGateInstruction, visitAnnotations_alike henv h1, visitList_alike henv h2,
      visitList_alike henv h3]
  | asm h => simp only [stripStmt, visitStatement, visitAsmDeclaration, visitAnnotations_alike henv h]

theorem visitBlock_alike {ss ss' : List (Stmt F)} (h : Forall2 (AlikeStmt fo) ss ss') : ∀ {D : List VarLink} {a : Analyzer F},
    EnvOk fo D a.scopes → visitBlock fo a (ss.map stripStmt) = visitBlock fo a (ss'.map stripStmt) := by
  induction h with
  | nil => intros; rfl
  | cons h _ ih =>
    intro D a henv
    simp only [List.map_cons, visitBlock]
    rw [visitStatement_alike henv h]
    rename_i s s' _ _ _
    cases hx : visitStatement fo a (stripStmt s') with
    | ok x =>
      obtain ⟨D', he⟩ := visitStatement_env (es := x.1) (a' := x.2) henv hx
      rw [Res.bind_ok, Res.bind_ok, ih he]
    | _ => rfl

theorem analyze_alike {D : List VarLink} {a : Analyzer F} (henv : EnvOk fo D a.scopes) {p p' : ProgramAst F}
    (h : AlikeProgram fo p p') : analyze fo a (stripProgram p) = analyze fo a (stripProgram p') := by
  obtain ⟨h1, h2⟩ := h
  simp only [analyze, visitProgram, stripProgram, h1, visitBlock_alike h2 henv]

end Qasm
