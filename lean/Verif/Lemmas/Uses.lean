import Verif.Spec.Uses
import Verif.Lemmas.Frame
/-!
# Helper lemmas: analysis looks up the names a program uses, and no other
-/

namespace Qasm.Uses

open Spec Sem

variable {F α : Type} {fo : FloatOps F} {X : List Key}

/-- The scopes have the same contents and the same tables, but for the names in `X`. -/
structure SameScope (X : List Key) (s s' : Scope F) : Prop where
  block : s.block = s'.block
  variables : s.variables = s'.variables
  values : ∀ n, (Sort'.value, n) ∉ X → s.variableTable.find n = s'.variableTable.find n
  functions : ∀ n, (Sort'.function, n) ∉ X → s.fnTable.find n = s'.fnTable.find n
  instructions : ∀ n, (Sort'.instruction, n) ∉ X → s.instructionTable.find n = s'.instructionTable.find n

/-- The analysers are the same, but for the names in `X`. -/
structure Same (X : List Key) (a a' : Analyzer F) : Prop where
  version : a.apiVersion = a'.apiVersion
  uid : a.nextUid = a'.nextUid
  scopes : Forall2 (SameScope X) a.scopes a'.scopes

theorem SameScope.refl (s : Scope F) : SameScope X s s := ⟨rfl, rfl, fun _ _ => rfl, fun _ _ => rfl, fun _ _ => rfl⟩

theorem sameScopes_refl (ss : List (Scope F)) : Forall2 (SameScope X) ss ss := by
  induction ss with
  | nil => exact .nil
  | cons s ss ih => exact .cons (.refl s) ih

theorem Same.refl (a : Analyzer F) : Same X a a := ⟨rfl, rfl, sameScopes_refl _⟩

theorem SameScope.symm {s s' : Scope F} (h : SameScope X s s') : SameScope X s' s :=
  ⟨h.block.symm, h.variables.symm, fun n hn => (h.values n hn).symm, fun n hn => (h.functions n hn).symm,
    fun n hn => (h.instructions n hn).symm⟩

theorem SameScope.trans {s s' s'' : Scope F} (h : SameScope X s s') (h' : SameScope X s' s'') : SameScope X s s'' :=
  ⟨h.block.trans h'.block, h.variables.trans h'.variables, fun n hn => (h.values n hn).trans (h'.values n hn),
    fun n hn => (h.functions n hn).trans (h'.functions n hn), fun n hn => (h.instructions n hn).trans (h'.instructions n hn)⟩

theorem sameScopes_symm {ss ss' : List (Scope F)} (h : Forall2 (SameScope X) ss ss') : Forall2 (SameScope X) ss' ss := by
  induction h with
  | nil => exact .nil
  | cons h _ ih => exact .cons h.symm ih

theorem sameScopes_trans {ss ss' ss'' : List (Scope F)} (h : Forall2 (SameScope X) ss ss') (h' : Forall2 (SameScope X) ss' ss'') :
    Forall2 (SameScope X) ss ss'' := by
  induction h generalizing ss'' with
  | nil => exact h'
  | cons h _ ih =>
    cases h' with
    | cons k ks => exact .cons (h.trans k) (ih ks)

theorem Same.symm {a a' : Analyzer F} (h : Same X a a') : Same X a' a := ⟨h.version.symm, h.uid.symm, sameScopes_symm h.scopes⟩

theorem Same.trans {a a' a'' : Analyzer F} (h : Same X a a') (h' : Same X a' a'') : Same X a a'' :=
  ⟨h.version.trans h'.version, h.uid.trans h'.uid, sameScopes_trans h.scopes h'.scopes⟩

/-! ## Lookup -/

theorem same_variable {ss ss' : List (Scope F)} (h : Forall2 (SameScope X) ss ss') {n : Str} (hn : (Sort'.value, n) ∉ X) :
    Analyzer.resolveVariable ss n = Analyzer.resolveVariable ss' n := by
  induction h with
  | nil => rfl
  | cons h _ ih => simp only [Analyzer.resolveVariable, VariableTable.resolve, h.values n hn, ih]

theorem same_function {ss ss' : List (Scope F)} (h : Forall2 (SameScope X) ss ss') {n : Str} (hn : (Sort'.function, n) ∉ X)
    (vs : List (Value F)) : callFunction fo ss n vs = callFunction fo ss' n vs := by
  have : (ss.getLast? = none ∧ ss'.getLast? = none) ∨ ∃ s s', ss.getLast? = some s ∧ ss'.getLast? = some s' ∧ SameScope X s s' := by
    induction h with
    | nil => exact .inl ⟨rfl, rfl⟩
    | @cons s s' ss ss' h k ih =>
      right
      rcases ih with ⟨h1, h2⟩ | ⟨t, t', h1, h2, h3⟩
      · rw [List.getLast?_eq_none_iff] at h1 h2
        subst h1; subst h2
        exact ⟨s, s', rfl, rfl, h⟩
      · exact ⟨t, t', by rw [List.getLast?_cons, h1]; rfl, by rw [List.getLast?_cons, h2]; rfl, h3⟩
  unfold callFunction Analyzer.resolveFunction
  rcases this with ⟨h1, h2⟩ | ⟨t, t', h1, h2, h3⟩
  · rw [h1, h2]
  · rw [h1, h2]
    simp only [FnTable.resolve, OverloadTable.resolve, h3.functions n hn]

theorem same_instruction {ss ss' : List (Scope F)} (h : Forall2 (SameScope X) ss ss') {n : Str} (hn : (Sort'.instruction, n) ∉ X)
    (vs : List (Value F)) : Analyzer.resolveInstruction fo ss n vs = Analyzer.resolveInstruction fo ss' n vs := by
  induction h with
  | nil => rfl
  | cons h _ ih => simp only [Analyzer.resolveInstruction, OverloadTable.resolve, h.instructions n hn, ih]

/-! ## Expressions -/

theorem binSymbol_name (op : BinOp) : c!"operator" ++ binSymbol op = (Fn.bin op).name := by cases op <;> rfl

theorem unSymbol_name (op : UnOp) : c!"operator" ++ unSymbol op = (Fn.un op).name := by cases op <;> rfl

/-- None of the names of the sort is in `X`. -/
def Free (X : List Key) (k : Sort') (ns : List Str) : Prop := ∀ n ∈ ns, (k, n) ∉ X

theorem Free.left {k : Sort'} {ns ms : List Str} (h : Free X k (ns ++ ms)) : Free X k ns := fun n hn => h n (List.mem_append_left _ hn)
theorem Free.right {k : Sort'} {ns ms : List Str} (h : Free X k (ns ++ ms)) : Free X k ms := fun n hn => h n (List.mem_append_right _ hn)
theorem Free.head {k : Sort'} {n : Str} {ns : List Str} (h : Free X k (n :: ns)) : (k, n) ∉ X := h n List.mem_cons_self
theorem Free.tail {k : Sort'} {n : Str} {ns : List Str} (h : Free X k (n :: ns)) : Free X k ns := fun m hm => h m (List.mem_cons_of_mem _ hm)

mutual
theorem visit_same {ss ss' : List (Scope F)} (h : Forall2 (SameScope X) ss ss') (e : Expr F) (hv : Free X .value (names e))
    (hf : Free X .function (called e)) : visit fo ss e = visit fo ss' e := by
  cases e with
  | boolLit | intLit | floatLit => simp only [visit]
  | ident l n => simp only [visit]; exact same_variable h hv.head
  | index l e ixs =>
    simp only [names, called] at hv hf
    simp only [visit, visit_same h e hv.left hf.left, visitIndexList_same h ixs hv.right hf.right]
  | call l n args =>
    simp only [names, called] at hv hf
    simp only [visit, visitList_same h args hv hf.tail, same_function h hf.head]
  | un l op e =>
    simp only [names, called] at hv hf
    simp only [visit, visit_same h e hv hf.tail, unSymbol_name, same_function h hf.head]
  | bin l op a b =>
    simp only [names, called] at hv hf
    simp only [visit, visit_same h a hv.left hf.tail.left, visit_same h b hv.right hf.tail.right, binSymbol_name, same_function h hf.head]
  | tern l a b c =>
    simp only [names, called] at hv hf
    have : c!"operator?:" = Fn.cond.name := rfl
    simp only [visit, visit_same h a hv.left.left hf.tail.left.left, visit_same h b hv.left.right hf.tail.left.right,
      visit_same h c hv.right hf.tail.right, this, same_function h hf.head]
theorem visitList_same {ss ss' : List (Scope F)} (h : Forall2 (SameScope X) ss ss') (es : List (Expr F)) (hv : Free X .value (namesList es))
    (hf : Free X .function (calledList es)) : visitList fo ss es = visitList fo ss' es := by
  cases es with
  | nil => simp only [visitList]
  | cons e es =>
    simp only [namesList, calledList] at hv hf
    simp only [visitList, visit_same h e hv.left hf.left, visitList_same h es hv.right hf.right]
theorem visitIndexList_same {ss ss' : List (Scope F)} (h : Forall2 (SameScope X) ss ss') (xs : List (IndexEntry F))
    (hv : Free X .value (namesEntries xs)) (hf : Free X .function (calledEntries xs)) :
    visitIndexList fo ss xs = visitIndexList fo ss' xs := by
  match xs with
  | [] => simp only [visitIndexList]
  | .item l e :: xs =>
    simp only [namesEntries, calledEntries] at hv hf
    simp only [visitIndexList, visitIndexEntry, visit_same h e hv.left hf.left, visitIndexList_same h xs hv.right hf.right]
  | .range l a b :: xs =>
    simp only [namesEntries, calledEntries] at hv hf
    simp only [visitIndexList, visitIndexEntry, visit_same h a hv.left.left hf.left.left, visit_same h b hv.left.right hf.left.right,
      visitIndexList_same h xs hv.right hf.right]
end

theorem visitAnnotationOperands_same {ss ss' : List (Scope F)} (h : Forall2 (SameScope X) ss ss') (l : Option Loc) (es : List (Expr F))
    (hv : Free X .value (namesList es)) (hf : Free X .function (calledList es)) :
    visitAnnotationOperands fo ss l es = visitAnnotationOperands fo ss' l es := by
  induction es with
  | nil => simp only [visitAnnotationOperands]
  | cons e es ih =>
    simp only [namesList, calledList] at hv hf
    simp only [visitAnnotationOperands, visit_same h e hv.left hf.left, ih hv.right hf.right]

theorem visitAnnotations_same {ss ss' : List (Scope F)} (h : Forall2 (SameScope X) ss ss') (as : List (AnnotationData F))
    (hv : Free X .value (namesAnnotations as)) (hf : Free X .function (calledAnnotations as)) :
    visitAnnotations fo ss as = visitAnnotations fo ss' as := by
  induction as with
  | nil => simp only [visitAnnotations]
  | cons a as ih =>
    simp only [namesAnnotations, calledAnnotations] at hv hf
    simp only [visitAnnotations, visitAnnotationOperands_same h a.loc a.operands hv.left hf.left, ih hv.right hf.right]

theorem visitGateRest_same {ss ss' : List (Scope F)} (h : Forall2 (SameScope X) ss ss') (l : Option Loc) (as : List (AnnotationData F))
    (name : Str) (inner : Option (SGate F)) (ps : List (Expr F)) (hv : Free X .value (namesAnnotations as)) (hv' : Free X .value (namesList ps))
    (hf : Free X .function (calledAnnotations as)) (hf' : Free X .function (calledList ps)) :
    visitGateRest fo ss l as name inner ps = visitGateRest fo ss' l as name inner ps := by
  simp only [visitGateRest, visitList_same h ps hv' hf', visitAnnotations_same h as hv hf]

theorem visitGate_same {ss ss' : List (Scope F)} (h : Forall2 (SameScope X) ss ss') : ∀ g : Gate F, Free X .value (mentionedGate g) →
    Free X .function (calledGate g) → visitGate fo ss g = visitGate fo ss' g
  | .mk l as name none ps, hv, hf => by
    simp only [mentionedGate, calledGate] at hv hf
    simp only [visitGate, visitGateRest_same h l as name none ps hv.left hv.right hf.left hf.right]
  | .mk l as name (some g) ps, hv, hf => by
    simp only [mentionedGate, calledGate] at hv hf
    simp only [visitGate, visitGate_same h g hv.left.right hf.left.right]
    congr 1
    funext r
    cases r.2 with
    | error e => rfl
    | ok inner => simp only [visitGateRest_same h l as name (some inner) ps hv.left.left hv.right hf.left.left hf.right]

/-! ## The name under which a gate is looked up -/

theorem visitGateRest_mk {ss : List (Scope F)} {l : Option Loc} {as : List (AnnotationData F)} {name : Str} {inner : Option (SGate F)}
    {ps : List (Expr F)} {es : List Err} {g : SGate F} (h : visitGateRest fo ss l as name inner ps = .ok (es, .ok g)) :
    ∃ vs sas, g = .mk name inner vs sas l := by
  unfold visitGateRest at h
  split at h
  · rename_i vs _
    cases hr : visitAnnotations fo ss as with
    | ok r => rw [hr] at h; cases h; exact ⟨_, _, rfl⟩
    | err e => exact e.elim
    | exn c => rw [hr] at h; cases h
    | ub => rw [hr] at h; cases h
  · cases h
  · cases h
  · cases h

theorem visitGate_root {ss : List (Scope F)} : ∀ (g : Gate F) {es : List Err} {s : SGate F}, visitGate fo ss g = .ok (es, .ok s) →
    gateTerminalName s = rootName g ∧ ∀ (l : Option Loc) (as : List (AnnotationData F)) (ops : List (Expr F)),
      gateResolutionName s ∈ performed (.gate l as g ops)
  | .mk l as name none ps, es, s, h => by
    obtain ⟨vs, sas, rfl⟩ := visitGateRest_mk h
    exact ⟨rfl, fun _ _ _ => by simp [performed, gateResolutionName]⟩
  | .mk l as name (some g) ps, es, s, h => by
    rw [visitGate] at h
    cases hg : visitGate fo ss g with
    | err e => exact e.elim
    | exn c => rw [hg] at h; cases h
    | ub => rw [hg] at h; cases h
    | ok r =>
      obtain ⟨es1, r⟩ := r
      rw [hg] at h
      cases r with
      | error e => cases h
      | ok t =>
        have ht := (visitGate_root g hg).1
        simp only [Res.bind_ok] at h
        cases hr : visitGateRest fo ss l as name (some t) ps with
        | err e => exact e.elim
        | exn c => rw [hr] at h; cases h
        | ub => rw [hr] at h; cases h
        | ok r =>
          obtain ⟨es2, r⟩ := r
          rw [hr] at h
          cases h
          obtain ⟨vs, sas, rfl⟩ := visitGateRest_mk hr
          refine ⟨ht, fun _ _ _ => ?_⟩
          simp only [performed, gateResolutionName, ht]
          split
          · exact List.mem_cons_self
          · exact List.mem_cons_of_mem _ List.mem_cons_self

/-! ## Statements -/

theorem avoids_iff {s : Stmt F} : (∀ k ∈ uses s, k ∉ X) ↔ Free X .value (mentioned s) ∧ Free X .function (calledStmt s) ∧
    Free X .instruction (performed s) := by
  simp only [uses, List.mem_append, List.mem_map, Free]
  constructor
  · intro h
    exact ⟨fun n hn => h _ (.inl (.inl ⟨n, hn, rfl⟩)), fun n hn => h _ (.inl (.inr ⟨n, hn, rfl⟩)), fun n hn => h _ (.inr ⟨n, hn, rfl⟩)⟩
  · rintro ⟨h1, h2, h3⟩ k ((⟨n, hn, rfl⟩ | ⟨n, hn, rfl⟩) | ⟨n, hn, rfl⟩)
    · exact h1 n hn
    · exact h2 n hn
    · exact h3 n hn

/-- The outcomes are the same and leave the same analysers, but for the names in `X`. -/
inductive SameLog (X : List Key) : Res Empty (Log (Analyzer F)) → Res Empty (Log (Analyzer F)) → Prop
  | ok {es a a'} : Same X a a' → SameLog X (.ok (es, a)) (.ok (es, a'))
  | exn {c} : SameLog X (.exn c) (.exn c)
  | ub : SameLog X .ub .ub

theorem SameLog.after {es : List Err} {r r' : Res Empty (Log (Analyzer F))} (h : SameLog X r r') :
    SameLog X (Log.after es r) (Log.after es r') := by
  cases h with
  | ok h => exact .ok h
  | exn => exact .exn
  | ub => exact .ub

theorem same_addStatement {a a' : Analyzer F} (h : Same X a a') (l : Option Loc) (t : SStatement F) :
    SameLog X (catchInto a l (a.addStatement t)) (catchInto a' l (a'.addStatement t)) := by
  obtain ⟨v, ss, u⟩ := a
  obtain ⟨v', ss', u'⟩ := a'
  obtain ⟨h1, h2, h3⟩ := h
  simp only at h1 h2 h3
  subst h1; subst h2
  cases h3 with
  | nil => exact .ub
  | cons h hs =>
    refine .ok ⟨rfl, rfl, .cons ⟨?_, h.variables, h.values, h.functions, h.instructions⟩ hs⟩
    simp only [h.block]

theorem same_declare {a a' : Analyzer F} (h : Same X a a') (l : Option Loc) (as : List (AnnotationData F)) (n : Ident) (t : TypeAst)
    (hv : Free X .value (n.name :: namesAnnotations as)) (hf : Free X .function (calledAnnotations as)) :
    SameLog X (visitVariable fo a l as n t) (visitVariable fo a' l as n t) := by
  unfold visitVariable
  rw [visitAnnotations_same h.scopes as hv.tail hf]
  cases buildSemanticType t with
  | err e => exact .ok h
  | exn c => exact .exn
  | ub => exact .ub
  | ok ty =>
    dsimp only
    cases visitAnnotations fo a'.scopes as with
    | err e => exact e.elim
    | exn c => exact .exn
    | ub => exact .ub
    | ok r =>
      simp only [Res.bind_ok]
      refine SameLog.after ?_
      obtain ⟨v, ss, u⟩ := a
      obtain ⟨v', ss', u'⟩ := a'
      obtain ⟨h1, h2, h3⟩ := id h
      simp only at h1 h2 h3
      subst h1; subst h2
      cases h3 with
      | nil => exact .ub
      | cons k hs =>
        simp only [Analyzer.addVariable, Analyzer.registerVariable, Analyzer.modifyCurrent, Res.bind_ok, VariableTable.add, k.values _ hv.head]
        split
        · refine .ok ⟨rfl, rfl, .cons ⟨k.block, ?_, k.values, k.functions, k.instructions⟩ hs⟩
          simp only [k.variables]
        · refine .ok ⟨rfl, rfl, .cons ⟨k.block, ?_, fun m hm => ?_, k.functions, k.instructions⟩ hs⟩
          · simp only [k.variables]
          · simp only [VariableTable.find, k.values m hm]

theorem visitStatement_same {a a' : Analyzer F} (h : Same X a a') (s : Stmt F) (hs : ∀ k ∈ uses s, k ∉ X) :
    SameLog X (visitStatement fo a s) (visitStatement fo a' s) := by
  obtain ⟨hv, hf, hi⟩ := avoids_iff.1 hs
  cases s with
  | var l as n t => exact same_declare h l as n t hv hf
  | gate l as g es =>
    simp only [mentioned, calledStmt] at hv hf
    simp only [visitStatement, visitGateInstruction]
    rw [visitGate_same h.scopes g hv.left.right hf.left.right]
    cases hg : visitGate fo a'.scopes g with
    | err e => exact e.elim
    | exn c => exact .exn
    | ub => exact .ub
    | ok r =>
      obtain ⟨es1, r⟩ := r
      simp only [Res.bind_ok]
      refine SameLog.after ?_
      cases r with
      | error e => exact .ok h
      | ok t =>
        dsimp only
        rw [visitList_same h.scopes es hv.right hf.right, visitAnnotations_same h.scopes as hv.left.left hf.left.left]
        have hn := hi _ ((visitGate_root g hg).2 l as es)
        simp only [same_instruction h.scopes hn]
        split
        · exact .ok h
        · exact .exn
        · exact .ub
        · cases visitAnnotations fo a'.scopes as with
          | err e => exact e.elim
          | exn c => exact .exn
          | ub => exact .ub
          | ok ra => exact SameLog.after (same_addStatement h _ _)
  | nonGate l as n es ps =>
    simp only [mentioned, calledStmt] at hv hf
    simp only [visitStatement, visitNonGateInstruction]
    rw [visitList_same h.scopes es hv.left.right hf.left.right, visitList_same h.scopes ps hv.right hf.right,
      visitAnnotations_same h.scopes as hv.left.left hf.left.left]
    simp only [same_instruction h.scopes (hi n List.mem_cons_self)]
    split
    · exact .ok h
    · exact .exn
    · exact .ub
    · cases visitAnnotations fo a'.scopes as with
      | err e => exact e.elim
      | exn c => exact .exn
      | ub => exact .ub
      | ok ra => exact SameLog.after (same_addStatement h _ _)
  | asm l as n c =>
    simp only [visitStatement, visitAsmDeclaration]
    rw [visitAnnotations_same h.scopes as hv hf]
    cases visitAnnotations fo a'.scopes as with
    | err e => exact e.elim
    | exn c => exact .exn
    | ub => exact .ub
    | ok ra => exact SameLog.after (same_addStatement h _ _)

theorem visitBlock_same (ss : List (Stmt F)) : ∀ {a a' : Analyzer F}, Same X a a' → (∀ s ∈ ss, ∀ k ∈ uses s, k ∉ X) →
    SameLog X (visitBlock fo a ss) (visitBlock fo a' ss) := by
  induction ss with
  | nil => intro a a' h _; exact .ok h
  | cons s ss ih =>
    intro a a' h hs
    have h1 := visitStatement_same (fo := fo) h s (hs s List.mem_cons_self)
    simp only [visitBlock]
    generalize visitStatement fo a s = r at h1
    generalize visitStatement fo a' s = r' at h1
    cases h1 with
    | ok h => exact SameLog.after (ih h fun s h => hs s (List.mem_cons_of_mem _ h))
    | exn => exact .exn
    | ub => exact .ub

/-- The outcomes are the same and leave the same analysers, but for the names in `X`. -/
inductive SameOut (X : List Key) : Res Empty (Analyzer F × Result (SProgram F)) → Res Empty (Analyzer F × Result (SProgram F)) → Prop
  | ok {a a' r} : Same X a a' → SameOut X (.ok (a, r)) (.ok (a', r))
  | exn {c} : SameOut X (.exn c) (.exn c)
  | ub : SameOut X .ub .ub

theorem analyze_same {a a' : Analyzer F} (h : Same X a a') (p : ProgramAst F) (hp : Avoids X p) :
    SameOut X (analyze fo a p) (analyze fo a' p) := by
  have h1 := visitBlock_same (fo := fo) p.block.statements h hp
  unfold analyze visitProgram
  rw [h.version]
  generalize visitBlock fo a p.block.statements = r at h1
  generalize visitBlock fo a' p.block.statements = r' at h1
  cases h1 with
  | exn => exact .exn
  | ub => exact .ub
  | @ok es b b' h =>
    obtain ⟨v, ss, u⟩ := b
    obtain ⟨v', ss', u'⟩ := b'
    have hs : Forall2 (SameScope X) ss ss' := h.scopes
    cases hs with
    | nil => exact .ub
    | cons k ks =>
      simp only [Res.bind_ok, k.block, k.variables]
      split
      · exact .exn
      · exact .ok h

theorem SameOut.outcome {r r' : Res Empty (Analyzer F × Result (SProgram F))} (h : SameOut X r r') :
    Spec.outcome r = Spec.outcome r' := by
  cases h <;> rfl

/-! ## Registrations -/

theorem find_var_other {n m : Str} {v : Value F} {t t' : VariableTable F} (h : t.add n v = .ok t') (hm : m ≠ n) : t'.find m = t.find m := by
  unfold VariableTable.add at h
  split at h
  · cases h
  · cases h
    simp [VariableTable.find, Ne.symm hm]

theorem find_over_other {T : Type} (t : OverloadTable T) (n m : Str) (x : T) (ps : List Ty) (hm : m ≠ n) : (t.add n x ps).find m = t.find m := by
  induction t with
  | nil => simp [OverloadTable.add, OverloadTable.find, Ne.symm hm]
  | cons e t ih =>
    obtain ⟨k, ovs⟩ := e
    simp only [OverloadTable.add]
    split
    · rename_i hk
      subst hk
      simp [OverloadTable.find, Ne.symm hm]
    · simp only [OverloadTable.find, ih]

theorem find_over_same {T : Type} {t t' : OverloadTable T} (n : Str) (x : T) (ps : List Ty) (h : t.find n = t'.find n) :
    (t.add n x ps).find n = (t'.add n x ps).find n := by
  have key : ∀ t : OverloadTable T, (t.add n x ps).find n = some ((t.find n).getD [] ++ [⟨x, ps⟩]) := by
    intro t
    induction t with
    | nil => simp [OverloadTable.add, OverloadTable.find]
    | cons e t ih =>
      obtain ⟨k, ovs⟩ := e
      simp only [OverloadTable.add]
      split
      · rename_i hk
        simp [OverloadTable.find, hk]
      · rename_i hk
        simp [OverloadTable.find, hk, ih]
  rw [key, key, h]

/-- What registering a function does to the stack. -/
theorem modifyLast_same {f f' : Scope F → Scope F} (hf : ∀ s s', SameScope X s s' → SameScope X (f s) (f' s')) :
    ∀ {ss ss' : List (Scope F)}, Forall2 (SameScope X) ss ss' →
      (Analyzer.modifyLast f ss = .ub ∧ Analyzer.modifyLast f' ss' = .ub) ∨
      ∃ ts ts', Analyzer.modifyLast f ss = .ok ts ∧ Analyzer.modifyLast f' ss' = .ok ts' ∧ Forall2 (SameScope X) ts ts' := by
  intro ss ss' h
  induction h with
  | nil => exact .inl ⟨rfl, rfl⟩
  | @cons s s' ss ss' h k ih =>
    cases k with
    | nil => exact .inr ⟨_, _, rfl, rfl, .cons (hf s s' h) .nil⟩
    | cons k ks =>
      simp only [Analyzer.modifyLast]
      rcases ih with ⟨h1, h2⟩ | ⟨ts, ts', h1, h2, h3⟩
      · exact .inl ⟨by rw [h1]; rfl, by rw [h2]; rfl⟩
      · exact .inr ⟨_, _, by rw [h1]; rfl, by rw [h2]; rfl, .cons h h3⟩

theorem modifyLast_other {f : Scope F → Scope F} (hf : ∀ s, SameScope X s (f s)) :
    ∀ {ss ts : List (Scope F)}, Analyzer.modifyLast f ss = .ok ts → Forall2 (SameScope X) ss ts
  | [], ts, h => by cases h
  | [s], ts, h => by cases h; exact .cons (hf s) .nil
  | s :: t :: ss, ts, h => by
    rw [Analyzer.modifyLast] at h
    cases hx : Analyzer.modifyLast f (t :: ss) with
    | ok us => rw [hx] at h; cases h; exact .cons (.refl s) (modifyLast_other hf hx)
    | err e => rw [hx] at h; cases h
    | exn c => rw [hx] at h; cases h
    | ub => rw [hx] at h; cases h

/-- Registering one of the names. -/
theorem call_other {c : Call F} {k : Key} (hc : c.registers = some k) (hk : k ∈ X) {a b : Analyzer F} (h : c.on a = .ok b) : Same X a b := by
  obtain ⟨v, ss, u⟩ := a
  cases c with
  | push => cases hc
  | pop => cases hc
  | var n x =>
    cases hc
    simp only [Call.on, Analyzer.registerVariable, Analyzer.modifyCurrent] at h
    cases ss with
    | nil => cases h
    | cons s ss =>
      simp only at h
      cases ht : s.variableTable.add n x with
      | err e => rw [ht] at h; cases h
      | exn c => rw [ht] at h; cases h
      | ub => rw [ht] at h; cases h
      | ok t =>
        rw [ht] at h
        cases h
        refine ⟨rfl, rfl, .cons ⟨rfl, rfl, fun m hm => ?_, fun _ _ => rfl, fun _ _ => rfl⟩ (sameScopes_refl _)⟩
        exact (find_var_other ht (by rintro rfl; exact hm hk)).symm
  | instruction i =>
    cases hc
    simp only [Call.on, Analyzer.registerInstruction, Analyzer.modifyCurrent] at h
    cases ss with
    | nil => cases h
    | cons s ss =>
      cases h
      refine ⟨rfl, rfl, .cons ⟨rfl, rfl, fun _ _ => rfl, fun _ _ => rfl, fun m hm => ?_⟩ (sameScopes_refl _)⟩
      exact (find_over_other _ _ _ _ _ (by rintro rfl; exact hm hk)).symm
  | function n ps f =>
    cases hc
    simp only [Call.on, Analyzer.registerFunction] at h
    cases ht : Analyzer.modifyLast (fun s => { s with fnTable := FnTable.add s.fnTable n ps f }) ss with
    | err e => rw [ht] at h; cases h
    | exn c => rw [ht] at h; cases h
    | ub => rw [ht] at h; cases h
    | ok ts =>
      rw [ht] at h
      cases h
      refine ⟨rfl, rfl, modifyLast_other (fun s => ?_) ht⟩
      refine ⟨rfl, rfl, fun _ _ => rfl, fun m hm => ?_, fun _ _ => rfl⟩
      exact (find_over_other _ _ _ _ _ (by rintro rfl; exact hm hk)).symm

/-- The same call on both. -/
theorem call_same {c : Call F} (hc : ∀ k ∈ c.registers, k ∉ X) {a a' : Analyzer F} (h : Same X a a') :
    (∃ b b', c.on a = .ok b ∧ c.on a' = .ok b' ∧ Same X b b') ∨ (∃ e, c.on a = .err e ∧ c.on a' = .err e) ∨
      (c.on a = .ub ∧ c.on a' = .ub) := by
  obtain ⟨v, ss, u⟩ := a
  obtain ⟨v', ss', u'⟩ := a'
  obtain ⟨h1, h2, h3⟩ := h
  simp only at h1 h2 h3
  subst h1; subst h2
  cases c with
  | push => exact .inl ⟨_, _, rfl, rfl, rfl, rfl, .cons (.refl _) h3⟩
  | pop =>
    cases h3 with
    | nil => exact .inr (.inr ⟨rfl, rfl⟩)
    | cons h hs => exact .inl ⟨_, _, rfl, rfl, rfl, rfl, hs⟩
  | var n x =>
    have hn : (Sort'.value, n) ∉ X := hc _ rfl
    cases h3 with
    | nil => exact .inr (.inr ⟨rfl, rfl⟩)
    | cons h hs =>
      simp only [Call.on, Analyzer.registerVariable, Analyzer.modifyCurrent, VariableTable.add, h.values n hn]
      split
      · exact .inr (.inl ⟨_, rfl, rfl⟩)
      · refine .inl ⟨_, _, rfl, rfl, rfl, rfl, .cons ⟨h.block, h.variables, fun m hm => ?_, h.functions, h.instructions⟩ hs⟩
        simp only [VariableTable.find, h.values m hm]
  | instruction i =>
    have hn : (Sort'.instruction, i.name) ∉ X := hc _ rfl
    cases h3 with
    | nil => exact .inr (.inr ⟨rfl, rfl⟩)
    | cons h hs =>
      refine .inl ⟨_, _, rfl, rfl, rfl, rfl, .cons ⟨h.block, h.variables, h.values, h.functions, fun m hm => ?_⟩ hs⟩
      simp only [InstrTable.add]
      by_cases he : m = i.name
      · subst he; exact find_over_same _ _ _ (h.instructions _ hn)
      · rw [find_over_other _ _ _ _ _ he, find_over_other _ _ _ _ _ he, h.instructions m hm]
  | function n ps f =>
    have hn : (Sort'.function, n) ∉ X := hc _ rfl
    simp only [Call.on, Analyzer.registerFunction]
    have hadd : ∀ s s' : Scope F, SameScope X s s' → SameScope X { s with fnTable := FnTable.add s.fnTable n ps f }
        { s' with fnTable := FnTable.add s'.fnTable n ps f } := by
      intro s s' h
      refine ⟨h.block, h.variables, h.values, fun m hm => ?_, h.instructions⟩
      simp only [FnTable.add]
      by_cases he : m = n
      · subst he; exact find_over_same _ _ _ (h.functions _ hn)
      · rw [find_over_other _ _ _ _ _ he, find_over_other _ _ _ _ _ he, h.functions m hm]
    rcases modifyLast_same hadd h3 with ⟨h1, h2⟩ | ⟨ts, ts', h1, h2, h3⟩
    · exact .inr (.inr ⟨by rw [h1]; rfl, by rw [h2]; rfl⟩)
    · exact .inl ⟨⟨v, ts, u⟩, ⟨v, ts', u⟩, by rw [h1]; rfl, by rw [h2]; rfl, rfl, rfl, h3⟩

end Qasm.Uses
