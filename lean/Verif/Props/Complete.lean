import Verif.Spec.Complete
import Verif.Spec.Sample
/-!
# The completeness checks made before a tree is handed out (C70)
-/

namespace Qasm

open Spec Syn

variable {F : Type}

/-- No index list in the expression is empty. -/
private def NoEmpty (e : Expr F) : Prop := ∀ l x is, InExpr (.index l x is) e → is ≠ []

private def NoEmptyEntry (i : IndexEntry F) : Prop := ∀ l x is, InEntry (.index l x is) i → is ≠ []

mutual
private theorem wfExpr_iff (e : Expr F) : wfExpr e = true ↔ NoEmpty e := by
  cases e with
  | boolLit => exact ⟨fun _ l x is h => (by cases h), fun _ => rfl⟩
  | intLit => exact ⟨fun _ l x is h => (by cases h), fun _ => rfl⟩
  | floatLit => exact ⟨fun _ l x is h => (by cases h), fun _ => rfl⟩
  | ident => exact ⟨fun _ l x is h => (by cases h), fun _ => rfl⟩
  | index l e is =>
    simp only [wfExpr, Bool.and_eq_true, wfExpr_iff e, wfEntries_iff is]
    constructor
    · rintro ⟨⟨h1, h2⟩, h3⟩ l' x' is' h
      cases h with
      | here => intro hn; simp [hn] at h2
      | indexed h => exact h1 _ _ _ h
      | indices hi h => exact h3 _ hi _ _ _ h
    · intro h
      refine ⟨⟨fun _ _ _ h' => h _ _ _ (.indexed h'), ?_⟩, fun i hi _ _ _ h' => h _ _ _ (.indices hi h')⟩
      have := h _ _ _ .here
      cases is <;> simp_all
  | call l n es =>
    simp only [wfExpr, wfExprs_iff es]
    constructor
    · intro h _ _ _ h'
      cases h' with
      | call he h' => exact h _ he _ _ _ h'
    · intro h e he _ _ _ h'
      exact h _ _ _ (.call he h')
  | un l o e =>
    simp only [wfExpr, wfExpr_iff e]
    constructor
    · intro h _ _ _ h'
      cases h' with
      | un h' => exact h _ _ _ h'
    · intro h _ _ _ h'
      exact h _ _ _ (.un h')
  | bin l o a b =>
    simp only [wfExpr, Bool.and_eq_true, wfExpr_iff a, wfExpr_iff b]
    constructor
    · rintro ⟨h1, h2⟩ _ _ _ h'
      cases h' with
      | left h' => exact h1 _ _ _ h'
      | right h' => exact h2 _ _ _ h'
    · intro h
      exact ⟨fun _ _ _ h' => h _ _ _ (.left h'), fun _ _ _ h' => h _ _ _ (.right h')⟩
  | tern l c a b =>
    simp only [wfExpr, Bool.and_eq_true, wfExpr_iff c, wfExpr_iff a, wfExpr_iff b]
    constructor
    · rintro ⟨⟨h1, h2⟩, h3⟩ _ _ _ h'
      cases h' with
      | cond h' => exact h1 _ _ _ h'
      | ifTrue h' => exact h2 _ _ _ h'
      | ifFalse h' => exact h3 _ _ _ h'
    · intro h
      exact ⟨⟨fun _ _ _ h' => h _ _ _ (.cond h'), fun _ _ _ h' => h _ _ _ (.ifTrue h')⟩, fun _ _ _ h' => h _ _ _ (.ifFalse h')⟩

private theorem wfExprs_iff (es : List (Expr F)) : wfExprs es = true ↔ ∀ e ∈ es, NoEmpty e := by
  cases es with
  | nil => simp [wfExprs]
  | cons e es => simp only [wfExprs, Bool.and_eq_true, wfExpr_iff e, wfExprs_iff es, List.forall_mem_cons]

private theorem wfEntry_iff (i : IndexEntry F) : wfEntry i = true ↔ NoEmptyEntry i := by
  cases i with
  | item l e =>
    simp only [wfEntry, wfExpr_iff e]
    constructor
    · intro h _ _ _ h'
      cases h' with
      | item h' => exact h _ _ _ h'
    · intro h _ _ _ h'
      exact h _ _ _ (.item h')
  | range l a b =>
    simp only [wfEntry, Bool.and_eq_true, wfExpr_iff a, wfExpr_iff b]
    constructor
    · rintro ⟨h1, h2⟩ _ _ _ h'
      cases h' with
      | first h' => exact h1 _ _ _ h'
      | last h' => exact h2 _ _ _ h'
    · intro h
      exact ⟨fun _ _ _ h' => h _ _ _ (.first h'), fun _ _ _ h' => h _ _ _ (.last h')⟩

private theorem wfEntries_iff (is : List (IndexEntry F)) : wfEntries is = true ↔ ∀ i ∈ is, NoEmptyEntry i := by
  cases is with
  | nil => simp [wfEntries]
  | cons i is => simp only [wfEntries, Bool.and_eq_true, wfEntry_iff i, wfEntries_iff is, List.forall_mem_cons]
end

private theorem wfAnnotations_iff (as : List (AnnotationData F)) :
    wfAnnotations as = true ↔ ∀ l x is, InAnnotations (.index l x is) as → is ≠ [] := by
  simp only [wfAnnotations, List.all_eq_true, wfExprs_iff]
  constructor
  · rintro h l x is ⟨a, ha, e, he, h'⟩
    exact h a ha e he _ _ _ h'
  · intro h a ha e he l x is h'
    exact h _ _ _ ⟨a, ha, e, he, h'⟩

private theorem wfGate_iff (g : Gate F) : wfGate g = true ↔ ∀ l x is, OccursInGate (.index l x is) g → is ≠ [] := by
  match g with
  | .mk l as n none ps =>
    simp only [wfGate, Bool.and_eq_true, wfAnnotations_iff, wfExprs_iff]
    constructor
    · rintro ⟨h1, h2⟩ _ _ _ h
      cases h with
      | annotation h => exact h1 _ _ _ h
      | parameter he h => exact h2 _ he _ _ _ h
    · intro h
      exact ⟨fun _ _ _ h' => h _ _ _ (.annotation h'), fun e he _ _ _ h' => h _ _ _ (.parameter he h')⟩
  | .mk l as n (some g) ps =>
    simp only [wfGate, Bool.and_eq_true, wfAnnotations_iff, wfExprs_iff, wfGate_iff g]
    constructor
    · rintro ⟨⟨h1, h3⟩, h2⟩ _ _ _ h
      cases h with
      | annotation h => exact h1 _ _ _ h
      | parameter he h => exact h2 _ he _ _ _ h
      | inner h => exact h3 _ _ _ h
    · intro h
      exact ⟨⟨fun _ _ _ h' => h _ _ _ (.annotation h'), fun _ _ _ h' => h _ _ _ (.inner h')⟩,
        fun e he _ _ _ h' => h _ _ _ (.parameter he h')⟩

private theorem wfStmt_iff (s : Stmt F) : wfStmt s = true ↔ ∀ l x is, OccursInStmt (.index l x is) s → is ≠ [] := by
  cases s with
  | var l as n t =>
    simp only [wfStmt, wfAnnotations_iff]
    constructor
    · intro h _ _ _ h'
      cases h' with
      | var h' => exact h _ _ _ h'
    · intro h _ _ _ h'
      exact h _ _ _ (.var h')
  | gate l as g es =>
    simp only [wfStmt, Bool.and_eq_true, wfAnnotations_iff, wfExprs_iff, wfGate_iff]
    constructor
    · rintro ⟨⟨h1, h2⟩, h3⟩ _ _ _ h'
      cases h' with
      | gateAnnotation h' => exact h1 _ _ _ h'
      | gate h' => exact h2 _ _ _ h'
      | gateOperand he h' => exact h3 _ he _ _ _ h'
    · intro h
      exact ⟨⟨fun _ _ _ h' => h _ _ _ (.gateAnnotation h'), fun _ _ _ h' => h _ _ _ (.gate h')⟩,
        fun _ he _ _ _ h' => h _ _ _ (.gateOperand he h')⟩
  | nonGate l as n es ps =>
    simp only [wfStmt, Bool.and_eq_true, wfAnnotations_iff, wfExprs_iff]
    constructor
    · rintro ⟨⟨h1, h2⟩, h3⟩ _ _ _ h'
      cases h' with
      | nonGateAnnotation h' => exact h1 _ _ _ h'
      | nonGateOperand he h' => exact h2 _ he _ _ _ h'
      | nonGateParameter he h' => exact h3 _ he _ _ _ h'
    · intro h
      exact ⟨⟨fun _ _ _ h' => h _ _ _ (.nonGateAnnotation h'), fun _ he _ _ _ h' => h _ _ _ (.nonGateOperand he h')⟩,
        fun _ he _ _ _ h' => h _ _ _ (.nonGateParameter he h')⟩
  | asm l as n c =>
    simp only [wfStmt, wfAnnotations_iff]
    constructor
    · intro h _ _ _ h'
      cases h' with
      | asm h' => exact h _ _ _ h'
    · intro h _ _ _ h'
      exact h _ _ _ (.asm h')

/-- C70. The check of a syntax tree accepts exactly the trees without an empty index list, wherever it may occur. -/
theorem C70_ast (p : ProgramAst F) : wellFormed p = true ↔ CompleteAst p := by
  simp only [wellFormed, List.all_eq_true, wfStmt_iff, CompleteAst]

/-- C70. The parser hands out complete trees only. -/
theorem C70_parse (an : Antlr F) (text : Str) (file : Option Str) (p : ProgramAst F)
    (h : parseString an text file = .ok ⟨some p, []⟩) : CompleteAst p := by
  unfold parseString at h
  split at h
  · simp at h
  · simp at h
  · simp at h
  · split at h
    · simp only [Res.ok.injEq, Result.mk.injEq, Option.some.injEq, and_true] at h
      subst h
      exact (C70_ast _).1 (by assumption)
    · simp at h

private theorem mem_gateValues (v : Value F) (g : SGate F) : v ∈ SProgram.gateValues g ↔ ValueInGate v g := by
  have ha (as : List (SAnnotation F)) : v ∈ SProgram.annotationValues as ↔ ValueInAnnotations v as := by
    simp [SProgram.annotationValues, ValueInAnnotations]
  match g with
  | .mk n none ps as l =>
    simp only [SProgram.gateValues, List.nil_append, List.mem_append, ha]
    constructor
    · rintro (h | h)
      · exact .parameter h
      · exact .annotation h
    · intro h
      cases h with
      | annotation h => exact .inr h
      | parameter h => exact .inl h
  | .mk n (some g) ps as l =>
    simp only [SProgram.gateValues, List.mem_append, ha, mem_gateValues v g]
    constructor
    · rintro ((h | h) | h)
      · exact .inner h
      · exact .parameter h
      · exact .annotation h
    · intro h
      cases h with
      | annotation h => exact .inr h
      | parameter h => exact .inl (.inr h)
      | inner h => exact .inl (.inl h)

private theorem mem_statementValues (v : Value F) (s : SStatement F) : v ∈ SProgram.statementValues s ↔ ValueInStatement v s := by
  have ha (as : List (SAnnotation F)) : v ∈ SProgram.annotationValues as ↔ ValueInAnnotations v as := by
    simp [SProgram.annotationValues, ValueInAnnotations]
  cases s with
  | gate i g vs as l =>
    simp only [SProgram.statementValues, List.mem_append, ha, mem_gateValues]
    constructor
    · rintro ((h | h) | h)
      · exact .gate h
      · exact .gateOperand h
      · exact .gateAnnotation h
    · intro h
      cases h with
      | gateAnnotation h => exact .inr h
      | gate h => exact .inl (.inl h)
      | gateOperand h => exact .inl (.inr h)
  | nonGate i n vs ps as l =>
    simp only [SProgram.statementValues, List.mem_append, ha]
    constructor
    · rintro ((h | h) | h)
      · exact .nonGateOperand h
      · exact .nonGateParameter h
      · exact .nonGateAnnotation h
    · intro h
      cases h with
      | nonGateAnnotation h => exact .inr h
      | nonGateOperand h => exact .inl (.inl h)
      | nonGateParameter h => exact .inl (.inr h)
  | asm n c as l =>
    simp only [SProgram.statementValues, ha]
    constructor
    · exact .asm
    · intro h
      cases h with
      | asm h => exact h

/-- C70. The check of a semantic tree accepts exactly the trees in which every reference is to a variable of the tree and has indices
if it is an index reference. -/
theorem C70_semantic (p : SProgram F) : p.wellFormed = true ↔ CompleteProgram p := by
  have hv (v : Value F) : v ∈ p.values ↔ ValueInProgram v p := by
    simp only [SProgram.values, List.mem_append, List.mem_flatMap, mem_statementValues, ValueInProgram, SProgram.annotationValues,
      ValueInAnnotations]
  simp only [SProgram.wellFormed, List.all_eq_true, hv, CompleteProgram]
  refine forall_congr' fun v => imp_congr_right fun _ => ?_
  obtain ⟨n, l⟩ := v
  have hm (x : VarLink) : (p.variables.map (·.uid)).contains x.uid = true ↔ ∃ y ∈ p.variables, y.uid = x.uid := by
    simp
  cases n with
  | variableRef x => simp only [SProgram.valueOk, hm]; simp
  | indexRef x is =>
    simp only [SProgram.valueOk, Bool.and_eq_true, hm]
    simp
  | _ => simp [SProgram.valueOk]

/-- C70. Analysis hands out complete trees only, whatever tree it is given. -/
theorem C70_analyze (fo : FloatOps F) (a a' : Analyzer F) (p : ProgramAst F) (r : SProgram F)
    (h : Sem.analyze fo a p = .ok (a', ⟨some r, []⟩)) : CompleteProgram r := by
  unfold Sem.analyze at h
  cases hv : Sem.visitProgram fo a p with
  | ok x =>
    rw [hv, Res.bind_ok] at h
    split at h
    · simp at h
    · rename_i hn
      simp only [Res.ok.injEq] at h
      subst h
      simp only [List.isEmpty_nil, Bool.true_and, Option.map_some, Option.getD_some, Bool.not_eq_true', Bool.not_eq_false] at hn
      exact (C70_semantic r).1 hn
  | err e => cases e
  | exn => rw [hv] at h; simp at h
  | ub => rw [hv] at h; simp at h

/-- `X q[0]` is complete and `X q[]`, with the empty list deep inside a parameter or an annotation, is not. -/
example : CompleteAst (Sample.program [Sample.gate c!"X" [] [Sample.at_ c!"q" 0]]) ∧
    ¬ CompleteAst (Sample.program [.gate none [] (.mk none [] c!"pow" (some (.mk none [] c!"X" none [.un none .neg (.index none (Sample.name c!"q") [])])) []) []]) ∧
    ¬ CompleteAst (Sample.program [.asm none [⟨c!"a", c!"b", [.call none c!"f" [.index none (Sample.name c!"q") []]], none⟩] c!"n" c!"c"]) := by
  refine ⟨(C70_ast _).1 rfl, fun h => ?_, fun h => ?_⟩
  · have := (C70_ast _).2 h; simp [wellFormed, wfStmt, wfGate, wfExprs, wfExpr, wfEntries, wfAnnotations, Sample.program, Sample.name] at this
  · have := (C70_ast _).2 h; simp [wellFormed, wfStmt, wfGate, wfExprs, wfExpr, wfEntries, wfAnnotations, Sample.program, Sample.name] at this

end Qasm
