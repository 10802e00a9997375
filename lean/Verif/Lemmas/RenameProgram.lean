import Verif.Lemmas.StripProgram
import Verif.Lemmas.Rename
/-!
# Helper lemmas: statements and programs with renamed variables
-/

namespace Qasm

open Spec Sem

variable {F α β γ δ : Type} {fo : FloatOps F} {r : Str → Str}

/-- The log with renamed variables. -/
def renLog (r : Str → Str) (f : α → β) (x : Log α) : Log β := (x.1.map (renErr r), f x.2)

theorem after_ren {es : List Err} {f : α → β} {x : Res Empty (Log α)} {x' : Res Empty (Log β)} (h : x' = x.mapE (renLog r f)) :
    Log.after (es.map (renErr r)) x' = (Log.after es x).mapE (renLog r f) := by
  subst h
  cases x <;> simp [Log.after, Res.mapE, renLog]

/-! ## Annotations -/

theorem visitAnnotationOperands_ren {ss : List (Scope F)} (hr : Inj r) (hb : BlindNScopes r ss) (l : Option Loc) (es : List (Expr F)) :
    visitAnnotationOperands fo (ss.map (renScope r)) l (renExprs r es)
      = (visitAnnotationOperands fo ss l es).mapE (renLog r (List.map (renValue r))) := by
  induction es with
  | nil => rfl
  | cons e es ih =>
    simp only [renExprs, visitAnnotationOperands, visit_ren hr hb]
    cases visit fo ss e with
    | ok v =>
      refine mapE_bind ih fun x0 _ => ?_
      rfl
    | err x =>
      refine mapE_bind ih fun x0 _ => ?_
      simp [Res.mapE, renLog, renErr_context]
    | _ => rfl

theorem visitAnnotations_ren {ss : List (Scope F)} (hr : Inj r) (hb : BlindNScopes r ss) (as : List (AnnotationData F)) :
    visitAnnotations fo (ss.map (renScope r)) (as.map (renAnnotation r))
      = (visitAnnotations fo ss as).mapE (renLog r (List.map (renSAnnotation r))) := by
  induction as with
  | nil => rfl
  | cons a as ih =>
    simp only [List.map_cons, visitAnnotations]
    refine mapE_bind (visitAnnotationOperands_ren hr hb a.loc a.operands) fun x0 _ => ?_
    refine mapE_bind ih fun rs _ => ?_
    simp [Res.mapE, renLog, renSAnnotation, renAnnotation]

/-! ## Gates -/

theorem terminalName_ren (g : SGate F) : gateTerminalName (renSGate r g) = gateTerminalName g := by
  match g with
  | .mk n none ps as l => rfl
  | .mk n (some g) ps as l => exact terminalName_ren g

theorem resolutionName_ren (g : SGate F) : gateResolutionName (renSGate r g) = gateResolutionName g := by
  match g with
  | .mk n none ps as l => rfl
  | .mk n (some g) ps as l => simp only [renSGate, gateResolutionName, terminalName_ren]

theorem promoteParameters_ren (name cs : Str) (ps : List (Value F)) :
    promoteParameters fo name cs (ps.map (renValue r)) = (promoteParameters fo name cs ps).ren r (List.map (renValue r)) := by
  induction cs generalizing ps with
  | nil => simp [promoteParameters]
  | cons c cs ih =>
    cases ps with
    | nil => rfl
    | cons p ps =>
      simp only [List.map_cons, promoteParameters]
      cases Types.fromSpecChar c with
      | none => rfl
      | some t =>
        refine ren_bind (typeOf_ren p) fun tp => ?_
        simp only [id]
        split
        · refine ren_bind (promote_ren p t) fun o => ?_
          refine ren_bind (ih ps) fun rest => ?_
          cases o <;> simp
        · exact congrArg Res.err (mk0_ren (by rfl))

theorem resolveParameters_ren (name : Str) (ps : List (Value F)) :
    resolveParameters fo name (ps.map (renValue r)) = (resolveParameters fo name ps).ren r (List.map (renValue r)) := by
  unfold resolveParameters
  simp only [List.length_map, List.isEmpty_map]
  split
  · cases InstructionSet.getNonGateParamTypesWithParamCount name ps.length with
    | none =>
      simp only
      split
      · rfl
      · exact congrArg Res.err (mk0_ren (by rfl))
    | some cs => exact promoteParameters_ren name cs ps
  · have hplain : InstructionSet.getInstructionParamTypes name = (InstructionSet.getInstructionParamTypes name).ren r id := by
      unfold InstructionSet.getInstructionParamTypes InstructionSet.getNamedGateParamTypes InstructionSet.getNonGateParamTypes
        InstructionSet.getGateModifierParamTypes
      repeat' split
      all_goals first | rfl | exact congrArg Res.err (mk0_ren (by rfl))
    refine ren_bind hplain fun o => ?_
    cases o with
    | none =>
      simp only [id]
      split
      · rfl
      · exact congrArg Res.err (mk0_ren (by rfl))
    | some cs =>
      simp only [id]
      split
      · exact congrArg Res.err (mk0_ren (by rfl))
      · exact promoteParameters_ren name cs ps

theorem checkGate_ren (g : Option (SGate F)) : checkGate (g.map (renSGate r)) = (checkGate g).ren r id := by
  cases g with
  | none => rfl
  | some g =>
    simp only [Option.map_some, checkGate, resolutionName_ren]
    split
    · exact congrArg Res.err (mk0_ren (by rfl))
    · rfl

/-- The outcome of a gate visit without positions. -/
def renExcept (r : Str → Str) : Except Err (SGate F) → Except Err (SGate F)
  | .ok g => .ok (renSGate r g)
  | .error e => .error (renErr r e)

theorem visitGateRest_ren {ss : List (Scope F)} (hr : Inj r) (hb : BlindNScopes r ss) (l : Option Loc) (as : List (AnnotationData F)) (n : Str)
    (g : Option (SGate F)) (ps : List (Expr F)) :
    visitGateRest fo (ss.map (renScope r)) l (as.map (renAnnotation r)) n (g.map (renSGate r)) (renExprs r ps)
      = (visitGateRest fo ss l as n g ps).mapE (renLog r (renExcept r)) := by
  unfold visitGateRest
  have h := ren_bind (g := List.map (renValue r)) (visitList_ren (fo := fo) hr hb ps)
    (k' := fun ps => (resolveParameters fo n ps).bind fun ps => (checkGate (g.map (renSGate r))).bind fun _ => .ok ps)
    (k := fun ps => (resolveParameters fo n ps).bind fun ps => (checkGate g).bind fun _ => .ok ps)
    (fun vs => ren_bind (resolveParameters_ren n vs) fun ws => ren_bind (checkGate_ren g) fun _ => rfl)
  rw [h]
  cases (visitList fo ss ps).bind fun ps => (resolveParameters fo n ps).bind fun ps => (checkGate g).bind fun _ => .ok ps with
  | ok vs =>
    refine mapE_bind (visitAnnotations_ren hr hb as) fun x0 _ => ?_
    cases g <;> rfl
  | err e => simp [Res.mapE, renLog, renExcept, renErr_context]
  | _ => rfl

theorem visitGate_ren {ss : List (Scope F)} (hr : Inj r) (hb : BlindNScopes r ss) (g : Gate F) :
    visitGate fo (ss.map (renScope r)) (renGate r g) = (visitGate fo ss g).mapE (renLog r (renExcept r)) := by
  match g with
  | .mk l as n none ps => exact visitGateRest_ren hr hb l as n none ps
  | .mk l as n (some g) ps =>
    simp only [renGate, visitGate]
    refine mapE_bind (visitGate_ren hr hb g) fun x0 _ => ?_
    obtain ⟨es, x⟩ := x0
    cases x with
    | error e => simp [Res.mapE, renLog, renExcept, renErr_context]
    | ok g' => exact after_ren (visitGateRest_ren hr hb l as n (some g') ps)

/-! ## Statements -/

theorem qubitCount_ren (v : Value F) : qubitCount (renValue r v) = qubitCount v := by
  obtain ⟨n, l⟩ := v
  cases n <;> simp [qubitCount, renValue, renNode, renLink]

theorem bitCount_ren (v : Value F) : bitCount (renValue r v) = bitCount v := by
  obtain ⟨n, l⟩ := v
  cases n <;> simp [bitCount, renValue, renNode, renLink]

theorem qubitCounts_ren (vs : List (Value F)) : (vs.map (renValue r)).map qubitCount = vs.map qubitCount := by
  simp [Function.comp_def, qubitCount_ren]

theorem bitCounts_ren (vs : List (Value F)) : (vs.map (renValue r)).map bitCount = vs.map bitCount := by
  simp [Function.comp_def, bitCount_ren]

theorem checkGateInstruction_ren (vs : List (Value F)) :
    checkGateInstruction (vs.map (renValue r)) = (checkGateInstruction vs).ren r id := by
  unfold checkGateInstruction
  rw [qubitCounts_ren]
  split
  · exact congrArg Res.err (mk0_ren (by rfl))
  · rfl

theorem checkNonGateInstruction_ren (n : Str) (vs : List (Value F)) :
    checkNonGateInstruction n (vs.map (renValue r)) = (checkNonGateInstruction n vs).ren r id := by
  unfold checkNonGateInstruction
  rw [qubitCounts_ren, bitCounts_ren]
  split
  · split
    · exact congrArg Res.err (mk0_ren (by rfl))
    · rfl
  · rfl

theorem addStatement_ren (a : Analyzer F) (st : SStatement F) :
    (renAnalyzer r a).addStatement (renSStatement r st) = (a.addStatement st).ren r (renAnalyzer r) := by
  obtain ⟨v, ss, u⟩ := a
  cases ss with
  | nil => rfl
  | cons s ss =>
    have : (renSStatement r st).loc = st.loc := by cases st <;> rfl
    simp [Analyzer.addStatement, Analyzer.modifyCurrent, renAnalyzer, renScope, this, Analyzer.blockLoc]

theorem addVariable_ren (a : Analyzer F) (v : SVariable F) :
    (renAnalyzer r a).addVariable (renSVariable r v) = (a.addVariable v).ren r (renAnalyzer r) := by
  obtain ⟨_, ss, u⟩ := a
  cases ss with
  | nil => rfl
  | cons s ss => simp [Analyzer.addVariable, Analyzer.modifyCurrent, renAnalyzer, renScope]

theorem registerVariable_ren (hr : Inj r) (a : Analyzer F) (n : Str) (v : Value F) :
    (renAnalyzer r a).registerVariable (r n) (renValue r v) = (a.registerVariable n v).ren r (renAnalyzer r) := by
  obtain ⟨_, ss, u⟩ := a
  cases ss with
  | nil => rfl
  | cons s ss =>
    simp only [Analyzer.registerVariable, Analyzer.modifyCurrent, renAnalyzer, List.map_cons]
    refine ren_bind (f := renScope r) (ren_bind (f := List.map fun e => (r e.1, renValue r e.2)) ?_ fun t => ?_) fun s' => ?_
    · simp only [VariableTable.add, renScope, varFind_ren hr]
      cases VariableTable.find s.variableTable n with
      | none => rfl
      | some _ => exact congrArg Res.err (redeclared_ren n)
    · rfl
    · rfl

theorem catchInto_ren {a : Analyzer F} {x x' : Res Err (Analyzer F)} (h : x' = x.ren r (renAnalyzer r)) (l : Option Loc) :
    catchInto (renAnalyzer r a) l x' = (catchInto a l x).mapE (renLog r (renAnalyzer r)) := by
  subst h
  cases x <;> simp [catchInto, Res.mapE, renLog, renErr_context]

theorem buildSemanticType_ren (t : TypeAst) : buildSemanticType t = (buildSemanticType t).ren r id := by
  unfold buildSemanticType
  simp only
  repeat' split
  all_goals first | rfl | exact congrArg Res.err (mk0_ren (by rfl))

theorem visitVariable_ren {a : Analyzer F} (hr : Inj r) (hb : BlindNScopes r a.scopes) (l : Option Loc) (as : List (AnnotationData F)) (n : Ident)
    (t : TypeAst) :
    visitVariable fo (renAnalyzer r a) l (as.map (renAnnotation r)) ⟨r n.name, n.loc⟩ t
      = (visitVariable fo a l as n t).mapE (renLog r (renAnalyzer r)) := by
  unfold visitVariable
  cases ht : buildSemanticType t with
  | ok ty =>
    refine mapE_bind (visitAnnotations_ren hr hb as) fun x0 _ => ?_
    refine after_ren ?_
    have h := addVariable_ren (r := r) { a with nextUid := a.nextUid + 1 } ⟨a.nextUid, n.name, ty, x0.2, n.loc⟩
    simp only [renLog]
    have e : ({ renAnalyzer r a with nextUid := (renAnalyzer r a).nextUid + 1 } : Analyzer F)
        = renAnalyzer r { a with nextUid := a.nextUid + 1 } := rfl
    have e' : (⟨(renAnalyzer r a).nextUid, r n.name, ty, x0.2.map (renSAnnotation r), n.loc⟩ : SVariable F)
        = renSVariable r ⟨a.nextUid, n.name, ty, x0.2, n.loc⟩ := rfl
    rw [e, e', h]
    cases ha : Analyzer.addVariable { a with nextUid := a.nextUid + 1 } ⟨a.nextUid, n.name, ty, x0.2, n.loc⟩ with
    | ok a1 => exact catchInto_ren (a := a1) (registerVariable_ren hr a1 n.name ⟨.variableRef ⟨a.nextUid, n.name, ty⟩, none⟩) l
    | err x => simp [Res.mapE, renLog, renErr_context]
    | _ => rfl
  | err x =>
    have hx := buildSemanticType_ren (r := r) t
    rw [ht] at hx
    simp only [Res.ren, Res.err.injEq] at hx
    simp only [Res.mapE, renLog, List.map_cons, List.map_nil, ← renErr_context, ← hx]
  | _ => rfl

theorem visitGateInstruction_ren {a : Analyzer F} (hr : Inj r) (hb : BlindNScopes r a.scopes) (l : Option Loc) (as : List (AnnotationData F))
    (g : Gate F) (es : List (Expr F)) :
    visitGateInstruction fo (renAnalyzer r a) l (as.map (renAnnotation r)) (renGate r g) (renExprs r es)
      = (visitGateInstruction fo a l as g es).mapE (renLog r (renAnalyzer r)) := by
  unfold visitGateInstruction
  refine mapE_bind (visitGate_ren hr hb g) fun x0 _ => ?_
  refine after_ren ?_
  obtain ⟨ers, x⟩ := x0
  cases x with
  | error e => simp [Res.mapE, renLog, renErr_context, renExcept]
  | ok g' =>
    simp only [renLog, renExcept, resolutionName_ren]
    have h := ren_bind (g := renMatch r) (visitList_ren (fo := fo) hr hb es)
      (k' := fun ops => (Analyzer.resolveInstruction fo (renAnalyzer r a).scopes (gateResolutionName g') ops).bind fun i =>
          (checkGateInstruction i.2).bind fun _ => .ok i)
      (k := fun ops => (Analyzer.resolveInstruction fo a.scopes (gateResolutionName g') ops).bind fun i =>
          (checkGateInstruction i.2).bind fun _ => .ok i)
      (fun vs => ren_bind (resolveInstruction_ren _ _ vs) fun i => ren_bind (checkGateInstruction_ren i.2) fun _ => rfl)
    have hs : (renAnalyzer r a).scopes = a.scopes.map (renScope r) := rfl
    simp only [hs] at h ⊢
    rw [h]
    cases hx : (visitList fo a.scopes es).bind fun ops =>
        (Analyzer.resolveInstruction fo a.scopes (gateResolutionName g') ops).bind fun i =>
          (checkGateInstruction i.2).bind fun _ => Res.ok i with
    | ok i =>
      refine mapE_bind (visitAnnotations_ren hr hb as) fun ra _ => ?_
      refine after_ren ?_
      exact catchInto_ren (addStatement_ren a (.gate i.1 g' i.2 ra.2 l)) l
    | err e => simp [Res.mapE, renLog, renErr_context]
    | _ => rfl

theorem visitNonGateInstruction_ren {a : Analyzer F} (hr : Inj r) (hb : BlindNScopes r a.scopes) (l : Option Loc) (as : List (AnnotationData F))
    (n : Str) (es ps : List (Expr F)) :
    visitNonGateInstruction fo (renAnalyzer r a) l (as.map (renAnnotation r)) n (renExprs r es) (renExprs r ps)
      = (visitNonGateInstruction fo a l as n es ps).mapE (renLog r (renAnalyzer r)) := by
  unfold visitNonGateInstruction
  have hs : (renAnalyzer r a).scopes = a.scopes.map (renScope r) := rfl
  have h := ren_bind (g := fun x : (Instruction × List (Value F)) × List (Value F) => (renMatch r x.1, x.2.map (renValue r)))
    (visitList_ren (fo := fo) hr hb es)
    (k' := fun ops => (Analyzer.resolveInstruction fo (a.scopes.map (renScope r)) n ops).bind fun i =>
      (visitList fo (a.scopes.map (renScope r)) (renExprs r ps)).bind fun ps =>
      (resolveParameters fo n ps).bind fun ps => (checkNonGateInstruction n i.2).bind fun _ => .ok (i, ps))
    (k := fun ops => (Analyzer.resolveInstruction fo a.scopes n ops).bind fun i =>
      (visitList fo a.scopes ps).bind fun ps =>
      (resolveParameters fo n ps).bind fun ps => (checkNonGateInstruction n i.2).bind fun _ => .ok (i, ps))
    (fun vs => ren_bind (resolveInstruction_ren _ _ vs) fun i => ren_bind (visitList_ren hr hb ps) fun ws =>
      ren_bind (resolveParameters_ren n ws) fun us => ren_bind (checkNonGateInstruction_ren n i.2) fun _ => rfl)
  simp only [hs] at h ⊢
  rw [h]
  cases hx : (visitList fo a.scopes es).bind fun ops =>
      (Analyzer.resolveInstruction fo a.scopes n ops).bind fun i =>
      (visitList fo a.scopes ps).bind fun ps =>
      (resolveParameters fo n ps).bind fun ps => (checkNonGateInstruction n i.2).bind fun _ => Res.ok (i, ps) with
  | ok x =>
    obtain ⟨i, qs⟩ := x
    refine mapE_bind (visitAnnotations_ren hr hb as) fun ra _ => ?_
    refine after_ren ?_
    exact catchInto_ren (addStatement_ren a (.nonGate i.1 n i.2 qs ra.2 l)) l
  | err e => simp [Res.mapE, renLog, renErr_context]
  | _ => rfl

theorem visitAsmDeclaration_ren {a : Analyzer F} (hr : Inj r) (hb : BlindNScopes r a.scopes) (l : Option Loc) (as : List (AnnotationData F))
    (n c : Str) :
    visitAsmDeclaration fo (renAnalyzer r a) l (as.map (renAnnotation r)) n c
      = (visitAsmDeclaration fo a l as n c).mapE (renLog r (renAnalyzer r)) := by
  unfold visitAsmDeclaration
  refine mapE_bind (visitAnnotations_ren hr hb as) fun ra _ => ?_
  refine after_ren ?_
  exact catchInto_ren (addStatement_ren a (.asm n c ra.2 l)) l

theorem visitStatement_ren {a : Analyzer F} (hr : Inj r) (hb : BlindNScopes r a.scopes) (s : Stmt F) :
    visitStatement fo (renAnalyzer r a) (renStmt r s) = (visitStatement fo a s).mapE (renLog r (renAnalyzer r)) := by
  cases s with
  | var l as n t => exact visitVariable_ren hr hb l as n t
  | gate l as g es => exact visitGateInstruction_ren hr hb l as g es
  | nonGate l as n es ps => exact visitNonGateInstruction_ren hr hb l as n es ps
  | asm l as n c => exact visitAsmDeclaration_ren hr hb l as n c

/-! ## Programs -/

theorem visitVersion_ren (v : Version) (n : VersionAst) : visitVersion v n = renLog r id (visitVersion v n) := by
  unfold visitVersion
  simp only
  split
  · rfl
  · split
    · rfl
    · rfl

theorem valueOk_ren (vars : List (SVariable F)) (v : Value F) :
    SProgram.valueOk (vars.map (renSVariable r)) (renValue r v) = SProgram.valueOk vars v := by
  have h : (vars.map (renSVariable r)).map (·.uid) = vars.map (·.uid) := by simp [Function.comp_def, renSVariable]
  obtain ⟨n, l⟩ := v
  cases n <;> simp only [SProgram.valueOk, renValue, renNode, renLink, h, List.isEmpty_map]

theorem annotationValues_ren (as : List (SAnnotation F)) :
    SProgram.annotationValues (as.map (renSAnnotation r)) = (SProgram.annotationValues as).map (renValue r) := by
  induction as with
  | nil => rfl
  | cons a as ih =>
    simp only [SProgram.annotationValues, List.map_cons, List.flatMap_cons, List.map_append] at ih ⊢
    rw [ih]; rfl

theorem gateValues_ren (g : SGate F) : SProgram.gateValues (renSGate r g) = (SProgram.gateValues g).map (renValue r) := by
  match g with
  | .mk n none ps as l => simp [renSGate, SProgram.gateValues, annotationValues_ren]
  | .mk n (some g) ps as l => simp [renSGate, SProgram.gateValues, annotationValues_ren, gateValues_ren g]

theorem statementValues_ren (s : SStatement F) :
    SProgram.statementValues (renSStatement r s) = (SProgram.statementValues s).map (renValue r) := by
  cases s <;> simp [renSStatement, SProgram.statementValues, annotationValues_ren, gateValues_ren]

theorem values_ren (p : SProgram F) : (renSProgram r p).values = p.values.map (renValue r) := by
  simp only [SProgram.values, renSProgram, List.map_append, List.map_flatMap, List.flatMap_map, statementValues_ren]
  simp only [renSVariable, annotationValues_ren]

theorem wellFormed_ren (p : SProgram F) : (renSProgram r p).wellFormed = p.wellFormed := by
  unfold SProgram.wellFormed
  rw [values_ren, List.all_map]
  congr 1
  funext v
  exact valueOk_ren _ v

end Qasm
