import Verif.Lemmas.Strip
/-!
# Helper lemmas: statements and programs without positions
-/

namespace Qasm

open Spec Sem

variable {F α β γ δ : Type} {fo : FloatOps F}

/-- The outcome with the value changed. -/
def Res.mapE (f : α → β) : Res Empty α → Res Empty β
  | .ok a => .ok (f a)
  | .err e => .err e
  | .exn c => .exn c
  | .ub => .ub

theorem mapE_bind {r : Res Empty α} {f : α → γ} {r' : Res Empty γ} {k : α → Res Empty β} {g : β → δ} {k' : γ → Res Empty δ}
    (hr : r' = r.mapE f) (hk : ∀ a, r = .ok a → k' (f a) = (k a).mapE g) : r'.bind k' = (r.bind k).mapE g := by
  subst hr
  cases r <;> simp [Res.mapE, hk]

/-- The error without position. -/
def stripErr (e : Err) : Err := ⟨e.message, none⟩

/-- The log without positions. -/
def stripLog (f : α → β) (x : Log α) : Log β := (x.1.map stripErr, f x.2)

theorem after_strip {es : List Err} {f : α → β} {r : Res Empty (Log α)} {r' : Res Empty (Log β)} (h : r' = r.mapE (stripLog f)) :
    Log.after (es.map stripErr) r' = (Log.after es r).mapE (stripLog f) := by
  subst h
  cases r <;> simp [Log.after, Res.mapE, stripLog]

@[simp] theorem stripErr_context (e : Err) : (stripErr e).context none = stripErr e := rfl

theorem context_strip (e : Err) (l : Option Loc) : (⟨e.message, none⟩ : Err).context none = stripErr (e.context l) := by
  simp [stripErr]

/-! ## Annotations -/

theorem visitAnnotationOperands_strip {ss : List (Scope F)} (hb : BlindScopes ss) (l : Option Loc) (es : List (Expr F)) :
    visitAnnotationOperands fo (ss.map stripScope) none (stripExprs es)
      = (visitAnnotationOperands fo ss l es).mapE (stripLog (List.map stripValue)) := by
  induction es with
  | nil => rfl
  | cons e es ih =>
    simp only [stripExprs, visitAnnotationOperands, visit_strip hb]
    cases visit fo ss e with
    | ok v =>
      refine mapE_bind ih fun r _ => ?_
      rfl
    | err x =>
      refine mapE_bind ih fun r _ => ?_
      simp [Res.mapE, stripLog, stripErr]
    | _ => rfl

theorem visitAnnotations_strip {ss : List (Scope F)} (hb : BlindScopes ss) (as : List (AnnotationData F)) :
    visitAnnotations fo (ss.map stripScope) (as.map stripAnnotation)
      = (visitAnnotations fo ss as).mapE (stripLog (List.map stripSAnnotation)) := by
  induction as with
  | nil => rfl
  | cons a as ih =>
    simp only [List.map_cons, visitAnnotations]
    refine mapE_bind (visitAnnotationOperands_strip hb a.loc a.operands) fun r _ => ?_
    refine mapE_bind ih fun rs _ => ?_
    simp [Res.mapE, stripLog, stripSAnnotation, stripAnnotation]

/-! ## Gates -/

theorem terminalName_strip (g : SGate F) : gateTerminalName (stripSGate g) = gateTerminalName g := by
  match g with
  | .mk n none ps as l => rfl
  | .mk n (some g) ps as l => exact terminalName_strip g

theorem resolutionName_strip (g : SGate F) : gateResolutionName (stripSGate g) = gateResolutionName g := by
  match g with
  | .mk n none ps as l => rfl
  | .mk n (some g) ps as l => simp only [stripSGate, gateResolutionName, terminalName_strip]

theorem promoteParameters_strip (name cs : Str) (ps : List (Value F)) :
    promoteParameters fo name cs (ps.map stripValue) = (promoteParameters fo name cs ps).strip (List.map stripValue) := by
  induction cs generalizing ps with
  | nil => simp [promoteParameters]
  | cons c cs ih =>
    cases ps with
    | nil => rfl
    | cons p ps =>
      simp only [List.map_cons, promoteParameters]
      cases Types.fromSpecChar c with
      | none => rfl
      | some t =>
        refine strip_bind (typeOf_strip p) fun tp => ?_
        simp only [id]
        split
        · refine strip_bind (promote_strip p t) fun o => ?_
          refine strip_bind (ih ps) fun rest => ?_
          cases o <;> simp
        · exact congrArg Res.err (mk0_strip _)

theorem resolveParameters_strip (name : Str) (ps : List (Value F)) :
    resolveParameters fo name (ps.map stripValue) = (resolveParameters fo name ps).strip (List.map stripValue) := by
  unfold resolveParameters
  simp only [List.length_map, List.isEmpty_map]
  split
  · cases InstructionSet.getNonGateParamTypesWithParamCount name ps.length with
    | none =>
      simp only
      split
      · rfl
      · exact congrArg Res.err (mk0_strip _)
    | some cs => exact promoteParameters_strip name cs ps
  · have hplain : InstructionSet.getInstructionParamTypes name = (InstructionSet.getInstructionParamTypes name).strip id := by
      unfold InstructionSet.getInstructionParamTypes InstructionSet.getNamedGateParamTypes InstructionSet.getNonGateParamTypes
        InstructionSet.getGateModifierParamTypes
      repeat' split
      all_goals first | rfl | exact congrArg Res.err (mk0_strip _)
    refine strip_bind hplain fun o => ?_
    cases o with
    | none =>
      simp only [id]
      split
      · rfl
      · exact congrArg Res.err (mk0_strip _)
    | some cs =>
      simp only [id]
      split
      · exact congrArg Res.err (mk0_strip _)
      · exact promoteParameters_strip name cs ps

theorem checkGate_strip (g : Option (SGate F)) : checkGate (g.map stripSGate) = (checkGate g).strip id := by
  cases g with
  | none => rfl
  | some g =>
    simp only [Option.map_some, checkGate, resolutionName_strip]
    split
    · exact congrArg Res.err (mk0_strip _)
    · rfl

/-- The outcome of a gate visit without positions. -/
def stripExcept : Except Err (SGate F) → Except Err (SGate F)
  | .ok g => .ok (stripSGate g)
  | .error e => .error (stripErr e)

theorem visitGateRest_strip {ss : List (Scope F)} (hb : BlindScopes ss) (l : Option Loc) (as : List (AnnotationData F)) (n : Str)
    (g : Option (SGate F)) (ps : List (Expr F)) :
    visitGateRest fo (ss.map stripScope) none (as.map stripAnnotation) n (g.map stripSGate) (stripExprs ps)
      = (visitGateRest fo ss l as n g ps).mapE (stripLog stripExcept) := by
  unfold visitGateRest
  have h := strip_bind (g := List.map stripValue) (visitList_strip (fo := fo) hb ps)
    (k' := fun ps => (resolveParameters fo n ps).bind fun ps => (checkGate (g.map stripSGate)).bind fun _ => .ok ps)
    (k := fun ps => (resolveParameters fo n ps).bind fun ps => (checkGate g).bind fun _ => .ok ps)
    (fun vs => strip_bind (resolveParameters_strip n vs) fun ws => strip_bind (checkGate_strip g) fun _ => rfl)
  rw [h]
  cases (visitList fo ss ps).bind fun ps => (resolveParameters fo n ps).bind fun ps => (checkGate g).bind fun _ => .ok ps with
  | ok vs =>
    refine mapE_bind (visitAnnotations_strip hb as) fun r _ => ?_
    cases g <;> rfl
  | err e => simp [Res.mapE, stripLog, stripExcept, stripErr]
  | _ => rfl

theorem visitGate_strip {ss : List (Scope F)} (hb : BlindScopes ss) (g : Gate F) :
    visitGate fo (ss.map stripScope) (stripGate g) = (visitGate fo ss g).mapE (stripLog stripExcept) := by
  match g with
  | .mk l as n none ps => exact visitGateRest_strip hb l as n none ps
  | .mk l as n (some g) ps =>
    simp only [stripGate, visitGate]
    refine mapE_bind (visitGate_strip hb g) fun r _ => ?_
    obtain ⟨es, x⟩ := r
    cases x with
    | error e => simp [Res.mapE, stripLog, stripExcept, stripErr]
    | ok g' => exact after_strip (visitGateRest_strip hb l as n (some g') ps)

/-! ## Statements -/

theorem qubitCount_strip (v : Value F) : qubitCount (stripValue v) = qubitCount v := by
  obtain ⟨n, l⟩ := v
  cases n <;> simp [qubitCount, stripValue, stripNode]

theorem bitCount_strip (v : Value F) : bitCount (stripValue v) = bitCount v := by
  obtain ⟨n, l⟩ := v
  cases n <;> simp [bitCount, stripValue, stripNode]

theorem qubitCounts_strip (vs : List (Value F)) : (vs.map stripValue).map qubitCount = vs.map qubitCount := by
  simp [Function.comp_def, qubitCount_strip]

theorem bitCounts_strip (vs : List (Value F)) : (vs.map stripValue).map bitCount = vs.map bitCount := by
  simp [Function.comp_def, bitCount_strip]

theorem checkGateInstruction_strip (vs : List (Value F)) :
    checkGateInstruction (vs.map stripValue) = (checkGateInstruction vs).strip id := by
  unfold checkGateInstruction
  rw [qubitCounts_strip]
  split
  · exact congrArg Res.err (mk0_strip _)
  · rfl

theorem checkNonGateInstruction_strip (n : Str) (vs : List (Value F)) :
    checkNonGateInstruction n (vs.map stripValue) = (checkNonGateInstruction n vs).strip id := by
  unfold checkNonGateInstruction
  rw [qubitCounts_strip, bitCounts_strip]
  split
  · split
    · exact congrArg Res.err (mk0_strip _)
    · rfl
  · rfl

theorem addStatement_strip (a : Analyzer F) (st : SStatement F) :
    (stripAnalyzer a).addStatement (stripSStatement st) = (a.addStatement st).strip stripAnalyzer := by
  obtain ⟨v, ss, u⟩ := a
  cases ss with
  | nil => rfl
  | cons s ss =>
    have : (stripSStatement st).loc = none := by cases st <;> rfl
    simp [Analyzer.addStatement, Analyzer.modifyCurrent, stripAnalyzer, stripScope, this, Analyzer.blockLoc]

theorem addVariable_strip (a : Analyzer F) (v : SVariable F) :
    (stripAnalyzer a).addVariable (stripSVariable v) = (a.addVariable v).strip stripAnalyzer := by
  obtain ⟨_, ss, u⟩ := a
  cases ss with
  | nil => rfl
  | cons s ss => simp [Analyzer.addVariable, Analyzer.modifyCurrent, stripAnalyzer, stripScope]

theorem registerVariable_strip (a : Analyzer F) (n : Str) (v : Value F) :
    (stripAnalyzer a).registerVariable n (stripValue v) = (a.registerVariable n v).strip stripAnalyzer := by
  obtain ⟨_, ss, u⟩ := a
  cases ss with
  | nil => rfl
  | cons s ss =>
    simp only [Analyzer.registerVariable, Analyzer.modifyCurrent, stripAnalyzer, List.map_cons]
    refine strip_bind (f := stripScope) (strip_bind (f := List.map fun e => (e.1, stripValue e.2)) ?_ fun t => ?_) fun s' => ?_
    · simp only [VariableTable.add, stripScope, varFind_strip]
      cases VariableTable.find s.variableTable n with
      | none => rfl
      | some _ => exact congrArg Res.err (mk0_strip _)
    · rfl
    · rfl

theorem catchInto_strip {a : Analyzer F} {r r' : Res Err (Analyzer F)} (h : r' = r.strip stripAnalyzer) (l : Option Loc) :
    catchInto (stripAnalyzer a) none r' = (catchInto a l r).mapE (stripLog stripAnalyzer) := by
  subst h
  cases r <;> simp [catchInto, Res.mapE, stripLog, stripErr]

theorem buildSemanticType_strip (t : TypeAst) : buildSemanticType t = (buildSemanticType t).strip id := by
  cases h : buildSemanticType t with
  | err e =>
    have : e.location = none := by
      unfold buildSemanticType at h
      simp only at h
      repeat' split at h
      all_goals first | (injection h with h; subst h; rfl) | simp at h
    obtain ⟨m, l⟩ := e
    simp_all
  | _ => rfl

theorem visitVariable_strip {a : Analyzer F} (hb : BlindScopes a.scopes) (l : Option Loc) (as : List (AnnotationData F)) (n : Ident)
    (t : TypeAst) :
    visitVariable fo (stripAnalyzer a) none (as.map stripAnnotation) ⟨n.name, none⟩ t
      = (visitVariable fo a l as n t).mapE (stripLog stripAnalyzer) := by
  unfold visitVariable
  cases ht : buildSemanticType t with
  | ok ty =>
    refine mapE_bind (visitAnnotations_strip hb as) fun r _ => ?_
    refine after_strip ?_
    have h := addVariable_strip { a with nextUid := a.nextUid + 1 } ⟨a.nextUid, n.name, ty, r.2, n.loc⟩
    simp only [stripLog]
    have e : ({ stripAnalyzer a with nextUid := (stripAnalyzer a).nextUid + 1 } : Analyzer F)
        = stripAnalyzer { a with nextUid := a.nextUid + 1 } := rfl
    have e' : (⟨(stripAnalyzer a).nextUid, n.name, ty, r.2.map stripSAnnotation, none⟩ : SVariable F)
        = stripSVariable ⟨a.nextUid, n.name, ty, r.2, n.loc⟩ := rfl
    rw [e, e', h]
    cases ha : Analyzer.addVariable { a with nextUid := a.nextUid + 1 } ⟨a.nextUid, n.name, ty, r.2, n.loc⟩ with
    | ok a1 => exact catchInto_strip (a := a1) (registerVariable_strip a1 n.name ⟨.variableRef ⟨a.nextUid, n.name, ty⟩, none⟩) l
    | err x => simp [Res.mapE, stripLog, stripErr]
    | _ => rfl
  | err x =>
    have hx := buildSemanticType_strip t
    rw [ht] at hx
    simp only [Res.strip, Res.err.injEq] at hx
    simp only [Res.mapE, stripLog, List.map_cons, List.map_nil, stripErr, context_message]
    rw [hx]
    rfl
  | _ => rfl

theorem visitGateInstruction_strip {a : Analyzer F} (hb : BlindScopes a.scopes) (l : Option Loc) (as : List (AnnotationData F))
    (g : Gate F) (es : List (Expr F)) :
    visitGateInstruction fo (stripAnalyzer a) none (as.map stripAnnotation) (stripGate g) (stripExprs es)
      = (visitGateInstruction fo a l as g es).mapE (stripLog stripAnalyzer) := by
  unfold visitGateInstruction
  refine mapE_bind (visitGate_strip hb g) fun r _ => ?_
  refine after_strip ?_
  obtain ⟨ers, x⟩ := r
  cases x with
  | error e => simp [Res.mapE, stripLog, stripErr, stripExcept]
  | ok g' =>
    simp only [stripLog, stripExcept, resolutionName_strip]
    have h := strip_bind (g := stripMatch) (visitList_strip (fo := fo) hb es)
      (k' := fun ops => (Analyzer.resolveInstruction fo (stripAnalyzer a).scopes (gateResolutionName g') ops).bind fun i =>
          (checkGateInstruction i.2).bind fun _ => .ok i)
      (k := fun ops => (Analyzer.resolveInstruction fo a.scopes (gateResolutionName g') ops).bind fun i =>
          (checkGateInstruction i.2).bind fun _ => .ok i)
      (fun vs => strip_bind (resolveInstruction_strip _ _ vs) fun i => strip_bind (checkGateInstruction_strip i.2) fun _ => rfl)
    have hs : (stripAnalyzer a).scopes = a.scopes.map stripScope := rfl
    simp only [hs] at h ⊢
    rw [h]
    cases hx : (visitList fo a.scopes es).bind fun ops =>
        (Analyzer.resolveInstruction fo a.scopes (gateResolutionName g') ops).bind fun i =>
          (checkGateInstruction i.2).bind fun _ => Res.ok i with
    | ok i =>
      refine mapE_bind (visitAnnotations_strip hb as) fun ra _ => ?_
      refine after_strip ?_
      exact catchInto_strip (addStatement_strip a (.gate i.1 g' i.2 ra.2 l)) l
    | err e => simp [Res.mapE, stripLog, stripErr]
    | _ => rfl

theorem visitNonGateInstruction_strip {a : Analyzer F} (hb : BlindScopes a.scopes) (l : Option Loc) (as : List (AnnotationData F))
    (n : Str) (es ps : List (Expr F)) :
    visitNonGateInstruction fo (stripAnalyzer a) none (as.map stripAnnotation) n (stripExprs es) (stripExprs ps)
      = (visitNonGateInstruction fo a l as n es ps).mapE (stripLog stripAnalyzer) := by
  unfold visitNonGateInstruction
  have hs : (stripAnalyzer a).scopes = a.scopes.map stripScope := rfl
  have h := strip_bind (g := fun x : (Instruction × List (Value F)) × List (Value F) => (stripMatch x.1, x.2.map stripValue))
    (visitList_strip (fo := fo) hb es)
    (k' := fun ops => (Analyzer.resolveInstruction fo (a.scopes.map stripScope) n ops).bind fun i =>
      (visitList fo (a.scopes.map stripScope) (stripExprs ps)).bind fun ps =>
      (resolveParameters fo n ps).bind fun ps => (checkNonGateInstruction n i.2).bind fun _ => .ok (i, ps))
    (k := fun ops => (Analyzer.resolveInstruction fo a.scopes n ops).bind fun i =>
      (visitList fo a.scopes ps).bind fun ps =>
      (resolveParameters fo n ps).bind fun ps => (checkNonGateInstruction n i.2).bind fun _ => .ok (i, ps))
    (fun vs => strip_bind (resolveInstruction_strip _ _ vs) fun i => strip_bind (visitList_strip hb ps) fun ws =>
      strip_bind (resolveParameters_strip n ws) fun us => strip_bind (checkNonGateInstruction_strip n i.2) fun _ => rfl)
  simp only [hs] at h ⊢
  rw [h]
  cases hx : (visitList fo a.scopes es).bind fun ops =>
      (Analyzer.resolveInstruction fo a.scopes n ops).bind fun i =>
      (visitList fo a.scopes ps).bind fun ps =>
      (resolveParameters fo n ps).bind fun ps => (checkNonGateInstruction n i.2).bind fun _ => Res.ok (i, ps) with
  | ok x =>
    obtain ⟨i, qs⟩ := x
    refine mapE_bind (visitAnnotations_strip hb as) fun ra _ => ?_
    refine after_strip ?_
    exact catchInto_strip (addStatement_strip a (.nonGate i.1 n i.2 qs ra.2 l)) l
  | err e => simp [Res.mapE, stripLog, stripErr]
  | _ => rfl

theorem visitAsmDeclaration_strip {a : Analyzer F} (hb : BlindScopes a.scopes) (l : Option Loc) (as : List (AnnotationData F))
    (n c : Str) :
    visitAsmDeclaration fo (stripAnalyzer a) none (as.map stripAnnotation) n c
      = (visitAsmDeclaration fo a l as n c).mapE (stripLog stripAnalyzer) := by
  unfold visitAsmDeclaration
  refine mapE_bind (visitAnnotations_strip hb as) fun ra _ => ?_
  refine after_strip ?_
  exact catchInto_strip (addStatement_strip a (.asm n c ra.2 l)) l

theorem visitStatement_strip {a : Analyzer F} (hb : BlindScopes a.scopes) (s : Stmt F) :
    visitStatement fo (stripAnalyzer a) (stripStmt s) = (visitStatement fo a s).mapE (stripLog stripAnalyzer) := by
  cases s with
  | var l as n t => exact visitVariable_strip hb l as n t
  | gate l as g es => exact visitGateInstruction_strip hb l as g es
  | nonGate l as n es ps => exact visitNonGateInstruction_strip hb l as n es ps
  | asm l as n c => exact visitAsmDeclaration_strip hb l as n c

/-! ## Programs -/

theorem visitVersion_strip (v : Version) (n : VersionAst) :
    visitVersion v ⟨n.items, none⟩ = stripLog (fun x : SVersion => ⟨x.items, none⟩) (visitVersion v n) := by
  unfold visitVersion
  simp only
  split
  · simp [stripLog, stripErr, Err.mk0, Err.mkNode, Err.context]
  · split
    · simp [stripLog, stripErr, Err.mk0, Err.mkNode, Err.context]
    · rfl

theorem valueOk_strip (vars : List (SVariable F)) (v : Value F) :
    SProgram.valueOk (vars.map stripSVariable) (stripValue v) = SProgram.valueOk vars v := by
  have h : (vars.map stripSVariable).map (·.uid) = vars.map (·.uid) := by simp [Function.comp_def, stripSVariable]
  obtain ⟨n, l⟩ := v
  cases n <;> simp only [SProgram.valueOk, stripValue, stripNode, h, List.isEmpty_map]

theorem annotationValues_strip (as : List (SAnnotation F)) :
    SProgram.annotationValues (as.map stripSAnnotation) = (SProgram.annotationValues as).map stripValue := by
  induction as with
  | nil => rfl
  | cons a as ih =>
    simp only [SProgram.annotationValues, List.map_cons, List.flatMap_cons, List.map_append] at ih ⊢
    rw [ih]; rfl

theorem gateValues_strip (g : SGate F) : SProgram.gateValues (stripSGate g) = (SProgram.gateValues g).map stripValue := by
  match g with
  | .mk n none ps as l => simp [stripSGate, SProgram.gateValues, annotationValues_strip]
  | .mk n (some g) ps as l => simp [stripSGate, SProgram.gateValues, annotationValues_strip, gateValues_strip g]

theorem statementValues_strip (s : SStatement F) :
    SProgram.statementValues (stripSStatement s) = (SProgram.statementValues s).map stripValue := by
  cases s <;> simp [stripSStatement, SProgram.statementValues, annotationValues_strip, gateValues_strip]

theorem values_strip (p : SProgram F) : (stripSProgram p).values = p.values.map stripValue := by
  simp only [SProgram.values, stripSProgram, List.map_append, List.map_flatMap, List.flatMap_map, statementValues_strip]
  simp only [stripSVariable, annotationValues_strip]

theorem wellFormed_strip (p : SProgram F) : (stripSProgram p).wellFormed = p.wellFormed := by
  unfold SProgram.wellFormed
  rw [values_strip, List.all_map]
  congr 1
  funext v
  exact valueOk_strip _ v

end Qasm
