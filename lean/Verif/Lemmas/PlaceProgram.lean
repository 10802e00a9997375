import Verif.Lemmas.Place
import Verif.Lemmas.StripProgram
/-!
# Helper lemmas: statements and programs elsewhere
-/

namespace Qasm
namespace Place

open Spec Sem

variable {F α β γ δ : Type} {fo : FloatOps F} {m : Loc → Loc}

/-- Joining locations and changing positions can be exchanged. -/
def Joins (m : Loc → Loc) : Prop := ∀ l k : Loc,
  m ((l.expandToInclude k.range.first).expandToInclude k.range.last)
    = ((m l).expandToInclude (m k).range.first).expandToInclude (m k).range.last

/-- The log elsewhere. -/
def placeLog (m : Loc → Loc) (f : α → β) (x : Log α) : Log β := (x.1.map (placeErr m), f x.2)

theorem after_place {es : List Err} {f : α → β} {r : Res Empty (Log α)} {r' : Res Empty (Log β)} (h : r' = r.mapE (placeLog m f)) :
    Log.after (es.map (placeErr m)) r' = (Log.after es r).mapE (placeLog m f) := by
  subst h
  cases r <;> simp [Log.after, Res.mapE, placeLog]

/-! ## Annotations -/

theorem visitAnnotationOperands_place {ss : List (Scope F)} (hb : CarriesScopes m ss) (l : Option Loc) (es : List (Expr F)) :
    visitAnnotationOperands fo (ss.map (placeScope m)) (l.map m) (placeExprs m es)
      = (visitAnnotationOperands fo ss l es).mapE ((placeLog m) (List.map (placeValue m))) := by
  induction es with
  | nil => rfl
  | cons e es ih =>
    simp only [placeExprs, visitAnnotationOperands, visit_place hb]
    cases visit fo ss e with
    | ok v =>
      refine mapE_bind ih fun r _ => ?_
      rfl
    | err x =>
      refine mapE_bind ih fun r _ => ?_
      simp [Res.mapE, placeLog]
    | _ => rfl

theorem visitAnnotations_place {ss : List (Scope F)} (hb : CarriesScopes m ss) (as : List (AnnotationData F)) :
    visitAnnotations fo (ss.map (placeScope m)) (as.map (placeAnnotation m))
      = (visitAnnotations fo ss as).mapE ((placeLog m) (List.map (placeSAnnotation m))) := by
  induction as with
  | nil => rfl
  | cons a as ih =>
    simp only [List.map_cons, visitAnnotations]
    refine mapE_bind (visitAnnotationOperands_place hb a.loc a.operands) fun r _ => ?_
    refine mapE_bind ih fun rs _ => ?_
    simp [Res.mapE, placeLog, placeSAnnotation, placeAnnotation]

/-! ## Gates -/

theorem terminalName_place (g : SGate F) : gateTerminalName (placeSGate m g) = gateTerminalName g := by
  match g with
  | .mk n none ps as l => rfl
  | .mk n (some g) ps as l => exact terminalName_place g

theorem resolutionName_place (g : SGate F) : gateResolutionName (placeSGate m g) = gateResolutionName g := by
  match g with
  | .mk n none ps as l => rfl
  | .mk n (some g) ps as l => simp only [placeSGate, gateResolutionName, terminalName_place]

theorem promoteParameters_place (name cs : Str) (ps : List (Value F)) :
    promoteParameters fo name cs (ps.map (placeValue m)) = (promoteParameters fo name cs ps).place m (List.map (placeValue m)) := by
  induction cs generalizing ps with
  | nil => simp [promoteParameters]
  | cons c cs ih =>
    cases ps with
    | nil => rfl
    | cons p ps =>
      simp only [List.map_cons, promoteParameters]
      cases Types.fromSpecChar c with
      | none => rfl
      | some t =>
        refine place_bind (typeOf_place p) fun tp => ?_
        simp only [id]
        split
        · refine place_bind (promote_place p t) fun o => ?_
          refine place_bind (ih ps) fun rest => ?_
          cases o <;> simp
        · exact congrArg Res.err (mk0_place _)

theorem resolveParameters_place (name : Str) (ps : List (Value F)) :
    resolveParameters fo name (ps.map (placeValue m)) = (resolveParameters fo name ps).place m (List.map (placeValue m)) := by
  unfold resolveParameters
  simp only [List.length_map, List.isEmpty_map]
  split
  · cases InstructionSet.getNonGateParamTypesWithParamCount name ps.length with
    | none =>
      simp only
      split
      · rfl
      · exact congrArg Res.err (mk0_place _)
    | some cs => exact promoteParameters_place name cs ps
  · have hplain : InstructionSet.getInstructionParamTypes name = (InstructionSet.getInstructionParamTypes name).place m id := by
      unfold InstructionSet.getInstructionParamTypes InstructionSet.getNamedGateParamTypes InstructionSet.getNonGateParamTypes
        InstructionSet.getGateModifierParamTypes
      repeat' split
      all_goals first | rfl | exact congrArg Res.err (mk0_place _)
    refine place_bind hplain fun o => ?_
    cases o with
    | none =>
      simp only [id]
      split
      · rfl
      · exact congrArg Res.err (mk0_place _)
    | some cs =>
      simp only [id]
      split
      · exact congrArg Res.err (mk0_place _)
      · exact promoteParameters_place name cs ps

theorem checkGate_place (g : Option (SGate F)) : checkGate (g.map (placeSGate m)) = (checkGate g).place m id := by
  cases g with
  | none => rfl
  | some g =>
    simp only [Option.map_some, checkGate, resolutionName_place]
    split
    · exact congrArg Res.err (mk0_place _)
    · rfl

/-- The outcome of a gate visit elsewhere. -/
def placeExcept (m : Loc → Loc) : Except Err (SGate F) → Except Err (SGate F)
  | .ok g => .ok (placeSGate m g)
  | .error e => .error (placeErr m e)

theorem visitGateRest_place {ss : List (Scope F)} (hb : CarriesScopes m ss) (l : Option Loc) (as : List (AnnotationData F)) (n : Str)
    (g : Option (SGate F)) (ps : List (Expr F)) :
    visitGateRest fo (ss.map (placeScope m)) (l.map m) (as.map (placeAnnotation m)) n (g.map (placeSGate m)) (placeExprs m ps)
      = (visitGateRest fo ss l as n g ps).mapE (placeLog m (placeExcept m)) := by
  unfold visitGateRest
  have h := place_bind (g := List.map (placeValue m)) (visitList_place (fo := fo) hb ps)
    (k' := fun ps => (resolveParameters fo n ps).bind fun ps => (checkGate (g.map (placeSGate m))).bind fun _ => .ok ps)
    (k := fun ps => (resolveParameters fo n ps).bind fun ps => (checkGate g).bind fun _ => .ok ps)
    (fun vs => place_bind (resolveParameters_place n vs) fun ws => place_bind (checkGate_place g) fun _ => rfl)
  rw [h]
  cases (visitList fo ss ps).bind fun ps => (resolveParameters fo n ps).bind fun ps => (checkGate g).bind fun _ => .ok ps with
  | ok vs =>
    refine mapE_bind (visitAnnotations_place hb as) fun r _ => ?_
    cases g <;> rfl
  | err e => simp [Res.mapE, placeLog, placeExcept]
  | _ => rfl

theorem visitGate_place {ss : List (Scope F)} (hb : CarriesScopes m ss) (g : Gate F) :
    visitGate fo (ss.map (placeScope m)) (placeGate m g) = (visitGate fo ss g).mapE (placeLog m (placeExcept m)) := by
  match g with
  | .mk l as n none ps => exact visitGateRest_place hb l as n none ps
  | .mk l as n (some g) ps =>
    simp only [placeGate, visitGate]
    refine mapE_bind (visitGate_place hb g) fun r _ => ?_
    obtain ⟨es, x⟩ := r
    cases x with
    | error e => simp [Res.mapE, placeLog, placeExcept]
    | ok g' => exact after_place (visitGateRest_place hb l as n (some g') ps)

/-! ## Statements -/

theorem qubitCount_place (v : Value F) : qubitCount (placeValue m v) = qubitCount v := by
  obtain ⟨n, l⟩ := v
  cases n <;> simp [qubitCount, placeValue, placeNode]

theorem bitCount_place (v : Value F) : bitCount (placeValue m v) = bitCount v := by
  obtain ⟨n, l⟩ := v
  cases n <;> simp [bitCount, placeValue, placeNode]

theorem qubitCounts_place (vs : List (Value F)) : (vs.map (placeValue m)).map qubitCount = vs.map qubitCount := by
  simp [Function.comp_def, qubitCount_place]

theorem bitCounts_place (vs : List (Value F)) : (vs.map (placeValue m)).map bitCount = vs.map bitCount := by
  simp [Function.comp_def, bitCount_place]

theorem checkGateInstruction_place (vs : List (Value F)) :
    checkGateInstruction (vs.map (placeValue m)) = (checkGateInstruction vs).place m id := by
  unfold checkGateInstruction
  rw [qubitCounts_place]
  split
  · exact congrArg Res.err (mk0_place _)
  · rfl

theorem checkNonGateInstruction_place (n : Str) (vs : List (Value F)) :
    checkNonGateInstruction n (vs.map (placeValue m)) = (checkNonGateInstruction n vs).place m id := by
  unfold checkNonGateInstruction
  rw [qubitCounts_place, bitCounts_place]
  split
  · split
    · exact congrArg Res.err (mk0_place _)
    · rfl
  · rfl

theorem blockLoc_place (hj : Joins m) (b s : Option Loc) :
    Analyzer.blockLoc (b.map m) (s.map m) = (Analyzer.blockLoc b s).map m := by
  cases b <;> cases s <;> simp [Analyzer.blockLoc, hj _ _]

theorem addStatement_place (hj : Joins m) (a : Analyzer F) (st : SStatement F) :
    (placeAnalyzer m a).addStatement (placeSStatement m st) = (a.addStatement st).place m (placeAnalyzer m) := by
  obtain ⟨v, ss, u⟩ := a
  cases ss with
  | nil => rfl
  | cons s ss =>
    have : (placeSStatement m st).loc = st.loc.map m := by cases st <;> rfl
    simp [Analyzer.addStatement, Analyzer.modifyCurrent, placeAnalyzer, placeScope, this, blockLoc_place hj]

theorem addVariable_place (a : Analyzer F) (v : SVariable F) :
    (placeAnalyzer m a).addVariable (placeSVariable m v) = (a.addVariable v).place m (placeAnalyzer m) := by
  obtain ⟨_, ss, u⟩ := a
  cases ss with
  | nil => rfl
  | cons s ss => simp [Analyzer.addVariable, Analyzer.modifyCurrent, placeAnalyzer, placeScope]

theorem registerVariable_place (a : Analyzer F) (n : Str) (v : Value F) :
    (placeAnalyzer m a).registerVariable n (placeValue m v) = (a.registerVariable n v).place m (placeAnalyzer m) := by
  obtain ⟨_, ss, u⟩ := a
  cases ss with
  | nil => rfl
  | cons s ss =>
    simp only [Analyzer.registerVariable, Analyzer.modifyCurrent, placeAnalyzer, List.map_cons]
    refine place_bind (f := (placeScope m)) (place_bind (f := List.map fun e => (e.1, (placeValue m) e.2)) ?_ fun t => ?_) fun s' => ?_
    · simp only [VariableTable.add, placeScope, varFind_place]
      cases VariableTable.find s.variableTable n with
      | none => rfl
      | some _ => exact congrArg Res.err (mk0_place _)
    · rfl
    · rfl

theorem catchInto_place {a : Analyzer F} {r r' : Res Err (Analyzer F)} (h : r' = r.place m (placeAnalyzer m)) (l : Option Loc) :
    catchInto (placeAnalyzer m a) (l.map m) r' = (catchInto a l r).mapE (placeLog m (placeAnalyzer m)) := by
  subst h
  cases r <;> simp [catchInto, Res.mapE, placeLog]

theorem buildSemanticType_place (t : TypeAst) : buildSemanticType t = (buildSemanticType t).place m id := by
  cases h : buildSemanticType t with
  | err e =>
    have : e.location = none := by
      unfold buildSemanticType at h
      simp only at h
      repeat' split at h
      all_goals first | (injection h with h; subst h; rfl) | simp at h
    obtain ⟨x, l⟩ := e
    simp only at this
    subst this
    rfl
  | _ => rfl

theorem visitVariable_place {a : Analyzer F} (hb : CarriesScopes m a.scopes) (l : Option Loc) (as : List (AnnotationData F)) (n : Ident)
    (t : TypeAst) :
    visitVariable fo (placeAnalyzer m a) (l.map m) (as.map (placeAnnotation m)) ⟨n.name, n.loc.map m⟩ ⟨t.name, t.size, t.loc.map m⟩
      = (visitVariable fo a l as n t).mapE (placeLog m (placeAnalyzer m)) := by
  unfold visitVariable
  have hx : buildSemanticType ⟨t.name, t.size, t.loc.map m⟩ = buildSemanticType t := rfl
  rw [hx]
  cases ht : buildSemanticType t with
  | ok ty =>
    refine mapE_bind (visitAnnotations_place hb as) fun r _ => ?_
    refine after_place ?_
    have h := addVariable_place (m := m) { a with nextUid := a.nextUid + 1 } ⟨a.nextUid, n.name, ty, r.2, n.loc⟩
    simp only [placeLog]
    have e : ({ placeAnalyzer m a with nextUid := (placeAnalyzer m a).nextUid + 1 } : Analyzer F)
        = placeAnalyzer m { a with nextUid := a.nextUid + 1 } := rfl
    have e' : (⟨(placeAnalyzer m a).nextUid, n.name, ty, r.2.map (placeSAnnotation m), n.loc.map m⟩ : SVariable F)
        = placeSVariable m ⟨a.nextUid, n.name, ty, r.2, n.loc⟩ := rfl
    rw [e, e', h]
    cases ha : Analyzer.addVariable { a with nextUid := a.nextUid + 1 } ⟨a.nextUid, n.name, ty, r.2, n.loc⟩ with
    | ok a1 => exact catchInto_place (a := a1) (registerVariable_place a1 n.name ⟨.variableRef ⟨a.nextUid, n.name, ty⟩, none⟩) l
    | err x => simp [Res.mapE, placeLog]
    | _ => rfl
  | err x =>
    have hx := buildSemanticType_place (m := m) t
    rw [ht] at hx
    simp only [Res.place, Res.err.injEq] at hx
    simp only [Res.mapE, placeLog, List.map_cons, List.map_nil, ← place_context, ← hx]
  | _ => rfl

theorem visitGateInstruction_place (hj : Joins m) {a : Analyzer F} (hb : CarriesScopes m a.scopes) (l : Option Loc) (as : List (AnnotationData F))
    (g : Gate F) (es : List (Expr F)) :
    visitGateInstruction fo (placeAnalyzer m a) (l.map m) (as.map (placeAnnotation m)) (placeGate m g) (placeExprs m es)
      = (visitGateInstruction fo a l as g es).mapE (placeLog m (placeAnalyzer m)) := by
  unfold visitGateInstruction
  refine mapE_bind (visitGate_place hb g) fun r _ => ?_
  refine after_place ?_
  obtain ⟨ers, x⟩ := r
  cases x with
  | error e => simp [Res.mapE, placeLog, placeExcept]
  | ok g' =>
    simp only [placeLog, placeExcept, resolutionName_place]
    have h := place_bind (g := (placeMatch m)) (visitList_place (fo := fo) hb es)
      (k' := fun ops => (Analyzer.resolveInstruction fo (placeAnalyzer m a).scopes (gateResolutionName g') ops).bind fun i =>
          (checkGateInstruction i.2).bind fun _ => .ok i)
      (k := fun ops => (Analyzer.resolveInstruction fo a.scopes (gateResolutionName g') ops).bind fun i =>
          (checkGateInstruction i.2).bind fun _ => .ok i)
      (fun vs => place_bind (resolveInstruction_place _ _ vs) fun i => place_bind (checkGateInstruction_place i.2) fun _ => rfl)
    have hs : (placeAnalyzer m a).scopes = a.scopes.map (placeScope m) := rfl
    simp only [hs] at h ⊢
    rw [h]
    cases hx : (visitList fo a.scopes es).bind fun ops =>
        (Analyzer.resolveInstruction fo a.scopes (gateResolutionName g') ops).bind fun i =>
          (checkGateInstruction i.2).bind fun _ => Res.ok i with
    | ok i =>
      refine mapE_bind (visitAnnotations_place hb as) fun ra _ => ?_
      refine after_place ?_
      exact catchInto_place (addStatement_place hj a (.gate i.1 g' i.2 ra.2 l)) l
    | err e => simp [Res.mapE, placeLog]
    | _ => rfl

theorem visitNonGateInstruction_place (hj : Joins m) {a : Analyzer F} (hb : CarriesScopes m a.scopes) (l : Option Loc) (as : List (AnnotationData F))
    (n : Str) (es ps : List (Expr F)) :
    visitNonGateInstruction fo (placeAnalyzer m a) (l.map m) (as.map (placeAnnotation m)) n (placeExprs m es) (placeExprs m ps)
      = (visitNonGateInstruction fo a l as n es ps).mapE (placeLog m (placeAnalyzer m)) := by
  unfold visitNonGateInstruction
  have hs : (placeAnalyzer m a).scopes = a.scopes.map (placeScope m) := rfl
  have h := place_bind (g := fun x : (Instruction × List (Value F)) × List (Value F) => ((placeMatch m) x.1, x.2.map (placeValue m)))
    (visitList_place (fo := fo) hb es)
    (k' := fun ops => (Analyzer.resolveInstruction fo (a.scopes.map (placeScope m)) n ops).bind fun i =>
      (visitList fo (a.scopes.map (placeScope m)) (placeExprs m ps)).bind fun ps =>
      (resolveParameters fo n ps).bind fun ps => (checkNonGateInstruction n i.2).bind fun _ => .ok (i, ps))
    (k := fun ops => (Analyzer.resolveInstruction fo a.scopes n ops).bind fun i =>
      (visitList fo a.scopes ps).bind fun ps =>
      (resolveParameters fo n ps).bind fun ps => (checkNonGateInstruction n i.2).bind fun _ => .ok (i, ps))
    (fun vs => place_bind (resolveInstruction_place _ _ vs) fun i => place_bind (visitList_place hb ps) fun ws =>
      place_bind (resolveParameters_place n ws) fun us => place_bind (checkNonGateInstruction_place n i.2) fun _ => rfl)
  simp only [hs] at h ⊢
  rw [h]
  cases hx : (visitList fo a.scopes es).bind fun ops =>
      (Analyzer.resolveInstruction fo a.scopes n ops).bind fun i =>
      (visitList fo a.scopes ps).bind fun ps =>
      (resolveParameters fo n ps).bind fun ps => (checkNonGateInstruction n i.2).bind fun _ => Res.ok (i, ps) with
  | ok x =>
    obtain ⟨i, qs⟩ := x
    refine mapE_bind (visitAnnotations_place hb as) fun ra _ => ?_
    refine after_place ?_
    exact catchInto_place (addStatement_place hj a (.nonGate i.1 n i.2 qs ra.2 l)) l
  | err e => simp [Res.mapE, placeLog]
  | _ => rfl

theorem visitAsmDeclaration_place (hj : Joins m) {a : Analyzer F} (hb : CarriesScopes m a.scopes) (l : Option Loc) (as : List (AnnotationData F))
    (n c : Str) :
    visitAsmDeclaration fo (placeAnalyzer m a) (l.map m) (as.map (placeAnnotation m)) n c
      = (visitAsmDeclaration fo a l as n c).mapE (placeLog m (placeAnalyzer m)) := by
  unfold visitAsmDeclaration
  refine mapE_bind (visitAnnotations_place hb as) fun ra _ => ?_
  refine after_place ?_
  exact catchInto_place (addStatement_place hj a (.asm n c ra.2 l)) l

theorem visitStatement_place (hj : Joins m) {a : Analyzer F} (hb : CarriesScopes m a.scopes) (s : Stmt F) :
    visitStatement fo (placeAnalyzer m a) (placeStmt m s) = (visitStatement fo a s).mapE (placeLog m (placeAnalyzer m)) := by
  cases s with
  | var l as n t => exact visitVariable_place hb l as n t
  | gate l as g es => exact visitGateInstruction_place hj hb l as g es
  | nonGate l as n es ps => exact visitNonGateInstruction_place hj hb l as n es ps
  | asm l as n c => exact visitAsmDeclaration_place hj hb l as n c

/-! ## Programs -/

theorem visitVersion_place (v : Version) (n : VersionAst) :
    visitVersion v ⟨n.items, n.loc.map m⟩ = placeLog m (fun x : SVersion => ⟨x.items, x.loc.map m⟩) (visitVersion v n) := by
  unfold visitVersion
  simp only
  split
  · simp [placeLog, placeErr, Err.mk0, Err.mkNode, Err.context]
  · split
    · simp [placeLog, placeErr, Err.mk0, Err.mkNode, Err.context]
    · rfl

theorem valueOk_place (vars : List (SVariable F)) (v : Value F) :
    SProgram.valueOk (vars.map (placeSVariable m)) (placeValue m v) = SProgram.valueOk vars v := by
  have h : (vars.map (placeSVariable m)).map (·.uid) = vars.map (·.uid) := by simp [Function.comp_def, placeSVariable]
  obtain ⟨n, l⟩ := v
  cases n <;> simp only [SProgram.valueOk, placeValue, placeNode, h, List.isEmpty_map]

theorem annotationValues_place (as : List (SAnnotation F)) :
    SProgram.annotationValues (as.map (placeSAnnotation m)) = (SProgram.annotationValues as).map (placeValue m) := by
  induction as with
  | nil => rfl
  | cons a as ih =>
    simp only [SProgram.annotationValues, List.map_cons, List.flatMap_cons, List.map_append] at ih ⊢
    rw [ih]; rfl

theorem gateValues_place (g : SGate F) : SProgram.gateValues (placeSGate m g) = (SProgram.gateValues g).map (placeValue m) := by
  match g with
  | .mk n none ps as l => simp [placeSGate, SProgram.gateValues, annotationValues_place]
  | .mk n (some g) ps as l => simp [placeSGate, SProgram.gateValues, annotationValues_place, gateValues_place g]

theorem statementValues_place (s : SStatement F) :
    SProgram.statementValues (placeSStatement m s) = (SProgram.statementValues s).map (placeValue m) := by
  cases s <;> simp [placeSStatement, SProgram.statementValues, annotationValues_place, gateValues_place]

theorem values_place (p : SProgram F) : (placeSProgram m p).values = p.values.map (placeValue m) := by
  simp only [SProgram.values, placeSProgram, List.map_append, List.map_flatMap, List.flatMap_map, statementValues_place]
  simp only [placeSVariable, annotationValues_place]

theorem wellFormed_place (p : SProgram F) : (placeSProgram m p).wellFormed = p.wellFormed := by
  unfold SProgram.wellFormed
  rw [values_place, List.all_map]
  congr 1
  funext v
  exact valueOk_place _ v

end Place
end Qasm
