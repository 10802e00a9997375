import Verif.Lemmas.Move
import Verif.Lemmas.StripProgram
/-!
# Helper lemmas: statements with other identities of variables
-/

namespace Qasm

open Spec Sem

variable {F α β γ δ : Type} {fo : FloatOps F} {f : Nat → Nat} {N : Str → Prop} {ss ss' : List (Scope F)}

/-- The log with the value changed. -/
def movLog (g : α → β) (x : Log α) : Log β := (x.1, g x.2)

theorem after_mov {es : List Err} {g : α → β} {x : Res Empty (Log α)} {x' : Res Empty (Log β)} (h : x' = x.mapE (movLog g)) :
    Log.after es x' = (Log.after es x).mapE (movLog g) := by
  subst h
  cases x <;> simp [Log.after, Res.mapE, movLog]

/-! ## Annotations -/

theorem visitAnnotationOperands_mov (h : Sees f N ss ss') (l : Option Loc) (es : List (Expr F)) (hn : ∀ n ∈ namesList es, N n) :
    visitAnnotationOperands fo ss' l es = (visitAnnotationOperands fo ss l es).mapE (movLog (List.map (moveValue f))) := by
  induction es with
  | nil => rfl
  | cons e es ih =>
    simp only [namesList, List.mem_append] at hn
    simp only [visitAnnotationOperands, visit_mov h e fun n hm => hn n (.inl hm)]
    have ih := ih fun n hm => hn n (.inr hm)
    cases visit fo ss e with
    | ok v => exact mapE_bind ih fun x0 _ => rfl
    | err x => exact mapE_bind ih fun x0 _ => rfl
    | _ => rfl

theorem visitAnnotations_mov (h : Sees f N ss ss') (as : List (AnnotationData F)) (hn : ∀ n ∈ namesAnnotations as, N n) :
    visitAnnotations fo ss' as = (visitAnnotations fo ss as).mapE (movLog (List.map (moveSAnnotation f))) := by
  induction as with
  | nil => rfl
  | cons a as ih =>
    simp only [namesAnnotations, List.mem_append] at hn
    simp only [visitAnnotations]
    refine mapE_bind (visitAnnotationOperands_mov h a.loc a.operands fun n hm => hn n (.inl hm)) fun x0 _ => ?_
    refine mapE_bind (ih fun n hm => hn n (.inr hm)) fun rs _ => ?_
    simp [Res.mapE, movLog, moveSAnnotation]

/-! ## Gates -/

theorem terminalName_mov (g : SGate F) : gateTerminalName (moveSGate f g) = gateTerminalName g := by
  match g with
  | .mk n none ps as l => rfl
  | .mk n (some g) ps as l => exact terminalName_mov g

theorem resolutionName_mov (g : SGate F) : gateResolutionName (moveSGate f g) = gateResolutionName g := by
  match g with
  | .mk n none ps as l => rfl
  | .mk n (some g) ps as l => simp only [moveSGate, gateResolutionName, terminalName_mov]

theorem promoteParameters_mov (name cs : Str) (ps : List (Value F)) :
    promoteParameters fo name cs (ps.map (moveValue f)) = (promoteParameters fo name cs ps).mov (List.map (moveValue f)) := by
  induction cs generalizing ps with
  | nil => simp [promoteParameters]
  | cons c cs ih =>
    cases ps with
    | nil => rfl
    | cons p ps =>
      simp only [List.map_cons, promoteParameters]
      cases Types.fromSpecChar c with
      | none => rfl
      | some t =>
        simp only [typeOf_mov]
        refine mov_bind (mov_id _) fun tp => ?_
        simp only [id]
        split
        · refine mov_bind (promote_mov p t) fun o => ?_
          refine mov_bind (ih ps) fun rest => ?_
          cases o <;> simp
        · rfl

theorem resolveParameters_mov (name : Str) (ps : List (Value F)) :
    resolveParameters fo name (ps.map (moveValue f)) = (resolveParameters fo name ps).mov (List.map (moveValue f)) := by
  unfold resolveParameters
  simp only [List.length_map, List.isEmpty_map]
  split
  · cases InstructionSet.getNonGateParamTypesWithParamCount name ps.length with
    | none =>
      simp only
      split <;> rfl
    | some cs => exact promoteParameters_mov name cs ps
  · refine mov_bind (mov_id _) fun o => ?_
    cases o with
    | none =>
      simp only [id]
      split <;> rfl
    | some cs =>
      simp only [id]
      split
      · rfl
      · exact promoteParameters_mov name cs ps

theorem checkGate_mov (g : Option (SGate F)) : checkGate (g.map (moveSGate f)) = checkGate g := by
  cases g with
  | none => rfl
  | some g => simp only [Option.map_some, checkGate, resolutionName_mov]

/-- The outcome of a gate visit with other identities. -/
def movExcept (f : Nat → Nat) : Except Err (SGate F) → Except Err (SGate F)
  | .ok g => .ok (moveSGate f g)
  | .error e => .error e

theorem visitGateRest_mov (h : Sees f N ss ss') (l : Option Loc) (as : List (AnnotationData F)) (n : Str)
    (g : Option (SGate F)) (ps : List (Expr F)) (h1 : ∀ n ∈ namesAnnotations as, N n) (h2 : ∀ n ∈ namesList ps, N n) :
    visitGateRest fo ss' l as n (g.map (moveSGate f)) ps = (visitGateRest fo ss l as n g ps).mapE (movLog (movExcept f)) := by
  unfold visitGateRest
  have hx := mov_bind (g := List.map (moveValue f)) (visitList_mov (fo := fo) h ps h2)
    (k' := fun ps => (resolveParameters fo n ps).bind fun ps => (checkGate (g.map (moveSGate f))).bind fun _ => .ok ps)
    (k := fun ps => (resolveParameters fo n ps).bind fun ps => (checkGate g).bind fun _ => .ok ps)
    (fun vs => mov_bind (resolveParameters_mov n vs) fun ws => by
      rw [checkGate_mov]; exact mov_bind (mov_id _) fun _ => rfl)
  rw [hx]
  cases (visitList fo ss ps).bind fun ps => (resolveParameters fo n ps).bind fun ps => (checkGate g).bind fun _ => .ok ps with
  | ok vs =>
    refine mapE_bind (visitAnnotations_mov h as h1) fun r _ => ?_
    cases g <;> rfl
  | err e => rfl
  | _ => rfl

theorem visitGate_mov (h : Sees f N ss ss') (g : Gate F) (hn : ∀ n ∈ mentionedGate g, N n) :
    visitGate fo ss' g = (visitGate fo ss g).mapE (movLog (movExcept f)) := by
  match g with
  | .mk l as n none ps =>
    simp only [mentionedGate, List.mem_append] at hn
    exact visitGateRest_mov h l as n none ps (fun n hm => hn n (.inl hm)) (fun n hm => hn n (.inr hm))
  | .mk l as n (some g) ps =>
    simp only [mentionedGate, List.mem_append] at hn
    simp only [visitGate]
    refine mapE_bind (visitGate_mov h g fun n hm => hn n (.inl (.inr hm))) fun r _ => ?_
    obtain ⟨es, x⟩ := r
    cases x with
    | error e => rfl
    | ok g' =>
      exact after_mov (visitGateRest_mov h l as n (some g') ps (fun n hm => hn n (.inl (.inl hm))) (fun n hm => hn n (.inr hm)))

theorem qubitCount_mov (v : Value F) : qubitCount (moveValue f v) = qubitCount v := by
  obtain ⟨n, l⟩ := v
  cases n <;> simp [qubitCount, moveValue, moveNode, moveLink]

theorem bitCount_mov (v : Value F) : bitCount (moveValue f v) = bitCount v := by
  obtain ⟨n, l⟩ := v
  cases n <;> simp [bitCount, moveValue, moveNode, moveLink]

theorem checkGateInstruction_mov (vs : List (Value F)) : checkGateInstruction (vs.map (moveValue f)) = checkGateInstruction vs := by
  unfold checkGateInstruction
  simp only [List.map_map, Function.comp_def, qubitCount_mov]

theorem checkNonGateInstruction_mov (n : Str) (vs : List (Value F)) :
    checkNonGateInstruction n (vs.map (moveValue f)) = checkNonGateInstruction n vs := by
  unfold checkNonGateInstruction
  simp only [List.map_map, Function.comp_def, qubitCount_mov, bitCount_mov]

/-! ## Statements -/

/-- What an analyser knows and has made since it had the statements `S` and variables `V`, against another one since it had `S'` and
`V'`, with identities `f`. If `D`, they go on with the same identities for new variables. -/
structure Moved (f : Nat → Nat) (N : Str → Prop) (D : Prop) (S S' : List (SStatement F)) (V V' : List (SVariable F)) (a a' : Analyzer F) : Prop where
  shape : ∃ sc rest sc' rest', a.scopes = sc :: rest ∧ a'.scopes = sc' :: rest' ∧
    (∀ n, N n → sc'.variableTable.find n = (sc.variableTable.find n).map (moveValue f)) ∧
    (∀ n, N n → Analyzer.resolveVariable rest' n = (Analyzer.resolveVariable rest n).mov (moveValue f)) ∧
    (∃ T, sc.block.statements = S ++ T ∧ sc'.block.statements = S' ++ T.map (moveSStatement f)) ∧ sc'.block.loc = sc.block.loc ∧
    ∃ W, sc.variables = V ++ W ∧ sc'.variables = V' ++ W.map (moveSVariable f)
  functions : a'.scopes.map Scope.fnTable = a.scopes.map Scope.fnTable
  instructions : a'.scopes.map Scope.instructionTable = a.scopes.map Scope.instructionTable
  numbers : ∀ s ∈ a.scopes, NumberTable s.fnTable
  fresh : D → ∀ i, f (a.nextUid + i) = a'.nextUid + i

variable {D : Prop} {S S' : List (SStatement F)} {V V' : List (SVariable F)}

theorem Moved.sees {a a' : Analyzer F} (h : Moved f N D S S' V V' a a') : Sees f N a.scopes a'.scopes := by
  obtain ⟨sc, rest, sc', rest', e, e', h1, h2, -, -, -⟩ := h.shape
  refine ⟨fun n hn => ?_, h.functions, h.instructions, h.numbers⟩
  rw [e, e']
  simp only [Analyzer.resolveVariable, VariableTable.resolve, h1 n hn]
  cases sc.variableTable.find n with
  | none => exact h2 n hn
  | some v => rfl

/-- Two visits that end alike. -/
def EndsAlike {α β : Type} (R : α → β → Prop) : Res Empty (Log α) → Res Empty (Log β) → Prop
  | .ok x, .ok y => y.1 = x.1 ∧ R x.2 y.2
  | .exn c, .exn c' => c' = c
  | .ub, .ub => True
  | _, _ => False

theorem alike_after {α β : Type} {R : α → β → Prop} {es : List Err} {x : Res Empty (Log α)} {y : Res Empty (Log β)} (h : EndsAlike R x y) :
    EndsAlike R (Log.after es x) (Log.after es y) := by
  cases x <;> cases y <;> simp_all [EndsAlike, Log.after]

theorem alike_bind {α β γ δ : Type} {R : γ → δ → Prop} {x : Res Empty α} {g : α → β} {y : Res Empty β} {k : α → Res Empty (Log γ)}
    {k' : β → Res Empty (Log δ)} (h : y = x.mapE g) (hk : ∀ a, EndsAlike R (k a) (k' (g a))) : EndsAlike R (x.bind k) (y.bind k') := by
  subst h
  cases x with
  | ok a => exact hk a
  | err e => exact e.elim
  | exn c => rfl
  | ub => trivial

theorem addStatement_mov {a a' : Analyzer F} (h : Moved f N D S S' V V' a a') (t : SStatement F) (l : Option Loc) :
    EndsAlike (Moved f N D S S' V V') (catchInto a l (a.addStatement t)) (catchInto a' l (a'.addStatement (moveSStatement f t))) := by
  obtain ⟨⟨sc, rest, sc', rest', e, e', h1, h2, ⟨T, h3, h4⟩, hl, h5⟩, h6, h7, h8, h9⟩ := h
  simp only [Analyzer.addStatement, Analyzer.modifyCurrent, e, e', Res.bind_ok, catchInto]
  refine ⟨rfl, ⟨⟨_, _, _, _, rfl, rfl, h1, h2, ⟨T ++ [t], ?_, ?_⟩, ?_, h5⟩, ?_, ?_, ?_, h9⟩⟩
  · simp [h3]
  · simp [h4]
  · have : (moveSStatement f t).loc = t.loc := by cases t <;> rfl
    simp only [hl, this]
  · simpa [e, e'] using h6
  · simpa [e, e'] using h7
  · simpa [e] using h8

theorem visitVariable_mov {a a' : Analyzer F} (h : Moved f N D S S' V V' a a') (l : Option Loc) (as : List (AnnotationData F)) (n : Ident)
    (t : TypeAst) (hd : D) (hn : N n.name) (hs : ∀ m ∈ namesAnnotations as, N m) :
    EndsAlike (Moved f N D S S' V V') (visitVariable fo a l as n t) (visitVariable fo a' l as n t) := by
  unfold visitVariable
  cases buildSemanticType t with
  | err e => exact ⟨rfl, h⟩
  | exn c => rfl
  | ub => trivial
  | ok ty =>
    refine alike_bind (visitAnnotations_mov h.sees as hs) fun r => ?_
    obtain ⟨⟨sc, rest, sc', rest', e, e', h1, h2, h3, hl, ⟨W, h5, h6⟩⟩, h7, h8, h9, h10⟩ := h
    have h10 := h10 hd
    have hu : f a.nextUid = a'.nextUid := h10 0
    have hu' : ∀ i, f (a.nextUid + 1 + i) = a'.nextUid + 1 + i := by
      intro i
      have := h10 (1 + i)
      rwa [← Nat.add_assoc, ← Nat.add_assoc] at this
    refine alike_after ?_
    simp only [Analyzer.addVariable, Analyzer.registerVariable, Analyzer.modifyCurrent, e, e', Res.bind_ok, VariableTable.add, h1 _ hn]
    cases hf : sc.variableTable.find n.name with
    | some w =>
      refine ⟨rfl, ⟨⟨_, _, _, _, rfl, rfl, h1, h2, h3, hl, ⟨W ++ [⟨a.nextUid, n.name, ty, r.2, n.loc⟩], ?_, ?_⟩⟩, ?_, ?_, ?_, fun _ => hu'⟩⟩
      · simp [h5]
      · simp [h6, moveSVariable, hu, movLog]
      · simpa [e, e'] using h7
      · simpa [e, e'] using h8
      · simpa [e] using h9
    | none =>
      refine ⟨rfl, ⟨⟨_, _, _, _, rfl, rfl, ?_, h2, h3, hl, ⟨W ++ [⟨a.nextUid, n.name, ty, r.2, n.loc⟩], ?_, ?_⟩⟩, ?_, ?_, ?_, fun _ => hu'⟩⟩
      · intro m hm
        simp only [VariableTable.find]
        split
        · simp [moveValue, moveNode, moveLink, SVariable.link, hu]
        · exact h1 m hm
      · simp [h5]
      · simp [h6, moveSVariable, hu, movLog]
      · simpa [e, e'] using h7
      · simpa [e, e'] using h8
      · simpa [e] using h9

theorem visitStatement_mov {a a' : Analyzer F} (h : Moved f N D S S' V V' a a') (s : Stmt F) (hd : IsDecl s → D) (hn : ∀ n ∈ mentioned s, N n) :
    EndsAlike (Moved f N D S S' V V') (visitStatement fo a s) (visitStatement fo a' s) := by
  cases s with
  | var l as n t =>
    simp only [mentioned, List.mem_cons] at hn
    exact visitVariable_mov h l as n t (hd trivial) (hn _ (.inl rfl)) fun m hm => hn m (.inr hm)
  | gate l as g es =>
    simp only [mentioned, List.mem_append] at hn
    simp only [visitStatement, visitGateInstruction]
    refine alike_bind (visitGate_mov h.sees g fun m hm => hn m (.inl (.inr hm))) fun r => alike_after ?_
    obtain ⟨ers, x⟩ := r
    cases x with
    | error e => exact ⟨rfl, h⟩
    | ok g' =>
      simp only [movLog, movExcept, resolutionName_mov]
      have hx := mov_bind (g := moveMatch f) (visitList_mov (fo := fo) h.sees es fun m hm => hn m (.inr hm))
        (k' := fun ops => (Analyzer.resolveInstruction fo a'.scopes (gateResolutionName g') ops).bind fun i =>
          (checkGateInstruction i.2).bind fun _ => .ok i)
        (k := fun ops => (Analyzer.resolveInstruction fo a.scopes (gateResolutionName g') ops).bind fun i =>
          (checkGateInstruction i.2).bind fun _ => .ok i)
        (fun vs => mov_bind (resolveInstruction_mov _ _ h.instructions _ vs) fun i => by
          simp only [moveMatch, checkGateInstruction_mov]; exact mov_bind (mov_id _) fun _ => rfl)
      rw [hx]
      cases (visitList fo a.scopes es).bind fun ops =>
          (Analyzer.resolveInstruction fo a.scopes (gateResolutionName g') ops).bind fun i =>
          (checkGateInstruction i.2).bind fun _ => Res.ok i with
      | ok i =>
        refine alike_bind (visitAnnotations_mov h.sees as fun m hm => hn m (.inl (.inl hm))) fun ra => alike_after ?_
        exact addStatement_mov h (.gate i.1 g' i.2 ra.2 l) l
      | err e => exact ⟨rfl, h⟩
      | exn c => rfl
      | ub => trivial
  | nonGate l as n es ps =>
    simp only [mentioned, List.mem_append] at hn
    simp only [visitStatement, visitNonGateInstruction]
    have hx := mov_bind (g := fun x : (Instruction × List (Value F)) × List (Value F) => (moveMatch f x.1, x.2.map (moveValue f)))
      (visitList_mov (fo := fo) h.sees es fun m hm => hn m (.inl (.inr hm)))
      (k' := fun ops => (Analyzer.resolveInstruction fo a'.scopes n ops).bind fun i =>
        (visitList fo a'.scopes ps).bind fun ps =>
        (resolveParameters fo n ps).bind fun ps => (checkNonGateInstruction n i.2).bind fun _ => .ok (i, ps))
      (k := fun ops => (Analyzer.resolveInstruction fo a.scopes n ops).bind fun i =>
        (visitList fo a.scopes ps).bind fun ps =>
        (resolveParameters fo n ps).bind fun ps => (checkNonGateInstruction n i.2).bind fun _ => .ok (i, ps))
      (fun vs => mov_bind (resolveInstruction_mov _ _ h.instructions _ vs) fun i =>
        mov_bind (visitList_mov h.sees ps fun m hm => hn m (.inr hm)) fun ws =>
        mov_bind (resolveParameters_mov n ws) fun us => by
          simp only [moveMatch, checkNonGateInstruction_mov]; exact mov_bind (mov_id _) fun _ => rfl)
    rw [hx]
    cases (visitList fo a.scopes es).bind fun ops =>
        (Analyzer.resolveInstruction fo a.scopes n ops).bind fun i =>
        (visitList fo a.scopes ps).bind fun ps =>
        (resolveParameters fo n ps).bind fun ps => (checkNonGateInstruction n i.2).bind fun _ => Res.ok (i, ps) with
    | ok x =>
      obtain ⟨i, qs⟩ := x
      refine alike_bind (visitAnnotations_mov h.sees as fun m hm => hn m (.inl (.inl hm))) fun ra => alike_after ?_
      exact addStatement_mov h (.nonGate i.1 n i.2 qs ra.2 l) l
    | err e => exact ⟨rfl, h⟩
    | exn c => rfl
    | ub => trivial
  | asm l as n c =>
    simp only [visitStatement, visitAsmDeclaration]
    refine alike_bind (visitAnnotations_mov h.sees as hn) fun ra => alike_after ?_
    exact addStatement_mov h (.asm n c ra.2 l) l

theorem visitBlock_mov (ts : List (Stmt F)) : ∀ {a a' : Analyzer F}, Moved f N D S S' V V' a a' → (∀ s ∈ ts, IsDecl s → D) →
    (∀ s ∈ ts, ∀ n ∈ mentioned s, N n) →
    EndsAlike (Moved f N D S S' V V') (visitBlock fo a ts) (visitBlock fo a' ts) := by
  induction ts with
  | nil => exact fun h _ _ => ⟨rfl, h⟩
  | cons s ts ih =>
    intro a a' h hd hn
    have h1 := visitStatement_mov (fo := fo) h s (hd s List.mem_cons_self) (hn s List.mem_cons_self)
    simp only [visitBlock]
    cases hx : visitStatement fo a s with
    | ok x =>
      cases hy : visitStatement fo a' s with
      | ok y =>
        rw [hx, hy] at h1
        simp only [Res.bind_ok, h1.1]
        exact alike_after (ih h1.2 (fun s hs => hd s (List.mem_cons_of_mem _ hs)) fun s hs => hn s (List.mem_cons_of_mem _ hs))
      | err e => exact e.elim
      | _ => rw [hx, hy] at h1; exact h1.elim
    | err e => exact e.elim
    | exn c =>
      cases hy : visitStatement fo a' s with
      | exn c' => rw [hx, hy] at h1; exact h1
      | err e => exact e.elim
      | _ => rw [hx, hy] at h1; exact h1.elim
    | ub =>
      cases hy : visitStatement fo a' s with
      | ub => trivial
      | err e => exact e.elim
      | _ => rw [hx, hy] at h1; exact h1.elim

end Qasm
