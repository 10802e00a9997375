import Verif.Spec.Scope
import Verif.Lemmas.Accept
import Verif.Spec.Sample
/-!
# Properties of scopes (C14)
-/

namespace Qasm

open Spec Analyzer

variable {F : Type} {fo : FloatOps F} {a b : Analyzer F}

private theorem calls_append {cs ds : List (Call F)} (h : Calls (cs ++ ds) a b) : ∃ m, Calls cs a m ∧ Calls ds m b := by
  induction cs generalizing a with
  | nil => exact ⟨a, .nil, h⟩
  | cons c cs ih =>
    cases h with
    | ok h1 h2 => obtain ⟨m, g1, g2⟩ := ih h2; exact ⟨m, .ok h1 g1, g2⟩
    | error h1 h2 => obtain ⟨m, g1, g2⟩ := ih h2; exact ⟨m, .error h1 g1, g2⟩

/-- The scope without its functions. -/
private def noFns (s : Scope F) : Scope F := { s with fnTable := [] }

private theorem modifyLast_cons (f : Scope F → Scope F) (s t : Scope F) (rest : List (Scope F)) :
    ∃ rest', modifyLast f (s :: t :: rest) = .ok (s :: rest') ∧ modifyLast f (t :: rest) = .ok rest' := by
  induction rest generalizing s t with
  | nil => exact ⟨[f t], rfl, rfl⟩
  | cons u rest ih =>
    obtain ⟨r, h1, h2⟩ := ih t u
    exact ⟨t :: r, by rw [modifyLast, h1]; rfl, h1⟩

private theorem modifyLast_map (f : Scope F → Scope F) (hf : ∀ s, noFns (f s) = noFns s) (ss ss' : List (Scope F))
    (h : modifyLast f ss = .ok ss') : ss'.map noFns = ss.map noFns := by
  induction ss generalizing ss' with
  | nil => cases h
  | cons s ss ih =>
    cases ss with
    | nil => cases h; simp [hf]
    | cons t rest =>
      obtain ⟨r, h1, h2⟩ := modifyLast_cons f s t rest
      rw [h] at h1
      cases h1
      rw [List.map_cons, List.map_cons, ih r h2]

/-- What a balanced sequence of calls does to the scopes: only the current scope changes, and the functions of
the global scope. -/
private theorem balanced_outer {cs : List (Call F)} (hb : Balanced cs) : ∀ {a b : Analyzer F} {s : Scope F} {rest : List (Scope F)},
    a.scopes = s :: rest → Calls cs a b → ∃ s' rest', b.scopes = s' :: rest' ∧ rest'.map noFns = rest.map noFns ∧
      ((∀ c ∈ cs, ¬ IsFunction c) → rest' = rest ∧ s'.fnTable = s.fnTable) ∧
      b.apiVersion = a.apiVersion ∧ b.nextUid = a.nextUid := by
  induction hb with
  | nil => intro a b s rest ha h; cases h; exact ⟨s, rest, ha, rfl, fun _ => ⟨rfl, rfl⟩, rfl, rfl⟩
  | @var name value cs _ ih =>
    intro a b s rest ha h
    cases h with
    | error h1 h2 =>
      obtain ⟨s', r', g1, g2, g3, g4⟩ := ih ha h2
      exact ⟨s', r', g1, g2, fun h => g3 fun c hc => h c (List.mem_cons_of_mem _ hc), g4⟩
    | ok h1 h2 =>
      simp only [Call.on, registerVariable, modifyCurrent, ha] at h1
      cases h3 : s.variableTable.add name value with
      | ok t =>
        rw [h3] at h1
        cases h1
        obtain ⟨s', r', g1, g2, g3, g4⟩ := ih rfl h2
        exact ⟨s', r', g1, g2, fun h => g3 fun c hc => h c (List.mem_cons_of_mem _ hc), g4⟩
      | _ => rw [h3] at h1; cases h1
  | @instruction i cs _ ih =>
    intro a b s rest ha h
    cases h with
    | error h1 h2 =>
      obtain ⟨s', r', g1, g2, g3, g4⟩ := ih ha h2
      exact ⟨s', r', g1, g2, fun h => g3 fun c hc => h c (List.mem_cons_of_mem _ hc), g4⟩
    | ok h1 h2 =>
      simp only [Call.on, registerInstruction, modifyCurrent, ha] at h1
      cases h1
      obtain ⟨s', r', g1, g2, g3, g4⟩ := ih rfl h2
      exact ⟨s', r', g1, g2, fun h => g3 fun c hc => h c (List.mem_cons_of_mem _ hc), g4⟩
  | @function name params f cs _ ih =>
    intro a b s rest ha h
    cases h with
    | error h1 h2 =>
      obtain ⟨s', r', g1, g2, g3, g4⟩ := ih ha h2
      exact ⟨s', r', g1, g2, fun h => g3 fun c hc => h c (List.mem_cons_of_mem _ hc), g4⟩
    | ok h1 h2 =>
      simp only [Call.on, registerFunction, ha] at h1
      cases h3 : modifyLast (fun s => { s with fnTable := FnTable.add s.fnTable name params f }) (s :: rest) with
      | ok ss =>
        rw [h3] at h1
        cases h1
        have hm := modifyLast_map (fun s => { s with fnTable := FnTable.add s.fnTable name params f }) (fun _ => rfl) _ _ h3
        match ss with
        | [] => cases hm
        | s1 :: r1 =>
          obtain ⟨s', r', g1, g2, g3, g4⟩ := ih rfl h2
          refine ⟨s', r', g1, ?_, fun h => absurd trivial (h _ (List.mem_cons_self ..)), g4⟩
          rw [g2]
          simp only [List.map_cons, List.cons.injEq] at hm
          exact hm.2
      | _ => rw [h3] at h1; cases h1
  | @scope cs ds _ _ ih1 ih2 =>
    intro a b s rest ha h
    rw [List.cons_append] at h
    cases h with
    | error h1 => cases h1
    | ok h1 h2 =>
      cases h1
      obtain ⟨m, h3, h4⟩ := calls_append h2
      obtain ⟨s1, r1, g1, g2, g3, g4⟩ := ih1 (a := a.pushScope) (s := .empty) (rest := s :: rest) (by simp [pushScope, ha]) h3
      match r1 with
      | [] => cases g2
      | s2 :: r2 =>
        simp only [List.map_cons, List.cons.injEq] at g2
        cases h4 with
        | error h5 => simp [Call.on, popScope, g1] at h5
        | ok h5 h6 =>
          simp only [Call.on, popScope, g1] at h5
          cases h5
          obtain ⟨s', r', k1, k2, k3, k4⟩ := ih2 (s := s2) (rest := r2) rfl h6
          refine ⟨s', r', k1, by rw [k2, g2.2], fun h => ?_, k4.1.trans g4.1, k4.2.trans g4.2⟩
          have e1 := g3 fun c hc => h c (List.mem_append_left _ (List.mem_cons_of_mem _ hc))
          have e2 := k3 fun c hc => h c (List.mem_append_right _ (List.mem_cons_of_mem _ hc))
          simp only [List.cons.injEq] at e1
          exact ⟨by rw [e2.1, e1.1.2], by rw [e2.2, e1.1.1]⟩

private theorem resolveVariable_noFns (ss : List (Scope F)) (name : Str) :
    resolveVariable (ss.map noFns) name = resolveVariable ss name := by
  induction ss with
  | nil => rfl
  | cons s ss ih =>
    rw [List.map_cons, resolveVariable, resolveVariable, ih]
    rfl

private theorem resolveInstruction_noFns (ss : List (Scope F)) (name : Str) (args : List (Value F)) :
    resolveInstruction fo (ss.map noFns) name args = resolveInstruction fo ss name args := by
  induction ss with
  | nil => rfl
  | cons s ss ih =>
    rw [List.map_cons, resolveInstruction, resolveInstruction, ih]
    rfl

/-- C14. After `push_scope`, any balanced sequence of calls and `pop_scope`, every variable and every instruction
resolves as before. -/
theorem C14_restores {cs : List (Call F)} (hb : Balanced cs) (ha : a.scopes ≠ []) (h : Calls (.push :: cs ++ [.pop]) a b) :
    (∀ name, resolveVariable b.scopes name = resolveVariable a.scopes name) ∧
    (∀ fo name args, resolveInstruction fo b.scopes name args = resolveInstruction fo a.scopes name args) := by
  match hs : a.scopes with
  | [] => exact absurd hs ha
  | s :: rest =>
    have hb' : Balanced (.push :: cs ++ [.pop]) := .scope hb .nil
    rw [List.cons_append] at h
    cases h with
    | error h1 => cases h1
    | ok h1 h2 =>
      cases h1
      obtain ⟨m, h3, h4⟩ := calls_append h2
      obtain ⟨s1, r1, g1, g2, _⟩ := balanced_outer hb (a := a.pushScope) (s := .empty) (rest := s :: rest) (by simp [pushScope, hs]) h3
      cases h4 with
      | error h5 => simp [Call.on, popScope, g1] at h5
      | ok h5 h6 =>
        simp only [Call.on, popScope, g1] at h5
        cases h5
        cases h6
        refine ⟨fun name => ?_, fun fo name args => ?_⟩
        · rw [← resolveVariable_noFns r1, g2, resolveVariable_noFns]
        · rw [← resolveInstruction_noFns r1, g2, resolveInstruction_noFns]

/-- C14. If no function is registered in between, the analyser is the same as before altogether. -/
theorem C14_restores_all {cs : List (Call F)} (hb : Balanced cs) (hf : ∀ c ∈ cs, ¬ IsFunction c) (ha : a.scopes ≠ [])
    (h : Calls (.push :: cs ++ [.pop]) a b) : b = a := by
  match hs : a.scopes with
  | [] => exact absurd hs ha
  | s :: rest =>
    rw [List.cons_append] at h
    cases h with
    | error h1 => cases h1
    | ok h1 h2 =>
      cases h1
      obtain ⟨m, h3, h4⟩ := calls_append h2
      obtain ⟨s1, r1, g1, g2, g3, g4⟩ := balanced_outer hb (a := a.pushScope) (s := .empty) (rest := s :: rest) (by simp [pushScope, hs]) h3
      cases h4 with
      | error h5 => simp [Call.on, popScope, g1] at h5
      | ok h5 h6 =>
        simp only [Call.on, popScope, g1] at h5
        cases h5
        cases h6
        rw [(g3 hf).1, g4.1, g4.2, ← hs]
        rfl

/-- C14. Such a sequence of calls runs to its end: no call has undefined behaviour. -/
theorem C14_runs {cs : List (Call F)} (hb : Balanced cs) (ha : a.scopes ≠ []) : ∃ b, Calls cs a b ∧ b.scopes ≠ [] := by
  induction hb generalizing a with
  | nil => exact ⟨a, .nil, ha⟩
  | @var name value cs _ ih =>
    match hs : a.scopes with
    | [] => exact absurd hs ha
    | s :: rest =>
      cases h : s.variableTable.add name value with
      | ok t =>
        obtain ⟨b, h1, h2⟩ := ih (a := { a with scopes := { s with variableTable := t } :: rest }) (by simp)
        exact ⟨b, .ok (by simp [Call.on, registerVariable, modifyCurrent, hs, h]) h1, h2⟩
      | err e =>
        obtain ⟨b, h1, h2⟩ := ih ha
        exact ⟨b, .error (e := e) (by simp [Call.on, registerVariable, modifyCurrent, hs, h]) h1, h2⟩
      | exn => unfold VariableTable.add at h; split at h <;> cases h
      | ub => unfold VariableTable.add at h; split at h <;> cases h
  | @instruction i cs _ ih =>
    match hs : a.scopes with
    | [] => exact absurd hs ha
    | s :: rest =>
      obtain ⟨b, h1, h2⟩ := ih (a := { a with scopes := { s with instructionTable := InstrTable.add s.instructionTable i } :: rest }) (by simp)
      exact ⟨b, .ok (by simp [Call.on, registerInstruction, modifyCurrent, hs]) h1, h2⟩
  | @function name params f cs _ ih =>
    have : ∀ (g : Scope F → Scope F) ss, ss ≠ [] → ∃ ss', modifyLast g ss = .ok ss' ∧ ss' ≠ [] := by
      intro g ss
      induction ss with
      | nil => intro h; exact absurd rfl h
      | cons s ss ih =>
        intro _
        cases ss with
        | nil => exact ⟨_, rfl, by simp⟩
        | cons t rest => obtain ⟨r, h1, _⟩ := modifyLast_cons g s t rest; exact ⟨_, h1, by simp⟩
    obtain ⟨ss, h1, h2⟩ := this (fun s => { s with fnTable := FnTable.add s.fnTable name params f }) a.scopes ha
    obtain ⟨b, h3, h4⟩ := ih (a := { a with scopes := ss }) h2
    exact ⟨b, .ok (by simp [Call.on, registerFunction, h1]) h3, h4⟩
  | @scope cs ds hcs hds ih1 ih2 =>
    obtain ⟨b, h1, h2⟩ := ih1 (a := a.pushScope) (by simp [pushScope])
    match hs : a.scopes with
    | [] => exact absurd hs ha
    | s :: rest =>
      obtain ⟨s', r', g1, g2, g3⟩ := balanced_outer hcs (a := a.pushScope) (s := .empty) (rest := s :: rest) (by simp [pushScope, hs]) h1
      have hr : r' ≠ [] := by intro h; subst h; cases g2
      obtain ⟨d, h3, h4⟩ := ih2 (a := { b with scopes := r' }) hr
      refine ⟨d, ?_, h4⟩
      have hpop : Calls (.pop :: ds) b d := .ok (by simp [Call.on, popScope, g1]) h3
      refine .ok rfl ?_
      clear h2 g1 g3 ih1 ih2 hcs hs g2 hr h3
      revert h1
      generalize a.pushScope = x
      intro h1
      induction h1 with
      | nil => exact hpop
      | ok h _ ih => exact .ok h (ih hpop)
      | error h _ ih => exact .error h (ih hpop)

/-- C14. In a new scope everything from outside is visible. -/
theorem C14_visible (name : Str) (fo : FloatOps F) (args : List (Value F)) (ha : a.scopes ≠ []) :
    resolveVariable a.pushScope.scopes name = resolveVariable a.scopes name ∧
    resolveInstruction fo a.pushScope.scopes name args = resolveInstruction fo a.scopes name args ∧
    resolveFunction fo a.pushScope.scopes name args = resolveFunction fo a.scopes name args := by
  refine ⟨rfl, rfl, ?_⟩
  unfold resolveFunction
  match hs : a.scopes with
  | [] => exact absurd hs ha
  | s :: rest => simp [pushScope, hs, List.getLast?_cons_cons]

/-- C14. A variable registered in a new scope hides the outer one of the same name, and no other. -/
theorem C14_shadows (name : Str) (v : Value F) (h : a.pushScope.registerVariable name v = .ok b) :
    resolveVariable b.scopes name = .ok v ∧
    ∀ other, other ≠ name → resolveVariable b.scopes other = resolveVariable a.scopes other := by
  simp only [pushScope, registerVariable, modifyCurrent, Scope.empty, VariableTable.add, VariableTable.find, Res.bind_ok] at h
  cases h
  constructor
  · simp [resolveVariable, VariableTable.resolve, VariableTable.find]
  · intro other ho
    have : ¬ name = other := fun h => ho h.symm
    simp [resolveVariable, VariableTable.resolve, VariableTable.find, this]

/-- C14. A name can be registered in a new scope whatever is registered outside. -/
theorem C14_shadowing_allowed (name : Str) (v : Value F) : ∃ b, a.pushScope.registerVariable name v = .ok b := ⟨_, rfl⟩

/-- C14. An instruction registered in a new scope is found first; for other names, or where it does not fit, resolution
is as outside. -/
theorem C14_shadows_instruction (i : Instruction) (h : a.pushScope.registerInstruction i = .ok b) (args : List (Value F))
    (hargs : ∀ v ∈ args, kindOf v.node ≠ none) :
    (∀ args', Fits fo args i.operandTypes args' → resolveInstruction fo b.scopes i.name args = .ok (i, args')) ∧
    (∀ name, (name = i.name → ¬ ∃ args', Fits fo args i.operandTypes args') →
      resolveInstruction fo b.scopes name args = resolveInstruction fo a.scopes name args) := by
  simp only [pushScope, registerInstruction, modifyCurrent, Scope.empty, Res.bind_ok] at h
  cases h
  have ht : InstrTable.add [] i = tableOf [(i.name, i, i.operandTypes)] := rfl
  have hu : ∀ {older : List (Registration Instruction)} {x y newer}, [x] = older ++ y :: newer → y = x ∧ newer = [] := by
    intro older x y newer e
    cases older with
    | nil => simp at e; exact ⟨e.1.symm, e.2⟩
    | cons => simp at e
  constructor
  · intro args' hf
    rw [resolveInstruction, ht]
    rcases resolve_spec fo [(i.name, i, i.operandTypes)] i.name args hargs with ⟨t, ws, h1, o, p, n, e, f, _⟩ | ⟨h1, _⟩
    · rw [h1]
      obtain ⟨e1, _⟩ := hu e
      simp only [Prod.mk.injEq] at e1
      obtain ⟨_, rfl, rfl⟩ := e1
      rw [fits_det f hf]
    · exact absurd ⟨_, hf⟩ (h1 (i.name, i, i.operandTypes) (by simp) rfl)
  · intro name hn
    rw [resolveInstruction, ht]
    rcases resolve_spec fo [(i.name, i, i.operandTypes)] name args hargs with ⟨t, ws, h1, o, p, n, e, f, _⟩ | ⟨_, ⟨_, h2⟩ | ⟨_, ts, _, h2⟩⟩
    · obtain ⟨e1, _⟩ := hu e
      simp only [Prod.mk.injEq] at e1
      obtain ⟨e0, rfl, rfl⟩ := e1
      exact absurd ⟨_, f⟩ (hn e0)
    · rw [h2]
    · rw [h2]

/-- C14 is false for functions: they are always registered in the global scope, so a function registered in an inner
scope can still be called after the scope is left. -/
theorem C14_functions_refuted (ha : a.scopes ≠ []) (name : Str) (f : CoreFn F) :
    ∃ b, Calls [.push, .function name [] f, .pop] a b ∧ resolveFunction fo b.scopes name [] = f [] := by
  match hs : a.scopes with
  | [] => exact absurd hs ha
  | s :: rest =>
    obtain ⟨ss, h1, h2⟩ := modifyLast_cons (fun s => { s with fnTable := FnTable.add s.fnTable name [] f }) .empty s rest
    refine ⟨{ a with scopes := ss }, .ok rfl (.ok (b := { a with scopes := .empty :: ss }) (by simp only [Call.on, registerFunction, pushScope, hs, h1, Res.bind_ok]) (.ok rfl .nil)), ?_⟩
    have hadd : ∀ t : OverloadTable (CoreFn F), FnTable.resolve fo (FnTable.add t name [] f) name [] = f [] := by
      intro t
      have hf : ∃ ovs, OverloadTable.find (FnTable.add t name [] f) name = some (ovs ++ [⟨f, []⟩]) := by
        unfold FnTable.add
        induction t with
        | nil => exact ⟨[], by simp [OverloadTable.add, OverloadTable.find]⟩
        | cons e t ih =>
          obtain ⟨m, ovs⟩ := e
          rw [OverloadTable.add]
          by_cases h : m = name
          · exact ⟨ovs, by simp [h, OverloadTable.find]⟩
          · obtain ⟨o, ih⟩ := ih
            exact ⟨o, by simp [h, OverloadTable.find, ih]⟩
      obtain ⟨ovs, hf⟩ := hf
      simp [FnTable.resolve, OverloadTable.resolve, hf, OverloadTable.resolveOverload, OverloadTable.resolveFirst,
        OverloadTable.promoteAll]
    have hlast : ∀ (g : Scope F → Scope F) (ss ss' : List (Scope F)), modifyLast g ss = .ok ss' →
        ss'.getLast? = ss.getLast?.map g := by
      intro g ss
      induction ss with
      | nil => intro ss' h; cases h
      | cons s ss ih =>
        intro ss' h
        cases ss with
        | nil => cases h; rfl
        | cons t rest =>
          obtain ⟨r, k1, k2⟩ := modifyLast_cons g s t rest
          rw [h] at k1
          cases k1
          have := ih r k2
          match r with
          | [] => rw [List.getLast?_eq_some_getLast (l := t :: rest) (by simp)] at this; cases this
          | u :: r => rw [List.getLast?_cons_cons, this, List.getLast?_cons_cons]
    have := hlast _ _ _ h2
    unfold resolveFunction
    rw [this]
    obtain ⟨x, hx⟩ : ∃ x, (s :: rest).getLast? = some x := by
      rw [List.getLast?_eq_some_getLast (by simp)]; exact ⟨_, rfl⟩
    rw [hx]
    exact hadd _

/-! ## Examples -/

-- a history that meets the hypotheses: an inner scope with a shadowing variable and an instruction
example : Balanced ([.var c!"pi" ⟨.constInt 3, none⟩, .push, .instruction ⟨c!"X", []⟩, .pop] : List (Call Int)) :=
  .var (.scope (.instruction .nil) .nil)
-- `pi` outside is a float, in the inner scope where it is registered again an int
example : (match Analyzer.default Sample.fo [3, 0] with
    | .ok a => match a.pushScope.registerVariable c!"pi" ⟨.constInt 3, none⟩ with
      | .ok b => match b.popScope with
        | .ok c => match resolveVariable b.scopes c!"pi", resolveVariable c.scopes c!"pi" with
          | .ok ⟨.constInt 3, _⟩, .ok ⟨.constFloat _, _⟩ => true
          | _, _ => false
        | _ => false
      | _ => false
    | _ => false) = true := by decide +kernel
-- an inner overload of `X` for two ints fits `true` and `2`
example : Fits Sample.fo [⟨.constBool true, none⟩, ⟨.constInt 2, none⟩] (Instruction.mk c!"X" [.bare .int, .bare .int]).operandTypes
    [⟨.constInt 1, none⟩, ⟨.constInt 2, none⟩] := .cons (.const none .trueInt) (.cons (.same rfl) .nil)

end Qasm
