import Verif.Spec.Failure
import Verif.Props.Promote
/-!
# The tables of an analyser after a history of calls
-/

namespace Qasm

open Spec Analyzer

variable {F T : Type}

/-! ## Histories of calls -/

/-- The tables of a scope hold what was registered in it. -/
def HoldsLevel (s : Scope F) (l : Level F) : Prop :=
  (∀ name, VariableTable.find s.variableTable name = (l.vars.find? fun p => p.1 = name).map (·.2)) ∧
  s.fnTable = tableOf l.functions ∧ s.instructionTable = tableOf l.instructions

theorem tableOf_concat (regs : List (Registration T)) (r : Registration T) :
    tableOf (regs ++ [r]) = (tableOf regs).add r.1 r.2.1 r.2.2 := by simp [tableOf, List.foldl_append]

theorem holds_last (name : Str) (params : List Ty) (f : CoreFn F) {ss : List (Scope F)} {ls : List (Level F)}
    (h : Forall2 HoldsLevel ss ls) {ss' : List (Scope F)}
    (hm : modifyLast (fun s => { s with fnTable := FnTable.add s.fnTable name params f }) ss = .ok ss') :
    Forall2 HoldsLevel ss' (onLast (fun l => { l with functions := l.functions ++ [(name, f, params)] }) ls) := by
  induction h generalizing ss' with
  | nil => cases hm
  | @cons s l ss ls h hs ih =>
    cases hs with
    | nil =>
      cases hm
      refine .cons ⟨h.1, ?_, h.2.2⟩ .nil
      simp only [FnTable.add, h.2.1, tableOf_concat]
    | @cons t m ss ls h2 hs =>
      simp only [modifyLast] at hm
      obtain ⟨r, h3, h4⟩ := Res.bind_eq_ok.1 hm
      cases h4
      exact .cons h (ih h3)

theorem holds_see {c : Call F} {a b : Analyzer F} {ls : List (Level F)} (h : Forall2 HoldsLevel a.scopes ls)
    (hc : c.on a = .ok b ∨ (∃ e, c.on a = .err e) ∧ b = a) : Forall2 HoldsLevel b.scopes (c.see ls) := by
  cases c with
  | push =>
    rcases hc with hc | ⟨⟨e, hc⟩, _⟩ <;> cases hc
    exact .cons ⟨fun _ => rfl, rfl, rfl⟩ h
  | pop =>
    simp only [Call.on, popScope] at hc
    generalize hss : a.scopes = ss at h hc
    cases h with
    | nil => simp at hc
    | cons h1 h2 =>
      rcases hc with hc | ⟨⟨e, hc⟩, _⟩ <;> cases hc
      exact h2
  | var name v =>
    simp only [Call.on, registerVariable, modifyCurrent] at hc
    generalize hss : a.scopes = ss at h hc
    cases h with
    | nil => simp at hc
    | @cons s l ss ls h1 h2 =>
      simp only [VariableTable.add] at hc
      cases hf : VariableTable.find s.variableTable name with
      | some w =>
        rw [hf] at hc
        simp only [Res.bind_err] at hc
        rcases hc with hc | ⟨⟨e, hc⟩, rfl⟩
        · cases hc
        · have hm : name ∈ l.vars.map (·.1) := by
            rw [h1.1] at hf
            obtain ⟨p, hp, rfl⟩ := Option.map_eq_some_iff.1 hf
            have := List.find?_some hp
            exact List.mem_map.2 ⟨p, List.mem_of_find?_eq_some hp, by simpa using this⟩
          rw [hss, Call.see, if_pos hm]
          exact .cons h1 h2
      | none =>
        rw [hf] at hc
        simp only [Res.bind_ok] at hc
        rcases hc with hc | ⟨⟨e, hc⟩, _⟩
        · cases hc
          have hn : name ∉ l.vars.map (·.1) := by
            rw [h1.1, Option.map_eq_none_iff, List.find?_eq_none] at hf
            simpa using fun v hv => hf (name, v) hv
          rw [Call.see, if_neg hn]
          refine .cons ⟨fun m => ?_, h1.2⟩ h2
          simp only [VariableTable.find, List.find?_append, h1.1]
          by_cases hm : name = m
          · subst hm
            rw [h1.1, Option.map_eq_none_iff] at hf
            simp [hf]
          · simp [hm]
        · cases hc
  | instruction i =>
    simp only [Call.on, registerInstruction, modifyCurrent] at hc
    generalize hss : a.scopes = ss at h hc
    cases h with
    | nil => simp at hc
    | @cons s l ss ls h1 h2 =>
      rcases hc with hc | ⟨⟨e, hc⟩, _⟩ <;> cases hc
      refine .cons ⟨h1.1, h1.2.1, ?_⟩ h2
      simp only [InstrTable.add, h1.2.2, tableOf_concat]
  | function name params f =>
    simp only [Call.on, registerFunction] at hc
    rcases hc with hc | ⟨⟨e, hc⟩, _⟩
    · obtain ⟨ss, h3, h4⟩ := Res.bind_eq_ok.1 hc
      cases h4
      exact holds_last name params f h h3
    · exfalso
      rcases Res.bind_eq_err.1 hc with hc | ⟨_, _, hc⟩
      · have : ∀ (ss : List (Scope F)) g e, modifyLast g ss ≠ .err e := by
          intro ss g e
          induction ss with
          | nil => simp [modifyLast]
          | cons s ss ih =>
            cases ss with
            | nil => simp [modifyLast]
            | cons t ss =>
              intro hh
              rcases Res.bind_eq_err.1 hh with hh | ⟨_, _, hh⟩
              · exact ih hh
              · cases hh
        exact this _ _ _ hc
      · cases hc

theorem holds_calls {cs : List (Call F)} {a b : Analyzer F} {ls : List (Level F)}
    (h : Forall2 HoldsLevel a.scopes ls) (hc : Calls cs a b) :
    Forall2 HoldsLevel b.scopes (cs.foldl (fun ls c => c.see ls) ls) := by
  induction hc generalizing ls with
  | nil => exact h
  | ok h1 _ ih => exact ih (holds_see h (.inl h1))
  | error h1 _ ih => exact ih (holds_see h (.inr ⟨⟨_, h1⟩, rfl⟩))

theorem holds_registered {v : Version} {cs : List (Call F)} {a b : Analyzer F} (ha : Analyzer.new v = some a)
    (hc : Calls cs a b) : Forall2 HoldsLevel b.scopes (registered cs) := by
  refine holds_calls ?_ hc
  unfold Analyzer.new at ha
  split at ha
  · cases ha
    exact .cons ⟨fun _ => rfl, rfl, rfl⟩ .nil
  · cases ha

theorem forall2_getLast {α β : Type} {R : α → β → Prop} {as : List α} {bs : List β} (h : Forall2 R as bs) {b : β}
    (hb : bs.getLast? = some b) : ∃ a, as.getLast? = some a ∧ R a b := by
  induction h with
  | nil => cases hb
  | @cons a c as bs h1 h2 ih =>
    cases h2 with
    | nil => cases hb; exact ⟨a, rfl, h1⟩
    | cons h3 h4 => rw [List.getLast?_cons_cons] at hb ⊢; exact ih hb

end Qasm
