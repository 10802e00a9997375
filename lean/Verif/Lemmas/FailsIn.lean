import Verif.Spec.FailsIn
import Verif.Lemmas.Stops
import Verif.Lemmas.FailsProgram
/-!
# Helper lemmas: the errors of analysers with their own registrations
-/

namespace Qasm

open Spec Sem Analyzer

variable {F T : Type} {fo : FloatOps F} {scopes : List (Scope F)} {ls : List (Level F)}

theorem context_at (x : Err) (l : Option Loc) : x.context l = orAt x l := by
  obtain ⟨m, p⟩ := x
  exact context_or m p l

namespace Fail

theorem bind {α β : Type} {e : Err} {r : Res Err α} {f : α → Res Err β} :
    r.bind f = .err e ↔ r = .err e ∨ ∃ x, r = .ok x ∧ f x = .err e :=
  ⟨bind_err, fun h => h.elim (fun h => by rw [h]; rfl) fun ⟨x, h1, h2⟩ => by rw [h1]; exact h2⟩

theorem located {l : Option Loc} {r : Res Err (Value F)} {e : Err} :
    locate l r = .err e ↔ ∃ x, r = .err x ∧ e = orAt x l := by
  constructor
  · intro h
    obtain ⟨x, h1, rfl⟩ := locate_err h
    exact ⟨x, h1, context_at x l⟩
  · rintro ⟨x, rfl, rfl⟩
    rw [locate, context_at]

theorem mapped {α : Type} {r : Res Err α} {l : Option Loc} {e : Err} :
    (r.mapErr fun x => x.context l) = .err e ↔ ∃ x, r = .err x ∧ e = orAt x l := by
  cases r <;> simp [Res.mapErr, context_at, eq_comm]

end Fail

/-! ## Names -/

theorem resolveVariable_fails (h : Forall2 HoldsLevel scopes ls) (name : Str) (e : Err) :
    resolveVariable scopes name = .err e ↔ (¬∃ v, Seen name v ls) ∧ e = ⟨c!"failed to resolve variable '" ++ name ++ c!"'", none⟩ := by
  have only : ∀ ss : List (Scope F), (∃ v, resolveVariable ss name = .ok v) ∨
      resolveVariable ss name = .err ⟨c!"failed to resolve variable '" ++ name ++ c!"'", none⟩ := by
    intro ss
    induction ss with
    | nil => exact .inr rfl
    | cons s ss ih =>
      rw [resolveVariable, VariableTable.resolve]
      cases hf : s.variableTable.find name with
      | none => exact ih
      | some w => exact .inl ⟨w, rfl⟩
  rcases only scopes with ⟨v, hv⟩ | hv
  · rw [hv]
    exact ⟨fun h => (by cases h), fun h' => absurd ⟨v, (resolveVariable_iff h name v).1 hv⟩ h'.1⟩
  · rw [hv]
    refine ⟨fun he => ⟨?_, (Res.err.inj he).symm⟩, fun he => by rw [he.2]⟩
    rintro ⟨v, hs⟩
    rw [(resolveVariable_iff h name v).2 hs] at hv
    cases hv

theorem resolve_fails (regs : List (Registration T)) (name : Str) (args : List (Value F)) (e : Err) :
    OverloadTable.resolve fo (tableOf regs) name args = .err e ↔
      (∀ r ∈ regs, r.1 ≠ name) ∧ e = ⟨c!"failed to resolve '" ++ name ++ c!"'", none⟩ ∨
      (∃ r ∈ regs, r.1 = name) ∧ (∀ v ∈ args, kindOf v.node ≠ none) ∧ (∀ r ∈ regs, r.1 = name → ¬∃ ws, Fits fo args r.2.2 ws) ∧
        e = ⟨c!"failed to resolve overload for '" ++ name ++ c!"' with argument pack (" ++ kindsText (args.map (·.node)) ++ c!")",
          none⟩ := by
  by_cases hn : ∀ r ∈ regs, r.1 ≠ name
  · have he : OverloadTable.resolve fo (tableOf regs) name args = .err ⟨c!"failed to resolve '" ++ name ++ c!"'", none⟩ := by
      unfold OverloadTable.resolve
      rw [(find_tableOf_none regs name).2 hn]
      rfl
    rw [he]
    constructor
    · intro h
      exact .inl ⟨hn, (Res.err.inj h).symm⟩
    · rintro (⟨_, h⟩ | ⟨⟨r, h1, h2⟩, _⟩)
      · rw [h]
      · exact absurd h2 (hn r h1)
  · have hex : ∃ r ∈ regs, r.1 = name := Classical.byContradiction fun hc => hn fun r hr h => hc ⟨r, hr, h⟩
    by_cases hk : ∀ v ∈ args, kindOf v.node ≠ none
    · rcases resolve_spec fo regs name args hk with ⟨t, ws, h1, o, p, n, h2, h3, h4⟩ | ⟨h1, ⟨h2, _⟩ | ⟨_, ts, h2, h3⟩⟩
      · rw [h1]
        constructor
        · intro h
          cases h
        · rintro (⟨h, _⟩ | ⟨_, _, h, _⟩)
          · exact absurd h hn
          · exact absurd ⟨ws, h3⟩ (h (name, t, p) (by rw [h2]; simp) rfl)
      · exact absurd h2 hn
      · rw [h3, printList_kinds h2 hk]
        constructor
        · intro h
          exact .inr ⟨hex, hk, h1, (Res.err.inj h).symm⟩
        · rintro (⟨h, _⟩ | ⟨_, _, _, h⟩)
          · exact absurd h hn
          · rw [h]
    · have hs : OverloadTable.resolve fo (tableOf regs) name args = untyped.as := by
        refine resolve_stop.2 ⟨hex, ?_, rfl⟩
        refine Classical.byContradiction fun hc => hk fun v hv h => hc ⟨v, hv, h⟩
      rw [hs]
      constructor
      · intro h
        exact absurd h.symm Stop.ne_err
      · rintro (⟨h, _⟩ | ⟨_, h, _⟩)
        · exact absurd h hn
        · exact absurd h hk

theorem resolveInstruction_failsIn (h : Forall2 HoldsLevel scopes ls) (name : Str) (args : List (Value F)) (e : Err) :
    resolveInstruction fo scopes name args = .err e ↔ (∀ v ∈ args, kindOf v.node ≠ none) ∧
      (¬∃ i ws, ChosenInstr fo name args i ws ls) ∧ e = ⟨resolutionMessage name args, none⟩ := by
  have only : ∀ (ss : List (Scope F)) e, resolveInstruction fo ss name args = .err e →
      (∃ ts, Values.typesOf args = .ok ts) ∧ e = ⟨resolutionMessage name args, none⟩ := by
    intro ss e he
    induction ss with
    | nil =>
      rw [resolveInstruction] at he
      rcases bind_err he with he | ⟨ts, h1, he⟩
      · exact absurd he (typesOf_noErr _ _)
      · refine ⟨⟨ts, h1⟩, ?_⟩
        cases he
        have hk : ∀ v ∈ args, kindOf v.node ≠ none := by
          intro v hv hn
          have := typesOf_stop.2 ⟨⟨v, hv, hn⟩, rfl⟩
          rw [h1] at this
          exact Stop.ne_ok this
        unfold resolutionMessage
        rw [← printList_kinds h1 hk]
        rfl
    | cons s ss ih =>
      rw [resolveInstruction] at he
      split at he
      · exact ih he
      · next hne => exact absurd he (hne e)
  constructor
  · intro he
    obtain ⟨⟨ts, h1⟩, h2⟩ := only scopes e he
    refine ⟨?_, ?_, h2⟩
    · intro v hv hn
      have := typesOf_stop.2 ⟨⟨v, hv, hn⟩, rfl⟩
      rw [h1] at this
      exact Stop.ne_ok this
    · rintro ⟨i, ws, hc⟩
      rw [(resolveInstruction_iff h ..).2 hc] at he
      cases he
  · rintro ⟨hk, hc, rfl⟩
    rcases Stop.cases (resolveInstruction fo scopes name args) with ⟨⟨i, ws⟩, h1⟩ | ⟨e, h1⟩ | ⟨o, h1⟩
    · exact absurd ⟨i, ws, (resolveInstruction_iff h ..).1 h1⟩ hc
    · rw [h1, (only scopes e h1).2]
    · obtain ⟨⟨v, hv, hn⟩, _⟩ := (resolveInstruction_stop h).1 h1
      exact absurd hn (hk v hv)

theorem callFunction_failsIn (h : Forall2 HoldsLevel scopes ls) (name : Str) (args : List (Value F)) (e : Err) :
    callFunction fo scopes name args = .err e ↔ CallFailsIn fo ls name args e := by
  unfold callFunction resolveFunction
  cases hg : ls.getLast? with
  | none =>
    have hl : ls = [] := List.getLast?_eq_none_iff.1 hg
    subst hl
    cases h
    refine ⟨fun h => (by cases h), fun h => ?_⟩
    cases h with
    | unknown h => cases h
    | overload h => cases h
    | thrown h => cases h
    | empty h => cases h
  | some g =>
    obtain ⟨s, h4, h5⟩ := forall2_getLast h hg
    simp only [h4, FnTable.resolve, h5.2.1]
    rw [Fail.bind, Fail.bind, resolve_fails]
    constructor
    · rintro (((⟨h1, rfl⟩ | ⟨h1, h2, h3, rfl⟩) | ⟨⟨f, ws⟩, h1, h2⟩) | ⟨r, h1, h2⟩)
      · exact .unknown hg h1
      · exact .overload hg h1 h2 h3
      · exact .thrown hg ((resolve_iff ..).1 h1) h2
      · cases r with
        | some => cases h2
        | none =>
          cases h2
          obtain ⟨⟨f, ws⟩, h1, h2⟩ := Res.bind_eq_ok.1 h1
          exact .empty hg ((resolve_iff ..).1 h1) h2
    · intro h0
      cases h0 with
      | unknown h1 h2 => rw [hg] at h1; cases h1; exact .inl (.inl (.inl ⟨h2, rfl⟩))
      | overload h1 h2 h3 h4 => rw [hg] at h1; cases h1; exact .inl (.inl (.inr ⟨h2, h3, h4, rfl⟩))
      | thrown h1 h2 h3 => rw [hg] at h1; cases h1; exact .inl (.inr ⟨_, (resolve_iff ..).2 h2, h3⟩)
      | empty h1 h2 h3 =>
        rw [hg] at h1; cases h1
        exact .inr ⟨none, Res.bind_eq_ok.2 ⟨_, (resolve_iff ..).2 h2, h3⟩, rfl⟩

/-! ## Expressions -/

theorem toConstInt_failsIn {l : Option Loc} {r : Res Err (Value F)} {e : Err} :
    toConstInt fo l r = .err e ↔ r = .err e ∨ ∃ v m, r = .ok v ∧ NotIndex fo v m ∧ e = ⟨m, l⟩ := by
  unfold toConstInt
  rw [Fail.bind]
  refine or_congr Iff.rfl ?_
  constructor
  · rintro ⟨v, h1, h2⟩
    rcases Fail.bind.1 h2 with h2 | ⟨o, h2', h3⟩
    · exfalso
      unfold Values.promote at h2
      rcases bind_err h2 with h2 | ⟨t, _, h2⟩
      · cases hk : kindOf v.node with
        | none => rw [typeOf_untyped hk] at h2; exact Stop.ne_err h2.symm
        | some k =>
          obtain ⟨t, ht, _⟩ := typeOf_ok hk
          rw [ht] at h2
          cases h2
      · split at h2 <;> cases h2
    · replace h2 := h2'
      have hk := promote_kind h2
      cases o with
      | none =>
        cases h3
        refine ⟨v, _, h1, .kind hk ?_, ?_⟩
        · rintro ⟨w, hw⟩
          exact (promote_none_iff fo v _ hk).1 h2 w hw
        · cases l <;> rfl
      | some w =>
        dsimp only at h3
        split at h3
        · cases h3
        · next hne =>
          cases h3
          refine ⟨v, _, h1, .notConst (promote_iff.1 h2) (fun i hi => hne i hi), ?_⟩
          cases l <;> rfl
  · rintro ⟨v, m, h1, h2, rfl⟩
    refine ⟨v, h1, Fail.bind.2 (.inr ?_)⟩
    cases h2 with
    | kind h2 h3 =>
      refine ⟨none, (promote_none_iff fo v _ h2).2 fun w hw => h3 ⟨w, hw⟩, ?_⟩
      cases l <;> rfl
    | @notConst w h2 h3 =>
      refine ⟨some w, promote_iff.2 h2, ?_⟩
      dsimp only
      split
      · next i hi => exact absurd hi (h3 i)
      · cases l <;> rfl

theorem indexRange_failsIn {l : Option Loc} {i j : Int64} {e : Err} :
    indexRange l i j = .err e ↔ j.toInt < i.toInt ∧ e = ⟨c!"last index is lower than first index", l⟩ := by
  rcases indexRange_spec l i j with ⟨h0, h1, js, h2, h3⟩ | ⟨h0, h1, h3⟩ | ⟨h1, h3⟩ <;> rw [h3]
  · exact ⟨fun h => (by cases h), fun h => by omega⟩
  · exact ⟨fun h => (by cases h), fun h => by omega⟩
  · exact ⟨fun h => ⟨h1, (Res.err.inj h).symm⟩, fun h => by rw [h.2]⟩

theorem indexInto_failsIn {v : Value F} {r : Res Err (List (Int64 × Option Loc))} {e : Err} :
    indexInto v r = .err e ↔ ∃ y, v.node = .variableRef y ∧
      (y.typ.kind ≠ .qubitArray ∧ y.typ.kind ≠ .bitArray ∧
          e = ⟨c!"indexation is not supported for value of type '" ++ kindLabel y.typ.kind ++ c!"'", none⟩ ∨
        (y.typ.kind = .qubitArray ∨ y.typ.kind = .bitArray) ∧ (r = .err e ∨
          ∃ is i js, r = .ok (is ++ i :: js) ∧ (∀ j ∈ is, 0 ≤ j.1.toInt ∧ j.1.toInt < y.typ.size.toInt) ∧
            ¬(0 ≤ i.1.toInt ∧ i.1.toInt < y.typ.size.toInt) ∧
            e = ⟨c!"index " ++ decInt i.1.toInt ++ c!" out of range (size " ++ decInt y.typ.size.toInt ++ c!")", none⟩)) := by
  obtain ⟨n, l⟩ := v
  cases n with
  | variableRef y =>
    by_cases hk : y.typ.kind = .qubitArray ∨ y.typ.kind = .bitArray
    · rw [indexInto_array y l hk, Fail.bind]
      constructor
      · intro h
        refine ⟨y, rfl, .inr ⟨hk, h.imp id ?_⟩⟩
        rintro ⟨is, h1, h2⟩
        rcases Fail.bind.1 h2 with h2 | ⟨_, _, h2⟩
        · obtain ⟨js, i, ks, h3, h4, h5, h6⟩ := checkOutOfRange_err _ _ h2
          exact ⟨js, i, ks, by rw [h1, h3], h4, h5, h6⟩
        · cases h2
      · rintro ⟨y', hy, h⟩
        cases hy
        rcases h with ⟨h1, h2, _⟩ | ⟨_, h | ⟨js, i, ks, h1, h2, h3, rfl⟩⟩
        · exact absurd hk (by simp [h1, h2])
        · exact .inl h
        · exact .inr ⟨_, h1, Fail.bind.2 (.inl (checkOutOfRange_of_bad h2 h3))⟩
    · have h1 : y.typ.kind ≠ .qubitArray := fun h => hk (.inl h)
      have h2 : y.typ.kind ≠ .bitArray := fun h => hk (.inr h)
      rw [indexInto_kind y l h1 h2]
      constructor
      · intro h
        exact ⟨y, rfl, .inl ⟨h1, h2, (Res.err.inj h).symm⟩⟩
      · rintro ⟨y', hy, h⟩
        cases hy
        rcases h with ⟨_, _, h⟩ | ⟨h, _⟩
        · rw [h]
        · exact absurd h hk
  | _ => exact ⟨fun h => (by cases h), fun ⟨_, h, _⟩ => (by cases h)⟩

mutual
theorem visit_failsIn (h : Forall2 HoldsLevel scopes ls) : ∀ (e : Expr F) (x : Err),
    visit fo scopes e = .err x ↔ FailsIn fo ls e x
  | .boolLit l b, x => by
    rw [visit]
    exact ⟨fun h => (by cases h), fun h => by cases h⟩
  | .intLit l b, x => by
    rw [visit]
    exact ⟨fun h => (by cases h), fun h => by cases h⟩
  | .floatLit l b, x => by
    rw [visit]
    exact ⟨fun h => (by cases h), fun h => by cases h⟩
  | .ident l name, x => by
    rw [visit, resolveVariable_fails h]
    constructor
    · rintro ⟨h1, rfl⟩
      exact .ident h1
    · intro h0
      cases h0 with
      | ident h1 => exact ⟨h1, rfl⟩
  | .index l e ixs, x => by
    rw [visit, Fail.mapped]
    constructor
    · rintro ⟨y, h1, rfl⟩
      rcases Fail.bind.1 h1 with h1 | ⟨w, h1, h2⟩
      · obtain ⟨z, h2, rfl⟩ := Fail.located.1 h1
        exact .indexed ((visit_failsIn h e z).1 h2)
      · obtain ⟨⟨n, lu⟩, h1', rfl⟩ := locate_ok.1 h1
        have hv := (visit_iff h e _).1 h1'
        obtain ⟨z, hz, h3⟩ := indexInto_failsIn.1 h2
        simp only at hz
        subst hz
        rcases h3 with ⟨h3, h4, rfl⟩ | ⟨h3, h4 | ⟨is, i, js, h4, h5, h6, rfl⟩⟩
        · exact .notArray hv h3 h4
        · exact .indices hv h3 ((visitIndexList_failsIn h ixs y).1 h4)
        · exact .range hv h3 ((visitIndexList_iff h ixs _).1 h4) h5 h6
    · intro h0
      cases h0 with
      | indexed h1 =>
        exact ⟨_, Fail.bind.2 (.inl (Fail.located.2 ⟨_, (visit_failsIn h e _).2 h1, rfl⟩)), rfl⟩
      | notArray h1 h2 h3 =>
        exact ⟨_, Fail.bind.2 (.inr ⟨_, locate_ok.2 ⟨_, (visit_iff h e _).2 h1, rfl⟩,
          indexInto_failsIn.2 ⟨_, rfl, .inl ⟨h2, h3, rfl⟩⟩⟩), rfl⟩
      | indices h1 h2 h3 =>
        exact ⟨_, Fail.bind.2 (.inr ⟨_, locate_ok.2 ⟨_, (visit_iff h e _).2 h1, rfl⟩,
          indexInto_failsIn.2 ⟨_, rfl, .inr ⟨h2, .inl ((visitIndexList_failsIn h ixs _).2 h3)⟩⟩⟩), rfl⟩
      | range h1 h2 h3 h4 h5 =>
        exact ⟨_, Fail.bind.2 (.inr ⟨_, locate_ok.2 ⟨_, (visit_iff h e _).2 h1, rfl⟩,
          indexInto_failsIn.2 ⟨_, rfl, .inr ⟨h2, .inr ⟨_, _, _, (visitIndexList_iff h ixs _).2 h3, h4, h5, rfl⟩⟩⟩⟩), rfl⟩
  | .call l name args, x => by
    rw [visit, Fail.bind, visitList_failsIn h args]
    constructor
    · rintro (h1 | ⟨vs, h1, h2⟩)
      · exact .args h1
      · exact .call ((visitList_iff h args vs).1 h1) ((callFunction_failsIn h ..).1 h2)
    · intro h0
      cases h0 with
      | args h1 => exact .inl h1
      | call h1 h2 => exact .inr ⟨_, (visitList_iff h args _).2 h1, (callFunction_failsIn h ..).2 h2⟩
  | .un l op e, x => by
    rw [visit, Fail.bind, un_name]
    constructor
    · rintro (h1 | ⟨w, h1, h2⟩)
      · obtain ⟨z, h2, rfl⟩ := Fail.located.1 h1
        exact .operand ((visit_failsIn h e z).1 h2)
      · obtain ⟨u, h1', rfl⟩ := locate_ok.1 h1
        exact .un ((visit_iff h e u).1 h1') ((callFunction_failsIn h ..).1 h2)
    · intro h0
      cases h0 with
      | operand h1 => exact .inl (Fail.located.2 ⟨_, (visit_failsIn h e _).2 h1, rfl⟩)
      | un h1 h2 => exact .inr ⟨_, locate_ok.2 ⟨_, (visit_iff h e _).2 h1, rfl⟩, (callFunction_failsIn h ..).2 h2⟩
  | .bin l op a b, x => by
    rw [visit, Fail.bind, bin_name]
    constructor
    · rintro (h1 | ⟨w, h1, h2⟩)
      · obtain ⟨z, h2, rfl⟩ := Fail.located.1 h1
        exact .left ((visit_failsIn h a z).1 h2)
      · obtain ⟨u, h1', rfl⟩ := locate_ok.1 h1
        rcases Fail.bind.1 h2 with h2 | ⟨w, h3, h4⟩
        · obtain ⟨z, h3, rfl⟩ := Fail.located.1 h2
          exact .right ((visit_iff h a u).1 h1') ((visit_failsIn h b z).1 h3)
        · obtain ⟨w, h3', rfl⟩ := locate_ok.1 h3
          exact .bin ((visit_iff h a u).1 h1') ((visit_iff h b w).1 h3') ((callFunction_failsIn h ..).1 h4)
    · intro h0
      cases h0 with
      | left h1 => exact .inl (Fail.located.2 ⟨_, (visit_failsIn h a _).2 h1, rfl⟩)
      | right h1 h2 =>
        exact .inr ⟨_, locate_ok.2 ⟨_, (visit_iff h a _).2 h1, rfl⟩,
          Fail.bind.2 (.inl (Fail.located.2 ⟨_, (visit_failsIn h b _).2 h2, rfl⟩))⟩
      | bin h1 h2 h3 =>
        exact .inr ⟨_, locate_ok.2 ⟨_, (visit_iff h a _).2 h1, rfl⟩, Fail.bind.2 (.inr
          ⟨_, locate_ok.2 ⟨_, (visit_iff h b _).2 h2, rfl⟩, (callFunction_failsIn h ..).2 h3⟩)⟩
  | .tern l a b c, x => by
    rw [visit, Fail.bind]
    constructor
    · rintro (h1 | ⟨w, h1, h2⟩)
      · obtain ⟨z, h2, rfl⟩ := Fail.located.1 h1
        exact .cond ((visit_failsIn h a z).1 h2)
      · obtain ⟨u, h1', rfl⟩ := locate_ok.1 h1
        rcases Fail.bind.1 h2 with h2 | ⟨w, h3, h4⟩
        · obtain ⟨z, h3, rfl⟩ := Fail.located.1 h2
          exact .ifTrue ((visit_iff h a u).1 h1') ((visit_failsIn h b z).1 h3)
        · obtain ⟨w, h3', rfl⟩ := locate_ok.1 h3
          rcases Fail.bind.1 h4 with h4 | ⟨y, h5, h6⟩
          · obtain ⟨z, h5, rfl⟩ := Fail.located.1 h4
            exact .ifFalse ((visit_iff h a u).1 h1') ((visit_iff h b w).1 h3') ((visit_failsIn h c z).1 h5)
          · obtain ⟨y, h5', rfl⟩ := locate_ok.1 h5
            exact .tern ((visit_iff h a u).1 h1') ((visit_iff h b w).1 h3') ((visit_iff h c y).1 h5')
              ((callFunction_failsIn h ..).1 h6)
    · intro h0
      cases h0 with
      | cond h1 => exact .inl (Fail.located.2 ⟨_, (visit_failsIn h a _).2 h1, rfl⟩)
      | ifTrue h1 h2 =>
        exact .inr ⟨_, locate_ok.2 ⟨_, (visit_iff h a _).2 h1, rfl⟩,
          Fail.bind.2 (.inl (Fail.located.2 ⟨_, (visit_failsIn h b _).2 h2, rfl⟩))⟩
      | ifFalse h1 h2 h3 =>
        exact .inr ⟨_, locate_ok.2 ⟨_, (visit_iff h a _).2 h1, rfl⟩, Fail.bind.2 (.inr
          ⟨_, locate_ok.2 ⟨_, (visit_iff h b _).2 h2, rfl⟩,
            Fail.bind.2 (.inl (Fail.located.2 ⟨_, (visit_failsIn h c _).2 h3, rfl⟩))⟩)⟩
      | tern h1 h2 h3 h4 =>
        exact .inr ⟨_, locate_ok.2 ⟨_, (visit_iff h a _).2 h1, rfl⟩, Fail.bind.2 (.inr
          ⟨_, locate_ok.2 ⟨_, (visit_iff h b _).2 h2, rfl⟩, Fail.bind.2 (.inr
          ⟨_, locate_ok.2 ⟨_, (visit_iff h c _).2 h3, rfl⟩, (callFunction_failsIn h ..).2 h4⟩)⟩)⟩

theorem visitList_failsIn (h : Forall2 HoldsLevel scopes ls) : ∀ (es : List (Expr F)) (x : Err),
    visitList fo scopes es = .err x ↔ ArgsFail fo ls es x
  | [], x => by
    rw [visitList]
    exact ⟨fun h => (by cases h), fun h => by cases h⟩
  | e :: es, x => by
    rw [visitList, Fail.bind]
    constructor
    · rintro (h1 | ⟨w, h1, h2⟩)
      · obtain ⟨z, h2, rfl⟩ := Fail.located.1 h1
        exact .head ((visit_failsIn h e z).1 h2)
      · obtain ⟨u, h1', rfl⟩ := locate_ok.1 h1
        rcases Fail.bind.1 h2 with h2 | ⟨_, _, h2⟩
        · exact .tail ((visit_iff h e u).1 h1') ((visitList_failsIn h es x).1 h2)
        · cases h2
    · intro h0
      cases h0 with
      | head h1 => exact .inl (Fail.located.2 ⟨_, (visit_failsIn h e _).2 h1, rfl⟩)
      | tail h1 h2 =>
        exact .inr ⟨_, locate_ok.2 ⟨_, (visit_iff h e _).2 h1, rfl⟩, Fail.bind.2 (.inl ((visitList_failsIn h es x).2 h2))⟩

theorem visitIndexList_failsIn (h : Forall2 HoldsLevel scopes ls) : ∀ (is : List (IndexEntry F)) (x : Err),
    visitIndexList fo scopes is = .err x ↔ IndicesFail fo ls is x
  | [], x => by
    rw [visitIndexList]
    exact ⟨fun h => (by cases h), fun h => by cases h⟩
  | i :: is, x => by
    rw [visitIndexList, Fail.bind, visitIndexEntry_failsIn h i]
    constructor
    · rintro (h1 | ⟨js, h1, h2⟩)
      · exact .head h1
      · rcases Fail.bind.1 h2 with h2 | ⟨_, _, h2⟩
        · exact .tail ((visitIndexEntry_iff h i js).1 h1) ((visitIndexList_failsIn h is x).1 h2)
        · cases h2
    · intro h0
      cases h0 with
      | head h1 => exact .inl h1
      | tail h1 h2 =>
        exact .inr ⟨_, (visitIndexEntry_iff h i _).2 h1, Fail.bind.2 (.inl ((visitIndexList_failsIn h is x).2 h2))⟩

theorem visitIndexEntry_failsIn (h : Forall2 HoldsLevel scopes ls) : ∀ (i : IndexEntry F) (x : Err),
    visitIndexEntry fo scopes i = .err x ↔ EntryFails fo ls i x
  | .item l e, x => by
    rw [visitIndexEntry, Fail.bind, toConstInt_failsIn, visit_failsIn h e]
    constructor
    · rintro ((h1 | ⟨v, m, h1, h2, rfl⟩) | ⟨_, _, h1⟩)
      · exact .item h1
      · exact .itemValue ((visit_iff h e v).1 h1) h2
      · cases h1
    · intro h0
      cases h0 with
      | item h1 => exact .inl (.inl h1)
      | itemValue h1 h2 => exact .inl (.inr ⟨_, _, (visit_iff h e _).2 h1, h2, rfl⟩)
  | .range l a b, x => by
    rw [visitIndexEntry, Fail.bind, toConstInt_failsIn, visit_failsIn h a]
    constructor
    · rintro ((h1 | ⟨v, m, h1, h2, rfl⟩) | ⟨i, h1, h2⟩)
      · exact .first h1
      · exact .firstValue ((visit_iff h a v).1 h1) h2
      · obtain ⟨v, li, h1, h3⟩ := toConstInt_iff.1 h1
        rw [Fail.bind, toConstInt_failsIn, visit_failsIn h b] at h2
        rcases h2 with (h4 | ⟨w, m, h4, h5, rfl⟩) | ⟨j, h4, h5⟩
        · exact .last ((visit_iff h a v).1 h1) h3 h4
        · exact .lastValue ((visit_iff h a v).1 h1) h3 ((visit_iff h b w).1 h4) h5
        · obtain ⟨w, lj, h4, h6⟩ := toConstInt_iff.1 h4
          obtain ⟨h7, rfl⟩ := indexRange_failsIn.1 h5
          exact .order ((visit_iff h a v).1 h1) h3 ((visit_iff h b w).1 h4) h6 h7
    · intro h0
      cases h0 with
      | first h1 => exact .inl (.inl h1)
      | firstValue h1 h2 => exact .inl (.inr ⟨_, _, (visit_iff h a _).2 h1, h2, rfl⟩)
      | last h1 h2 h3 =>
        exact .inr ⟨_, toConstInt_iff.2 ⟨_, _, (visit_iff h a _).2 h1, h2⟩, Fail.bind.2 (.inl (toConstInt_failsIn.2
          (.inl ((visit_failsIn h b x).2 h3))))⟩
      | lastValue h1 h2 h3 h4 =>
        exact .inr ⟨_, toConstInt_iff.2 ⟨_, _, (visit_iff h a _).2 h1, h2⟩, Fail.bind.2 (.inl (toConstInt_failsIn.2
          (.inr ⟨_, _, (visit_iff h b _).2 h3, h4, rfl⟩)))⟩
      | order h1 h2 h3 h4 h5 =>
        exact .inr ⟨_, toConstInt_iff.2 ⟨_, _, (visit_iff h a _).2 h1, h2⟩, Fail.bind.2 (.inr
          ⟨_, toConstInt_iff.2 ⟨_, _, (visit_iff h b _).2 h3, h4⟩, indexRange_failsIn.2 ⟨h5, rfl⟩⟩)⟩
end

/-! ## Parameters -/

theorem promoteParameters_failsIn (name spec : Str) (ks : List Kind) (vs : List (Value F))
    (hspec : Types.fromSpec spec = some (ks.map Ty.bare)) (hlen : vs.length = ks.length) {e : Err} :
    promoteParameters fo name spec vs = .err e ↔ ∃ m, ParamFailsIn name vs ks m ∧ e = ⟨m, none⟩ := by
  induction spec generalizing ks vs with
  | nil =>
    simp only [Types.fromSpec, Option.some.injEq] at hspec
    have : ks = [] := by cases ks <;> simp_all
    subst this
    have : vs = [] := by cases vs <;> simp_all
    subst this
    rw [promoteParameters]
    exact ⟨fun h => (by cases h), fun ⟨_, h, _⟩ => by cases h⟩
  | cons c cs ih =>
    simp only [Types.fromSpec] at hspec
    cases hc : Types.fromSpecChar c with
    | none => rw [hc] at hspec; cases hspec
    | some t =>
      rw [hc] at hspec
      simp only [Option.map_eq_some_iff] at hspec
      obtain ⟨ts, h1, h2⟩ := hspec
      rcases ks with _ | ⟨k, ks⟩
      · simp at h2
      simp only [List.map_cons, List.cons.injEq] at h2
      obtain ⟨rfl, rfl⟩ := h2
      rcases vs with _ | ⟨v, vs⟩
      · simp at hlen
      simp only [List.length_cons, Nat.add_right_cancel_iff] at hlen
      simp only [promoteParameters, hc]
      cases hk : kindOf v.node with
      | none =>
        rw [typeOf_untyped hk, Stop.bind_as]
        refine ⟨fun h => absurd h.symm Stop.ne_err, ?_⟩
        rintro ⟨m, h, _⟩
        cases h with
        | here h => rw [hk] at h; cases h
        | later h => rw [hk] at h; cases h
      | some k' =>
        obtain ⟨tp, h3, rfl⟩ := typeOf_ok hk
        rw [h3, Res.bind_ok]
        have hcp := C15_check_promote tp (.bare k)
        by_cases hw : Widens tp.kind k
        · rw [if_pos (hcp.2 hw)]
          have hp : ∃ x, Values.promote fo v (.bare k) = .ok x := by
            rw [Values.promote, h3, Res.bind_ok]
            split <;> exact ⟨_, rfl⟩
          obtain ⟨x, hp⟩ := hp
          rw [hp, Res.bind_ok, Fail.bind, ih ks vs h1 hlen]
          constructor
          · rintro (⟨m, h4, h5⟩ | ⟨_, _, h4⟩)
            · exact ⟨m, .later hk hw h4, h5⟩
            · cases h4
          · rintro ⟨m, h4, h5⟩
            cases h4 with
            | here h6 h7 => rw [hk] at h6; cases h6; exact absurd hw h7
            | later _ _ h6 => exact .inl ⟨m, h6, h5⟩
        · rw [if_neg fun h => hw (hcp.1 h), print_kind hk]
          have hl : kindText v.node = kindLabel tp.kind := by simp [kindText, hk]
          rw [hl]
          constructor
          · intro h
            exact ⟨_, .here hk hw, (Res.err.inj h).symm⟩
          · rintro ⟨m, h4, h5⟩
            cases h4 with
            | here h6 h7 => rw [hk] at h6; cases h6; rw [h5]; rfl
            | later h6 h7 => rw [hk] at h6; cases h6; exact absurd h7 hw

theorem paramFailsIn_nil {name : Str} {vs : List (Value F)} {m : Str} : ¬ ParamFailsIn name vs [] m := fun h => by cases h

theorem paramFailsIn_length {name : Str} {vs : List (Value F)} {ks : List Kind} (hl : vs.length = ks.length) {m : Str} :
    ParamsFailIn name vs ks m ↔ ParamFailsIn name vs ks m := by
  refine ⟨fun h => ?_, .kind hl⟩
  cases h with
  | none h1 h2 => subst h1; exact absurd (List.length_eq_zero_iff.1 hl) h2
  | count _ h2 => exact absurd hl h2
  | kind _ h => exact h

theorem resolveParameters_gate_failsIn (name : Str) (sp : Option Str) (ks : List Kind) (vs : List (Value F))
    (hng : InstructionSet.isNonGate name = false) (hsp : InstructionSet.getInstructionParamTypes name = .ok sp)
    (hks : SpecOf sp ks) (hne : sp ≠ some []) {e : Err} :
    resolveParameters fo name vs = .err e ↔ ∃ m, ParamsFailIn name vs ks m ∧ e = ⟨m, none⟩ := by
  simp only [resolveParameters, hng, hsp, Res.bind_ok, Bool.false_eq_true, if_false]
  rcases hks with ⟨rfl, rfl⟩ | ⟨s, rfl, hs⟩
  · simp only
    cases vs with
    | nil =>
      refine ⟨fun h => (by cases h), ?_⟩
      rintro ⟨m, h, _⟩
      cases h with
      | none _ h => exact absurd rfl h
      | count h => exact absurd rfl h
      | kind _ h => cases h
    | cons v vs =>
      constructor
      · intro h
        exact ⟨_, .none rfl (by simp), (Res.err.inj h).symm⟩
      · rintro ⟨m, h, rfl⟩
        cases h with
        | none => rfl
        | count h => exact absurd rfl h
        | kind _ h => cases h
  · have hl := fromSpec_map hs
    rw [List.length_map] at hl
    have hk0 : ks ≠ [] := by
      rintro rfl
      exact hne (by rw [List.length_eq_zero_iff.1 hl.symm])
    simp only
    by_cases h : vs.length ≠ s.length
    · rw [if_pos h, ← hl]
      rw [← hl] at h
      constructor
      · intro he
        exact ⟨_, .count hk0 h, (Res.err.inj he).symm⟩
      · rintro ⟨m, he, rfl⟩
        cases he with
        | none h' => exact absurd h' hk0
        | count => rfl
        | kind h' => exact absurd h' h
    · have h' : vs.length = ks.length := by rw [hl]; exact Classical.not_not.mp h
      rw [if_neg h, promoteParameters_failsIn name s ks vs hs h']
      exact exists_congr fun m => and_congr (paramFailsIn_length h').symm Iff.rfl

theorem resolveParameters_named_failsIn {name : Str} {n : Nat} {ks : List Kind} (h : (name, n, ks) ∈ namedGates)
    (vs : List (Value F)) {e : Err} : resolveParameters fo name vs = .err e ↔ ∃ m, ParamsFailIn name vs ks m ∧ e = ⟨m, none⟩ := by
  obtain ⟨h1, h2, _⟩ := named_facts _ h
  obtain ⟨sp, h6, h7⟩ := specOk_spec h2
  exact resolveParameters_gate_failsIn name sp ks vs h1 h6 h7 (specNonempty_spec (named_nonempty _ h) h6)

theorem resolveParameters_modifier_failsIn {name : Str} (h : name ∈ modifiers) (vs : List (Value F)) {e : Err} :
    resolveParameters fo name vs = .err e ↔ ∃ m, ParamsFailIn name vs (modifierParameters name) m ∧ e = ⟨m, none⟩ := by
  obtain ⟨h1, h2, _⟩ := modifier_facts _ h
  obtain ⟨sp, h6, h7⟩ := specOk_spec h2
  exact resolveParameters_gate_failsIn name sp _ vs h1 h6 h7 (specNonempty_spec (modifier_nonempty _ h) h6)

theorem resolveParameters_nonGate_failsIn {name : Str} (hn : name ∈ nonGates) (vs : List (Value F))
    (hw : name = c!"wait" → vs ≠ []) {e : Err} :
    resolveParameters fo name vs = .err e ↔ ∃ m, NonGateParamsFailIn name vs m ∧ e = ⟨m, none⟩ := by
  have hng := (isNonGate_iff name).mpr hn
  simp only [resolveParameters, hng, if_true]
  have hcase : name = c!"measure" ∨ name ∈ [c!"reset", c!"init", c!"barrier"] ∨ name = c!"wait" := by
    simp only [nonGates, List.mem_cons, List.not_mem_nil, or_false] at hn ⊢
    rcases hn with h | h | h | h | h <;> simp [h]
  -- a list of one of the lengths given
  have here : ∀ (spec : Str) (ks : List Kind), Types.fromSpec spec = some (ks.map Ty.bare) → (name, ks) ∈ nonGateParameters →
      (∀ ks', (name, ks') ∈ nonGateParameters → ks'.length = ks.length → ks' = ks) → vs.length = ks.length →
      (promoteParameters fo name spec vs = .err e ↔ ∃ m, NonGateParamsFailIn name vs m ∧ e = ⟨m, none⟩) := by
    intro spec ks h1 h2 h3 h4
    rw [promoteParameters_failsIn name spec ks vs h1 h4]
    refine exists_congr fun m => and_congr ⟨.kind h2 h4, fun h => ?_⟩ Iff.rfl
    cases h with
    | count h => exact absurd h4 (h ks h2)
    | kind h5 h6 h7 => rw [← h3 _ h5 (by rw [← h6, h4])]; exact h7
  -- a list of none of the lengths given
  have none_case : (∀ ks, (name, ks) ∈ nonGateParameters → ks ≠ [] → vs.length ≠ ks.length) →
      (vs = [] → (name, []) ∈ nonGateParameters) → (vs ≠ [] → ∀ ks, (name, ks) ∈ nonGateParameters → vs.length ≠ ks.length) →
      ((if vs.isEmpty = true then (.ok [] : Res Err (List (Value F))) else
        .err (Err.mk0 (c!"instruction '" ++ name ++ c!"' does not have an overload with "
          ++ decNat vs.length ++ c!" parameters."))) = .err e ↔ ∃ m, NonGateParamsFailIn name vs m ∧ e = ⟨m, none⟩) := by
    intro h1 h2 h3
    cases vs with
    | nil =>
      refine ⟨fun h => (by cases h), ?_⟩
      rintro ⟨m, h, _⟩
      cases h with
      | count h => exact absurd rfl (h [] (h2 rfl))
      | kind _ h4 h5 => rw [List.length_eq_zero_iff.1 h4.symm] at h5; cases h5
    | cons v vs =>
      constructor
      · intro h
        exact ⟨_, .count (h3 (by simp)), (Res.err.inj h).symm⟩
      · rintro ⟨m, h, rfl⟩
        cases h with
        | count => rfl
        | kind h4 h5 _ => exact absurd h5 (h3 (by simp) _ h4)
  rcases hcase with rfl | hs | rfl
  · have hks : ∀ ks, (c!"measure", ks) ∈ nonGateParameters ↔ ks = [] ∨ ks = [.float, .float, .float] := by
      intro ks; simp [nonGateParameters]
    rw [count_measure]
    by_cases h3 : vs.length = 3
    · simp only [h3, if_true]
      refine here c!"fff" [.float, .float, .float] rfl ((hks _).2 (.inr rfl)) ?_ h3
      intro ks' h h'
      rcases (hks _).1 h with rfl | rfl
      · simp at h'
      · rfl
    · simp only [h3, if_false]
      refine none_case ?_ (fun _ => (hks _).2 (.inl rfl)) ?_
      · intro ks h hn
        rcases (hks _).1 h with rfl | rfl
        · exact absurd rfl hn
        · exact h3
      · intro h0 ks h
        rcases (hks _).1 h with rfl | rfl
        · exact fun h => h0 (List.length_eq_zero_iff.1 h)
        · exact h3
  · have hks : ∀ ks, (name, ks) ∈ nonGateParameters ↔ ks = [] := by
      intro ks
      simp only [List.mem_cons, List.not_mem_nil, or_false] at hs
      rcases hs with rfl | rfl | rfl <;> simp [nonGateParameters]
    rw [count_simple name hs]
    refine none_case (fun ks h hn => absurd ((hks _).1 h) hn) (fun _ => (hks _).2 rfl) ?_
    intro h0 ks h
    rw [(hks _).1 h]
    exact fun h => h0 (List.length_eq_zero_iff.1 h)
  · have hks : ∀ ks, (c!"wait", ks) ∈ nonGateParameters ↔ ks = [.int] := by
      intro ks; simp [nonGateParameters]
    rw [count_wait]
    by_cases h1 : vs.length = 1
    · simp only [h1, if_true]
      exact here c!"i" [.int] rfl ((hks _).2 rfl) (fun ks' h _ => (hks _).1 h) h1
    · simp only [h1, if_false]
      refine none_case ?_ (fun h => absurd h (hw rfl)) ?_
      · intro ks h _
        rw [(hks _).1 h]
        exact h1
      · intro _ ks h
        rw [(hks _).1 h]
        exact h1

/-! ## Gates -/

theorem orAt_none (m : Str) (l : Option Loc) : orAt ⟨m, none⟩ l = ⟨m, l⟩ := by cases l <;> rfl

theorem visitGateRest_failsIn (h : Forall2 HoldsLevel scopes ls) {loc : Option Loc} {as : List (AnnotationData F)} {name : Str}
    {inner : Option (SGate F)} {ps : List (Expr F)} {errs : List Err} {x : Err} :
    visitGateRest fo scopes loc as name inner ps = .ok (errs, .error x) ↔ errs = [] ∧ ∃ y, x = orAt y loc ∧
      (ArgsFail fo ls ps y ∨ ∃ vs, ArgsIn fo ls ps vs ∧ (resolveParameters fo name vs = .err y ∨
        ∃ ws, resolveParameters fo name vs = .ok ws ∧ checkGate inner = .err y)) := by
  have key : ∀ y, ((visitList fo scopes ps).bind fun ps => (resolveParameters fo name ps).bind fun ps =>
        (checkGate inner).bind fun _ => (.ok ps : Res Err (List (Value F)))) = .err y ↔
      (ArgsFail fo ls ps y ∨ ∃ vs, ArgsIn fo ls ps vs ∧ (resolveParameters fo name vs = .err y ∨
        ∃ ws, resolveParameters fo name vs = .ok ws ∧ checkGate inner = .err y)) := by
    intro y
    rw [Fail.bind, visitList_failsIn h]
    refine or_congr Iff.rfl (exists_congr fun vs => and_congr (visitList_iff h ..) ?_)
    rw [Fail.bind]
    refine or_congr Iff.rfl (exists_congr fun ws => and_congr Iff.rfl ?_)
    rw [Fail.bind]
    exact ⟨fun h => h.elim id fun ⟨_, _, h⟩ => (by cases h), .inl⟩
  have key2 : (∃ y, x = orAt y loc ∧ (ArgsFail fo ls ps y ∨ ∃ vs, ArgsIn fo ls ps vs ∧
      (resolveParameters fo name vs = .err y ∨ ∃ ws, resolveParameters fo name vs = .ok ws ∧ checkGate inner = .err y))) ↔
      ∃ y, x = orAt y loc ∧ ((visitList fo scopes ps).bind fun ps => (resolveParameters fo name ps).bind fun ps =>
        (checkGate inner).bind fun _ => (.ok ps : Res Err (List (Value F)))) = .err y :=
    exists_congr fun y => and_congr Iff.rfl (key y).symm
  rw [key2]
  unfold visitGateRest
  split
  · next ws hw =>
    rw [hw]
    refine ⟨fun h0 => ?_, fun ⟨_, y, _, h⟩ => (by cases h)⟩
    obtain ⟨r, _, h2⟩ := Res.bind_eq_ok.1 h0
    cases h2
  · next e he =>
    rw [he, context_at]
    constructor
    · intro h
      cases h
      exact ⟨rfl, e, rfl, rfl⟩
    · rintro ⟨rfl, y, rfl, h⟩
      cases h
      rfl
  · next c he => rw [he]; exact ⟨fun h => (by cases h), fun ⟨_, y, _, h⟩ => (by cases h)⟩
  · next he => rw [he]; exact ⟨fun h => (by cases h), fun ⟨_, y, _, h⟩ => (by cases h)⟩

theorem checkGate_fails {g : Gate F} {n : Nat} {s : SGate F} (h : GateNames g n s) {e : Err} :
    checkGate (some s) = .err e ↔ n ≠ 1 ∧ e = ⟨c!"trying to apply a gate modifier to a multi-qubit gate", none⟩ := by
  by_cases hn : n = 1
  · subst hn
    rw [checkGate_ok h]
    exact ⟨fun h => (by cases h), fun h => absurd rfl h.1⟩
  · rw [checkGate_multi h hn]
    exact ⟨fun h => ⟨hn, (Res.err.inj h).symm⟩, fun h => by rw [h.2]⟩

theorem visitGate_failsIn (h : Forall2 HoldsLevel scopes ls) : ∀ (g : Gate F), ShapedGate g → PlainGate g → ∀ (x : Err),
    visitGate fo scopes g = .ok ([], .error x) ↔ GateFailsIn fo ls g x
  | .mk loc as name none ps, hs, hp, x => by
    cases hp
    rw [visitGate, visitGateRest_failsIn h]
    constructor
    · rintro ⟨_, y, rfl, h1 | ⟨vs, h1, h2 | ⟨_, _, h2⟩⟩⟩
      · exact .parameters h1
      · by_cases hn : ∃ n ks, (name, n, ks) ∈ namedGates
        · obtain ⟨n, ks, hn⟩ := hn
          obtain ⟨m, h3, rfl⟩ := (resolveParameters_named_failsIn hn vs).1 h2
          rw [orAt_none]
          exact .named h1 hn h3
        · rw [unknownParams_fails fo hn hs.1 hs.2 vs] at h2
          cases h2
          rw [orAt_none]
          exact .unknown h1 hn
      · cases h2
    · intro h0
      refine ⟨rfl, ?_⟩
      cases h0 with
      | parameters h1 => exact ⟨_, rfl, .inl h1⟩
      | unknown h1 h2 => exact ⟨_, (orAt_none _ _).symm, .inr ⟨_, h1, .inl (unknownParams_fails fo h2 hs.1 hs.2 _)⟩⟩
      | named h1 h2 h3 => exact ⟨_, (orAt_none _ _).symm, .inr ⟨_, h1, .inl ((resolveParameters_named_failsIn h2 _).2 ⟨_, h3, rfl⟩)⟩⟩
  | .mk loc as name (some g) ps, hs, hp, x => by
    obtain ⟨rfl, hpg⟩ := hp
    rw [visitGate, Res.bind_eq_ok]
    constructor
    · rintro ⟨⟨errs, r⟩, h1, h2⟩
      cases visitGate_plain g hpg h1
      cases r with
      | error e =>
        cases h2
        rw [context_at]
        exact .inner ((visitGate_failsIn h g hs.2 hpg e).1 h1)
      | ok inner =>
        obtain ⟨n, hg⟩ := (visitGate_iff h g hs.2 inner).1 h1
        unfold Log.after at h2
        obtain ⟨⟨errs, r⟩, h3, h4⟩ := Res.bind_eq_ok.1 h2
        simp only [Res.ok.injEq, Prod.mk.injEq, List.nil_append] at h4
        obtain ⟨rfl, rfl⟩ := h4
        obtain ⟨_, y, rfl, h5 | ⟨vs, h5, h6 | ⟨ws, h6, h7⟩⟩⟩ := (visitGateRest_failsIn h).1 h3
        · exact .modifierParameters hg h5
        · obtain ⟨m, h7, rfl⟩ := (resolveParameters_modifier_failsIn hs.1 vs).1 h6
          rw [orAt_none]
          exact .modifier hg h5 h7
        · obtain ⟨h8, rfl⟩ := (checkGate_fails (gateIn_names hg)).1 h7
          rw [orAt_none]
          exact .multi hg h5 ((resolveParameters_modifier_iff hs.1 vs ws).1 h6) h8
    · intro h0
      have rest : ∀ {n : Nat} {s : SGate F} (y : Err), GateHere fo ls g n s →
          (ArgsFail fo ls ps y ∨ ∃ vs, ArgsIn fo ls ps vs ∧ (resolveParameters fo name vs = .err y ∨
            ∃ ws, resolveParameters fo name vs = .ok ws ∧ checkGate (some s) = .err y)) →
          ∃ r, visitGate fo scopes g = .ok r ∧ (match r.2 with
            | .error e => .ok (r.1, .error (e.context loc))
            | .ok inner => Log.after r.1 (visitGateRest fo scopes loc [] name (some inner) ps)) =
              (.ok ([], .error (orAt y loc)) : Res Empty (Log (Except Err (SGate F)))) := by
        intro n s y hg hr
        refine ⟨([], .ok s), (visitGate_iff h g hs.2 s).2 ⟨n, hg⟩, ?_⟩
        simp only
        rw [(visitGateRest_failsIn h).2 ⟨rfl, y, rfl, hr⟩]
        rfl
      cases h0 with
      | inner h1 => exact ⟨([], .error _), (visitGate_failsIn h g hs.2 hpg _).2 h1, by simp only [context_at]⟩
      | modifierParameters h1 h2 => exact rest _ h1 (.inl h2)
      | modifier h1 h2 h3 =>
        rw [← orAt_none]
        exact rest _ h1 (.inr ⟨_, h2, .inl ((resolveParameters_modifier_failsIn hs.1 _).2 ⟨_, h3, rfl⟩)⟩)
      | multi h1 h2 h3 h4 =>
        rw [← orAt_none]
        exact rest _ h1 (.inr ⟨_, h2, .inr ⟨_, (resolveParameters_modifier_iff hs.1 _ _).2 h3,
          (checkGate_fails (gateIn_names h1)).2 ⟨h4, rfl⟩⟩⟩)

/-! ## Instructions -/

theorem checkGateInstruction_failsIn {ws : List (Value F)} {e : Err} : checkGateInstruction ws = .err e ↔
    ¬(∀ v ∈ ws, ∀ w ∈ ws, qubitsIn v = qubitsIn w) ∧ e = ⟨c!"qubit operands indices have different sizes", none⟩ := by
  rw [← checkGateInstruction_iff]
  unfold checkGateInstruction
  split
  · exact ⟨fun h => ⟨fun h => (by cases h), (Res.err.inj h).symm⟩, fun h => by rw [h.2]; rfl⟩
  · exact ⟨fun h => (by cases h), fun h => absurd rfl h.1⟩

theorem checkNonGateInstruction_failsIn {name : Str} {ws : List (Value F)} {e : Err} : checkNonGateInstruction name ws = .err e ↔
    (name = c!"measure" ∧ (ws.map qubitsIn).sum ≠ (ws.map bitsIn).sum) ∧ e = ⟨c!"qubit and bit indices have different sizes", none⟩ := by
  have h0 : (name = c!"measure" ∧ (ws.map qubitsIn).sum ≠ (ws.map bitsIn).sum) ↔ ¬ checkNonGateInstruction name ws = .ok () := by
    rw [checkNonGateInstruction_iff]
    exact Classical.not_imp.symm
  rw [h0]
  unfold checkNonGateInstruction
  split
  · split
    · exact ⟨fun h => ⟨fun h => (by cases h), (Res.err.inj h).symm⟩, fun h => by rw [h.2]; rfl⟩
    · exact ⟨fun h => (by cases h), fun h => absurd rfl h.1⟩
  · exact ⟨fun h => (by cases h), fun h => absurd rfl h.1⟩

theorem finish_plain {a : Analyzer F} (ha : a.scopes ≠ []) {loc : Option Loc} {t : SStatement F} {x : Err} {a' : Analyzer F} :
    Log.after [] (catchInto a loc (a.addStatement t)) ≠ .ok ([x], a') := by
  obtain ⟨v, sc, u⟩ := a
  cases sc with
  | nil => exact absurd rfl ha
  | cons s ss =>
    intro h
    simp [Log.after, catchInto, Analyzer.addStatement, Analyzer.modifyCurrent] at h

theorem visitInstruction_failsIn {a a' : Analyzer F} (h : Forall2 HoldsLevel a.scopes ls) (ha : a.scopes ≠ []) {s : Stmt F}
    (hs : ShapedStmt s) (hp : PlainStmt s) (hd : ¬ IsDecl s) {x : Err} :
    visitStatement fo a s = .ok ([x], a') ↔ InstrFailsIn fo ls s x ∧ a' = a := by
  cases s with
  | var => exact absurd trivial hd
  | asm l as name code =>
    cases hp
    simp only [visitStatement, visitAsmDeclaration, visitAnnotations, Res.bind_ok]
    exact ⟨fun h => absurd h (finish_plain ha), fun h => by cases h.1⟩
  | gate l as g es =>
    obtain ⟨rfl, hpg⟩ := hp
    simp only [visitStatement, visitGateInstruction]
    rw [Res.bind_eq_ok]
    have key : ∀ name y, ((visitList fo a.scopes es).bind fun ops =>
          (resolveInstruction fo a.scopes name ops).bind fun i => (checkGateInstruction i.2).bind fun _ =>
          (.ok i : Res Err (Instruction × List (Value F)))) = .err y ↔
        ArgsFail fo ls es y ∨ ∃ vs, ArgsIn fo ls es vs ∧ (((∀ v ∈ vs, kindOf v.node ≠ none) ∧
          (¬∃ i ws, ChosenInstr fo name vs i ws ls) ∧ y = ⟨resolutionMessage name vs, none⟩) ∨
          ∃ i ws, ChosenInstr fo name vs i ws ls ∧ ¬(∀ v ∈ ws, ∀ w ∈ ws, qubitsIn v = qubitsIn w) ∧
            y = ⟨c!"qubit operands indices have different sizes", none⟩) := by
      intro name y
      rw [Fail.bind, visitList_failsIn h]
      refine or_congr Iff.rfl (exists_congr fun vs => and_congr (visitList_iff h ..) ?_)
      rw [Fail.bind, resolveInstruction_failsIn h]
      refine or_congr Iff.rfl ⟨?_, ?_⟩
      · rintro ⟨⟨i, ws⟩, h1, h2⟩
        rcases Fail.bind.1 h2 with h2 | ⟨_, _, h2⟩
        · exact ⟨i, ws, (resolveInstruction_iff h ..).1 h1, checkGateInstruction_failsIn.1 h2⟩
        · cases h2
      · rintro ⟨i, ws, h1, h2⟩
        exact ⟨_, (resolveInstruction_iff h ..).2 h1, Fail.bind.2 (.inl (checkGateInstruction_failsIn.2 h2))⟩
    have outer : ∀ (s : SGate F),
        Log.after [] (match ((visitList fo a.scopes es).bind fun ops =>
          (resolveInstruction fo a.scopes (gateResolutionName s) ops).bind fun i =>
          (checkGateInstruction i.2).bind fun _ => .ok i) with
        | .err e => (.ok ([e.context l], a) : Res Empty (Log (Analyzer F)))
        | .exn c => .exn c
        | .ub => .ub
        | .ok i =>
          (visitAnnotations fo a.scopes []).bind fun ra =>
          Log.after ra.1 (catchInto a l (a.addStatement (.gate i.1 s i.2 ra.2 l)))) = .ok ([x], a') ↔
        (∃ y, x = orAt y l ∧ ((visitList fo a.scopes es).bind fun ops =>
          (resolveInstruction fo a.scopes (gateResolutionName s) ops).bind fun i => (checkGateInstruction i.2).bind fun _ =>
          (.ok i : Res Err (Instruction × List (Value F)))) = .err y) ∧ a' = a := by
      intro s
      split
      · next e he =>
        rw [he]
        simp only [Log.after, Res.bind_ok, List.nil_append, context_at, Res.ok.injEq, Prod.mk.injEq, List.cons.injEq, and_true,
          Res.err.injEq]
        constructor
        · rintro ⟨rfl, rfl⟩
          exact ⟨⟨e, rfl, rfl⟩, rfl⟩
        · rintro ⟨⟨y, rfl, rfl⟩, rfl⟩
          exact ⟨rfl, rfl⟩
      · next c he => rw [he]; simp [Log.after]
      · next he => rw [he]; simp [Log.after]
      · next i hi =>
        rw [hi]
        simp only [visitAnnotations, Res.bind_ok]
        refine ⟨fun h => ?_, fun ⟨⟨_, _, h⟩, _⟩ => (by cases h)⟩
        have : Log.after [] (catchInto a l (a.addStatement (.gate i.1 s i.2 [] l))) = .ok ([x], a') := by
          rw [← h]
          unfold Log.after
          cases catchInto a l (a.addStatement (.gate i.1 s i.2 [] l)) <;> rfl
        exact absurd this (finish_plain ha)
    constructor
    · rintro ⟨⟨errs, r⟩, h1, h2⟩
      cases visitGate_plain g hpg h1
      cases r with
      | error e =>
        simp only [Log.after, Res.bind_ok, List.nil_append, context_at, Res.ok.injEq, Prod.mk.injEq, List.cons.injEq, and_true] at h2
        obtain ⟨rfl, rfl⟩ := h2
        exact ⟨.gate ((visitGate_failsIn h g hs.2.1 hpg e).1 h1), rfl⟩
      | ok s =>
        obtain ⟨n, hg⟩ := (visitGate_iff h g hs.2.1 s).1 h1
        obtain ⟨⟨y, rfl, h3⟩, rfl⟩ := (outer s).1 h2
        refine ⟨?_, rfl⟩
        rw [(gateIn_names hg).resolution] at h3
        rcases (key _ y).1 h3 with h4 | ⟨vs, h4, ⟨h5, h6, rfl⟩ | ⟨i, ws, h5, h6, rfl⟩⟩
        · exact .gateOperands hg h4
        · rw [orAt_none]; exact .gateKinds hg h4 h5 h6
        · rw [orAt_none]; exact .gateSizes hg h4 h5 h6
    · rintro ⟨h0, rfl⟩
      have rest : ∀ {n : Nat} {s : SGate F} (y : Err), GateHere fo ls g n s →
          (ArgsFail fo ls es y ∨ ∃ vs, ArgsIn fo ls es vs ∧ (((∀ v ∈ vs, kindOf v.node ≠ none) ∧
            (¬∃ i ws, ChosenInstr fo (refName g) vs i ws ls) ∧ y = ⟨resolutionMessage (refName g) vs, none⟩) ∨
            ∃ i ws, ChosenInstr fo (refName g) vs i ws ls ∧ ¬(∀ v ∈ ws, ∀ w ∈ ws, qubitsIn v = qubitsIn w) ∧
              y = ⟨c!"qubit operands indices have different sizes", none⟩)) →
          ((visitList fo a'.scopes es).bind fun ops =>
            (resolveInstruction fo a'.scopes (gateResolutionName s) ops).bind fun i => (checkGateInstruction i.2).bind fun _ =>
            (.ok i : Res Err (Instruction × List (Value F)))) = .err y := by
        intro n s y hg hk
        rw [(gateIn_names hg).resolution]
        exact (key _ y).2 hk
      cases h0 with
      | gate h1 => exact ⟨_, (visitGate_failsIn h g hs.2.1 hpg _).2 h1, by simp [Log.after, context_at]⟩
      | @gateOperands _ _ _ _ n s y h1 h2 =>
        exact ⟨([], .ok s), (visitGate_iff h g hs.2.1 s).2 ⟨n, h1⟩, (outer s).2 ⟨⟨y, rfl, rest y h1 (.inl h2)⟩, rfl⟩⟩
      | @gateKinds _ _ _ _ n s vs h1 h2 h3 h4 =>
        exact ⟨([], .ok s), (visitGate_iff h g hs.2.1 s).2 ⟨n, h1⟩,
          (outer s).2 ⟨⟨_, (orAt_none _ _).symm, rest _ h1 (.inr ⟨vs, h2, .inl ⟨h3, h4, rfl⟩⟩)⟩, rfl⟩⟩
      | @gateSizes _ _ _ _ n s vs i ws h1 h2 h3 h4 =>
        exact ⟨([], .ok s), (visitGate_iff h g hs.2.1 s).2 ⟨n, h1⟩,
          (outer s).2 ⟨⟨_, (orAt_none _ _).symm, rest _ h1 (.inr ⟨vs, h2, .inr ⟨i, ws, h3, h4, rfl⟩⟩)⟩, rfl⟩⟩
  | nonGate l as name es ps =>
    cases hp
    simp only [visitStatement, visitNonGateInstruction]
    have hw : ∀ {us}, ArgsIn fo ls ps us → name = c!"wait" → us ≠ [] := by
      rintro us hu hn rfl
      cases hu
      exact absurd rfl (hs.2.2.1 hn)
    have key : (∃ y, x = orAt y l ∧ ((visitList fo a.scopes es).bind fun ops =>
          (resolveInstruction fo a.scopes name ops).bind fun i =>
          (visitList fo a.scopes ps).bind fun ps =>
          (resolveParameters fo name ps).bind fun ps =>
          (checkNonGateInstruction name i.2).bind fun _ =>
          (.ok (i, ps) : Res Err ((Instruction × List (Value F)) × List (Value F)))) = .err y) ↔
        InstrFailsIn fo ls (.nonGate l [] name es ps) x := by
      constructor
      · rintro ⟨y, rfl, h0⟩
        rcases Fail.bind.1 h0 with h1 | ⟨vs, h1, h2⟩
        · exact .operands ((visitList_failsIn h ..).1 h1)
        · have h1 := (visitList_iff h ..).1 h1
          rcases Fail.bind.1 h2 with h2 | ⟨⟨i, ws⟩, h2, h3⟩
          · obtain ⟨h3, h4, rfl⟩ := (resolveInstruction_failsIn h ..).1 h2
            rw [orAt_none]
            exact .kinds h1 h3 h4
          · have hc := (resolveInstruction_iff h ..).1 h2
            rcases Fail.bind.1 h3 with h3 | ⟨us, h3, h4⟩
            · exact .parameters h1 hc ((visitList_failsIn h ..).1 h3)
            · have hu := (visitList_iff h ..).1 h3
              rcases Fail.bind.1 h4 with h4 | ⟨us', h4', h4⟩
              · obtain ⟨m, h5, rfl⟩ := (resolveParameters_nonGate_failsIn hs.2.1 us (hw hu)).1 h4
                rw [orAt_none]
                exact .parameterKinds h1 hc hu h5
              · rcases Fail.bind.1 h4 with h4 | ⟨_, _, h4⟩
                · obtain ⟨⟨rfl, h5⟩, rfl⟩ := checkNonGateInstruction_failsIn.1 h4
                  obtain ⟨ks, h6, h7⟩ := (resolveParameters_nonGate_iff hs.2.1 us us' (hw hu)).1 h4'
                  rw [orAt_none]
                  exact .measureSizes h1 hc hu h6 h7 h5
                · cases h4
      · intro h0
        cases h0 with
        | operands h1 => exact ⟨_, rfl, Fail.bind.2 (.inl ((visitList_failsIn h ..).2 h1))⟩
        | kinds h1 h2 h3 =>
          exact ⟨_, (orAt_none _ _).symm, Fail.bind.2 (.inr ⟨_, (visitList_iff h ..).2 h1,
            Fail.bind.2 (.inl ((resolveInstruction_failsIn h ..).2 ⟨h2, h3, rfl⟩))⟩)⟩
        | parameters h1 h2 h3 =>
          exact ⟨_, rfl, Fail.bind.2 (.inr ⟨_, (visitList_iff h ..).2 h1, Fail.bind.2 (.inr ⟨_, (resolveInstruction_iff h ..).2 h2,
            Fail.bind.2 (.inl ((visitList_failsIn h ..).2 h3))⟩)⟩)⟩
        | parameterKinds h1 h2 h3 h4 =>
          exact ⟨_, (orAt_none _ _).symm, Fail.bind.2 (.inr ⟨_, (visitList_iff h ..).2 h1,
            Fail.bind.2 (.inr ⟨_, (resolveInstruction_iff h ..).2 h2, Fail.bind.2 (.inr ⟨_, (visitList_iff h ..).2 h3,
              Fail.bind.2 (.inl ((resolveParameters_nonGate_failsIn hs.2.1 _ (hw h3)).2 ⟨_, h4, rfl⟩))⟩)⟩)⟩)⟩
        | measureSizes h1 h2 h3 h4 h5 h6 =>
          exact ⟨_, (orAt_none _ _).symm, Fail.bind.2 (.inr ⟨_, (visitList_iff h ..).2 h1,
            Fail.bind.2 (.inr ⟨_, (resolveInstruction_iff h ..).2 h2, Fail.bind.2 (.inr ⟨_, (visitList_iff h ..).2 h3,
              Fail.bind.2 (.inr ⟨_, (resolveParameters_nonGate_iff hs.2.1 _ _ (hw h3)).2 ⟨_, h4, h5⟩,
                Fail.bind.2 (.inl (checkNonGateInstruction_failsIn.2 ⟨⟨rfl, h6⟩, rfl⟩))⟩)⟩)⟩)⟩)⟩
    rw [← key]
    split
    · next e he =>
      rw [he, context_at]
      simp only [Res.ok.injEq, Prod.mk.injEq, List.cons.injEq, and_true, Res.err.injEq]
      constructor
      · rintro ⟨rfl, rfl⟩
        exact ⟨⟨e, rfl, rfl⟩, rfl⟩
      · rintro ⟨⟨y, rfl, rfl⟩, rfl⟩
        exact ⟨rfl, rfl⟩
    · next c he => rw [he]; exact ⟨fun h => (by cases h), fun ⟨⟨_, _, h⟩, _⟩ => (by cases h)⟩
    · next he => rw [he]; exact ⟨fun h => (by cases h), fun ⟨⟨_, _, h⟩, _⟩ => (by cases h)⟩
    · next i us hi =>
      rw [hi]
      simp only [visitAnnotations, Res.bind_ok]
      exact ⟨fun h => absurd h (finish_plain ha), fun ⟨⟨_, _, h⟩, _⟩ => (by cases h)⟩

end Qasm
