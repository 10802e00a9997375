import Verif.Spec.Stops
import Verif.Lemmas.Reports
/-!
# Helper lemmas: when an analysis ends without a result
-/

namespace Qasm

open Spec Sem Analyzer

variable {F T : Type} {fo : FloatOps F} {scopes : List (Scope F)} {ls : List (Level F)}

namespace Stop

theorem cases {ε α : Type} (r : Res ε α) : (∃ x, r = .ok x) ∨ (∃ e, r = .err e) ∨ ∃ o : Spec.Stop, r = o.as := by
  cases r with
  | ok x => exact .inl ⟨x, rfl⟩
  | err e => exact .inr (.inl ⟨e, rfl⟩)
  | exn c => exact .inr (.inr ⟨.throws c, rfl⟩)
  | ub => exact .inr (.inr ⟨.undefined, rfl⟩)

theorem ne_ok {ε α : Type} {o : Spec.Stop} {x : α} : (Res.ok x : Res ε α) ≠ o.as := by cases o <;> simp [Spec.Stop.as]

theorem ne_err {ε α : Type} {o : Spec.Stop} {e : ε} : (Res.err e : Res ε α) ≠ o.as := by cases o <;> simp [Spec.Stop.as]

theorem inj {ε α : Type} {o o' : Spec.Stop} (h : (o.as : Res ε α) = o'.as) : o = o' := by
  cases o <;> cases o' <;> simp_all [Spec.Stop.as]

theorem bind_as {ε α β : Type} (o : Spec.Stop) (f : α → Res ε β) : (o.as : Res ε α).bind f = o.as := by cases o <;> rfl

theorem bind {ε α β : Type} {o : Spec.Stop} {r : Res ε α} {f : α → Res ε β} :
    r.bind f = o.as ↔ r = o.as ∨ ∃ x, r = .ok x ∧ f x = o.as := by
  cases r with
  | ok x =>
    rw [Res.bind_ok]
    exact ⟨fun h => .inr ⟨x, rfl, h⟩, fun h => h.elim (fun h => absurd h ne_ok) fun ⟨y, h1, h2⟩ => by cases h1; exact h2⟩
  | err e =>
    exact ⟨fun h => absurd h ne_err, fun h => h.elim (fun h => absurd h ne_err) fun ⟨y, h1, _⟩ => by cases h1⟩
  | exn c =>
    cases o with
    | throws d =>
      refine ⟨fun h => .inl ?_, fun h => h.elim (fun h => ?_) fun ⟨y, h1, _⟩ => by cases h1⟩
      · simp only [Res.bind, Spec.Stop.as, Res.exn.injEq] at h ⊢; exact h
      · simp only [Res.bind, Spec.Stop.as, Res.exn.injEq] at h ⊢; exact h
    | undefined => simp [Res.bind, Spec.Stop.as]
  | ub => cases o <;> simp [Res.bind, Spec.Stop.as]

theorem located {o : Spec.Stop} {l : Option Loc} {r : Res Err (Value F)} : locate l r = o.as ↔ r = o.as := by
  cases r <;> cases o <;> simp [locate, Spec.Stop.as]

theorem mapErr {ε ε' α : Type} {o : Spec.Stop} {r : Res ε α} {f : ε → ε'} : r.mapErr f = o.as ↔ r = o.as := by
  cases r <;> cases o <;> simp [Res.mapErr, Spec.Stop.as]

end Stop

/-! ## Values without a type -/

theorem typeOf_untyped {v : Value F} (h : Untyped v) : Values.typeOf v = untyped.as := by
  obtain ⟨n, l⟩ := v
  cases n with
  | indexRef x is =>
    match is, h with
    | [i], h =>
      have h : elementKind x.typ.kind = none := h
      obtain ⟨_, _, k, _⟩ := x
      cases k <;> first | rfl | cases h
    | [], h => cases h
    | _ :: _ :: _, h => cases h
  | _ => simp [Untyped, kindOf] at h

theorem typeOf_stop {v : Value F} {o : Stop} : Values.typeOf v = o.as ↔ Untyped v ∧ o = untyped := by
  constructor
  · intro h
    have hu : Untyped v := by
      unfold Untyped
      cases hk : kindOf v.node with
      | none => rfl
      | some k =>
        obtain ⟨t, ht, _⟩ := typeOf_ok hk
        rw [ht] at h
        exact absurd h Stop.ne_ok
    refine ⟨hu, ?_⟩
    rw [typeOf_untyped hu] at h
    exact (Stop.inj h).symm
  · rintro ⟨h, rfl⟩
    exact typeOf_untyped h

theorem promote_stop {v : Value F} {t : Ty} {o : Stop} : Values.promote fo v t = o.as ↔ Untyped v ∧ o = untyped := by
  unfold Values.promote
  rw [Stop.bind, typeOf_stop]
  refine ⟨fun h => h.elim id ?_, .inl⟩
  rintro ⟨tv, _, h⟩
  split at h <;> exact absurd h Stop.ne_ok

theorem typesOf_stop {vs : List (Value F)} {o : Stop} :
    Values.typesOf vs = o.as ↔ (∃ v ∈ vs, Untyped v) ∧ o = untyped := by
  induction vs with
  | nil => exact ⟨fun h => absurd h Stop.ne_ok, fun h => by simp at h⟩
  | cons v vs ih =>
    rw [Values.typesOf, Stop.bind, typeOf_stop]
    constructor
    · rintro (⟨h1, h2⟩ | ⟨t, _, h⟩)
      · exact ⟨⟨v, List.mem_cons_self .., h1⟩, h2⟩
      · rcases Stop.bind.1 h with h | ⟨_, _, h⟩
        · obtain ⟨⟨w, h1, h2⟩, h3⟩ := ih.1 h
          exact ⟨⟨w, List.mem_cons_of_mem _ h1, h2⟩, h3⟩
        · exact absurd h Stop.ne_ok
    · rintro ⟨⟨w, h1, h2⟩, rfl⟩
      by_cases hv : Untyped v
      · exact .inl ⟨hv, rfl⟩
      · obtain ⟨k, hk⟩ := Option.ne_none_iff_exists'.mp hv
        obtain ⟨t, ht, _⟩ := typeOf_ok hk
        refine .inr ⟨t, ht, Stop.bind.2 (.inl (ih.2 ⟨⟨w, ?_, h2⟩, rfl⟩))⟩
        rcases List.mem_cons.1 h1 with rfl | h1
        · exact absurd h2 hv
        · exact h1

theorem promoteAll_stop {vs : List (Value F)} {ts : List Ty} {o : Stop} (h : OverloadTable.promoteAll fo vs ts = o.as) :
    (∃ v ∈ vs, Untyped v) ∧ o = untyped := by
  induction vs generalizing ts with
  | nil => exact absurd h Stop.ne_ok
  | cons v vs ih =>
    cases ts with
    | nil => exact absurd h Stop.ne_ok
    | cons t ts =>
      rw [OverloadTable.promoteAll] at h
      rcases Stop.bind.1 h with h | ⟨r, _, h⟩
      · obtain ⟨h1, h2⟩ := promote_stop.1 h
        exact ⟨⟨v, List.mem_cons_self .., h1⟩, h2⟩
      · cases r with
        | none => exact absurd h Stop.ne_ok
        | some w =>
          rcases Stop.bind.1 h with h | ⟨r, _, h⟩
          · obtain ⟨⟨w, h1, h2⟩, h3⟩ := ih h
            exact ⟨⟨w, List.mem_cons_of_mem _ h1, h2⟩, h3⟩
          · cases r <;> exact absurd h Stop.ne_ok

theorem resolveFirst_stop {args : List (Value F)} {ovs : List (Overload T)} {o : Stop}
    (h : OverloadTable.resolveFirst fo args ovs = o.as) : (∃ v ∈ args, Untyped v) ∧ o = untyped := by
  induction ovs with
  | nil => exact absurd h Stop.ne_ok
  | cons ov ovs ih =>
    rw [OverloadTable.resolveFirst] at h
    split at h
    · exact ih h
    · rcases Stop.bind.1 h with h | ⟨r, _, h⟩
      · exact promoteAll_stop h
      · cases r with
        | none => exact ih h
        | some => exact absurd h Stop.ne_ok

theorem find_tableOf_none (regs : List (Registration T)) (name : Str) :
    OverloadTable.find (tableOf regs) name = none ↔ ∀ r ∈ regs, r.1 ≠ name := by
  rw [find_tableOf]
  dsimp only
  split
  · next h => simpa using h
  · next h => simpa using h

theorem resolve_stop {regs : List (Registration T)} {name : Str} {args : List (Value F)} {o : Stop} :
    OverloadTable.resolve fo (tableOf regs) name args = o.as ↔
      (∃ r ∈ regs, r.1 = name) ∧ (∃ v ∈ args, Untyped v) ∧ o = untyped := by
  have only : ∀ o, OverloadTable.resolve fo (tableOf regs) name args = Stop.as o →
      (∃ r ∈ regs, r.1 = name) ∧ (∃ v ∈ args, Untyped v) ∧ o = untyped := by
    intro o h
    unfold OverloadTable.resolve at h
    split at h
    · exact absurd h Stop.ne_err
    · next ovs ho =>
      refine ⟨Classical.byContradiction fun hn => ?_, ?_⟩
      · rw [(find_tableOf_none regs name).2 fun r hr hh => hn ⟨r, hr, hh⟩] at ho
        cases ho
      · rcases Stop.bind.1 h with h | ⟨r, _, h⟩
        · exact resolveFirst_stop h
        · cases r with
          | some => exact absurd h Stop.ne_ok
          | none =>
            rcases Stop.bind.1 h with h | ⟨_, _, h⟩
            · exact typesOf_stop.1 h
            · exact absurd h Stop.ne_err
  refine ⟨only o, ?_⟩
  rintro ⟨⟨r, h1, h2⟩, ⟨v, h3, h4⟩, rfl⟩
  rcases Stop.cases (OverloadTable.resolve fo (tableOf regs) name args) with ⟨x, h⟩ | ⟨e, h⟩ | ⟨o, h⟩
  · exact absurd h4 (resolve_kinds h v h3)
  · exfalso
    unfold OverloadTable.resolve at h
    split at h
    · next ho => exact (find_tableOf_none regs name).1 ho r h1 h2
    · rcases bind_err h with h5 | ⟨o, _, h5⟩
      · exact resolveFirst_noErr _ _ _ h5
      · cases o with
        | some => cases h5
        | none =>
          have : Values.typesOf args = untyped.as := typesOf_stop.2 ⟨⟨v, h3, h4⟩, rfl⟩
          simp only [this] at h5
          cases h5
  · obtain ⟨_, _, rfl⟩ := only o h
    exact h

theorem resolveInstruction_stop (h : Forall2 HoldsLevel scopes ls) {name : Str} {args : List (Value F)} {o : Stop} :
    resolveInstruction fo scopes name args = o.as ↔ (∃ v ∈ args, Untyped v) ∧ o = untyped := by
  induction h with
  | nil =>
    rw [resolveInstruction, Stop.bind, typesOf_stop]
    exact ⟨fun h => h.elim id fun ⟨_, _, h⟩ => absurd h Stop.ne_err, .inl⟩
  | @cons s l ss ls h1 _ ih =>
    rw [resolveInstruction, h1.2.2]
    rcases Stop.cases (OverloadTable.resolve fo (tableOf l.instructions) name args) with ⟨x, h⟩ | ⟨e, h⟩ | ⟨o', h⟩
    · simp only [h]
      exact ⟨fun h => absurd h Stop.ne_ok, fun ⟨⟨v, h2, h3⟩, _⟩ => absurd h3 (resolve_kinds h v h2)⟩
    · simp only [h]
      exact ih
    · obtain ⟨_, h2, rfl⟩ := resolve_stop.1 h
      simp only [h]
      constructor
      · intro h3
        exact ⟨h2, (Stop.inj (o := untyped) h3).symm⟩
      · rintro ⟨_, rfl⟩
        rfl

theorem callFunction_stop (h : Forall2 HoldsLevel scopes ls) {name : Str} {args : List (Value F)} {o : Stop} :
    callFunction fo scopes name args = o.as ↔ CallStops fo ls name args o := by
  unfold callFunction resolveFunction
  cases hg : ls.getLast? with
  | none =>
    have hl : ls = [] := List.getLast?_eq_none_iff.1 hg
    subst hl
    cases h
    constructor
    · intro h
      have : o = .undefined := (Stop.inj (o := .undefined) h).symm
      subst this
      exact .noScope rfl
    · intro h
      cases h with
      | noScope => rfl
      | untyped h => cases h
      | function h => cases h
  | some g =>
    obtain ⟨s, h4, h5⟩ := forall2_getLast h hg
    simp only [h4, FnTable.resolve, h5.2.1]
    rw [Stop.bind, Stop.bind]
    constructor
    · rintro ((h1 | ⟨⟨f, ws⟩, h1, h2⟩) | ⟨r, _, h1⟩)
      · obtain ⟨⟨r, h2, h3⟩, ⟨v, h4, h5⟩, rfl⟩ := resolve_stop.1 h1
        exact .untyped hg h2 h3 h4 h5
      · exact .function hg ((resolve_iff ..).1 h1) h2
      · cases r with
        | none => exact absurd h1 Stop.ne_err
        | some => exact absurd h1 Stop.ne_ok
    · intro h0
      cases h0 with
      | noScope h => subst h; cases hg
      | @untyped g' r v h1 h2 h3 h4 h5 =>
        rw [hg] at h1
        cases h1
        exact .inl (.inl (resolve_stop.2 ⟨⟨r, h2, h3⟩, ⟨v, h4, h5⟩, rfl⟩))
      | @function g' f ws o h1 h2 h3 =>
        rw [hg] at h1
        cases h1
        exact .inl (.inr ⟨(f, ws), (resolve_iff ..).2 h2, h3⟩)

/-! ## Expressions -/

theorem toConstInt_stop {l : Option Loc} {r : Res Err (Value F)} {o : Stop} :
    toConstInt fo l r = o.as ↔ r = o.as ∨ ∃ v, r = .ok v ∧ Untyped v ∧ o = untyped := by
  unfold toConstInt
  rw [Stop.bind]
  refine or_congr Iff.rfl (exists_congr fun v => and_congr Iff.rfl ?_)
  rw [Stop.bind, promote_stop]
  refine ⟨fun h => h.elim id ?_, .inl⟩
  rintro ⟨r, _, h⟩
  cases r with
  | none => exact absurd h Stop.ne_err
  | some w =>
    dsimp only at h
    split at h
    · exact absurd h Stop.ne_ok
    · exact absurd h Stop.ne_err

theorem indexRange_stop {l : Option Loc} {i j : Int64} {o : Stop} :
    indexRange l i j = o.as ↔ i.toInt ≤ j.toInt ∧ j.toInt = 2 ^ 63 - 1 ∧ o = .undefined := by
  rcases indexRange_spec l i j with ⟨_, h1, js, h2, h3⟩ | ⟨h0, h1, h3⟩ | ⟨h1, h3⟩ <;> rw [h3]
  · exact ⟨fun h => absurd h Stop.ne_ok, fun h => by omega⟩
  · exact ⟨fun h => ⟨h0, h1, (Stop.inj (o := .undefined) h).symm⟩, fun ⟨_, _, h⟩ => by rw [h]; rfl⟩
  · exact ⟨fun h => absurd h Stop.ne_err, fun h => by omega⟩

theorem indexInto_stop {v : Value F} {r : Res Err (List (Int64 × Option Loc))} {o : Stop} :
    indexInto v r = o.as ↔ ((∀ x, v.node ≠ .variableRef x) ∧ o = .undefined) ∨
      ∃ x, v.node = .variableRef x ∧ (x.typ.kind = .qubitArray ∨ x.typ.kind = .bitArray) ∧ r = o.as := by
  obtain ⟨n, l⟩ := v
  cases n with
  | variableRef x =>
    by_cases hk : x.typ.kind = .qubitArray ∨ x.typ.kind = .bitArray
    · rw [indexInto_array x l hk, Stop.bind]
      constructor
      · rintro (h | ⟨is, _, h⟩)
        · exact .inr ⟨x, rfl, hk, h⟩
        · exfalso
          rcases checkOutOfRange_spec is x.typ.size with ⟨_, h2⟩ | ⟨_, e, _, h2⟩
          · simp only [h2, Res.bind_ok] at h; exact absurd h Stop.ne_ok
          · simp only [h2] at h; exact absurd h Stop.ne_err
      · rintro (⟨h, _⟩ | ⟨_, _, _, h⟩)
        · exact absurd rfl (h x)
        · exact .inl h
    · simp only [indexInto, if_neg hk]
      constructor
      · intro h
        rcases Stop.bind.1 h with h | ⟨_, _, h⟩
        · exact absurd h Stop.ne_ok
        · exact absurd h Stop.ne_err
      · rintro (⟨h, _⟩ | ⟨y, h1, h2, _⟩)
        · exact absurd rfl (h x)
        · cases h1; exact absurd h2 hk
  | _ =>
    constructor
    · intro h
      exact .inl ⟨fun x hx => (by cases hx), (Stop.inj (o := .undefined) h).symm⟩
    · rintro (⟨_, rfl⟩ | ⟨_, h, _⟩)
      · rfl
      · cases h

mutual
theorem visit_stop (h : Forall2 HoldsLevel scopes ls) : ∀ (e : Expr F) (o : Stop),
    visit fo scopes e = o.as ↔ StopsIn fo ls e o
  | .boolLit l b, o => by
    rw [visit]
    exact ⟨fun h => absurd h Stop.ne_ok, fun h => by cases h⟩
  | .intLit l b, o => by
    rw [visit]
    exact ⟨fun h => absurd h Stop.ne_ok, fun h => by cases h⟩
  | .floatLit l b, o => by
    rw [visit]
    exact ⟨fun h => absurd h Stop.ne_ok, fun h => by cases h⟩
  | .ident l name, o => by
    rw [visit]
    refine ⟨fun h0 => ?_, fun h => by cases h⟩
    clear h
    exfalso
    induction scopes with
    | nil => exact Stop.ne_err h0
    | cons s ss ih =>
      rw [resolveVariable, VariableTable.resolve] at h0
      cases hf : s.variableTable.find name with
      | none => simp only [hf] at h0; exact ih h0
      | some w => simp only [hf] at h0; exact Stop.ne_ok h0
  | .index l e ixs, o => by
    rw [visit, Stop.mapErr, Stop.bind, Stop.located, visit_stop h e]
    constructor
    · rintro (h1 | ⟨w, h1, h2⟩)
      · exact .indexed h1
      · obtain ⟨⟨n, lu⟩, h1', rfl⟩ := locate_ok.1 h1
        rcases indexInto_stop.1 h2 with ⟨h3, rfl⟩ | ⟨x, h3, h4, h5⟩
        · exact .notVariable ((visit_iff h e _).1 h1') h3
        · simp only at h3
          subst h3
          exact .indices ((visit_iff h e _).1 h1') h4 ((visitIndexList_stop h ixs o).1 h5)
    · intro h0
      cases h0 with
      | indexed h1 => exact .inl h1
      | notVariable h1 h2 => exact .inr ⟨_, locate_ok.2 ⟨_, (visit_iff h e _).2 h1, rfl⟩, indexInto_stop.2 (.inl ⟨h2, rfl⟩)⟩
      | indices h1 h2 h3 =>
        exact .inr ⟨_, locate_ok.2 ⟨_, (visit_iff h e _).2 h1, rfl⟩,
          indexInto_stop.2 (.inr ⟨_, rfl, h2, (visitIndexList_stop h ixs o).2 h3⟩)⟩
  | .call l name args, o => by
    rw [visit, Stop.bind, visitList_stop h args]
    constructor
    · rintro (h1 | ⟨vs, h1, h2⟩)
      · exact .args h1
      · exact .call ((visitList_iff h args vs).1 h1) ((callFunction_stop h).1 h2)
    · intro h0
      cases h0 with
      | args h1 => exact .inl h1
      | call h1 h2 => exact .inr ⟨_, (visitList_iff h args _).2 h1, (callFunction_stop h).2 h2⟩
  | .un l op e, o => by
    rw [visit, Stop.bind, un_name, Stop.located, visit_stop h e]
    constructor
    · rintro (h1 | ⟨w, h1, h2⟩)
      · exact .operand h1
      · obtain ⟨u, h1', rfl⟩ := locate_ok.1 h1
        exact .un ((visit_iff h e u).1 h1') ((callFunction_stop h).1 h2)
    · intro h0
      cases h0 with
      | operand h1 => exact .inl h1
      | un h1 h2 => exact .inr ⟨_, locate_ok.2 ⟨_, (visit_iff h e _).2 h1, rfl⟩, (callFunction_stop h).2 h2⟩
  | .bin l op a b, o => by
    rw [visit, Stop.bind, bin_name, Stop.located, visit_stop h a]
    constructor
    · rintro (h1 | ⟨w, h1, h2⟩)
      · exact .left h1
      · obtain ⟨u, h1', rfl⟩ := locate_ok.1 h1
        rw [Stop.bind, Stop.located, visit_stop h b] at h2
        rcases h2 with h2 | ⟨w, h3, h4⟩
        · exact .right ((visit_iff h a u).1 h1') h2
        · obtain ⟨w, h3', rfl⟩ := locate_ok.1 h3
          exact .bin ((visit_iff h a u).1 h1') ((visit_iff h b w).1 h3') ((callFunction_stop h).1 h4)
    · intro h0
      cases h0 with
      | left h1 => exact .inl h1
      | right h1 h2 =>
        exact .inr ⟨_, locate_ok.2 ⟨_, (visit_iff h a _).2 h1, rfl⟩,
          Stop.bind.2 (.inl (Stop.located.2 ((visit_stop h b o).2 h2)))⟩
      | bin h1 h2 h3 =>
        exact .inr ⟨_, locate_ok.2 ⟨_, (visit_iff h a _).2 h1, rfl⟩, Stop.bind.2 (.inr
          ⟨_, locate_ok.2 ⟨_, (visit_iff h b _).2 h2, rfl⟩, (callFunction_stop h).2 h3⟩)⟩
  | .tern l a b c, o => by
    rw [visit, Stop.bind, Stop.located, visit_stop h a]
    constructor
    · rintro (h1 | ⟨w, h1, h2⟩)
      · exact .cond h1
      · obtain ⟨u, h1', rfl⟩ := locate_ok.1 h1
        rw [Stop.bind, Stop.located, visit_stop h b] at h2
        rcases h2 with h2 | ⟨w, h3, h4⟩
        · exact .ifTrue ((visit_iff h a u).1 h1') h2
        · obtain ⟨w, h3', rfl⟩ := locate_ok.1 h3
          rw [Stop.bind, Stop.located, visit_stop h c] at h4
          rcases h4 with h4 | ⟨x, h5, h6⟩
          · exact .ifFalse ((visit_iff h a u).1 h1') ((visit_iff h b w).1 h3') h4
          · obtain ⟨x, h5', rfl⟩ := locate_ok.1 h5
            exact .tern ((visit_iff h a u).1 h1') ((visit_iff h b w).1 h3') ((visit_iff h c x).1 h5') ((callFunction_stop h).1 h6)
    · intro h0
      cases h0 with
      | cond h1 => exact .inl h1
      | ifTrue h1 h2 =>
        exact .inr ⟨_, locate_ok.2 ⟨_, (visit_iff h a _).2 h1, rfl⟩,
          Stop.bind.2 (.inl (Stop.located.2 ((visit_stop h b o).2 h2)))⟩
      | ifFalse h1 h2 h3 =>
        exact .inr ⟨_, locate_ok.2 ⟨_, (visit_iff h a _).2 h1, rfl⟩, Stop.bind.2 (.inr
          ⟨_, locate_ok.2 ⟨_, (visit_iff h b _).2 h2, rfl⟩,
            Stop.bind.2 (.inl (Stop.located.2 ((visit_stop h c o).2 h3)))⟩)⟩
      | tern h1 h2 h3 h4 =>
        exact .inr ⟨_, locate_ok.2 ⟨_, (visit_iff h a _).2 h1, rfl⟩, Stop.bind.2 (.inr
          ⟨_, locate_ok.2 ⟨_, (visit_iff h b _).2 h2, rfl⟩, Stop.bind.2 (.inr
          ⟨_, locate_ok.2 ⟨_, (visit_iff h c _).2 h3, rfl⟩, (callFunction_stop h).2 h4⟩)⟩)⟩

theorem visitList_stop (h : Forall2 HoldsLevel scopes ls) : ∀ (es : List (Expr F)) (o : Stop),
    visitList fo scopes es = o.as ↔ ArgsStop fo ls es o
  | [], o => by
    rw [visitList]
    exact ⟨fun h => absurd h Stop.ne_ok, fun h => by cases h⟩
  | e :: es, o => by
    rw [visitList, Stop.bind, Stop.located, visit_stop h e]
    constructor
    · rintro (h1 | ⟨w, h1, h2⟩)
      · exact .head h1
      · obtain ⟨u, h1', rfl⟩ := locate_ok.1 h1
        rcases Stop.bind.1 h2 with h2 | ⟨_, _, h2⟩
        · exact .tail ((visit_iff h e u).1 h1') ((visitList_stop h es o).1 h2)
        · exact absurd h2 Stop.ne_ok
    · intro h0
      cases h0 with
      | head h1 => exact .inl h1
      | tail h1 h2 =>
        exact .inr ⟨_, locate_ok.2 ⟨_, (visit_iff h e _).2 h1, rfl⟩, Stop.bind.2 (.inl ((visitList_stop h es o).2 h2))⟩

theorem visitIndexList_stop (h : Forall2 HoldsLevel scopes ls) : ∀ (xs : List (IndexEntry F)) (o : Stop),
    visitIndexList fo scopes xs = o.as ↔ IndicesStop fo ls xs o
  | [], o => by
    rw [visitIndexList]
    exact ⟨fun h => absurd h Stop.ne_ok, fun h => by cases h⟩
  | x :: xs, o => by
    rw [visitIndexList, Stop.bind, visitIndexEntry_stop h x]
    constructor
    · rintro (h1 | ⟨js, h1, h2⟩)
      · exact .head h1
      · rcases Stop.bind.1 h2 with h2 | ⟨_, _, h2⟩
        · exact .tail ((visitIndexEntry_iff h x js).1 h1) ((visitIndexList_stop h xs o).1 h2)
        · exact absurd h2 Stop.ne_ok
    · intro h0
      cases h0 with
      | head h1 => exact .inl h1
      | tail h1 h2 =>
        exact .inr ⟨_, (visitIndexEntry_iff h x _).2 h1, Stop.bind.2 (.inl ((visitIndexList_stop h xs o).2 h2))⟩

theorem visitIndexEntry_stop (h : Forall2 HoldsLevel scopes ls) : ∀ (x : IndexEntry F) (o : Stop),
    visitIndexEntry fo scopes x = o.as ↔ EntryStops fo ls x o
  | .item l e, o => by
    rw [visitIndexEntry, Stop.bind, toConstInt_stop, visit_stop h e]
    constructor
    · rintro ((h1 | ⟨v, h1, h2, rfl⟩) | ⟨_, _, h1⟩)
      · exact .item h1
      · exact .itemUntyped ((visit_iff h e v).1 h1) h2
      · exact absurd h1 Stop.ne_ok
    · intro h0
      cases h0 with
      | item h1 => exact .inl (.inl h1)
      | itemUntyped h1 h2 => exact .inl (.inr ⟨_, (visit_iff h e _).2 h1, h2, rfl⟩)
  | .range l a b, o => by
    rw [visitIndexEntry, Stop.bind, toConstInt_stop, visit_stop h a]
    constructor
    · rintro ((h1 | ⟨v, h1, h2, rfl⟩) | ⟨i, h1, h2⟩)
      · exact .first h1
      · exact .firstUntyped ((visit_iff h a v).1 h1) h2
      · obtain ⟨v, li, h1, h3⟩ := toConstInt_iff.1 h1
        rw [Stop.bind, toConstInt_stop, visit_stop h b] at h2
        rcases h2 with (h4 | ⟨w, h4, h5, rfl⟩) | ⟨j, h4, h5⟩
        · exact .last ((visit_iff h a v).1 h1) h3 h4
        · exact .lastUntyped ((visit_iff h a v).1 h1) h3 ((visit_iff h b w).1 h4) h5
        · obtain ⟨w, lj, h4, h6⟩ := toConstInt_iff.1 h4
          obtain ⟨h7, h8, rfl⟩ := indexRange_stop.1 h5
          exact .range ((visit_iff h a v).1 h1) h3 ((visit_iff h b w).1 h4) h6 h7 h8
    · intro h0
      cases h0 with
      | first h1 => exact .inl (.inl h1)
      | firstUntyped h1 h2 => exact .inl (.inr ⟨_, (visit_iff h a _).2 h1, h2, rfl⟩)
      | last h1 h2 h3 =>
        exact .inr ⟨_, toConstInt_iff.2 ⟨_, _, (visit_iff h a _).2 h1, h2⟩, Stop.bind.2 (.inl (toConstInt_stop.2
          (.inl ((visit_stop h b o).2 h3))))⟩
      | lastUntyped h1 h2 h3 h4 =>
        exact .inr ⟨_, toConstInt_iff.2 ⟨_, _, (visit_iff h a _).2 h1, h2⟩, Stop.bind.2 (.inl (toConstInt_stop.2
          (.inr ⟨_, (visit_iff h b _).2 h3, h4, rfl⟩)))⟩
      | range h1 h2 h3 h4 h5 h6 =>
        exact .inr ⟨_, toConstInt_iff.2 ⟨_, _, (visit_iff h a _).2 h1, h2⟩, Stop.bind.2 (.inr
          ⟨_, toConstInt_iff.2 ⟨_, _, (visit_iff h b _).2 h3, h4⟩, indexRange_stop.2 ⟨h5, h6, rfl⟩⟩)⟩
end

/-! ## Instructions -/

theorem passed_or {v : Value F} {k k' : Kind} (h : kindOf v.node = some k') : 
    (∃ ws, Passed fo v k ws) ↔ Widens k' k := by
  constructor
  · rintro ⟨ws, hw⟩
    cases hw with
    | passed hp => exact promotesTo_widens hp h
    | lost h1 h2 _ => rw [h] at h1; cases h1; exact h2
  · intro hw
    by_cases hp : ∃ w, PromotesTo fo v k w
    · obtain ⟨w, hp⟩ := hp
      exact ⟨_, .passed hp⟩
    · exact ⟨_, .lost h hw hp⟩

theorem promoteParameters_stop (name spec : Str) (ks : List Kind) (vs : List (Value F))
    (hspec : Types.fromSpec spec = some (ks.map Ty.bare)) (hlen : vs.length = ks.length) {o : Stop} :
    promoteParameters fo name spec vs = o.as ↔ LacksType vs ks ∧ o = untyped := by
  induction spec generalizing ks vs with
  | nil =>
    simp only [Types.fromSpec, Option.some.injEq] at hspec
    have : ks = [] := by cases ks <;> simp_all
    subst this
    have : vs = [] := by cases vs <;> simp_all
    subst this
    rw [promoteParameters]
    exact ⟨fun h => absurd h Stop.ne_ok, fun ⟨h, _⟩ => by cases h⟩
  | cons c cs ih =>
    simp only [Types.fromSpec] at hspec
    cases hc : Types.fromSpecChar c with
    | none => rw [hc] at hspec; cases hspec
    | some t =>
      rw [hc] at hspec
      simp only [Option.map_eq_some_iff] at hspec
      obtain ⟨ts, h1, h2⟩ := hspec
      rcases ks with _ | ⟨k, ks⟩
      · simp at h2
      simp only [List.map_cons, List.cons.injEq] at h2
      obtain ⟨rfl, rfl⟩ := h2
      rcases vs with _ | ⟨v, vs⟩
      · simp at hlen
      simp only [List.length_cons, Nat.add_right_cancel_iff] at hlen
      simp only [promoteParameters, hc]
      rw [Stop.bind, typeOf_stop]
      constructor
      · rintro (⟨h3, h4⟩ | ⟨tp, h3, h4⟩)
        · exact ⟨.here h3 hlen, h4⟩
        · have hk := kindOf_of_typeOf h3
          split at h4
          · next hcp =>
            rcases Stop.bind.1 h4 with h5 | ⟨r, _, h5⟩
            · have := (promote_stop.1 h5).1
              unfold Untyped at this
              rw [hk] at this
              cases this
            · rcases Stop.bind.1 h5 with h6 | ⟨_, _, h6⟩
              · obtain ⟨h7, h8⟩ := (ih ks vs h1 hlen).1 h6
                exact ⟨.there hk ((C15_check_promote _ _).1 hcp) h7, h8⟩
              · exact absurd h6 Stop.ne_ok
          · exact absurd h4 Stop.ne_err
      · rintro ⟨h0, rfl⟩
        cases h0 with
        | here h3 _ => exact .inl ⟨h3, rfl⟩
        | there h3 h4 h5 =>
          obtain ⟨tp, h6, h7⟩ := typeOf_ok h3
          refine .inr ⟨tp, h6, ?_⟩
          have hcp : Values.checkPromote tp (.bare k) = true := (C15_check_promote _ _).2 (h7 ▸ h4)
          rw [if_pos hcp, Stop.bind]
          rcases Stop.cases (Values.promote fo v (.bare k)) with ⟨x, h⟩ | ⟨e, h⟩ | ⟨o, h⟩
          · exact .inr ⟨x, h, Stop.bind.2 (.inl ((ih ks vs h1 hlen).2 ⟨h5, rfl⟩))⟩
          · rw [Values.promote, h6, Res.bind_ok] at h
            split at h <;> cases h
          · have := (promote_stop.1 h).1
            unfold Untyped at this
            rw [h3] at this
            cases this

theorem lacksType_length {vs : List (Value F)} {ks : List Kind} (h : LacksType vs ks) : vs.length = ks.length := by
  induction h with
  | here _ h => simp [h]
  | there _ _ _ ih => simp [ih]

theorem resolveParameters_gate_stop (name : Str) (sp : Option Str) (ks : List Kind) (vs : List (Value F))
    (hng : InstructionSet.isNonGate name = false) (hsp : InstructionSet.getInstructionParamTypes name = .ok sp)
    (hks : SpecOf sp ks) {o : Stop} : resolveParameters fo name vs = o.as ↔ LacksType vs ks ∧ o = untyped := by
  simp only [resolveParameters, hng, hsp, Res.bind_ok, Bool.false_eq_true, if_false]
  rcases hks with ⟨rfl, rfl⟩ | ⟨s, rfl, hs⟩
  · simp only
    cases vs with
    | nil => exact ⟨fun h => absurd h Stop.ne_ok, fun ⟨h, _⟩ => (by cases h)⟩
    | cons v vs => exact ⟨fun h => absurd h Stop.ne_err, fun ⟨h, _⟩ => (by cases h)⟩
  · have hl := fromSpec_map hs
    rw [List.length_map] at hl
    simp only
    by_cases h : vs.length ≠ s.length
    · rw [if_pos h]
      exact ⟨fun h => absurd h Stop.ne_err, fun ⟨h', _⟩ => absurd (by rw [lacksType_length h', hl]) h⟩
    · rw [if_neg h]
      exact promoteParameters_stop name s ks vs hs (by rw [hl]; exact Classical.not_not.mp h)

theorem resolveParameters_named_stop {name : Str} {n : Nat} {ks : List Kind} (h : (name, n, ks) ∈ namedGates)
    (vs : List (Value F)) {o : Stop} : resolveParameters fo name vs = o.as ↔ LacksType vs ks ∧ o = untyped := by
  obtain ⟨h1, h2, _⟩ := named_facts _ h
  obtain ⟨sp, h6, h7⟩ := specOk_spec h2
  exact resolveParameters_gate_stop name sp ks vs h1 h6 h7

theorem resolveParameters_modifier_stop {name : Str} (h : name ∈ modifiers) (vs : List (Value F)) {o : Stop} :
    resolveParameters fo name vs = o.as ↔ LacksType vs (modifierParameters name) ∧ o = untyped := by
  obtain ⟨h1, h2, _⟩ := modifier_facts _ h
  obtain ⟨sp, h6, h7⟩ := specOk_spec h2
  exact resolveParameters_gate_stop name sp _ vs h1 h6 h7

theorem resolveParameters_nonGate_stop {name : Str} (hn : name ∈ nonGates) (vs : List (Value F)) {o : Stop} :
    resolveParameters fo name vs = o.as ↔ ∃ ks, (name, ks) ∈ nonGateParameters ∧ LacksType vs ks ∧ o = untyped := by
  have hng := (isNonGate_iff name).mpr hn
  simp only [resolveParameters, hng, if_true]
  have hcase : name = c!"measure" ∨ name ∈ [c!"reset", c!"init", c!"barrier"] ∨ name = c!"wait" := by
    simp only [nonGates, List.mem_cons, List.not_mem_nil, or_false] at hn ⊢
    rcases hn with h | h | h | h | h <;> simp [h]
  have none_case : ∀ e : Err, (if vs.isEmpty = true then (.ok [] : Res Err (List (Value F))) else .err e) ≠ o.as := by
    intro e
    split
    · exact Stop.ne_ok
    · exact Stop.ne_err
  have nil_case : ¬ LacksType vs [] := fun h => by cases h
  rcases hcase with rfl | hs | rfl
  · have hks : ∀ ks, (c!"measure", ks) ∈ nonGateParameters ↔ ks = [] ∨ ks = [.float, .float, .float] := by
      intro ks; simp [nonGateParameters]
    simp only [hks, or_and_right, exists_or, exists_eq_left, nil_case, false_and, false_or]
    rw [count_measure]
    by_cases h3 : vs.length = 3
    · simp only [h3, if_true]
      exact promoteParameters_stop c!"measure" c!"fff" [.float, .float, .float] vs rfl h3
    · simp only [h3, if_false]
      exact ⟨fun h => absurd h (none_case _), fun ⟨h, _⟩ => absurd (lacksType_length h) h3⟩
  · have hks : ∀ ks, (name, ks) ∈ nonGateParameters ↔ ks = [] := by
      intro ks
      simp only [List.mem_cons, List.not_mem_nil, or_false] at hs
      rcases hs with rfl | rfl | rfl <;> simp [nonGateParameters]
    simp only [hks, exists_eq_left, nil_case, false_and]
    rw [count_simple name hs]
    exact ⟨fun h => absurd h (none_case _), False.elim⟩
  · have hks : ∀ ks, (c!"wait", ks) ∈ nonGateParameters ↔ ks = [.int] := by
      intro ks; simp [nonGateParameters]
    simp only [hks, exists_eq_left]
    rw [count_wait]
    by_cases h1 : vs.length = 1
    · simp only [h1, if_true]
      exact promoteParameters_stop c!"wait" c!"i" [.int] vs rfl h1
    · simp only [h1, if_false]
      exact ⟨fun h => absurd h (none_case _), fun ⟨h, _⟩ => absurd (lacksType_length h) h1⟩

theorem checkGate_stop {inner : Option (SGate F)} {o : Stop} : checkGate inner ≠ o.as := by
  unfold checkGate
  split
  · exact Stop.ne_ok
  · split
    · exact Stop.ne_err
    · exact Stop.ne_ok

theorem visitGateRest_stop (h : Forall2 HoldsLevel scopes ls) {loc : Option Loc} {name : Str}
    {inner : Option (SGate F)} {ps : List (Expr F)} {o : Stop} :
    visitGateRest fo scopes loc [] name inner ps = o.as ↔
      ArgsStop fo ls ps o ∨ ∃ vs, ArgsIn fo ls ps vs ∧ resolveParameters fo name vs = o.as := by
  have key : ((visitList fo scopes ps).bind fun ps => (resolveParameters fo name ps).bind fun ps =>
        (checkGate inner).bind fun _ => (.ok ps : Res Err (List (Value F)))) = o.as ↔
      ArgsStop fo ls ps o ∨ ∃ vs, ArgsIn fo ls ps vs ∧ resolveParameters fo name vs = o.as := by
    rw [Stop.bind, visitList_stop h]
    refine or_congr Iff.rfl (exists_congr fun vs => and_congr (visitList_iff h ..) ?_)
    rw [Stop.bind]
    refine ⟨fun h => h.elim id ?_, .inl⟩
    rintro ⟨ws, _, h1⟩
    rcases Stop.bind.1 h1 with h1 | ⟨_, _, h1⟩
    · exact absurd h1 checkGate_stop
    · exact absurd h1 Stop.ne_ok
  rw [← key]
  unfold visitGateRest
  split
  · next ws hw =>
    rw [hw]
    simp only [visitAnnotations, Res.bind_ok]
    exact ⟨fun h => absurd h Stop.ne_ok, fun h => absurd h Stop.ne_ok⟩
  · next e he => rw [he]; exact ⟨fun h => absurd h Stop.ne_ok, fun h => absurd h Stop.ne_err⟩
  · next c he => rw [he]; cases o <;> simp [Stop.as]
  · next he => rw [he]; cases o <;> simp [Stop.as]

theorem after_stop {α : Type} {es : List Err} {r : Res Empty (Log α)} {o : Stop} : Log.after es r = o.as ↔ r = o.as := by
  unfold Log.after
  rw [Stop.bind]
  exact ⟨fun h => h.elim id fun ⟨_, _, h⟩ => absurd h Stop.ne_ok, .inl⟩

theorem visitGate_stop (h : Forall2 HoldsLevel scopes ls) : ∀ (g : Gate F), ShapedGate g → PlainGate g → ∀ (o : Stop),
    visitGate fo scopes g = o.as ↔ GateStops fo ls g o
  | .mk loc as name none ps, hs, hp, o => by
    cases hp
    rw [visitGate, visitGateRest_stop h]
    constructor
    · rintro (h1 | ⟨vs, h1, h2⟩)
      · exact .parameters h1
      · by_cases hn : ∃ n ks, (name, n, ks) ∈ namedGates
        · obtain ⟨n, ks, hn⟩ := hn
          obtain ⟨h3, rfl⟩ := (resolveParameters_named_stop hn vs).1 h2
          exact .named h1 hn h3
        · obtain ⟨e, _, he⟩ := resolveParameters_unknown fo hn hs.1 hs.2 vs
          rw [he] at h2
          exact absurd h2 Stop.ne_err
    · intro h0
      cases h0 with
      | parameters h1 => exact .inl h1
      | named h1 h2 h3 => exact .inr ⟨_, h1, (resolveParameters_named_stop h2 _).2 ⟨h3, rfl⟩⟩
  | .mk loc as name (some g) ps, hs, hp, o => by
    obtain ⟨rfl, hpg⟩ := hp
    rw [visitGate, Stop.bind, visitGate_stop h g hs.2 hpg]
    constructor
    · rintro (h1 | ⟨⟨errs, r⟩, h1, h2⟩)
      · exact .inner h1
      · cases visitGate_plain g hpg h1
        cases r with
        | error e => exact absurd h2 Stop.ne_ok
        | ok inner =>
          obtain ⟨n, hg⟩ := (visitGate_iff h g hs.2 inner).1 h1
          rcases (visitGateRest_stop h).1 (after_stop.1 h2) with h3 | ⟨vs, h3, h4⟩
          · exact .modifier hg h3
          · obtain ⟨h5, rfl⟩ := (resolveParameters_modifier_stop hs.1 vs).1 h4
            exact .modified hg h3 h5
    · intro h0
      cases h0 with
      | inner h1 => exact .inl h1
      | modifier h1 h2 =>
        exact .inr ⟨_, (visitGate_iff h g hs.2 _).2 ⟨_, h1⟩, after_stop.2 ((visitGateRest_stop h).2 (.inl h2))⟩
      | modified h1 h2 h3 =>
        exact .inr ⟨_, (visitGate_iff h g hs.2 _).2 ⟨_, h1⟩, after_stop.2 ((visitGateRest_stop h).2
          (.inr ⟨_, h2, (resolveParameters_modifier_stop hs.1 _).2 ⟨h3, rfl⟩⟩))⟩

theorem checkGateInstruction_stop {ws : List (Value F)} {o : Stop} : checkGateInstruction ws ≠ o.as := by
  unfold checkGateInstruction
  split
  · exact Stop.ne_err
  · exact Stop.ne_ok

theorem checkNonGateInstruction_stop {name : Str} {ws : List (Value F)} {o : Stop} : checkNonGateInstruction name ws ≠ o.as := by
  unfold checkNonGateInstruction
  split
  · split
    · exact Stop.ne_err
    · exact Stop.ne_ok
  · exact Stop.ne_ok

/-- In a scope, a statement can be added. -/
theorem finish_stop {a : Analyzer F} {o : Stop} (ha : a.scopes ≠ [] ∨ o ≠ .undefined) {loc : Option Loc} {t : SStatement F} :
    catchInto a loc (a.addStatement t) ≠ o.as := by
  obtain ⟨v, sc, u⟩ := a
  cases sc with
  | nil =>
    rcases ha with ha | ha
    · exact absurd rfl ha
    · exact fun h => ha (Stop.inj (o := .undefined) h).symm
  | cons s ss => exact Stop.ne_ok

theorem visitInstruction_stop {a : Analyzer F} {o : Stop} (h : Forall2 HoldsLevel a.scopes ls)
    (ha : a.scopes ≠ [] ∨ o ≠ .undefined) {s : Stmt F} (hs : ShapedStmt s) (hp : PlainStmt s) (hd : ¬ IsDecl s) :
    visitStatement fo a s = o.as ↔ InstrStops fo ls s o := by
  cases s with
  | var => exact absurd trivial hd
  | asm l as name code =>
    cases hp
    simp only [visitStatement, visitAsmDeclaration, visitAnnotations, Res.bind_ok]
    rw [after_stop]
    exact ⟨fun h => absurd h (finish_stop ha), fun h => by cases h⟩
  | gate l as g es =>
    obtain ⟨rfl, hpg⟩ := hp
    simp only [visitStatement, visitGateInstruction]
    rw [Stop.bind, visitGate_stop h g hs.2.1 hpg]
    have key : ∀ name, ((visitList fo a.scopes es).bind fun ops =>
          (resolveInstruction fo a.scopes name ops).bind fun i => (checkGateInstruction i.2).bind fun _ =>
          (.ok i : Res Err (Instruction × List (Value F)))) = o.as ↔
        ArgsStop fo ls es o ∨ ∃ vs, ArgsIn fo ls es vs ∧ (∃ v ∈ vs, Untyped v) ∧ o = untyped := by
      intro name
      rw [Stop.bind, visitList_stop h]
      refine or_congr Iff.rfl (exists_congr fun vs => and_congr (visitList_iff h ..) ?_)
      rw [Stop.bind, resolveInstruction_stop h]
      refine ⟨fun h => h.elim id ?_, .inl⟩
      rintro ⟨ws, _, h1⟩
      rcases Stop.bind.1 h1 with h1 | ⟨_, _, h1⟩
      · exact absurd h1 checkGateInstruction_stop
      · exact absurd h1 Stop.ne_ok
    have outer : ∀ (n : Nat) (s : SGate F), GateHere fo ls g n s →
        ((match ((visitList fo a.scopes es).bind fun ops =>
          (resolveInstruction fo a.scopes (gateResolutionName s) ops).bind fun i =>
          (checkGateInstruction i.2).bind fun _ => .ok i) with
        | .err e => (.ok ([e.context l], a) : Res Empty (Log (Analyzer F)))
        | .exn c => .exn c
        | .ub => .ub
        | .ok i =>
          (visitAnnotations fo a.scopes []).bind fun ra =>
          Log.after ra.1 (catchInto a l (a.addStatement (.gate i.1 s i.2 ra.2 l)))) = o.as ↔
        ArgsStop fo ls es o ∨ ∃ vs, ArgsIn fo ls es vs ∧ (∃ v ∈ vs, Untyped v) ∧ o = untyped) := by
      intro n s _
      rw [← key (gateResolutionName s)]
      split
      · next e he => rw [he]; exact ⟨fun h => absurd h Stop.ne_ok, fun h => absurd h Stop.ne_err⟩
      · next c he => rw [he]; cases o <;> simp [Stop.as]
      · next he => rw [he]; cases o <;> simp [Stop.as]
      · next i hi =>
        rw [hi]
        simp only [visitAnnotations, Res.bind_ok]
        rw [after_stop]
        exact ⟨fun h => absurd h (finish_stop ha), fun h => absurd h Stop.ne_ok⟩
    constructor
    · rintro (h1 | ⟨⟨errs, r⟩, h1, h2⟩)
      · exact .gate h1
      · cases visitGate_plain g hpg h1
        have h2' := after_stop.1 h2
        cases r with
        | error e => exact absurd h2' Stop.ne_ok
        | ok s =>
          obtain ⟨n, hg⟩ := (visitGate_iff h g hs.2.1 s).1 h1
          rcases (outer n s hg).1 h2' with h3 | ⟨vs, h3, ⟨v, h4, h5⟩, rfl⟩
          · exact .gateArgs hg h3
          · exact .gateUntyped hg h3 h4 h5
    · intro h0
      cases h0 with
      | gate h1 => exact .inl h1
      | @gateArgs _ _ _ _ n s _ h1 h2 =>
        exact .inr ⟨_, (visitGate_iff h g hs.2.1 _).2 ⟨_, h1⟩, after_stop.2 ((outer n s h1).2 (.inl h2))⟩
      | @gateUntyped _ _ _ _ n s vs v h1 h2 h3 h4 =>
        exact .inr ⟨_, (visitGate_iff h g hs.2.1 _).2 ⟨_, h1⟩, after_stop.2 ((outer n s h1).2 (.inr ⟨vs, h2, ⟨v, h3, h4⟩, rfl⟩))⟩
  | nonGate l as name es ps =>
    cases hp
    simp only [visitStatement, visitNonGateInstruction]
    have key : ((visitList fo a.scopes es).bind fun ops =>
          (resolveInstruction fo a.scopes name ops).bind fun i =>
          (visitList fo a.scopes ps).bind fun ps =>
          (resolveParameters fo name ps).bind fun ps =>
          (checkNonGateInstruction name i.2).bind fun _ =>
          (.ok (i, ps) : Res Err ((Instruction × List (Value F)) × List (Value F)))) = o.as ↔
        InstrStops fo ls (.nonGate l [] name es ps) o := by
      rw [Stop.bind, visitList_stop h]
      constructor
      · rintro (h1 | ⟨vs, h1, h2⟩)
        · exact .args h1
        · have h1 := (visitList_iff h ..).1 h1
          rcases Stop.bind.1 h2 with h2 | ⟨⟨i, ws⟩, h2, h3⟩
          · obtain ⟨⟨v, h3, h4⟩, rfl⟩ := (resolveInstruction_stop h).1 h2
            exact .argUntyped h1 h3 h4
          · have hc := (resolveInstruction_iff h ..).1 h2
            rcases Stop.bind.1 h3 with h3 | ⟨us, h3, h4⟩
            · exact .parameters h1 hc ((visitList_stop h ..).1 h3)
            · have hu := (visitList_iff h ..).1 h3
              rcases Stop.bind.1 h4 with h4 | ⟨us', _, h4⟩
              · obtain ⟨ks, h5, h6, rfl⟩ := (resolveParameters_nonGate_stop hs.2.1 us).1 h4
                exact .parameterUntyped h1 hc hu h5 h6
              · rcases Stop.bind.1 h4 with h4 | ⟨_, _, h4⟩
                · exact absurd h4 checkNonGateInstruction_stop
                · exact absurd h4 Stop.ne_ok
      · intro h0
        cases h0 with
        | args h1 => exact .inl h1
        | argUntyped h1 h2 h3 =>
          exact .inr ⟨_, (visitList_iff h ..).2 h1, Stop.bind.2 (.inl ((resolveInstruction_stop h).2 ⟨⟨_, h2, h3⟩, rfl⟩))⟩
        | parameters h1 h2 h3 =>
          exact .inr ⟨_, (visitList_iff h ..).2 h1, Stop.bind.2 (.inr ⟨_, (resolveInstruction_iff h ..).2 h2,
            Stop.bind.2 (.inl ((visitList_stop h ..).2 h3))⟩)⟩
        | parameterUntyped h1 h2 h3 h4 h5 =>
          exact .inr ⟨_, (visitList_iff h ..).2 h1, Stop.bind.2 (.inr ⟨_, (resolveInstruction_iff h ..).2 h2,
            Stop.bind.2 (.inr ⟨_, (visitList_iff h ..).2 h3,
              Stop.bind.2 (.inl ((resolveParameters_nonGate_stop hs.2.1 _).2 ⟨_, h4, h5, rfl⟩))⟩)⟩)⟩
    rw [← key]
    split
    · next e he => rw [he]; exact ⟨fun h => absurd h Stop.ne_ok, fun h => absurd h Stop.ne_err⟩
    · next c he => rw [he]; cases o <;> simp [Stop.as]
    · next he => rw [he]; cases o <;> simp [Stop.as]
    · next i us hi =>
      rw [hi]
      simp only [visitAnnotations, Res.bind_ok]
      rw [after_stop]
      exact ⟨fun h => absurd h (finish_stop ha), fun h => absurd h Stop.ne_ok⟩

end Qasm
