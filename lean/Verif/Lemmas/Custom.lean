import Verif.Spec.Custom
import Verif.Lemmas.Levels
import Verif.Lemmas.Stmt
/-!
# Helper lemmas: expressions and instructions for any registrations
-/

namespace Qasm

open Spec Sem Analyzer

variable {F T : Type} {fo : FloatOps F}

/-! ## Resolution -/

theorem promotesTo_kind {v w : Value F} {k : Kind} (h : PromotesTo fo v k w) : kindOf v.node ≠ none := by
  cases h with
  | same h => rw [h]; simp
  | const l _ => rw [kindOf_node]; simp
  | boolVar => simp [kindOf]

theorem fits_kinds {vs ws : List (Value F)} {ts : List Ty} (h : Fits fo vs ts ws) : ∀ v ∈ vs, kindOf v.node ≠ none := by
  induction h with
  | nil => simp
  | cons h _ ih =>
    intro v hv
    rcases List.mem_cons.1 hv with rfl | hv
    · exact promotesTo_kind h
    · exact ih v hv

theorem lastFitting_kinds {regs : List (Registration T)} {name : Str} {args args' : List (Value F)} {t : T}
    (h : LastFitting fo regs name args t args') : ∀ v ∈ args, kindOf v.node ≠ none := by
  obtain ⟨_, _, _, _, h, _⟩ := h
  exact fits_kinds h

theorem promote_kind {v : Value F} {t : Ty} {r : Option (Value F)} (h : Values.promote fo v t = .ok r) :
    kindOf v.node ≠ none := by
  obtain ⟨tv, h1, _⟩ := Res.bind_eq_ok.1 h
  rw [kindOf_of_typeOf h1]
  simp

theorem promote_iff {v : Value F} {t : Ty} {w : Value F} :
    Values.promote fo v t = .ok (some w) ↔ PromotesTo fo v t.kind w :=
  ⟨fun h => (promote_some_iff fo v t (promote_kind h) w).1 h, fun h => (promote_some_iff fo v t (promotesTo_kind h) w).2 h⟩

theorem promoteAll_kinds {vs : List (Value F)} {ts : List Ty} (hl : ts.length = vs.length) {ws : List (Value F)}
    (h : OverloadTable.promoteAll fo vs ts = .ok (some ws)) : ∀ v ∈ vs, kindOf v.node ≠ none := by
  induction vs generalizing ts ws with
  | nil => simp
  | cons v vs ih =>
    cases ts with
    | nil => cases hl
    | cons t ts =>
      rw [OverloadTable.promoteAll] at h
      obtain ⟨r, h1, h2⟩ := Res.bind_eq_ok.1 h
      cases r with
      | none => cases h2
      | some w =>
        obtain ⟨r, h3, h4⟩ := Res.bind_eq_ok.1 h2
        cases r with
        | none => cases h4
        | some us =>
          intro x hx
          rcases List.mem_cons.1 hx with rfl | hx
          · exact promote_kind h1
          · exact ih (by simpa using hl) h3 x hx

theorem resolveFirst_kinds {args : List (Value F)} {ovs : List (Overload T)} {r : T × List (Value F)}
    (h : OverloadTable.resolveFirst fo args ovs = .ok (some r)) : ∀ v ∈ args, kindOf v.node ≠ none := by
  induction ovs with
  | nil => cases h
  | cons ov ovs ih =>
    rw [OverloadTable.resolveFirst] at h
    split at h
    · exact ih h
    · next hl =>
      obtain ⟨o, h1, h2⟩ := Res.bind_eq_ok.1 h
      cases o with
      | none => exact ih h2
      | some ws => exact promoteAll_kinds (by simpa using hl) h1

theorem resolve_kinds {tbl : OverloadTable T} {name : Str} {args : List (Value F)} {r : T × List (Value F)}
    (h : OverloadTable.resolve fo tbl name args = .ok r) : ∀ v ∈ args, kindOf v.node ≠ none := by
  unfold OverloadTable.resolve at h
  split at h
  · cases h
  · obtain ⟨o, h1, h2⟩ := Res.bind_eq_ok.1 h
    cases o with
    | none =>
      obtain ⟨_, _, h2⟩ := Res.bind_eq_ok.1 h2
      cases h2
    | some r => exact resolveFirst_kinds h1

theorem resolve_iff (regs : List (Registration T)) (name : Str) (args : List (Value F)) (t : T) (ws : List (Value F)) :
    OverloadTable.resolve fo (tableOf regs) name args = .ok (t, ws) ↔ LastFitting fo regs name args t ws :=
  ⟨fun h => (C17_resolve fo regs name args (resolve_kinds h) t ws).1 h,
    fun h => (C17_resolve fo regs name args (lastFitting_kinds h) t ws).2 h⟩

variable {scopes : List (Scope F)} {ls : List (Level F)}

theorem resolveVariable_iff (h : Forall2 HoldsLevel scopes ls) (name : Str) (v : Value F) :
    resolveVariable scopes name = .ok v ↔ Seen name v ls := by
  induction h with
  | nil => exact ⟨fun h => (by cases h), fun h => by cases h⟩
  | @cons s l ss ls h1 _ ih =>
    rw [resolveVariable, VariableTable.resolve, h1.1]
    cases hf : l.vars.find? (fun p => p.1 = name) with
    | none =>
      have hn : name ∉ l.vars.map (·.1) := by
        rw [List.find?_eq_none] at hf
        simpa using fun v hv => hf (name, v) hv
      simp only [Option.map_none]
      rw [ih]
      constructor
      · exact .outer hn
      · intro h
        cases h with
        | here h2 _ => exact absurd (List.mem_map.2 ⟨(name, v), by rw [h2]; simp, rfl⟩) hn
        | outer _ h2 => exact h2
    | some p =>
      simp only [Option.map_some]
      obtain ⟨hp, older, newer, he, ho⟩ := List.find?_eq_some_iff_append.1 hf
      have hp : p.1 = name := by simpa using hp
      have ho : name ∉ older.map (·.1) := by simpa using fun v hv => ho (name, v) hv
      constructor
      · intro h
        cases h
        exact .here (older := older) (newer := newer) (by rw [he, ← hp]) ho
      · intro h
        cases h with
        | @here _ _ older' newer' h2 h3 =>
          have : l.vars.find? (fun p => p.1 = name) = some (name, v) := by
            rw [h2, List.find?_append, List.find?_eq_none.2 (by
              intro x hx hx'
              exact h3 (List.mem_map.2 ⟨x, hx, by simpa using hx'⟩))]
            simp
          rw [this] at hf
          cases hf
          rfl
        | outer h2 _ => exact absurd (List.mem_map.2 ⟨p, List.mem_of_find?_eq_some hf, hp⟩) h2

theorem chosen_kinds {name : Str} {args ws : List (Value F)} {i : Instruction} (h : ChosenInstr fo name args i ws ls) :
    ∀ v ∈ args, kindOf v.node ≠ none := by
  induction h with
  | here h => exact lastFitting_kinds h
  | outer _ _ ih => exact ih

theorem resolve_err_iff (regs : List (Registration T)) (name : Str) (args : List (Value F))
    (h : ∀ v ∈ args, kindOf v.node ≠ none) :
    (∃ e, OverloadTable.resolve fo (tableOf regs) name args = .err e) ↔
      ∀ r ∈ regs, r.1 = name → ¬∃ ws, Fits fo args r.2.2 ws := by
  rcases resolve_spec fo regs name args h with ⟨t, ws, h1, o, p, n, e, f, g⟩ | ⟨h1, h2⟩
  · rw [h1]
    refine ⟨fun ⟨e, he⟩ => (by cases he), fun hn => absurd ⟨ws, f⟩ (hn (name, t, p) (by rw [e]; simp) rfl)⟩
  · refine ⟨fun _ => h1, fun _ => ?_⟩
    rcases h2 with ⟨_, h2⟩ | ⟨_, _, _, h2⟩ <;> exact ⟨_, h2⟩

theorem resolveInstruction_iff (h : Forall2 HoldsLevel scopes ls) (name : Str) (args : List (Value F)) (i : Instruction)
    (ws : List (Value F)) : resolveInstruction fo scopes name args = .ok (i, ws) ↔ ChosenInstr fo name args i ws ls := by
  induction h with
  | nil =>
    refine ⟨fun h => ?_, fun h => by cases h⟩
    obtain ⟨_, _, h⟩ := Res.bind_eq_ok.1 h
    cases h
  | @cons s l ss ls h1 _ ih =>
    rw [resolveInstruction, h1.2.2]
    constructor
    · intro h
      cases hr : OverloadTable.resolve fo (tableOf l.instructions) name args with
      | ok r =>
        rw [hr] at h
        cases h
        exact .here ((resolve_iff ..).1 hr)
      | err e =>
        rw [hr] at h
        have hc := ih.1 h
        exact .outer ((resolve_err_iff _ _ _ (chosen_kinds hc)).1 ⟨e, hr⟩) hc
      | exn c => rw [hr] at h; cases h
      | ub => rw [hr] at h; cases h
    · intro h
      cases h with
      | here h2 => rw [(resolve_iff ..).2 h2]
      | outer h2 h3 =>
        obtain ⟨e, he⟩ := (resolve_err_iff _ _ _ (chosen_kinds h3)).2 h2
        rw [he]
        exact ih.2 h3

theorem callFunction_iff (h : Forall2 HoldsLevel scopes ls) (name : Str) (args : List (Value F)) (r : Value F) :
    callFunction fo scopes name args = .ok r ↔ Returns fo ls name args r := by
  unfold callFunction resolveFunction
  constructor
  · intro hc
    cases hs : scopes.getLast? with
    | none => rw [hs] at hc; cases hc
    | some s =>
      rw [hs] at hc
      obtain ⟨g, hg, hh⟩ : ∃ g, ls.getLast? = some g ∧ HoldsLevel s g := by
        clear hc
        induction h with
        | nil => cases hs
        | @cons a b as bs h1 h2 ih =>
          cases h2 with
          | nil => cases hs; exact ⟨_, rfl, h1⟩
          | cons h3 h4 => rw [List.getLast?_cons_cons] at hs ⊢; exact ih hs
      obtain ⟨o, h2, h3⟩ := Res.bind_eq_ok.1 hc
      obtain ⟨⟨f, ws⟩, h4, h5⟩ := Res.bind_eq_ok.1 h2
      rw [hh.2.1] at h4
      refine ⟨g, f, ws, hg, (resolve_iff ..).1 h4, ?_⟩
      cases o with
      | none => cases h3
      | some v => cases h3; exact h5
  · rintro ⟨g, f, ws, h1, h2, h3⟩
    obtain ⟨s, h4, h5⟩ := forall2_getLast h h1
    simp only [h4, FnTable.resolve, h5.2.1, (resolve_iff ..).2 h2, Res.bind_ok, h3]

/-! ## Expressions -/

theorem locate_ok {l : Option Loc} {r : Res Err (Value F)} {v : Value F} :
    locate l r = .ok v ↔ ∃ w, r = .ok w ∧ v = ⟨w.node, l⟩ := by
  cases r with
  | ok w => simp [locate, eq_comm]
  | _ => simp [locate]

theorem toConstInt_iff {l : Option Loc} {r : Res Err (Value F)} {i : Int64} :
    toConstInt fo l r = .ok i ↔ ∃ v li, r = .ok v ∧ PromotesTo fo v .int ⟨.constInt i, li⟩ := by
  constructor
  · intro h
    obtain ⟨v, h1, h⟩ := Res.bind_eq_ok.1 h
    obtain ⟨o, h2, h⟩ := Res.bind_eq_ok.1 h
    cases o with
    | none => cases h
    | some w =>
      obtain ⟨n, lw⟩ := w
      cases n with
      | constInt j => cases h; exact ⟨v, lw, h1, promote_iff.1 h2⟩
      | _ => cases h
  · rintro ⟨v, li, rfl, h⟩
    have h : Values.promote fo v (.bare .int) = _ := promote_iff.2 h
    rw [toConstInt, Res.bind_ok, h, Res.bind_ok]

theorem indexRange_iff {l : Option Loc} {i j : Int64} {is : List (Int64 × Option Loc)} :
    indexRange l i j = .ok is ↔ RangeList l i j is ∧ j.toInt < 2 ^ 63 - 1 := by
  rcases indexRange_spec l i j with ⟨_, h1, js, h2, h3⟩ | ⟨_, h1, h3⟩ | ⟨h1, h3⟩ <;> rw [h3]
  · constructor
    · intro h; cases h; exact ⟨h2, h1⟩
    · intro h; rw [rangeList_det h.1 h2]
  · exact ⟨fun h => (by cases h), fun h => by omega⟩
  · exact ⟨fun h => (by cases h), fun h => by have := h.1.1; omega⟩

theorem checkOutOfRange_iff {is : List (Int64 × Option Loc)} {size : Int64} :
    checkOutOfRange is size = .ok () ↔ ∀ i ∈ is, 0 ≤ i.1.toInt ∧ i.1.toInt < size.toInt := by
  rcases checkOutOfRange_spec is size with ⟨h1, h2⟩ | ⟨h1, e, _, h2⟩ <;> rw [h2]
  · exact ⟨fun _ => h1, fun _ => rfl⟩
  · exact ⟨fun h => (by cases h), fun h => absurd h h1⟩

theorem indexInto_iff {v w : Value F} {r : Res Err (List (Int64 × Option Loc))} :
    indexInto v r = .ok w ↔ ∃ x is, v.node = .variableRef x ∧ (x.typ.kind = .qubitArray ∨ x.typ.kind = .bitArray) ∧
      r = .ok is ∧ (∀ i ∈ is, 0 ≤ i.1.toInt ∧ i.1.toInt < x.typ.size.toInt) ∧ w = ⟨.indexRef x is, none⟩ := by
  obtain ⟨n, l⟩ := v
  constructor
  · intro h
    cases n with
    | variableRef x =>
      by_cases hk : x.typ.kind = .qubitArray ∨ x.typ.kind = .bitArray
      · rw [indexInto_array x l hk] at h
        obtain ⟨is, h1, h⟩ := Res.bind_eq_ok.1 h
        obtain ⟨_, h2, h⟩ := Res.bind_eq_ok.1 h
        cases h
        exact ⟨x, is, rfl, hk, h1, checkOutOfRange_iff.1 h2, rfl⟩
      · simp only [indexInto, if_neg hk] at h
        obtain ⟨_, _, h⟩ := Res.bind_eq_ok.1 h
        cases h
    | _ => cases h
  · rintro ⟨x, is, hn, hk, rfl, hi, rfl⟩
    simp only at hn
    subst hn
    rw [indexInto_array x l hk, Res.bind_ok, checkOutOfRange_iff.2 hi]
    rfl

theorem mapErr_ok_iff {α ε ε' : Type} {r : Res ε α} {f : ε → ε'} {x : α} : r.mapErr f = .ok x ↔ r = .ok x := by
  cases r <;> simp [Res.mapErr]

mutual
theorem visit_iff (h : Forall2 HoldsLevel scopes ls) : ∀ (e : Expr F) (v : Value F),
    visit fo scopes e = .ok v ↔ EvalIn fo ls e v
  | .boolLit l b, v => by
    rw [visit]
    exact ⟨fun h => by cases h; exact .boolLit .., fun h => by cases h; rfl⟩
  | .intLit l b, v => by
    rw [visit]
    exact ⟨fun h => by cases h; exact .intLit .., fun h => by cases h; rfl⟩
  | .floatLit l b, v => by
    rw [visit]
    exact ⟨fun h => by cases h; exact .floatLit .., fun h => by cases h; rfl⟩
  | .ident l name, v => by
    rw [visit, resolveVariable_iff h]
    exact ⟨.ident, fun h => by cases h; assumption⟩
  | .index l e ixs, v => by
    rw [visit, mapErr_ok_iff, Res.bind_eq_ok]
    constructor
    · rintro ⟨w, h1, h2⟩
      obtain ⟨u, h1', rfl⟩ := locate_ok.1 h1
      obtain ⟨x, is, h3, h4, h5, h6, rfl⟩ := indexInto_iff.1 h2
      obtain ⟨n, lu⟩ := u
      simp only at h3
      subst h3
      exact .index ((visit_iff h e _).1 h1') h4 ((visitIndexList_iff h ixs _).1 h5) h6
    · intro h0
      cases h0 with
      | index h1 h2 h3 h4 =>
        exact ⟨_, locate_ok.2 ⟨_, (visit_iff h e _).2 h1, rfl⟩,
          indexInto_iff.2 ⟨_, _, rfl, h2, (visitIndexList_iff h ixs _).2 h3, h4, rfl⟩⟩
  | .call l name args, v => by
    rw [visit, Res.bind_eq_ok]
    constructor
    · rintro ⟨vs, h1, h2⟩
      exact .call ((visitList_iff h args vs).1 h1) ((callFunction_iff h ..).1 h2)
    · intro h0
      cases h0 with
      | call h1 h2 => exact ⟨_, (visitList_iff h args _).2 h1, (callFunction_iff h ..).2 h2⟩
  | .un l op e, v => by
    rw [visit, Res.bind_eq_ok, un_name]
    constructor
    · rintro ⟨w, h1, h2⟩
      obtain ⟨u, h1', rfl⟩ := locate_ok.1 h1
      exact .un ((visit_iff h e u).1 h1') ((callFunction_iff h ..).1 h2)
    · intro h0
      cases h0 with
      | un h1 h2 => exact ⟨_, locate_ok.2 ⟨_, (visit_iff h e _).2 h1, rfl⟩, (callFunction_iff h ..).2 h2⟩
  | .bin l op a b, v => by
    rw [visit, Res.bind_eq_ok, bin_name]
    constructor
    · rintro ⟨w, h1, h2⟩
      obtain ⟨u, h1', rfl⟩ := locate_ok.1 h1
      obtain ⟨w, h3, h4⟩ := Res.bind_eq_ok.1 h2
      obtain ⟨w, h3', rfl⟩ := locate_ok.1 h3
      exact .bin ((visit_iff h a u).1 h1') ((visit_iff h b w).1 h3') ((callFunction_iff h ..).1 h4)
    · intro h0
      cases h0 with
      | bin h1 h2 h3 =>
        exact ⟨_, locate_ok.2 ⟨_, (visit_iff h a _).2 h1, rfl⟩, Res.bind_eq_ok.2
          ⟨_, locate_ok.2 ⟨_, (visit_iff h b _).2 h2, rfl⟩, (callFunction_iff h ..).2 h3⟩⟩
  | .tern l a b c, v => by
    rw [visit, Res.bind_eq_ok]
    constructor
    · rintro ⟨w, h1, h2⟩
      obtain ⟨u, h1', rfl⟩ := locate_ok.1 h1
      obtain ⟨w, h3, h4⟩ := Res.bind_eq_ok.1 h2
      obtain ⟨w, h3', rfl⟩ := locate_ok.1 h3
      obtain ⟨x, h5, h6⟩ := Res.bind_eq_ok.1 h4
      obtain ⟨x, h5', rfl⟩ := locate_ok.1 h5
      exact .tern ((visit_iff h a u).1 h1') ((visit_iff h b w).1 h3') ((visit_iff h c x).1 h5') ((callFunction_iff h ..).1 h6)
    · intro h0
      cases h0 with
      | tern h1 h2 h3 h4 =>
        exact ⟨_, locate_ok.2 ⟨_, (visit_iff h a _).2 h1, rfl⟩, Res.bind_eq_ok.2
          ⟨_, locate_ok.2 ⟨_, (visit_iff h b _).2 h2, rfl⟩, Res.bind_eq_ok.2
          ⟨_, locate_ok.2 ⟨_, (visit_iff h c _).2 h3, rfl⟩, (callFunction_iff h ..).2 h4⟩⟩⟩

theorem visitList_iff (h : Forall2 HoldsLevel scopes ls) : ∀ (es : List (Expr F)) (vs : List (Value F)),
    visitList fo scopes es = .ok vs ↔ ArgsIn fo ls es vs
  | [], vs => by
    rw [visitList]
    exact ⟨fun h => by cases h; exact .nil, fun h => by cases h; rfl⟩
  | e :: es, vs => by
    rw [visitList, Res.bind_eq_ok]
    constructor
    · rintro ⟨w, h1, h2⟩
      obtain ⟨u, h1', rfl⟩ := locate_ok.1 h1
      obtain ⟨us, h3, h4⟩ := Res.bind_eq_ok.1 h2
      cases h4
      exact .cons ((visit_iff h e u).1 h1') ((visitList_iff h es us).1 h3)
    · intro h0
      cases h0 with
      | cons h1 h2 =>
        exact ⟨_, locate_ok.2 ⟨_, (visit_iff h e _).2 h1, rfl⟩, Res.bind_eq_ok.2 ⟨_, (visitList_iff h es _).2 h2, rfl⟩⟩

theorem visitIndexList_iff (h : Forall2 HoldsLevel scopes ls) : ∀ (xs : List (IndexEntry F)) (is : List (Int64 × Option Loc)),
    visitIndexList fo scopes xs = .ok is ↔ IndicesIn fo ls xs is
  | [], is => by
    rw [visitIndexList]
    exact ⟨fun h => by cases h; exact .nil, fun h => by cases h; rfl⟩
  | x :: xs, is => by
    rw [visitIndexList, Res.bind_eq_ok]
    constructor
    · rintro ⟨js, h1, h2⟩
      obtain ⟨ks, h3, h4⟩ := Res.bind_eq_ok.1 h2
      cases h4
      exact .cons ((visitIndexEntry_iff h x js).1 h1) ((visitIndexList_iff h xs ks).1 h3)
    · intro h0
      cases h0 with
      | cons h1 h2 =>
        exact ⟨_, (visitIndexEntry_iff h x _).2 h1, Res.bind_eq_ok.2 ⟨_, (visitIndexList_iff h xs _).2 h2, rfl⟩⟩

theorem visitIndexEntry_iff (h : Forall2 HoldsLevel scopes ls) : ∀ (x : IndexEntry F) (is : List (Int64 × Option Loc)),
    visitIndexEntry fo scopes x = .ok is ↔ EntryIn fo ls x is
  | .item l e, is => by
    rw [visitIndexEntry, Res.bind_eq_ok]
    constructor
    · rintro ⟨i, h1, h2⟩
      obtain ⟨v, li, h1, h3⟩ := toConstInt_iff.1 h1
      cases h2
      exact .item ((visit_iff h e v).1 h1) h3
    · intro h0
      cases h0 with
      | item h1 h2 => exact ⟨_, toConstInt_iff.2 ⟨_, _, (visit_iff h e _).2 h1, h2⟩, rfl⟩
  | .range l a b, is => by
    rw [visitIndexEntry, Res.bind_eq_ok]
    constructor
    · rintro ⟨i, h1, h2⟩
      obtain ⟨v, li, h1, h3⟩ := toConstInt_iff.1 h1
      obtain ⟨j, h4, h5⟩ := Res.bind_eq_ok.1 h2
      obtain ⟨w, lj, h4, h6⟩ := toConstInt_iff.1 h4
      obtain ⟨h7, h8⟩ := indexRange_iff.1 h5
      exact .range ((visit_iff h a v).1 h1) h3 ((visit_iff h b w).1 h4) h6 h7 h8
    · intro h0
      cases h0 with
      | range h1 h2 h3 h4 h5 h6 =>
        exact ⟨_, toConstInt_iff.2 ⟨_, _, (visit_iff h a _).2 h1, h2⟩, Res.bind_eq_ok.2
          ⟨_, toConstInt_iff.2 ⟨_, _, (visit_iff h b _).2 h3, h4⟩, indexRange_iff.2 ⟨h5, h6⟩⟩⟩
end

end Qasm
