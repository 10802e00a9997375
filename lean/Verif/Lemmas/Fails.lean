import Verif.Lemmas.ErrLoc
import Verif.Spec.Fails
/-!
# Helper lemmas: the messages and positions of errors in expressions
-/

namespace Qasm

open Spec Sem

variable {F : Type}

theorem context_or (m : Str) (p l : Option Loc) : Err.context ⟨m, p⟩ l = ⟨m, p.or l⟩ := by
  cases p <;> rfl

theorem err_eta (e : Err) : e = ⟨e.message, e.location⟩ := rfl

theorem joinStr_intercalate (sep : Str) (l : List Str) : joinStr sep l = sep.intercalate l := by
  induction l with
  | nil => rfl
  | cons x l ih =>
    cases l with
    | nil => simp [joinStr, List.intercalate]
    | cons y l =>
      rw [joinStr, ih]
      simp [List.intercalate, List.intersperse]

theorem printList_kinds {vs : List (Value F)} {ts : List Ty} (h : Values.typesOf vs = .ok ts)
    (hty : ∀ v ∈ vs, kindOf v.node ≠ none) : Types.printList ts = kindsText (vs.map (·.node)) := by
  obtain ⟨ts', h1, h2⟩ := typesOf_ok hty
  rw [h] at h1
  cases h1
  unfold Types.printList kindsText
  rw [joinStr_intercalate]
  congr 1
  have := congrArg (List.map fun o => (Option.map kindLabel o).getD []) h2
  rw [List.map_map, List.map_map] at this
  rw [List.map_map]
  refine Eq.trans ?_ (this.trans ?_)
  · apply List.map_congr_left
    intro t _
    simp [Types.print, kindName_eq]
  · rfl

theorem fnRegs_name (fo : FloatOps F) (name : Str) : (∃ r ∈ fnRegs fo, r.1 = name) ↔ ∃ fn : Fn, fn.name = name := by
  constructor
  · rintro ⟨r, hr, h⟩
    obtain ⟨p, _, rfl⟩ := List.mem_map.mp hr
    exact ⟨p.1, h⟩
  · rintro ⟨fn, h⟩
    have : ∀ fn ∈ allFns, fn.signatures ≠ [] := by decide +kernel
    obtain ⟨s, ss, hs⟩ := List.exists_cons_of_ne_nil (this fn (mem_allFns fn))
    have h1 := sig_regFns fn s (by rw [hs]; simp)
    rw [← regFns_eq fo] at h1
    obtain ⟨p, hp, hpe⟩ := List.mem_map.mp h1
    cases hpe
    exact ⟨_, List.mem_map.mpr ⟨p, hp, rfl⟩, h⟩

theorem callFails_of {fo : FloatOps F} {name : Str} {vs : List (Value F)} {e : Err}
    (hty : ∀ v ∈ vs, kindOf v.node ≠ none) (h : CallMessage fo name vs e)
    (hno : ¬∃ (fn : Fn) (cs : List (Const F)) (o : Option (Const F)), vs.map (·.node) = cs.map Const.node ∧ fn.name = name ∧
      Applies fo fn cs o) : CallFails fo name (vs.map (·.node)) e.message ∧ e.location = none := by
  rcases h with ⟨h1, rfl⟩ | ⟨h1, ts, h2, rfl⟩
  · refine ⟨.unknown fun fn hfn => ?_, rfl⟩
    obtain ⟨r, hr, h⟩ := (fnRegs_name fo name).mpr ⟨fn, hfn⟩
    exact h1 r hr h
  · refine ⟨?_, rfl⟩
    simp only [printList_kinds h2 hty]
    refine .overload ((fnRegs_name fo name).mp h1) ?_
    rintro ⟨fn, cs, o, g1, g2, g3⟩
    exact hno ⟨fn, cs, o, g2, g1, g3⟩

theorem callFails_det {fo : FloatOps F} {name : Str} {ns : List (ValueNode F)} {m m' : Str}
    (h : CallFails fo name ns m) (h' : CallFails fo name ns m') : m = m' := by
  cases h with
  | unknown h1 =>
    cases h' with
    | unknown => rfl
    | overload h2 => obtain ⟨fn, hfn⟩ := h2; exact absurd hfn (h1 fn)
  | overload h1 =>
    cases h' with
    | unknown h2 => obtain ⟨fn, hfn⟩ := h1; exact absurd hfn (h2 fn)
    | overload => rfl

/-- A call that is rejected, with its message. -/
theorem callFunction_err {fo : FloatOps F} {D : List VarLink} {scopes : List (Scope F)} (henv : EnvOk fo D scopes)
    (name : Str) (vs : List (Value F)) (h : ∀ v ∈ vs, GoodNode v.node) {e : Err}
    (he : callFunction fo scopes name vs = .err e) :
    CallFails fo name (vs.map (·.node)) e.message ∧ e.location = none := by
  rcases callFunction_spec' henv name vs h with ⟨_, _, _, _, _, _, h1⟩ | ⟨_, _, _, _, _, h1⟩ | ⟨h1, e', h2, h3, h4⟩
  · rw [he] at h1; cases h1
  · rw [he] at h1; cases h1
  · rw [he] at h3
    cases h3
    exact callFails_of (fun v hv => good_typed (h v hv)) h4 h1

theorem callFunction_of_fails {fo : FloatOps F} {D : List VarLink} {scopes : List (Scope F)} (henv : EnvOk fo D scopes)
    (name : Str) (vs : List (Value F)) (h : ∀ v ∈ vs, GoodNode v.node) {m : Str}
    (hm : CallFails fo name (vs.map (·.node)) m) : callFunction fo scopes name vs = .err ⟨m, none⟩ := by
  have key : ∀ (fn : Fn) (cs : List (Const F)) (o : Option (Const F)), vs.map (·.node) = cs.map Const.node →
      fn.name = name → Applies fo fn cs o → False := by
    intro fn cs o h1 h2 h3
    cases hm with
    | unknown hm => exact hm fn h2
    | overload _ hm => exact hm ⟨fn, cs, o, h2, h1, h3⟩
  rcases callFunction_spec' henv name vs h with ⟨fn, cs, r, h1, h2, h3, _⟩ | ⟨fn, cs, h1, h2, h3, _⟩ | ⟨h1, e', h2, h3, h4⟩
  · exact (key _ _ _ h1 h2 h3).elim
  · exact (key _ _ _ h1 h2 h3).elim
  · obtain ⟨g1, g2⟩ := callFails_of (fun v hv => good_typed (h v hv)) h4 h1
    rw [h3, callFails_det hm g1, ← g2]

theorem checkOutOfRange_err (is : List (Int64 × Option Loc)) (size : Int64) {e : Err}
    (h : checkOutOfRange is size = .err e) :
    ∃ js i ks, is = js ++ i :: ks ∧ (∀ j ∈ js, 0 ≤ j.1.toInt ∧ j.1.toInt < size.toInt) ∧
      ¬(0 ≤ i.1.toInt ∧ i.1.toInt < size.toInt) ∧
      e = ⟨c!"index " ++ decInt i.1.toInt ++ c!" out of range (size " ++ decInt size.toInt ++ c!")", none⟩ := by
  induction is with
  | nil => cases h
  | cons i is ih =>
    obtain ⟨i, l⟩ := i
    have h0 : Int64.toInt 0 = 0 := by decide
    simp only [checkOutOfRange] at h
    by_cases hc : i < 0 ∨ i ≥ size
    · rw [if_pos hc] at h
      cases h
      refine ⟨[], (i, l), is, rfl, by simp, ?_, rfl⟩
      intro hc'
      simp only at hc'
      rcases hc with h | h
      · have := Int64.lt_iff_toInt_lt.mp h; omega
      · have := Int64.le_iff_toInt_le.mp h; omega
    · rw [if_neg hc] at h
      obtain ⟨js, x, ks, h1, h2, h3, h4⟩ := ih h
      refine ⟨(i, l) :: js, x, ks, by rw [h1]; rfl, ?_, h3, h4⟩
      intro j hj
      rcases List.mem_cons.mp hj with rfl | hj
      · have h1 := mt (fun h => Or.inl (Int64.lt_iff_toInt_lt.mpr h)) hc
        have h2 := mt (fun h => Or.inr (Int64.le_iff_toInt_le.mpr h)) hc
        rw [h0] at h1
        simp only
        omega
      · exact h2 j hj

theorem checkOutOfRange_of_bad {js ks : List (Int64 × Option Loc)} {i : Int64 × Option Loc} {size : Int64}
    (h2 : ∀ j ∈ js, 0 ≤ j.1.toInt ∧ j.1.toInt < size.toInt) (h3 : ¬(0 ≤ i.1.toInt ∧ i.1.toInt < size.toInt)) :
    checkOutOfRange (js ++ i :: ks) size =
      .err ⟨c!"index " ++ decInt i.1.toInt ++ c!" out of range (size " ++ decInt size.toInt ++ c!")", none⟩ := by
  rcases checkOutOfRange_spec (js ++ i :: ks) size with ⟨h, _⟩ | ⟨hbad, e, _, h⟩
  · exact absurd (h i (by simp)) h3
  · obtain ⟨js', i', ks', g1, g2, g3, g4⟩ := checkOutOfRange_err _ _ h
    have : i = i' := by
      clear h g4 hbad
      induction js generalizing js' with
      | nil =>
        cases js' with
        | nil => simp at g1; exact g1.1
        | cons j js' =>
          simp at g1
          exact absurd (g1.1 ▸ g2 j (by simp)) h3
      | cons j js ih =>
        cases js' with
        | nil =>
          simp at g1
          exact absurd (g1.1 ▸ h2 j (by simp)) g3
        | cons j' js' =>
          simp at g1
          exact ih (fun x hx => h2 x (by simp [hx])) js' g1.2 (fun x hx => g2 x (by simp [hx]))
    rw [h, g4, this]

/-! ## Failing expressions -/

theorem indexInto_kind (x : VarLink) (l : Option Loc) (h1 : x.typ.kind ≠ .qubitArray) (h2 : x.typ.kind ≠ .bitArray)
    (r : Res Err (List (Int64 × Option Loc))) :
    indexInto (⟨.variableRef x, l⟩ : Value F) r =
      .err ⟨c!"indexation is not supported for value of type '" ++ kindLabel x.typ.kind ++ c!"'", none⟩ := by
  simp only [indexInto]
  rw [if_neg (by simp [h1, h2])]
  simp [Values.typeOf, Err.mk0, Err.mkNode, Err.context, Err.normMsg, Types.print, kindName_eq]

mutual
theorem visit_of_fails {fo : FloatOps F} {D : List VarLink} {scopes : List (Scope F)} (henv : EnvOk fo D scopes) :
    ∀ {e : Expr F} {m : Str} {p : Option Loc}, Fails fo D e m p → visit fo scopes e = .err ⟨m, p⟩
  | _, _, _, .ident h => by
    rw [visit]
    rcases resolveVariable_spec henv _ with ⟨n, h1, _⟩ | ⟨_, h2⟩
    · exact absurd ⟨n, h1⟩ h
    · exact h2
  | _, _, _, .indexSub h => by
    rw [visit, visit_of_fails henv h]
    simp [locate, Res.mapErr, context_or]
  | _, _, _, .indexKind h h1 h2 => by
    rw [visit, visit_of_eval henv h, locate]
    simp only [Res.bind_ok]
    rw [indexInto_kind _ _ h1 h2]
    simp [Res.mapErr, context_or]
  | _, _, _, .indexIndices h hk hi => by
    rw [visit, visit_of_eval henv h, locate]
    simp only [Res.bind_ok]
    rw [indexInto_array _ _ hk, visitIndexList_of_fails henv hi]
    simp [Res.mapErr, context_or]
  | _, _, _, .indexRange h hk hi hu h1 h2 => by
    rw [visit, visit_of_eval henv h, locate]
    simp only [Res.bind_ok]
    rw [indexInto_array _ _ hk]
    rcases visitIndexList_of_eval henv hi with h3 | ⟨h3, _⟩
    · rw [h3, Res.bind_ok, checkOutOfRange_of_bad h1 h2]
      simp [Res.mapErr, context_or]
    · rcases visitIndexList_cases henv _ with ⟨_, h4, _⟩ | ⟨_, h4⟩ | ⟨_, h4⟩
      · rw [h3] at h4; cases h4
      · exact absurd h4 hu
      · rw [h3] at h4; cases h4
  | _, _, _, .callArgs h => by rw [visit, visitList_of_fails henv h]; rfl
  | _, _, _, .call hargs hc => by
    rw [visit, visitList_of_evalAll henv hargs, Res.bind_ok]
    exact callFunction_of_fails henv _ _ (evalAll_good henv.decls hargs) hc
  | _, _, _, .unSub h => by rw [visit, visit_of_fails henv h]; simp [locate, context_or]
  | _, _, _, .un h hc => by
    rw [visit, visit_of_eval henv h, locate, Res.bind_ok, un_name]
    exact callFunction_of_fails henv _ _ (by
      intro v hv; simp only [List.mem_singleton] at hv; subst hv; exact eval_good henv.decls h) hc
  | _, _, _, .binLeft h => by rw [visit, visit_of_fails henv h]; simp [locate, context_or]
  | _, _, _, .binRight h h2 => by
    rw [visit, visit_of_eval henv h, locate, Res.bind_ok, visit_of_fails henv h2]; simp [locate, context_or]
  | _, _, _, .bin h1 h2 hc => by
    rw [visit, visit_of_eval henv h1, locate, Res.bind_ok, visit_of_eval henv h2, locate, Res.bind_ok, bin_name]
    exact callFunction_of_fails henv _ _ (by
      intro v hv; simp only [List.mem_cons, List.not_mem_nil, or_false] at hv
      rcases hv with rfl | rfl
      · exact eval_good henv.decls h1
      · exact eval_good henv.decls h2) hc
  | _, _, _, .ternCond h => by rw [visit, visit_of_fails henv h]; simp [locate, context_or]
  | _, _, _, .ternTrue h h2 => by
    rw [visit, visit_of_eval henv h, locate, Res.bind_ok, visit_of_fails henv h2]; simp [locate, context_or]
  | _, _, _, .ternFalse h h2 h3 => by
    rw [visit, visit_of_eval henv h, locate, Res.bind_ok, visit_of_eval henv h2, locate, Res.bind_ok,
      visit_of_fails henv h3]; simp [locate, context_or]
  | _, _, _, .tern h1 h2 h3 hc => by
    rw [visit, visit_of_eval henv h1, locate, Res.bind_ok, visit_of_eval henv h2, locate, Res.bind_ok,
      visit_of_eval henv h3, locate, Res.bind_ok]
    exact callFunction_of_fails henv Fn.cond.name _ (by
      intro v hv; simp only [List.mem_cons, List.not_mem_nil, or_false] at hv
      rcases hv with rfl | rfl | rfl
      · exact eval_good henv.decls h1
      · exact eval_good henv.decls h2
      · exact eval_good henv.decls h3) hc
theorem visitList_of_fails {fo : FloatOps F} {D : List VarLink} {scopes : List (Scope F)} (henv : EnvOk fo D scopes) :
    ∀ {es : List (Expr F)} {m : Str} {p : Option Loc}, FailsList fo D es m p → visitList fo scopes es = .err ⟨m, p⟩
  | _, _, _, .head h => by rw [visitList, visit_of_fails henv h]; simp [locate, context_or]
  | _, _, _, .tail h h2 => by rw [visitList, visit_of_eval henv h, visitList_of_fails henv h2]; rfl
theorem visitIndexList_of_fails {fo : FloatOps F} {D : List VarLink} {scopes : List (Scope F)} (henv : EnvOk fo D scopes) :
    ∀ {ixs : List (IndexEntry F)} {m : Str} {p : Option Loc}, FailsIndices fo D ixs m p →
      visitIndexList fo scopes ixs = .err ⟨m, p⟩
  | _, _, _, .head h => by rw [visitIndexList, visitIndexEntry_of_fails henv h]; rfl
  | _, _, _, .tail h hu h2 => by
    rw [visitIndexList, visitIndexList_of_fails henv h2]
    rcases visitIndexEntry_of_eval henv h with h3 | ⟨h3, _⟩
    · rw [h3]; rfl
    · rcases visitIndexEntry_cases henv _ with ⟨_, h4, _⟩ | ⟨_, h4⟩ | ⟨_, h4⟩
      · rw [h3] at h4; cases h4
      · exact absurd h4 hu
      · rw [h3] at h4; cases h4
theorem visitIndexEntry_of_fails {fo : FloatOps F} {D : List VarLink} {scopes : List (Scope F)} (henv : EnvOk fo D scopes) :
    ∀ {x : IndexEntry F} {m : Str} {p : Option Loc}, FailsEntry fo D x m p → visitIndexEntry fo scopes x = .err ⟨m, p⟩
  | _, _, _, .item h => by rw [visitIndexEntry, visit_of_fails henv h]; rfl
  | _, _, _, .itemInt h hn => by
    rw [visitIndexEntry, visit_of_eval henv h]
    rcases toConstInt_spec fo _ ⟨_, none⟩ (eval_good henv.decls h) with ⟨c, i, h1, h2, _⟩ | ⟨_, h1⟩
    · exact absurd ⟨c, i, h1, h2⟩ hn
    · rw [h1]; rfl
  | _, _, _, .first h => by rw [visitIndexEntry, visit_of_fails henv h]; rfl
  | _, _, _, .firstInt h hn => by
    rw [visitIndexEntry, visit_of_eval henv h]
    rcases toConstInt_spec fo _ ⟨_, none⟩ (eval_good henv.decls h) with ⟨c, i, h1, h2, _⟩ | ⟨_, h1⟩
    · exact absurd ⟨c, i, h1, h2⟩ hn
    · rw [h1]; rfl
  | _, _, _, .last h hc h2 => by
    rw [visitIndexEntry, visit_of_eval henv h, toConstInt_eval fo _ _ _ _ hc, visit_of_fails henv h2]; rfl
  | _, _, _, .lastInt h hc h2 hn => by
    rw [visitIndexEntry, visit_of_eval henv h, toConstInt_eval fo _ _ _ _ hc, visit_of_eval henv h2, Res.bind_ok]
    rcases toConstInt_spec fo _ ⟨_, none⟩ (eval_good henv.decls h2) with ⟨c, i, h1, h2, _⟩ | ⟨_, h1⟩
    · exact absurd ⟨c, i, h1, h2⟩ hn
    · rw [h1]; rfl
  | _, _, _, @FailsEntry.order _ _ _ l a b i j c d h1 hc h2 hd hlt => by
    rw [visitIndexEntry, visit_of_eval henv h1, toConstInt_eval fo _ _ _ _ hc, visit_of_eval henv h2,
      toConstInt_eval fo _ _ _ _ hd, Res.bind_ok, Res.bind_ok]
    rcases indexRange_spec l i j with ⟨h3, _⟩ | ⟨h3, _⟩ | ⟨_, h3⟩
    · omega
    · omega
    · exact h3
end

mutual
theorem visit_fails {fo : FloatOps F} {D : List VarLink} {scopes : List (Scope F)} (henv : EnvOk fo D scopes) :
    ∀ (e : Expr F) {x : Err}, visit fo scopes e = .err x → Fails fo D e x.message x.location
  | .boolLit _ b, _, h => by cases h
  | .intLit _ i, _, h => by cases h
  | .floatLit _ f, _, h => by cases h
  | .ident _ name, x, h => by
    rw [visit] at h
    rcases resolveVariable_spec henv name with ⟨m, h1, h2⟩ | ⟨h1, h2⟩
    · rw [h2] at h; cases h
    · rw [h2] at h; cases h; exact .ident h1
  | .index loc e ixs, x, h => by
    rw [visit] at h
    rcases visit_cases henv e with ⟨n, h1, h2⟩ | ⟨h1, h2⟩ | ⟨err, h1⟩
    · rw [h1] at h
      simp only [locate, Res.bind_ok] at h
      by_cases hn : ∀ x, n ≠ .variableRef x
      · rw [indexInto_nonVariable _ hn] at h; cases h
      obtain ⟨y, hy⟩ := Classical.not_forall.mp hn
      have hy := Classical.not_not.mp hy
      subst hy
      by_cases hk : y.typ.kind = .qubitArray ∨ y.typ.kind = .bitArray
      · rw [indexInto_array _ _ hk] at h
        rcases visitIndexList_cases henv ixs with ⟨is, h3, h4⟩ | ⟨h3, h4⟩ | ⟨err, h3⟩
        · rw [h3, Res.bind_ok] at h
          rcases checkOutOfRange_spec is y.typ.size with ⟨_, h6⟩ | ⟨_, err, _, h6⟩
          · rw [h6] at h; cases h
          · rw [h6] at h
            obtain ⟨js, i, ks, rfl, g2, g3, rfl⟩ := checkOutOfRange_err _ _ h6
            cases h
            refine .indexRange h2 hk h4 ?_ g2 g3
            intro hu
            rw [visitIndexList_of_undef henv hu] at h3; cases h3
        · rw [h3] at h; cases h
        · rw [h3] at h
          cases h
          have := visitIndexList_fails henv ixs h3
          rw [err_eta err]
          simp only [context_or]
          exact .indexIndices h2 hk this
      · rw [not_or] at hk
        rw [indexInto_kind _ _ hk.1 hk.2] at h
        cases h
        exact .indexKind h2 hk.1 hk.2
    · rw [h1] at h; cases h
    · rw [h1] at h
      cases h
      have := visit_fails henv e h1
      rw [err_eta err]
      simp only [context_or]
      exact .indexSub this
  | .call _ name args, x, h => by
    rw [visit] at h
    rcases visitList_all henv args with ⟨vs, h1, h2⟩ | ⟨h1, h2⟩ | ⟨err, h1, _⟩
    · rw [h1, Res.bind_ok] at h
      obtain ⟨g1, g2⟩ := callFunction_err henv name vs (evalAll_good henv.decls h2) h
      rw [g2]
      exact .call h2 g1
    · rw [h1] at h; cases h
    · rw [h1] at h
      cases h
      exact .callArgs (visitList_fails henv args h1)
  | .un _ op e, x, h => by
    rw [visit] at h
    rcases visit_cases henv e with ⟨n, h1, h2⟩ | ⟨h1, h2⟩ | ⟨err, h1⟩
    · rw [h1, locate, Res.bind_ok, un_name] at h
      obtain ⟨g1, g2⟩ := callFunction_err henv _ _ (by
        intro v hv; simp only [List.mem_singleton] at hv; subst hv; exact eval_good henv.decls h2) h
      rw [g2]
      exact .un h2 g1
    · rw [h1] at h; cases h
    · rw [h1] at h
      cases h
      have := visit_fails henv e h1
      rw [err_eta err]
      simp only [context_or]
      exact .unSub this
  | .bin _ op a b, x, h => by
    rw [visit] at h
    rcases visit_cases henv a with ⟨n, h1, h2⟩ | ⟨h1, h2⟩ | ⟨err, h1⟩
    · rw [h1, locate, Res.bind_ok] at h
      rcases visit_cases henv b with ⟨n', k1, k2⟩ | ⟨k1, k2⟩ | ⟨err, k1⟩
      · rw [k1, locate, Res.bind_ok, bin_name] at h
        obtain ⟨g1, g2⟩ := callFunction_err henv _ _ (by
          intro v hv; simp only [List.mem_cons, List.not_mem_nil, or_false] at hv
          rcases hv with rfl | rfl
          · exact eval_good henv.decls h2
          · exact eval_good henv.decls k2) h
        rw [g2]
        exact .bin h2 k2 g1
      · rw [k1] at h; cases h
      · rw [k1] at h
        cases h
        have := visit_fails henv b k1
        rw [err_eta err]
        simp only [context_or]
        exact .binRight h2 this
    · rw [h1] at h; cases h
    · rw [h1] at h
      cases h
      have := visit_fails henv a h1
      rw [err_eta err]
      simp only [context_or]
      exact .binLeft this
  | .tern _ a b c, x, h => by
    rw [visit] at h
    rcases visit_cases henv a with ⟨n, h1, h2⟩ | ⟨h1, h2⟩ | ⟨err, h1⟩
    · rw [h1, locate, Res.bind_ok] at h
      rcases visit_cases henv b with ⟨n', k1, k2⟩ | ⟨k1, k2⟩ | ⟨err, k1⟩
      · rw [k1, locate, Res.bind_ok] at h
        rcases visit_cases henv c with ⟨n'', q1, q2⟩ | ⟨q1, q2⟩ | ⟨err, q1⟩
        · rw [q1, locate, Res.bind_ok] at h
          obtain ⟨g1, g2⟩ := callFunction_err henv _ _ (by
            intro v hv; simp only [List.mem_cons, List.not_mem_nil, or_false] at hv
            rcases hv with rfl | rfl | rfl
            · exact eval_good henv.decls h2
            · exact eval_good henv.decls k2
            · exact eval_good henv.decls q2) h
          rw [g2]
          exact .tern h2 k2 q2 g1
        · rw [q1] at h; cases h
        · rw [q1] at h
          cases h
          have := visit_fails henv c q1
          rw [err_eta err]
          simp only [context_or]
          exact .ternFalse h2 k2 this
      · rw [k1] at h; cases h
      · rw [k1] at h
        cases h
        have := visit_fails henv b k1
        rw [err_eta err]
        simp only [context_or]
        exact .ternTrue h2 this
    · rw [h1] at h; cases h
    · rw [h1] at h
      cases h
      have := visit_fails henv a h1
      rw [err_eta err]
      simp only [context_or]
      exact .ternCond this
theorem visitList_fails {fo : FloatOps F} {D : List VarLink} {scopes : List (Scope F)} (henv : EnvOk fo D scopes) :
    ∀ (es : List (Expr F)) {x : Err}, visitList fo scopes es = .err x → FailsList fo D es x.message x.location
  | [], _, h => by cases h
  | e :: es, x, h => by
    rw [visitList] at h
    rcases visit_cases henv e with ⟨n, h1, h2⟩ | ⟨h1, h2⟩ | ⟨err, h1⟩
    · rw [h1, locate, Res.bind_ok] at h
      cases h3 : visitList fo scopes es with
      | ok vs => rw [h3] at h; cases h
      | err y => rw [h3] at h; cases h; exact .tail h2 (visitList_fails henv es h3)
      | exn c => rw [h3] at h; cases h
      | ub => rw [h3] at h; cases h
    · rw [h1] at h; cases h
    · rw [h1] at h
      cases h
      have := visit_fails henv e h1
      rw [err_eta err]
      simp only [context_or]
      exact .head this
theorem visitIndexList_fails {fo : FloatOps F} {D : List VarLink} {scopes : List (Scope F)} (henv : EnvOk fo D scopes) :
    ∀ (ixs : List (IndexEntry F)) {x : Err}, visitIndexList fo scopes ixs = .err x →
      FailsIndices fo D ixs x.message x.location
  | [], _, h => by cases h
  | y :: ys, x, h => by
    rw [visitIndexList] at h
    rcases visitIndexEntry_cases henv y with ⟨is, h1, h2⟩ | ⟨h1, h2⟩ | ⟨err, h1⟩
    · rw [h1, Res.bind_ok] at h
      cases h3 : visitIndexList fo scopes ys with
      | ok vs => rw [h3] at h; cases h
      | err z =>
        rw [h3] at h; cases h
        refine .tail h2 ?_ (visitIndexList_fails henv ys h3)
        intro hu
        rw [visitIndexEntry_of_undef henv hu] at h1; cases h1
      | exn c => rw [h3] at h; cases h
      | ub => rw [h3] at h; cases h
    · rw [h1] at h; cases h
    · rw [h1] at h
      cases h
      exact .head (visitIndexEntry_fails henv y h1)
theorem visitIndexEntry_fails {fo : FloatOps F} {D : List VarLink} {scopes : List (Scope F)} (henv : EnvOk fo D scopes) :
    ∀ (y : IndexEntry F) {x : Err}, visitIndexEntry fo scopes y = .err x → FailsEntry fo D y x.message x.location
  | .item loc e, x, h => by
    rw [visitIndexEntry] at h
    rcases visit_cases henv e with ⟨n, h1, h2⟩ | ⟨h1, h2⟩ | ⟨err, h1⟩
    · rw [h1] at h
      rcases toConstInt_spec fo e.loc ⟨n, none⟩ (eval_good henv.decls h2) with ⟨c, i, h3, h4, h5⟩ | ⟨h4, h5⟩
      · rw [h5] at h; cases h
      · rw [h5] at h; cases h
        exact .itemInt h2 h4
    · rw [h1] at h; cases h
    · rw [h1] at h
      cases h
      exact .item (visit_fails henv e h1)
  | .range loc a b, x, h => by
    rw [visitIndexEntry] at h
    rcases visit_cases henv a with ⟨n, h1, h2⟩ | ⟨h1, h2⟩ | ⟨err, h1⟩
    · rw [h1] at h
      rcases toConstInt_spec fo a.loc ⟨n, none⟩ (eval_good henv.decls h2) with ⟨c, i, h3, h4, h5⟩ | ⟨h4, h5⟩
      · cases h3
        rw [h5, Res.bind_ok] at h
        rcases visit_cases henv b with ⟨n', g1, g2⟩ | ⟨g1, g2⟩ | ⟨err, g1⟩
        · rw [g1] at h
          rcases toConstInt_spec fo b.loc ⟨n', none⟩ (eval_good henv.decls g2) with ⟨d, j, g3, g4, g5⟩ | ⟨g4, g5⟩
          · cases g3
            rw [g5, Res.bind_ok] at h
            rcases indexRange_spec loc i j with ⟨_, _, js, k3, k4⟩ | ⟨k3, k4, k5⟩ | ⟨k3, k4⟩
            · rw [k4] at h; cases h
            · rw [k5] at h; cases h
            · rw [k4] at h; cases h
              exact .order h2 h4 g2 g4 k3
          · rw [g5] at h; cases h
            exact .lastInt h2 h4 g2 g4
        · rw [g1] at h; cases h
        · rw [g1] at h
          cases h
          exact .last h2 h4 (visit_fails henv b g1)
      · rw [h5] at h; cases h
        exact .firstInt h2 h4
    · rw [h1] at h; cases h
    · rw [h1] at h
      cases h
      exact .first (visit_fails henv a h1)
end

end Qasm
