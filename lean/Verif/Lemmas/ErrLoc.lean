import Verif.Lemmas.Instr
/-!
# Helper lemmas: where errors are located
-/

namespace Qasm

open Spec Sem

variable {F : Type}

/-- The error has no location yet or one of the given ones. -/
def LocIn (e : Err) (ls : List (Option Loc)) : Prop := e.location = none ∨ e.location ∈ ls

theorem LocIn.mono {e : Err} {ls ms : List (Option Loc)} (h : LocIn e ls) (hs : ∀ l ∈ ls, l ∈ ms) : LocIn e ms :=
  h.imp id (hs _)

theorem LocIn.context {e : Err} {ls : List (Option Loc)} (h : LocIn e ls) {l : Option Loc} (hl : l ∈ ls) :
    LocIn (e.context l) ls := by
  unfold Err.context
  split
  · exact .inr hl
  · exact h

theorem context_isSome {e : Err} {l : Option Loc} (hl : l.isSome) : (e.context l).location.isSome := by
  unfold Err.context
  split
  · exact hl
  · rename_i h; simp [h]

theorem LocIn.full {e : Err} {ls : List (Option Loc)} (h : LocIn e ls) {l : Option Loc} (hl : l ∈ ls) :
    (e.context l).location ∈ ls := by
  unfold Err.context
  split
  · exact hl
  · rename_i m hm
    rcases h with h | h
    · rw [hm] at h; cases h
    · exact h

theorem typeOf_noErr (v : Value F) (e : Err) : Values.typeOf v ≠ .err e := by
  obtain ⟨n, l⟩ := v
  cases n with
  | indexRef x is =>
    simp only [Values.typeOf, Values.elementTypeOf]
    split
    · split
      · simp
      · split <;> simp
    · simp
  | _ => simp [Values.typeOf]

theorem promote_noErr (fo : FloatOps F) (v : Value F) (t : Ty) (e : Err) : Values.promote fo v t ≠ .err e := by
  unfold Values.promote
  cases h : Values.typeOf v with
  | ok tv =>
    rw [Res.bind_ok]
    dsimp only
    split <;> simp
  | err e' => exact absurd h (typeOf_noErr v e')
  | exn c => simp
  | ub => simp

theorem toConstInt_errLoc (fo : FloatOps F) (loc : Option Loc) (r : Res Err (Value F)) {e : Err}
    (h : toConstInt fo loc r = .err e) : r = .err e ∨ e.location = loc := by
  cases r with
  | err e' => left; simpa [toConstInt] using h
  | exn c => simp [toConstInt] at h
  | ub => simp [toConstInt] at h
  | ok v =>
    right
    simp only [toConstInt, Res.bind_ok] at h
    cases hp : Values.promote fo v (.bare .int) with
    | ok o =>
      rw [hp, Res.bind_ok] at h
      cases o with
      | none => simp only [Res.err.injEq] at h; subst h; rfl
      | some w =>
        simp only at h
        split at h
        · cases h
        · simp only [Res.err.injEq] at h; subst h; rfl
    | err e' => exact absurd hp (promote_noErr fo v _ e')
    | exn c => rw [hp] at h; simp at h
    | ub => rw [hp] at h; simp at h

theorem indexRange_errLoc (loc : Option Loc) (i j : Int64) {e : Err} (h : indexRange loc i j = .err e) :
    e.location = loc := by
  unfold indexRange at h
  split at h
  · cases h; rfl
  · split at h <;> cases h

theorem bind_err {α β : Type} {r : Res Err α} {f : α → Res Err β} {e : Err} (h : r.bind f = .err e) :
    r = .err e ∨ ∃ a, r = .ok a ∧ f a = .err e := by
  cases r with
  | ok a => exact .inr ⟨a, rfl, h⟩
  | err e' => left; simpa using h
  | exn c => simp at h
  | ub => simp at h

theorem checkOutOfRange_errLoc (is : List (Int64 × Option Loc)) (size : Int64) {e : Err}
    (h : checkOutOfRange is size = .err e) : e.location = none := by
  rcases checkOutOfRange_spec is size with ⟨_, h'⟩ | ⟨_, e', h1, h'⟩
  · rw [h'] at h; cases h
  · rw [h'] at h; cases h; exact h1

theorem locate_err {l : Option Loc} {r : Res Err (Value F)} {e : Err} (h : locate l r = .err e) :
    ∃ e', r = .err e' ∧ e = e'.context l := by
  cases r with
  | err e' => simp only [locate, Res.err.injEq] at h; exact ⟨e', rfl, h.symm⟩
  | _ => simp [locate] at h

theorem exprLocs_self (e : Expr F) : e.loc ∈ exprLocs e := by
  cases e <;> simp [exprLocs, Expr.loc]

theorem locate_errLoc {e : Expr F} {r : Res Err (Value F)} {err : Err} (h : locate e.loc r = .err err)
    (ih : ∀ err, r = .err err → LocIn err (exprLocs e)) : LocIn err (exprLocs e) := by
  obtain ⟨e', h1, rfl⟩ := locate_err h
  exact (ih e' h1).context (exprLocs_self e)

theorem callFunction_errLoc {fo : FloatOps F} {D : List VarLink} {scopes : List (Scope F)} (henv : EnvOk fo D scopes)
    {name : Str} {vs : List (Value F)} (hg : ∀ v ∈ vs, GoodNode v.node) {e : Err}
    (h : callFunction fo scopes name vs = .err e) : e.location = none := by
  rcases callFunction_spec henv name vs hg with ⟨_, _, _, _, _, _, h'⟩ | ⟨_, _, _, _, _, h'⟩ | ⟨_, e', h1, h'⟩
  · rw [h'] at h; cases h
  · rw [h'] at h; cases h
  · rw [h'] at h; cases h; exact h1

theorem located_good {fo : FloatOps F} {D : List VarLink} {scopes : List (Scope F)} (henv : EnvOk fo D scopes)
    {e : Expr F} {v : Value F} (h : locate e.loc (visit fo scopes e) = .ok v) : GoodNode v.node :=
  eval_good henv.decls ((visitExpression_ok_iff henv e v).mp h).2

mutual
theorem visit_errLoc {fo : FloatOps F} {D : List VarLink} {scopes : List (Scope F)} (henv : EnvOk fo D scopes) :
    ∀ (e : Expr F) (err : Err), visit fo scopes e = .err err → LocIn err (exprLocs e)
  | .boolLit _ b, err, h => by simp [visit] at h
  | .intLit _ i, err, h => by simp [visit] at h
  | .floatLit _ f, err, h => by simp [visit] at h
  | .ident _ name, err, h => by
    rw [visit] at h
    rcases resolveVariable_spec henv name with ⟨_, _, h'⟩ | ⟨_, h'⟩
    · rw [h'] at h; cases h
    · rw [h'] at h; cases h; exact .inl rfl
  | .index l e ixs, err, h => by
    rw [visit] at h
    generalize hr : ((locate e.loc (visit fo scopes e)).bind fun v =>
      indexInto v (visitIndexList fo scopes ixs)) = r at h
    cases r with
    | ok v => simp at h
    | exn c => simp at h
    | ub => simp at h
    | err e1 =>
      simp only [Res.mapErr_err, Res.err.injEq] at h
      subst h
      refine LocIn.context ?_ (by simp [exprLocs])
      rcases bind_err hr with h1 | ⟨v, _, h1⟩
      · exact (locate_errLoc h1 (visit_errLoc henv e)).mono (fun _ hm => by simp [exprLocs, hm])
      · unfold indexInto at h1
        split at h1
        · split at h1
          · rcases bind_err h1 with h2 | ⟨is, _, h2⟩
            · exact (visitIndexList_errLoc henv ixs _ h2).mono (fun _ hm => by simp [exprLocs, hm])
            · rcases bind_err h2 with h3 | ⟨_, _, h3⟩
              · exact .inl (checkOutOfRange_errLoc _ _ h3)
              · cases h3
          · rcases bind_err h1 with h2 | ⟨t, _, h2⟩
            · exact absurd h2 (typeOf_noErr _ _)
            · cases h2; exact .inl rfl
        · cases h1
  | .call l name args, err, h => by
    rw [visit] at h
    rcases bind_err h with h1 | ⟨vs, h0, h1⟩
    · exact (visitList_errLoc henv args _ h1).mono (fun _ hm => by simp [exprLocs, hm])
    · refine .inl (callFunction_errLoc henv ?_ h1)
      rcases visitList_all henv args with ⟨ws, h2, h3⟩ | ⟨h2, _⟩ | ⟨_, h2, _⟩ <;> rw [h0] at h2 <;> cases h2
      exact evalAll_good henv.decls h3
  | .un l op e, err, h => by
    rw [visit] at h
    rcases bind_err h with h1 | ⟨v, h0, h1⟩
    · exact (locate_errLoc h1 (visit_errLoc henv e)).mono (fun _ hm => by simp [exprLocs, hm])
    · exact .inl (callFunction_errLoc henv (by simpa using located_good henv h0) h1)
  | .bin l op a b, err, h => by
    rw [visit] at h
    rcases bind_err h with h1 | ⟨v, h0, h1⟩
    · exact (locate_errLoc h1 (visit_errLoc henv a)).mono (fun _ hm => by simp [exprLocs, hm])
    · rcases bind_err h1 with h2 | ⟨w, h3, h2⟩
      · exact (locate_errLoc h2 (visit_errLoc henv b)).mono (fun _ hm => by simp [exprLocs, hm])
      · exact .inl (callFunction_errLoc henv (by simpa using ⟨located_good henv h0, located_good henv h3⟩) h2)
  | .tern l c a b, err, h => by
    rw [visit] at h
    rcases bind_err h with h1 | ⟨v, h0, h1⟩
    · exact (locate_errLoc h1 (visit_errLoc henv c)).mono (fun _ hm => by simp [exprLocs, hm])
    · rcases bind_err h1 with h2 | ⟨w, h3, h2⟩
      · exact (locate_errLoc h2 (visit_errLoc henv a)).mono (fun _ hm => by simp [exprLocs, hm])
      · rcases bind_err h2 with h4 | ⟨x, h5, h4⟩
        · exact (locate_errLoc h4 (visit_errLoc henv b)).mono (fun _ hm => by simp [exprLocs, hm])
        · exact .inl (callFunction_errLoc henv
            (by simpa using ⟨located_good henv h0, located_good henv h3, located_good henv h5⟩) h4)
theorem visitList_errLoc {fo : FloatOps F} {D : List VarLink} {scopes : List (Scope F)} (henv : EnvOk fo D scopes) :
    ∀ (es : List (Expr F)) (err : Err), visitList fo scopes es = .err err → LocIn err (exprsLocs es)
  | [], err, h => by simp [visitList] at h
  | e :: es, err, h => by
    rw [visitList] at h
    rcases bind_err h with h1 | ⟨v, h0, h1⟩
    · exact (locate_errLoc h1 (visit_errLoc henv e)).mono (fun _ hm => by simp [exprsLocs, hm])
    · rcases bind_err h1 with h2 | ⟨_, _, h2⟩
      · exact (visitList_errLoc henv es _ h2).mono (fun _ hm => by simp [exprsLocs, hm])
      · cases h2
theorem visitIndexList_errLoc {fo : FloatOps F} {D : List VarLink} {scopes : List (Scope F)} (henv : EnvOk fo D scopes) :
    ∀ (xs : List (IndexEntry F)) (err : Err), visitIndexList fo scopes xs = .err err → LocIn err (entriesLocs xs)
  | [], err, h => by simp [visitIndexList] at h
  | .item l e :: xs, err, h => by
    rw [visitIndexList] at h
    rcases bind_err h with h1 | ⟨v, h0, h1⟩
    · rw [visitIndexEntry] at h1
      rcases bind_err h1 with h2 | ⟨_, _, h2⟩
      · rcases toConstInt_errLoc _ _ _ h2 with h3 | h3
        · exact (visit_errLoc henv e _ h3).mono (fun _ hm => by simp [entriesLocs, hm])
        · right; rw [h3]; simp [entriesLocs, exprLocs_self e]
      · cases h2
    · rcases bind_err h1 with h2 | ⟨_, _, h2⟩
      · exact (visitIndexList_errLoc henv xs _ h2).mono (fun _ hm => by simp [entriesLocs, hm])
      · cases h2
  | .range l a b :: xs, err, h => by
    rw [visitIndexList] at h
    rcases bind_err h with h1 | ⟨v, h0, h1⟩
    · rw [visitIndexEntry] at h1
      rcases bind_err h1 with h2 | ⟨i, _, h2⟩
      · rcases toConstInt_errLoc _ _ _ h2 with h3 | h3
        · exact (visit_errLoc henv a _ h3).mono (fun _ hm => by simp [entriesLocs, hm])
        · right; rw [h3]; simp [entriesLocs, exprLocs_self a]
      · rcases bind_err h2 with h4 | ⟨j, _, h4⟩
        · rcases toConstInt_errLoc _ _ _ h4 with h3 | h3
          · exact (visit_errLoc henv b _ h3).mono (fun _ hm => by simp [entriesLocs, hm])
          · right; rw [h3]; simp [entriesLocs, exprLocs_self b]
        · right; rw [indexRange_errLoc _ _ _ h4]; simp [entriesLocs]
    · rcases bind_err h1 with h2 | ⟨_, _, h2⟩
      · exact (visitIndexList_errLoc henv xs _ h2).mono (fun _ hm => by simp [entriesLocs, hm])
      · cases h2
end

theorem promoteParameters_errLoc (fo : FloatOps F) (name : Str) (spec : Str) (vs : List (Value F)) {e : Err}
    (h : promoteParameters fo name spec vs = .err e) : e.location = none := by
  induction spec generalizing vs with
  | nil => simp [promoteParameters] at h
  | cons c cs ih =>
    cases vs with
    | nil => simp [promoteParameters] at h
    | cons p ps =>
      rw [promoteParameters] at h
      split at h
      · cases h
      · rcases bind_err h with h1 | ⟨t, _, h1⟩
        · exact absurd h1 (typeOf_noErr _ _)
        · split at h1
          · rcases bind_err h1 with h2 | ⟨_, _, h2⟩
            · exact absurd h2 (promote_noErr _ _ _ _)
            · rcases bind_err h2 with h3 | ⟨_, _, h3⟩
              · exact ih _ h3
              · cases h3
          · cases h1; rfl

theorem paramTypes_errLoc (name : Str) {e : Err} (h : InstructionSet.getInstructionParamTypes name = .err e) :
    e.location = none := by
  unfold InstructionSet.getInstructionParamTypes at h
  split at h
  · unfold InstructionSet.getNamedGateParamTypes at h; split at h <;> cases h; rfl
  · split at h
    · unfold InstructionSet.getNonGateParamTypes at h; split at h <;> cases h; rfl
    · split at h
      · unfold InstructionSet.getGateModifierParamTypes at h; split at h <;> cases h; rfl
      · cases h; rfl

theorem resolveParameters_errLoc (fo : FloatOps F) (name : Str) (vs : List (Value F)) {e : Err}
    (h : resolveParameters fo name vs = .err e) : e.location = none := by
  unfold resolveParameters at h
  split at h
  · split at h
    · split at h
      · cases h
      · cases h; rfl
    · exact promoteParameters_errLoc _ _ _ _ h
  · rcases bind_err h with h1 | ⟨o, _, h1⟩
    · exact paramTypes_errLoc _ h1
    · split at h1
      · split at h1
        · cases h1
        · cases h1; rfl
      · split at h1
        · cases h1; rfl
        · exact promoteParameters_errLoc _ _ _ _ h1

theorem visitGateRest_errLoc {fo : FloatOps F} {D : List VarLink} {scopes : List (Scope F)} (henv : EnvOk fo D scopes)
    {l as name inner ps errs e} (h : visitGateRest (F := F) fo scopes l as name inner ps = .ok (errs, .error e)) :
    LocIn e (l :: exprsLocs ps) := by
  unfold visitGateRest at h
  split at h
  · rename_i ps' _
    cases hv : visitAnnotations fo scopes as with
    | ok r => rw [hv] at h; simp at h
    | err e => exact e.elim
    | exn c => rw [hv] at h; simp at h
    | ub => rw [hv] at h; simp at h
  · rename_i e' he
    simp only [Res.ok.injEq, Prod.mk.injEq, Except.error.injEq] at h
    obtain ⟨_, rfl⟩ := h
    refine LocIn.context ?_ (by simp)
    rcases bind_err he with h1 | ⟨vs, _, h1⟩
    · exact (visitList_errLoc henv _ _ h1).mono (fun _ hm => by simp [hm])
    · rcases bind_err h1 with h2 | ⟨_, _, h2⟩
      · exact .inl (resolveParameters_errLoc _ _ _ h2)
      · rcases bind_err h2 with h3 | ⟨_, _, h3⟩
        · unfold checkGate at h3
          split at h3
          · cases h3
          · split at h3
            · cases h3; exact .inl rfl
            · cases h3
        · cases h3
  · cases h
  · cases h

theorem visitGate_errLoc {fo : FloatOps F} {D : List VarLink} {scopes : List (Scope F)} (henv : EnvOk fo D scopes) :
    ∀ (g : Gate F) {errs : List Err} {e : Err}, visitGate fo scopes g = .ok (errs, .error e) → LocIn e (gateLocs g)
  | .mk l as name none ps, errs, e, h => by
    rw [visitGate] at h
    exact (visitGateRest_errLoc henv h).mono (by simp [gateLocs])
  | .mk l as name (some g) ps, errs, e, h => by
    rw [visitGate] at h
    cases hv : visitGate fo scopes g with
    | ub => rw [hv] at h; simp at h
    | exn c => rw [hv] at h; simp at h
    | err e => exact e.elim
    | ok r =>
      obtain ⟨es, r⟩ := r
      rw [hv, Res.bind_ok] at h
      cases r with
      | error e' =>
        simp only [Res.ok.injEq, Prod.mk.injEq, Except.error.injEq] at h
        obtain ⟨_, rfl⟩ := h
        refine LocIn.context ?_ (by simp [gateLocs])
        exact (visitGate_errLoc henv g hv).mono (fun _ hm => by simp [gateLocs, hm])
      | ok inner =>
        simp only [Log.after] at h
        cases hw : visitGateRest fo scopes l as name (some inner) ps with
        | ub => rw [hw] at h; simp at h
        | exn c => rw [hw] at h; simp at h
        | err e => exact e.elim
        | ok r =>
          obtain ⟨es', r⟩ := r
          rw [hw] at h
          simp only [Res.bind_ok, Res.ok.injEq, Prod.mk.injEq] at h
          obtain ⟨_, rfl⟩ := h
          refine (visitGateRest_errLoc henv hw).mono fun _ hm => ?_
          rcases List.mem_cons.mp hm with rfl | hm <;> simp [gateLocs, *]

theorem resolveInstruction_errLoc {fo : FloatOps F} {D : List VarLink} {scopes : List (Scope F)}
    (henv : EnvOk fo D scopes) {name : Str} {vs : List (Value F)} (hg : ∀ v ∈ vs, GoodNode v.node) {e : Err}
    (h : Analyzer.resolveInstruction fo scopes name vs = .err e) : e.location = none := by
  rcases resolveInstruction_spec henv name vs hg with ⟨_, h', _⟩ | ⟨e', h1, h', _⟩
  · rw [h'] at h; cases h
  · rw [h'] at h; cases h; exact h1

end Qasm
