import Verif.Spec.Reports
import Verif.Lemmas.CustomProgram
import Verif.Lemmas.ErrLoc
/-!
# Helper lemmas: errors of analysers with their own registrations
-/

namespace Qasm

open Spec Sem Analyzer

variable {F : Type} {fo : FloatOps F} {scopes : List (Scope F)} {ls : List (Level F)}

/-- The error has no location yet, or one of the given ones, or a function of the user threw it. -/
def LocOr (T : List (Level F)) (e : Err) (S : List (Option Loc)) : Prop := LocIn e S ∨ ThrownBy T e

namespace LocOr

theorem mono {e : Err} {S S' : List (Option Loc)} (h : LocOr ls e S) (hs : ∀ l ∈ S, l ∈ S') : LocOr ls e S' :=
  h.imp (·.mono hs) id

theorem none {e : Err} (h : e.location = .none) {S : List (Option Loc)} : LocOr ls e S := .inl (.inl h)

theorem thrown_context {e : Err} (h : ThrownBy ls e) (l : Option Loc) : e.context l = e := by
  obtain ⟨m, _ | l'⟩ := e
  · exact absurd h.1 (by simp)
  · rfl

theorem context {e : Err} {S : List (Option Loc)} (h : LocOr ls e S) {l : Option Loc} (hl : l ∈ S) : LocOr ls (e.context l) S := by
  rcases h with h | h
  · exact .inl (h.context hl)
  · rw [thrown_context h]; exact .inr h

theorem full {e : Err} {S : List (Option Loc)} (h : LocOr ls e S) {l : Option Loc} (hl : l ∈ S) :
    ((e.context l).location ∈ S ∧ (l.isSome → (e.context l).location.isSome)) ∨ ThrownBy ls (e.context l) := by
  rcases h with h | h
  · exact .inl ⟨h.full hl, context_isSome⟩
  · rw [thrown_context h]; exact .inr h

theorem located {e : Expr F} {r : Res Err (Value F)} {err : Err} (h : locate e.loc r = .err err)
    (ih : ∀ err, r = .err err → LocOr ls err (exprLocs e)) : LocOr ls err (exprLocs e) := by
  obtain ⟨e', h1, rfl⟩ := locate_err h
  exact (ih e' h1).context (exprLocs_self e)

end LocOr

theorem typesOf_noErr (vs : List (Value F)) (e : Err) : Values.typesOf vs ≠ .err e := by
  induction vs with
  | nil => simp [Values.typesOf]
  | cons v vs ih =>
    intro h
    rw [Values.typesOf] at h
    rcases bind_err h with h1 | ⟨_, _, h1⟩
    · exact typeOf_noErr _ _ h1
    · rcases bind_err h1 with h2 | ⟨_, _, h2⟩
      · exact ih h2
      · cases h2

theorem promoteAll_noErr (vs : List (Value F)) (ts : List Ty) (e : Err) : OverloadTable.promoteAll fo vs ts ≠ .err e := by
  induction vs generalizing ts with
  | nil => simp [OverloadTable.promoteAll]
  | cons v vs ih =>
    cases ts with
    | nil => simp [OverloadTable.promoteAll]
    | cons t ts =>
      intro h
      rw [OverloadTable.promoteAll] at h
      rcases bind_err h with h1 | ⟨o, _, h1⟩
      · exact promote_noErr _ _ _ _ h1
      · cases o with
        | none => cases h1
        | some w =>
          rcases bind_err h1 with h2 | ⟨o, _, h2⟩
          · exact ih _ h2
          · cases o <;> cases h2

theorem resolveFirst_noErr {T : Type} (args : List (Value F)) (ovs : List (Overload T)) (e : Err) :
    OverloadTable.resolveFirst fo args ovs ≠ .err e := by
  induction ovs with
  | nil => simp [OverloadTable.resolveFirst]
  | cons ov ovs ih =>
    intro h
    rw [OverloadTable.resolveFirst] at h
    split at h
    · exact ih h
    · rcases bind_err h with h1 | ⟨o, _, h1⟩
      · exact promoteAll_noErr _ _ _ h1
      · cases o with
        | none => exact ih h1
        | some => cases h1

theorem overload_errLoc {T : Type} {tbl : OverloadTable T} {name : Str} {args : List (Value F)} {e : Err}
    (h : OverloadTable.resolve fo tbl name args = .err e) : e.location = none := by
  unfold OverloadTable.resolve at h
  split at h
  · cases h; rfl
  · rcases bind_err h with h1 | ⟨o, _, h1⟩
    · exact absurd h1 (resolveFirst_noErr _ _ _)
    · cases o with
      | some => cases h1
      | none =>
        rcases bind_err h1 with h2 | ⟨_, _, h2⟩
        · exact absurd h2 (typesOf_noErr _ _)
        · cases h2; rfl

theorem resolveVariable_errLoc {name : Str} {e : Err} (h : resolveVariable scopes name = .err e) : e.location = none := by
  induction scopes with
  | nil => cases h; rfl
  | cons s ss ih =>
    rw [resolveVariable] at h
    split at h
    · exact ih h
    · next hn => exact absurd h (hn e)

theorem resolveInstruction_errLoc' {name : Str} {args : List (Value F)} {e : Err}
    (h : resolveInstruction fo scopes name args = .err e) : e.location = none := by
  induction scopes with
  | nil =>
    rw [resolveInstruction] at h
    rcases bind_err h with h1 | ⟨_, _, h1⟩
    · exact absurd h1 (typesOf_noErr _ _)
    · cases h1; rfl
  | cons s ss ih =>
    rw [resolveInstruction] at h
    split at h
    · exact ih h
    · next hn => exact absurd h (hn e)

theorem callFunction_thrown (hl : Forall2 HoldsLevel scopes ls) {name : Str} {vs : List (Value F)} {e : Err}
    (h : callFunction fo scopes name vs = .err e) {S : List (Option Loc)} : LocOr ls e S := by
  unfold callFunction resolveFunction at h
  rcases bind_err h with h1 | ⟨o, _, h1⟩
  · cases hs : scopes.getLast? with
    | none => rw [hs] at h1; cases h1
    | some s =>
      rw [hs] at h1
      obtain ⟨g, hg, hh⟩ : ∃ g, ls.getLast? = some g ∧ HoldsLevel s g := by
        clear h h1
        induction hl with
        | nil => cases hs
        | @cons a b as bs h1 h2 ih =>
          cases h2 with
          | nil => cases hs; exact ⟨_, rfl, h1⟩
          | cons h3 h4 => rw [List.getLast?_cons_cons] at hs ⊢; exact ih hs
      rcases bind_err h1 with h2 | ⟨⟨f, ws⟩, h2, h3⟩
      · exact .none (overload_errLoc h2)
      · rw [hh.2.1] at h2
        obtain ⟨o, ps, n, he, _⟩ := (resolve_iff ..).1 h2
        cases hloc : e.location with
        | none => exact .none hloc
        | some l =>
          refine .inr ⟨by simp [hloc], g, hg, (name, f, ps), ?_, ws, h3⟩
          rw [he]; simp
  · cases o with
    | some => cases h1
    | none => cases h1; exact .none rfl

mutual
theorem visit_errAt (hl : Forall2 HoldsLevel scopes ls) :
    ∀ (e : Expr F) (err : Err), visit fo scopes e = .err err → LocOr ls err (exprLocs e)
  | .boolLit _ b, err, h => by simp [visit] at h
  | .intLit _ i, err, h => by simp [visit] at h
  | .floatLit _ f, err, h => by simp [visit] at h
  | .ident _ name, err, h => by
    rw [visit] at h
    exact .none (resolveVariable_errLoc h)
  | .index l e ixs, err, h => by
    rw [visit] at h
    generalize hr : ((locate e.loc (visit fo scopes e)).bind fun v =>
      indexInto v (visitIndexList fo scopes ixs)) = r at h
    cases r with
    | ok v => simp at h
    | exn c => simp at h
    | ub => simp at h
    | err e1 =>
      simp only [Res.mapErr_err, Res.err.injEq] at h
      subst h
      refine LocOr.context ?_ (by simp [exprLocs])
      rcases bind_err hr with h1 | ⟨v, _, h1⟩
      · exact (LocOr.located h1 (visit_errAt hl e)).mono (fun _ hm => by simp [exprLocs, hm])
      · unfold indexInto at h1
        split at h1
        · split at h1
          · rcases bind_err h1 with h2 | ⟨is, _, h2⟩
            · exact (visitIndexList_errAt hl ixs _ h2).mono (fun _ hm => by simp [exprLocs, hm])
            · rcases bind_err h2 with h3 | ⟨_, _, h3⟩
              · exact .none (checkOutOfRange_errLoc _ _ h3)
              · cases h3
          · rcases bind_err h1 with h2 | ⟨t, _, h2⟩
            · exact absurd h2 (typeOf_noErr _ _)
            · cases h2; exact .none rfl
        · cases h1
  | .call l name args, err, h => by
    rw [visit] at h
    rcases bind_err h with h1 | ⟨vs, h0, h1⟩
    · exact (visitList_errAt hl args _ h1).mono (fun _ hm => by simp [exprLocs, hm])
    · exact callFunction_thrown hl h1
  | .un l op e, err, h => by
    rw [visit] at h
    rcases bind_err h with h1 | ⟨v, h0, h1⟩
    · exact (LocOr.located h1 (visit_errAt hl e)).mono (fun _ hm => by simp [exprLocs, hm])
    · exact callFunction_thrown hl h1
  | .bin l op a b, err, h => by
    rw [visit] at h
    rcases bind_err h with h1 | ⟨v, h0, h1⟩
    · exact (LocOr.located h1 (visit_errAt hl a)).mono (fun _ hm => by simp [exprLocs, hm])
    · rcases bind_err h1 with h2 | ⟨w, h3, h2⟩
      · exact (LocOr.located h2 (visit_errAt hl b)).mono (fun _ hm => by simp [exprLocs, hm])
      · exact callFunction_thrown hl h2
  | .tern l c a b, err, h => by
    rw [visit] at h
    rcases bind_err h with h1 | ⟨v, h0, h1⟩
    · exact (LocOr.located h1 (visit_errAt hl c)).mono (fun _ hm => by simp [exprLocs, hm])
    · rcases bind_err h1 with h2 | ⟨w, h3, h2⟩
      · exact (LocOr.located h2 (visit_errAt hl a)).mono (fun _ hm => by simp [exprLocs, hm])
      · rcases bind_err h2 with h4 | ⟨x, h5, h4⟩
        · exact (LocOr.located h4 (visit_errAt hl b)).mono (fun _ hm => by simp [exprLocs, hm])
        · exact callFunction_thrown hl h4
theorem visitList_errAt (hl : Forall2 HoldsLevel scopes ls) :
    ∀ (es : List (Expr F)) (err : Err), visitList fo scopes es = .err err → LocOr ls err (exprsLocs es)
  | [], err, h => by simp [visitList] at h
  | e :: es, err, h => by
    rw [visitList] at h
    rcases bind_err h with h1 | ⟨v, h0, h1⟩
    · exact (LocOr.located h1 (visit_errAt hl e)).mono (fun _ hm => by simp [exprsLocs, hm])
    · rcases bind_err h1 with h2 | ⟨_, _, h2⟩
      · exact (visitList_errAt hl es _ h2).mono (fun _ hm => by simp [exprsLocs, hm])
      · cases h2
theorem visitIndexList_errAt (hl : Forall2 HoldsLevel scopes ls) :
    ∀ (xs : List (IndexEntry F)) (err : Err), visitIndexList fo scopes xs = .err err → LocOr ls err (entriesLocs xs)
  | [], err, h => by simp [visitIndexList] at h
  | .item l e :: xs, err, h => by
    rw [visitIndexList] at h
    rcases bind_err h with h1 | ⟨v, h0, h1⟩
    · rw [visitIndexEntry] at h1
      rcases bind_err h1 with h2 | ⟨_, _, h2⟩
      · rcases toConstInt_errLoc _ _ _ h2 with h3 | h3
        · exact (visit_errAt hl e _ h3).mono (fun _ hm => by simp [entriesLocs, hm])
        · left; right; rw [h3]; simp [entriesLocs, exprLocs_self e]
      · cases h2
    · rcases bind_err h1 with h2 | ⟨_, _, h2⟩
      · exact (visitIndexList_errAt hl xs _ h2).mono (fun _ hm => by simp [entriesLocs, hm])
      · cases h2
  | .range l a b :: xs, err, h => by
    rw [visitIndexList] at h
    rcases bind_err h with h1 | ⟨v, h0, h1⟩
    · rw [visitIndexEntry] at h1
      rcases bind_err h1 with h2 | ⟨i, _, h2⟩
      · rcases toConstInt_errLoc _ _ _ h2 with h3 | h3
        · exact (visit_errAt hl a _ h3).mono (fun _ hm => by simp [entriesLocs, hm])
        · left; right; rw [h3]; simp [entriesLocs, exprLocs_self a]
      · rcases bind_err h2 with h4 | ⟨j, _, h4⟩
        · rcases toConstInt_errLoc _ _ _ h4 with h3 | h3
          · exact (visit_errAt hl b _ h3).mono (fun _ hm => by simp [entriesLocs, hm])
          · left; right; rw [h3]; simp [entriesLocs, exprLocs_self b]
        · left; right; rw [indexRange_errLoc _ _ _ h4]; simp [entriesLocs]
    · rcases bind_err h1 with h2 | ⟨_, _, h2⟩
      · exact (visitIndexList_errAt hl xs _ h2).mono (fun _ hm => by simp [entriesLocs, hm])
      · cases h2
end

theorem visitGateRest_errAt (hl : Forall2 HoldsLevel scopes ls)
    {l as name inner ps errs e} (h : visitGateRest (F := F) fo scopes l as name inner ps = .ok (errs, .error e)) :
    LocOr ls e (l :: exprsLocs ps) := by
  unfold visitGateRest at h
  split at h
  · rename_i ps' _
    cases hv : visitAnnotations fo scopes as with
    | ok r => rw [hv] at h; simp at h
    | err e => exact e.elim
    | exn c => rw [hv] at h; simp at h
    | ub => rw [hv] at h; simp at h
  · rename_i e' he
    simp only [Res.ok.injEq, Prod.mk.injEq, Except.error.injEq] at h
    obtain ⟨_, rfl⟩ := h
    refine LocOr.context ?_ (by simp)
    rcases bind_err he with h1 | ⟨vs, _, h1⟩
    · exact (visitList_errAt hl _ _ h1).mono (fun _ hm => by simp [hm])
    · rcases bind_err h1 with h2 | ⟨_, _, h2⟩
      · exact .none (resolveParameters_errLoc _ _ _ h2)
      · rcases bind_err h2 with h3 | ⟨_, _, h3⟩
        · unfold checkGate at h3
          split at h3
          · cases h3
          · split at h3
            · cases h3; exact .none rfl
            · cases h3
        · cases h3
  · cases h
  · cases h

theorem visitGateRest_plain {l name inner ps errs x} (h : visitGateRest (F := F) fo scopes l [] name inner ps = .ok (errs, x)) :
    errs = [] := by
  unfold visitGateRest at h
  split at h
  · cases h; rfl
  · cases h; rfl
  · cases h
  · cases h

theorem visitGate_plain : ∀ (g : Gate F), PlainGate g → ∀ {errs x}, visitGate fo scopes g = .ok (errs, x) → errs = []
  | .mk l as name none ps, hp, errs, x, h => by
    rw [visitGate] at h
    cases hp
    exact visitGateRest_plain h
  | .mk l as name (some g) ps, hp, errs, x, h => by
    obtain ⟨rfl, hp⟩ := hp
    rw [visitGate] at h
    obtain ⟨⟨es, r⟩, h1, h2⟩ := Res.bind_eq_ok.1 h
    have := visitGate_plain g hp h1
    subst this
    cases r with
    | error e' => cases h2; rfl
    | ok inner =>
      obtain ⟨⟨es', r⟩, h3, h4⟩ := Res.bind_eq_ok.1 h2
      have := visitGateRest_plain h3
      subst this
      cases h4; rfl

theorem visitGate_errAt (hl : Forall2 HoldsLevel scopes ls) :
    ∀ (g : Gate F) {errs : List Err} {e : Err}, visitGate fo scopes g = .ok (errs, .error e) → LocOr ls e (gateLocs g)
  | .mk l as name none ps, errs, e, h => by
    rw [visitGate] at h
    exact (visitGateRest_errAt hl h).mono (by simp [gateLocs])
  | .mk l as name (some g) ps, errs, e, h => by
    rw [visitGate] at h
    obtain ⟨⟨es, r⟩, hv, h⟩ := Res.bind_eq_ok.1 h
    cases r with
    | error e' =>
      simp only [Res.ok.injEq, Prod.mk.injEq, Except.error.injEq] at h
      obtain ⟨_, rfl⟩ := h
      refine LocOr.context ?_ (by simp [gateLocs])
      exact (visitGate_errAt hl g hv).mono (fun _ hm => by simp [gateLocs, hm])
    | ok inner =>
      obtain ⟨⟨es', r⟩, hw, h⟩ := Res.bind_eq_ok.1 h
      simp only [Res.ok.injEq, Prod.mk.injEq] at h
      obtain ⟨_, rfl⟩ := h
      refine (visitGateRest_errAt hl hw).mono fun _ hm => ?_
      rcases List.mem_cons.mp hm with rfl | hm <;> simp [gateLocs, *]

/-! ## Statements -/

/-- The end of an instruction without annotations adds no error. -/
private theorem finish_plain {a a' : Analyzer F} {l : Option Loc} {es : List Err} {f : List (SAnnotation F) → SStatement F}
    (h : ((visitAnnotations fo a.scopes []).bind fun ra => Log.after ra.1 (catchInto a l (a.addStatement (f ra.2)))) = .ok (es, a')) :
    es = [] := by
  simp only [visitAnnotations, Res.bind_ok, addStatement, modifyCurrent] at h
  cases hs : a.scopes with
  | nil => rw [hs] at h; cases h
  | cons s ss => rw [hs] at h; cases h; rfl

/-- A rejected instruction without annotations gives one error and changes nothing. -/
theorem visitInstruction_errs (hl : Forall2 HoldsLevel scopes ls) {a a' : Analyzer F} (ha : a.scopes = scopes) {s : Stmt F}
    (hd : ¬ IsDecl s) (hp : PlainStmt s) {es : List Err} (h : visitStatement fo a s = .ok (es, a')) :
    es = [] ∨ a' = a ∧ ∃ e, es = [e] ∧ (ReportedAt s e ∨ ThrownBy ls e) := by
  subst ha
  cases s with
  | var => exact absurd trivial hd
  | asm l as n c =>
    cases hp
    left
    simp only [visitStatement, visitAsmDeclaration] at h
    exact finish_plain (f := fun r => .asm n c r l) h
  | gate l as g ops =>
    obtain ⟨rfl, hp⟩ := hp
    simp only [visitStatement, visitGateInstruction] at h
    obtain ⟨⟨es1, r⟩, h1, h2⟩ := Res.bind_eq_ok.1 h
    have := visitGate_plain g hp h1
    subst this
    dsimp only at h2
    obtain ⟨⟨es2, a2⟩, h2, h3⟩ := Res.bind_eq_ok.1 h2
    cases h3
    cases r with
    | error e =>
      cases h2
      refine .inr ⟨rfl, _, rfl, ?_⟩
      exact LocOr.full ((visitGate_errAt hl g h1).mono fun _ hm => by simp [stmtLocs, hm]) (by simp [stmtLocs])
    | ok g' =>
      dsimp only at h2
      split at h2
      · next e he =>
        cases h2
        refine .inr ⟨rfl, _, rfl, ?_⟩
        refine LocOr.full (S := stmtLocs (.gate l [] g ops)) ?_ (by simp [stmtLocs])
        rcases bind_err he with h4 | ⟨vs, _, h4⟩
        · exact (visitList_errAt hl ops _ h4).mono fun _ hm => by simp [stmtLocs, hm]
        · rcases bind_err h4 with h5 | ⟨i, _, h5⟩
          · exact .none (resolveInstruction_errLoc' h5)
          · rcases bind_err h5 with h6 | ⟨_, _, h6⟩
            · unfold checkGateInstruction at h6
              split at h6 <;> cases h6
              exact .none rfl
            · cases h6
      · cases h2
      · cases h2
      · next i _ =>
        left
        unfold Log.after at h2
        obtain ⟨⟨es3, a3⟩, h3, h4⟩ := Res.bind_eq_ok.1 h2
        have := finish_plain (f := fun r => .gate i.1 g' i.2 r l) h3
        subst this
        simp only [Res.ok.injEq, Prod.mk.injEq, List.nil_append] at h4
        simp [← h4.1]
  | nonGate l as name ops ps =>
    cases hp
    simp only [visitStatement, visitNonGateInstruction] at h
    split at h
    · next e he =>
      cases h
      refine .inr ⟨rfl, _, rfl, ?_⟩
      refine LocOr.full (S := stmtLocs (.nonGate l [] name ops ps)) ?_ (by simp [stmtLocs])
      rcases bind_err he with h4 | ⟨vs, _, h4⟩
      · exact (visitList_errAt hl ops _ h4).mono fun _ hm => by simp [stmtLocs, hm]
      · rcases bind_err h4 with h5 | ⟨i, _, h5⟩
        · exact .none (resolveInstruction_errLoc' h5)
        · rcases bind_err h5 with h6 | ⟨us, _, h6⟩
          · exact (visitList_errAt hl ps _ h6).mono fun _ hm => by simp [stmtLocs, hm]
          · rcases bind_err h6 with h7 | ⟨us', _, h7⟩
            · exact .none (resolveParameters_errLoc _ _ _ h7)
            · rcases bind_err h7 with h8 | ⟨_, _, h8⟩
              · unfold checkNonGateInstruction at h8
                split at h8
                · split at h8 <;> cases h8
                  exact .none rfl
                · cases h8
              · cases h8
    · cases h
    · cases h
    · next i us _ => exact .inl (finish_plain (f := fun r => .nonGate i.1 name i.2 us r l) h)

/-- The scope after a rejected redeclaration. -/
def redeclareIn (s : Scope F) (x : SVariable F) : Scope F := { s with variables := s.variables ++ [x] }

/-! ## Types of declarations -/

theorem buildSemanticType_failsIn (t : TypeAst) (e : Err) :
    buildSemanticType t = .err e ↔ ∃ m, TypeFails t m ∧ e = ⟨m, none⟩ := by
  rcases buildSemanticType_fails t with ⟨ty', h1, h2⟩ | ⟨h1, h2, h3⟩ | ⟨n, h1, h2, h3, h4⟩
  · rw [h1]
    refine ⟨fun h => (by cases h), ?_⟩
    rintro ⟨m, h, _⟩
    cases h with
    | unknown h3 h4 => exact ((typeOk_name h2).elim h3 h4).elim
    | size _ h4 h5 => exact absurd (typeOk_size h2 h4) (by omega)
  · rw [h1]
    constructor
    · intro h
      exact ⟨_, .unknown h2 h3, (Res.err.inj h).symm⟩
    · rintro ⟨m, h, rfl⟩
      cases h with
      | unknown => rfl
      | size h4 => exact (h4.elim h2 h3).elim
  · rw [h1]
    constructor
    · intro h
      exact ⟨_, .size h2 h3 h4, (Res.err.inj h).symm⟩
    · rintro ⟨m, h, rfl⟩
      cases h with
      | unknown h5 h6 => exact (h2.elim h5 h6).elim
      | size => rfl

/-- What a declaration without annotations does. -/
theorem visitVariable_plain {s : Scope F} {ss : List (Scope F)} {r : Level F} {v : Version} {u : Nat}
    (h : HoldsLevel s r) {loc : Option Loc} {name : Ident} {typ : TypeAst}
    {a' : Analyzer F} {es : List Err} (h0 : visitVariable fo ⟨v, s :: ss, u⟩ loc [] name typ = .ok (es, a')) :
    (∃ t, TypeOk typ t ∧ name.name ∉ r.vars.map (·.1) ∧ es = [] ∧
      a' = ⟨v, declareIn s ⟨u, name.name, t, [], name.loc⟩ :: ss, u + 1⟩) ∨
    ((¬∃ t, TypeOk typ t) ∧ a' = ⟨v, s :: ss, u⟩ ∧ ∃ m, TypeFails typ m ∧ es = [⟨m, loc⟩]) ∨
    (∃ t, TypeOk typ t ∧ name.name ∈ r.vars.map (·.1) ∧ es = [⟨c!"trying to redeclare variable '" ++ name.name ++ c!"'", loc⟩] ∧
      a' = ⟨v, redeclareIn s ⟨u, name.name, t, [], name.loc⟩ :: ss, u + 1⟩) := by
  have hno : ∀ e, buildSemanticType typ = .err e → (¬∃ t, TypeOk typ t) ∧ ∃ m, TypeFails typ m ∧ e = ⟨m, none⟩ := by
    intro e he
    refine ⟨?_, (buildSemanticType_failsIn ..).1 he⟩
    rintro ⟨t, ht⟩
    rw [(buildSemanticType_iff ..).2 ht] at he
    cases he
  rw [visitVariable] at h0
  split at h0
  · next e he =>
    cases h0
    obtain ⟨h1, m, h2, rfl⟩ := hno e he
    refine .inr (.inl ⟨h1, rfl, m, h2, ?_⟩)
    rw [context_or]
    cases loc <;> rfl
  · cases h0
  · cases h0
  · next t ht =>
    have ht := (buildSemanticType_iff ..).1 ht
    simp only [visitAnnotations, Res.bind_ok, addVariable, modifyCurrent, registerVariable, VariableTable.add] at h0
    cases hf : VariableTable.find s.variableTable name.name with
    | none =>
      rw [hf] at h0
      cases h0
      exact .inl ⟨t, ht, (holds_find_none h _).1 hf, rfl, rfl⟩
    | some w =>
      rw [hf] at h0
      cases h0
      refine .inr (.inr ⟨t, ht, ?_, rfl, rfl⟩)
      refine Classical.byContradiction fun hn => ?_
      rw [(holds_find_none h _).2 hn] at hf
      cases hf

end Qasm
