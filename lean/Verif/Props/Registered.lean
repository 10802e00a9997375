import Verif.Props.Messages
/-!
# Property C72, continued: messages that only a user of the registration interface can meet
-/

namespace Qasm

open Spec Sem

variable {F : Type} {fo : FloatOps F} {a : Analyzer F}

/-- C72. An index that is a variable, which only a user who registers one can write, is reported: as an integer that is not
constant for an int or bool variable, as something that is not an integer for others. The position is that of the name, if
it has one, otherwise that of the index expression. -/
theorem C72_dynamic_index {a1 : Analyzer F} {n : Str} {x : VarLink} {l0 : Option Loc}
    (hreg : a.registerVariable n ⟨.variableRef x, l0⟩ = .ok a1) {e : Expr F} {y : VarLink} {l1 : Option Loc}
    (he : visitExpression fo a1.scopes e = .ok ⟨.variableRef y, l1⟩) (hy : y.typ.kind = .qubitArray ∨ y.typ.kind = .bitArray)
    (l l2 l3 : Option Loc) (ixs : List (IndexEntry F)) :
    visitExpression fo a1.scopes (.index l e (.item l3 (.ident l2 n) :: ixs)) = .err
      ⟨if x.typ.kind = .int ∨ x.typ.kind = .bool then c!"integer must be constant" else c!"expected an integer", l2.or l⟩ := by
  have hres : Analyzer.resolveVariable a1.scopes n = .ok ⟨.variableRef x, l0⟩ := by
    obtain ⟨v, scs, u⟩ := a
    cases scs with
    | nil => cases hreg
    | cons s rest =>
      simp only [Analyzer.registerVariable, Analyzer.modifyCurrent, VariableTable.add] at hreg
      split at hreg
      · cases hreg
      · cases hreg
        simp [Analyzer.resolveVariable, VariableTable.resolve, VariableTable.find]
  have hent : visitIndexList fo a1.scopes (.item l3 (.ident l2 n) :: ixs) = .err
      ⟨if x.typ.kind = .int ∨ x.typ.kind = .bool then c!"integer must be constant" else c!"expected an integer", l2⟩ := by
    rw [visitIndexList, visitIndexEntry, visit, hres]
    obtain ⟨xu, xn, xk, xs⟩ := x
    cases xk <;> cases l2 <;> rfl
  have hloc : ∀ m : Str, (Err.context (Err.context ⟨m, l2⟩ l) l) = ⟨m, l2.or l⟩ := by
    intro m
    cases l2 <;> cases l <;> rfl
  rw [visitExpression] at he ⊢
  rw [visit, he, Res.bind_ok, indexInto, hent]
  simp only [hy, if_true, Res.bind, Res.mapErr, locate]
  exact congrArg Res.err (hloc _)

theorem find_add_self {T : Type} (tbl : OverloadTable T) (n : Str) (t : T) (ps : List Ty) :
    ∃ ovs, OverloadTable.find (OverloadTable.add tbl n t ps) n = some (ovs ++ [⟨t, ps⟩]) := by
  induction tbl with
  | nil => exact ⟨[], by simp [OverloadTable.add, OverloadTable.find]⟩
  | cons p rest ih =>
    obtain ⟨m, ovs⟩ := p
    by_cases h : m = n
    · exact ⟨ovs, by simp [OverloadTable.add, OverloadTable.find, h]⟩
    · obtain ⟨o, ho⟩ := ih
      exact ⟨o, by simp [OverloadTable.add, OverloadTable.find, h, ho]⟩

theorem promoteAll_of (vs : List (Value F)) (ts : List Ty) (ws : List (Value F)) (hl : vs.length = ts.length)
    (h : Forall2 (fun (p : Value F × Ty) w => Values.promote fo p.1 p.2 = .ok (some w)) (vs.zip ts) ws) :
    OverloadTable.promoteAll fo vs ts = .ok (some ws) := by
  induction vs generalizing ts ws with
  | nil =>
    cases ts with
    | nil => cases h; rfl
    | cons => simp at hl
  | cons v vs ih =>
    cases ts with
    | nil => simp at hl
    | cons t ts =>
      cases h with
      | cons h1 h2 =>
        rw [OverloadTable.promoteAll, h1]
        simp only [Res.bind]
        rw [ih ts _ (by simpa using hl) h2]

/-- C72. A function registered by the user is the one that is called, with the promoted arguments, whenever they can be promoted to
its parameter types: its value is the value of the call, and a function that gives no value is reported where it is called. -/
theorem C72_registered_function {a1 : Analyzer F} {n : Str} {ts : List Ty} {f : CoreFn F}
    (hreg : a.registerFunction n ts f = .ok a1) {es : List (Expr F)} {vs ws : List (Value F)} (hes : visitList fo a1.scopes es = .ok vs)
    (hl : vs.length = ts.length)
    (hp : Forall2 (fun (p : Value F × Ty) w => Values.promote fo p.1 p.2 = .ok (some w)) (vs.zip ts) ws) (l : Option Loc) :
    (∀ r, f ws = .ok (some r) → visitExpression fo a1.scopes (.call l n es) = .ok { r with loc := l }) ∧
    (f ws = .ok none →
      visitExpression fo a1.scopes (.call l n es) = .err ⟨c!"function implementation returned empty value", l⟩) ∧
    (∀ e, f ws = .err e → visitExpression fo a1.scopes (.call l n es) = .err ⟨e.message, e.location.or l⟩) := by
  have hlast : ∃ s ovs, a1.scopes.getLast? = some s ∧ OverloadTable.find s.fnTable n = some (ovs ++ [⟨f, ts⟩]) := by
    obtain ⟨v, scs, u⟩ := a
    simp only [Analyzer.registerFunction] at hreg
    obtain ⟨ss, h1, h2⟩ := Res.bind_eq_ok.mp hreg
    cases h2
    dsimp only
    clear hes hreg
    induction scs generalizing ss with
    | nil => cases h1
    | cons s rest ih =>
      cases rest with
      | nil =>
        cases h1
        obtain ⟨ovs, ho⟩ := find_add_self s.fnTable n f ts
        exact ⟨_, ovs, rfl, ho⟩
      | cons s' rest =>
        rw [Analyzer.modifyLast] at h1
        obtain ⟨ss', h3, h4⟩ := Res.bind_eq_ok.mp h1
        cases h4
        obtain ⟨t, ovs, h5, h6⟩ := ih _ h3
        refine ⟨t, ovs, ?_, h6⟩
        cases ss' with
        | nil => cases h5
        | cons => simpa using h5
  obtain ⟨s, ovs, hs, ho⟩ := hlast
  have hcall : callFunction fo a1.scopes n vs = (f ws).bind fun
      | some v => .ok v
      | none => .err (Err.mk0 c!"function implementation returned empty value") := by
    rw [callFunction, Analyzer.resolveFunction, hs]
    simp only [FnTable.resolve, OverloadTable.resolve, ho, OverloadTable.resolveOverload, List.reverse_append,
      List.reverse_cons, List.reverse_nil, List.nil_append, List.cons_append, OverloadTable.resolveFirst]
    rw [if_neg (by simp [hl]), promoteAll_of vs ts ws hl hp]
    rfl
  rw [visitExpression, visit, hes, Res.bind_ok, hcall]
  refine ⟨fun r h => ?_, fun h => ?_, fun e h => ?_⟩
  · rw [h]; rfl
  · rw [h]; cases l <;> rfl
  · rw [h]; obtain ⟨m, lo⟩ := e
    cases l <;> cases lo <;> rfl

/-- A user's analyzer: an int variable `i`, a qubit variable `r` and a function `half` that gives no value for odd numbers. -/
def Sample.registered : Res Err (Analyzer Int) :=
  (Analyzer.default Sample.fo [3, 0]).bind fun a =>
  (a.registerVariable c!"i" ⟨.variableRef ⟨100, c!"i", ⟨.int, 1⟩⟩, none⟩).bind fun a =>
  (a.registerVariable c!"r" ⟨.variableRef ⟨101, c!"r", ⟨.qubit, 1⟩⟩, none⟩).bind fun a =>
  a.registerFunction c!"half" [⟨.int, 1⟩] fun vs =>
    match vs with
    | [⟨.constInt n, _⟩] => .ok (if n % 2 = 0 then some ⟨.constInt (n / 2), none⟩ else none)
    | _ => .ok none

/-- The errors that the user's analyzer reports for a text. -/
def Sample.registeredErrors (text : Str) : Option (List (Str × Option (Nat × Nat))) :=
  match Sample.registered with
  | .ok a =>
    match Syn.analyzeString Sample.fo Sample.antlr a text none with
    | .ok r => some (r.2.errors.map fun e => (e.message, e.location.map fun l => (l.range.first.line, l.range.first.column)))
    | _ => none
  | _ => none

example : (Sample.registeredErrors c!"version 3.0\nqubit[4] q\nX q[half(6)]\nX q[i]\nX q[0, r]\nX q[half(3)]\nX q[half(8)]" ==
    some [(c!"integer must be constant", some (4, 5)), (c!"expected an integer", some (5, 8)),
      (c!"function implementation returned empty value", some (6, 3)), (c!"index 4 out of range (size 4)", some (7, 3))]) = true := by
  decide +kernel

end Qasm
