import Verif.Lemmas.Tidy
import Verif.Lemmas.Standard
import Verif.Lemmas.Move
/-!
# Lemmas about registrations that throw analysis errors only
-/

namespace Qasm

open Spec Sem

attribute [local irreducible] defaultInstrs defaultFns defaultVars

variable {F : Type} {fo : FloatOps F} {ls : List (Level F)}

namespace Milding

theorem seen {name : Str} {v : Value F} (h : Seen name v ls) (hm : MildLevels ls) : ¬ Untyped v := by
  induction h with
  | here h1 _ => exact (hm _ (List.mem_cons_self ..)).1 _ (by rw [h1]; exact List.mem_append_right _ (List.mem_cons_self ..))
  | outer _ _ ih => exact ih fun l hl => hm l (List.mem_cons_of_mem _ hl)

theorem returns {name : Str} {args : List (Value F)} {r : Value F} (hm : MildLevels ls) (h : Returns fo ls name args r) :
    ¬ Untyped r := by
  obtain ⟨g, f, ws, h1, ⟨older, params, newer, h2, _⟩, h4⟩ := h
  exact ((hm g (List.mem_of_getLast? h1)).2 (name, f, params)
    (by rw [h2]; exact List.mem_append_right _ (List.mem_cons_self ..)) ws).2 r h4

theorem eval (hm : MildLevels ls) {e : Expr F} {x : Value F} (h : EvalIn fo ls e x) : ¬ Untyped x := by
  cases h with
  | boolLit | intLit | floatLit => exact fun h => by cases h
  | ident h => exact seen h hm
  | @index l e ixs y lx is h1 h2 h3 h4 =>
    intro hu
    match is, hu with
    | [i], hu =>
      have hu : elementKind y.typ.kind = none := hu
      rcases h2 with h2 | h2 <;> rw [h2] at hu <;> cases hu
    | [], hu => cases hu
    | _ :: _ :: _, hu => cases hu
  | call _ h => exact returns hm h
  | un _ h => exact returns hm h
  | bin _ _ h => exact returns hm h
  | tern _ _ _ h => exact returns hm h

theorem args (hm : MildLevels ls) {es : List (Expr F)} {vs : List (Value F)} (h : ArgsIn fo ls es vs) : ∀ x ∈ vs, ¬ Untyped x := by
  induction es generalizing vs with
  | nil => cases h; simp
  | cons e es ih =>
    cases h with
    | cons h1 h2 =>
      intro x hx
      rcases List.mem_cons.1 hx with rfl | hx
      · exact fun h => eval hm h1 h
      · exact ih h2 x hx

theorem call (hm : MildLevels ls) {name : Str} {args : List (Value F)} (ha : ∀ x ∈ args, ¬ Untyped x) {o : Stop}
    (h : CallStops fo ls name args o) : o = .undefined := by
  cases h with
  | noScope h => rfl
  | untyped _ _ _ h1 h2 => exact absurd h2 (ha _ h1)
  | @function g f args' _ h1 h2 h3 =>
    obtain ⟨older, params, newer, h4, _⟩ := h2
    have := ((hm g (List.mem_of_getLast? h1)).2 (name, f, params)
      (by rw [h4]; exact List.mem_append_right _ (List.mem_cons_self ..)) args').1
    cases o with
    | throws c => exact absurd h3 (this c)
    | undefined => rfl

mutual
theorem stops (hm : MildLevels ls) {o : Stop} : ∀ {e : Expr F}, StopsIn fo ls e o → o = .undefined
  | _, .indexed h => stops hm h
  | _, .notVariable _ _ => rfl
  | _, .indices _ _ h => indices hm h
  | _, .args h => argsStop hm h
  | _, .call h1 h2 => call hm (args hm h1) h2
  | _, .operand h => stops hm h
  | _, .un h1 h2 => call hm (fun x hx => by cases List.mem_singleton.1 hx; exact fun h => eval hm h1 h) h2
  | _, .left h => stops hm h
  | _, .right _ h => stops hm h
  | _, .bin h1 h2 h3 => call hm (by simpa using ⟨fun h => eval hm h1 h, fun h => eval hm h2 h⟩) h3
  | _, .cond h => stops hm h
  | _, .ifTrue _ h => stops hm h
  | _, .ifFalse _ _ h => stops hm h
  | _, .tern h1 h2 h3 h4 =>
    call hm (by simpa using ⟨fun h => eval hm h1 h, fun h => eval hm h2 h, fun h => eval hm h3 h⟩) h4
theorem argsStop (hm : MildLevels ls) {o : Stop} : ∀ {es : List (Expr F)}, ArgsStop fo ls es o → o = .undefined
  | _, .head h => stops hm h
  | _, .tail _ h => argsStop hm h
theorem indices (hm : MildLevels ls) {o : Stop} : ∀ {xs : List (IndexEntry F)}, IndicesStop fo ls xs o → o = .undefined
  | _, .head h => entry hm h
  | _, .tail _ h => indices hm h
theorem entry (hm : MildLevels ls) {o : Stop} : ∀ {x : IndexEntry F}, EntryStops fo ls x o → o = .undefined
  | _, .item h => stops hm h
  | _, .itemUntyped h1 h2 => absurd h2 (eval hm h1)
  | _, .first h => stops hm h
  | _, .firstUntyped h1 h2 => absurd h2 (eval hm h1)
  | _, .last _ _ h => stops hm h
  | _, .lastUntyped _ _ h1 h2 => absurd h2 (eval hm h1)
  | _, .range _ _ _ _ _ _ => rfl
end

theorem lacks {vs : List (Value F)} {ks : List Kind} (h : LacksType vs ks) : ∃ x ∈ vs, Untyped x := by
  induction h with
  | here h _ => exact ⟨_, List.mem_cons_self .., h⟩
  | there _ _ _ ih =>
    obtain ⟨x, h1, h2⟩ := ih
    exact ⟨x, List.mem_cons_of_mem _ h1, h2⟩

theorem gate (hm : MildLevels ls) {g : Gate F} {o : Stop} (h : GateStops fo ls g o) : o = .undefined := by
  induction h with
  | parameters h => exact argsStop hm h
  | named h1 _ h2 =>
    obtain ⟨x, h3, h4⟩ := lacks h2
    exact absurd h4 (args hm h1 x h3)
  | inner _ ih => exact ih
  | modifier _ h => exact argsStop hm h
  | modified _ h1 h2 =>
    obtain ⟨x, h3, h4⟩ := lacks h2
    exact absurd h4 (args hm h1 x h3)

theorem instr (hm : MildLevels ls) {s : Stmt F} {o : Stop} (h : InstrStops fo ls s o) : o = .undefined := by
  cases h with
  | gate h => exact gate hm h
  | gateArgs _ h => exact argsStop hm h
  | gateUntyped _ h1 h2 h3 => exact absurd h3 (args hm h1 _ h2)
  | args h => exact argsStop hm h
  | argUntyped h1 h2 h3 => exact absurd h3 (args hm h1 _ h2)
  | parameters _ _ h => exact argsStop hm h
  | parameterUntyped _ _ h1 _ h2 =>
    obtain ⟨x, h3, h4⟩ := lacks h2
    exact absurd h4 (args hm h1 x h3)

theorem declared {r : Level F} {name : Str} {x : VarLink} (hm : MildLevels (r :: ls)) :
    MildLevels ({ r with vars := r.vars ++ [(name, ⟨.variableRef x, none⟩)] } :: ls) := by
  intro l hl
  rcases List.mem_cons.1 hl with rfl | hl
  · refine ⟨fun x hx => ?_, (hm _ (List.mem_cons_self ..)).2⟩
    rcases List.mem_append.1 hx with hx | hx
    · exact (hm _ (List.mem_cons_self ..)).1 x hx
    · cases List.mem_singleton.1 hx
      exact fun h => by cases h
  · exact hm l (List.mem_cons_of_mem _ hl)

theorem block {r : Level F} {u : Nat} {ss : List (Stmt F)} {o : Stop} (h : BlockStops fo ls r u ss o) (hm : MildLevels (r :: ls)) :
    o = .undefined := by
  induction h with
  | here h => exact instr hm h
  | decl _ _ _ ih => exact ih (declared hm)
  | badType _ _ ih => exact ih hm
  | redeclared _ _ _ ih => exact ih hm
  | later _ _ _ ih => exact ih hm

theorem analysis {r r' : Level F} {u : Nat} {ss : List (Stmt F)} {ws : List (SVariable F)} {ts : List (SStatement F)}
    {bad : List (Stmt F × Err)} (h : AnalysisIn fo ls r u ss ws ts bad r') (hm : MildLevels (r :: ls)) : MildLevels (r' :: ls) := by
  induction h with
  | nil => exact hm
  | decl _ _ _ ih => exact ih (declared hm)
  | instr _ _ ih | redeclared _ _ _ ih | badType _ _ _ ih | badInstr _ _ _ _ ih => exact ih hm

/-! ## The library -/

theorem add_old {T : Type} {tbl : OverloadTable T} {name : Str} {tag : T} {ps : List Ty} {e : Str × List (Overload T)} {ov : Overload T}
    (h1 : e ∈ tbl) (h2 : ov ∈ e.2) : ∃ e' ∈ tbl.add name tag ps, ov ∈ e'.2 := by
  induction tbl with
  | nil => cases h1
  | cons x xs ih =>
    rw [OverloadTable.add]
    split
    · rcases List.mem_cons.1 h1 with rfl | h1
      · exact ⟨_, List.mem_cons_self .., List.mem_append_left _ h2⟩
      · exact ⟨e, List.mem_cons_of_mem _ h1, h2⟩
    · rcases List.mem_cons.1 h1 with rfl | h1
      · exact ⟨_, List.mem_cons_self .., h2⟩
      · obtain ⟨e', h3, h4⟩ := ih h1
        exact ⟨e', List.mem_cons_of_mem _ h3, h4⟩

theorem add_new {T : Type} (tbl : OverloadTable T) (name : Str) (tag : T) (ps : List Ty) :
    ∃ e' ∈ tbl.add name tag ps, (⟨tag, ps⟩ : Overload T) ∈ e'.2 := by
  induction tbl with
  | nil => exact ⟨_, List.mem_cons_self .., List.mem_cons_self ..⟩
  | cons x xs ih =>
    rw [OverloadTable.add]
    split
    · exact ⟨_, List.mem_cons_self .., List.mem_append_right _ (List.mem_cons_self ..)⟩
    · obtain ⟨e', h3, h4⟩ := ih
      exact ⟨e', List.mem_cons_of_mem _ h3, h4⟩

theorem registered {T : Type} {regs : List (Registration T)} {r : Registration T} (h : r ∈ regs) :
    ∃ e ∈ tableOf regs, ∃ ov ∈ e.2, ov.tag = r.2.1 := by
  have old : ∀ (rs : List (Registration T)) (tbl : OverloadTable T) (ov : Overload T), (∃ e ∈ tbl, ov ∈ e.2) →
      ∃ e ∈ rs.foldl (fun t r => t.add r.1 r.2.1 r.2.2) tbl, ov ∈ e.2 := by
    intro rs
    induction rs with
    | nil => exact fun tbl ov h => h
    | cons r rs ih => exact fun tbl ov ⟨e, h1, h2⟩ => ih _ ov (add_old h1 h2)
  obtain ⟨xs, ys, rfl⟩ := List.append_of_mem h
  unfold tableOf
  rw [List.foldl_append, List.foldl_cons]
  obtain ⟨e, h1, h2⟩ := old ys _ _ (add_new (xs.foldl (fun t r => t.add r.1 r.2.1 r.2.2) []) r.1 r.2.1 r.2.2)
  exact ⟨e, h1, _, h2, rfl⟩

theorem constant_closed {v : Value F} (h : Values.isConstant v = true) : ClosedValue [] v ∧ ¬ Untyped v := by
  obtain ⟨n, l⟩ := v
  cases n <;> first
    | (simp [Values.isConstant] at h; done)
    | exact ⟨⟨fun x hx => (by cases hx), fun x hx => (by cases hx)⟩, fun hu => (by cases hu)⟩

theorem number_returns {g : CoreFn F} (h : NumberFn g) {args : List (Value F)} {r : Value F} (hr : g args = .ok (some r)) :
    Values.isConstant r = true := by
  obtain ⟨k, rfl, h⟩ := h
  obtain ⟨_, -, hr⟩ := ebind_eq_ok hr
  exact h args r hr

/-- Nothing but analysis errors is thrown. -/
def NoExn {α : Type} (x : Res Err α) : Prop := ∀ c, x ≠ .exn c

theorem noExn_bind {α β : Type} {x : Res Err α} {k : α → Res Err β} (h : NoExn x) (hk : ∀ a, NoExn (k a)) : NoExn (x.bind k) := by
  cases x with
  | ok a => exact hk a
  | exn c => exact absurd rfl (h c)
  | err e => exact fun c h => by cases h
  | ub => exact fun c h => by cases h

theorem noExn_ok {α : Type} (a : α) : NoExn (.ok a : Res Err α) := fun c h => by cases h

theorem noExn_ub {α : Type} : NoExn (.ub : Res Err α) := fun c h => by cases h

theorem noExn_get {α : Type} (p : ValueNode F → Option α) (v : Value F) : NoExn (ConstEval.get p v) := by
  unfold ConstEval.get; split
  · exact noExn_ok _
  · exact noExn_ub

theorem noExn_nth (vs : List (Value F)) (i : Nat) : NoExn (ConstEval.nth vs i) := by
  unfold ConstEval.nth; split
  · exact noExn_ok _
  · exact noExn_ub

theorem noExn_const (vs : List (Value F)) : NoExn (Values.checkConstAll vs) := by
  induction vs with
  | nil => exact noExn_ok _
  | cons v vs ih =>
    refine noExn_bind ?_ fun _ => ih
    unfold Values.checkConst
    split
    · exact noExn_ok _
    · exact fun c h => by cases h

theorem uf {α β : Type} {inj : β → ValueNode F} {p : ValueNode F → Option α} {g : α → Res Err β} (hg : ∀ a, NoExn (g a))
    (args : List (Value F)) : NoExn (ConstEval.ufCp inj p g args) :=
  noExn_bind (noExn_const _) fun _ => noExn_bind (noExn_nth _ _) fun _ => noExn_bind (noExn_get _ _) fun a =>
    noExn_bind (hg a) fun _ => noExn_ok _

theorem bf {α β : Type} {inj : β → ValueNode F} {p : ValueNode F → Option α} {g : α → α → Res Err β} (hg : ∀ a b, NoExn (g a b))
    (args : List (Value F)) : NoExn (ConstEval.bfCp inj p g args) :=
  noExn_bind (noExn_const _) fun _ => noExn_bind (noExn_nth _ _) fun _ => noExn_bind (noExn_get _ _) fun a =>
    noExn_bind (noExn_nth _ _) fun _ => noExn_bind (noExn_get _ _) fun b => noExn_bind (hg a b) fun _ => noExn_ok _

theorem tf {α : Type} {inj : α → ValueNode F} {p : ValueNode F → Option α} (args : List (Value F)) :
    NoExn (ConstEval.tfCp inj p args) :=
  noExn_bind (noExn_const _) fun _ => noExn_bind (noExn_nth _ _) fun _ => noExn_bind (noExn_get _ _) fun _ =>
    noExn_bind (noExn_nth _ _) fun _ => noExn_bind (noExn_get _ _) fun _ => noExn_bind (noExn_nth _ _) fun _ =>
      noExn_bind (noExn_get _ _) fun _ => noExn_ok _

theorem noExn_checked (z : Int) : NoExn (ConstEval.checked z) := by
  unfold ConstEval.checked; split
  · exact noExn_ok _
  · exact noExn_ub

theorem noExn_if {α : Type} {c : Prop} [Decidable c] {x y : Res Err α} (hx : NoExn x) (hy : NoExn y) :
    NoExn (if c then x else y) := by
  split <;> assumption

theorem noExn_abs (a : Int64) : NoExn (ConstEval.absI a) := noExn_if (noExn_checked _) (noExn_ok _)

theorem noExn_div (a b : Int64) : NoExn (ConstEval.divI a b) := noExn_if noExn_ub (noExn_checked _)

theorem noExn_mod (a b : Int64) : NoExn (ConstEval.modI a b) :=
  noExn_if noExn_ub (noExn_bind (noExn_checked _) fun _ => noExn_checked _)

theorem noExn_shl (a b : Int64) : NoExn (ConstEval.shlI a b) := noExn_if noExn_ub (noExn_ok _)

theorem noExn_shr (a b : Int64) : NoExn (ConstEval.shrI a b) := noExn_if noExn_ub (noExn_ok _)

theorem noExn_table (fo : FloatOps F) : ∀ p ∈ fnTable fo, ∀ args, NoExn (p.2.2 args) := by
  unfold fnTable
  refine forall_cons (uf fun _ => noExn_ok _) ?_
  refine forall_cons (uf fun _ => noExn_checked _) ?_
  refine forall_cons (bf fun _ _ => noExn_ok _) ?_
  refine forall_cons (bf fun _ _ => noExn_checked _) ?_
  refine forall_cons (bf fun _ _ => noExn_ok _) ?_
  refine forall_cons (bf fun _ _ => noExn_checked _) ?_
  refine forall_cons (bf fun _ _ => noExn_ok _) ?_
  refine forall_cons (bf fun _ _ => noExn_checked _) ?_
  refine forall_cons (bf fun _ _ => noExn_ok _) ?_
  refine forall_cons (bf noExn_div) ?_
  refine forall_cons (bf noExn_mod) ?_
  refine forall_cons (bf fun _ _ => noExn_ok _) ?_
  refine forall_cons (bf fun _ _ => noExn_ok _) ?_
  refine forall_cons (bf fun _ _ => noExn_ok _) ?_
  refine forall_cons (bf fun _ _ => noExn_ok _) ?_
  refine forall_cons (bf fun _ _ => noExn_ok _) ?_
  refine forall_cons (bf fun _ _ => noExn_ok _) ?_
  refine forall_cons (bf fun _ _ => noExn_ok _) ?_
  refine forall_cons (bf fun _ _ => noExn_ok _) ?_
  refine forall_cons (bf fun _ _ => noExn_ok _) ?_
  refine forall_cons (bf fun _ _ => noExn_ok _) ?_
  refine forall_cons (bf fun _ _ => noExn_ok _) ?_
  refine forall_cons (bf fun _ _ => noExn_ok _) ?_
  refine forall_cons (bf fun _ _ => noExn_ok _) ?_
  refine forall_cons (bf fun _ _ => noExn_ok _) ?_
  refine forall_cons (bf fun _ _ => noExn_ok _) ?_
  refine forall_cons (bf fun _ _ => noExn_ok _) ?_
  refine forall_cons (bf fun _ _ => noExn_ok _) ?_
  refine forall_cons (bf fun _ _ => noExn_ok _) ?_
  refine forall_cons (bf fun _ _ => noExn_ok _) ?_
  refine forall_cons (uf fun _ => noExn_ok _) ?_
  refine forall_cons (bf fun _ _ => noExn_ok _) ?_
  refine forall_cons (bf fun _ _ => noExn_ok _) ?_
  refine forall_cons (bf fun _ _ => noExn_ok _) ?_
  refine forall_cons (bf noExn_shl) ?_
  refine forall_cons (bf noExn_shr) ?_
  refine forall_cons (uf fun _ => noExn_ok _) ?_
  refine forall_cons (bf fun _ _ => noExn_ok _) ?_
  refine forall_cons (bf fun _ _ => noExn_ok _) ?_
  refine forall_cons (bf fun _ _ => noExn_ok _) ?_
  refine forall_cons (tf) ?_
  refine forall_cons (tf) ?_
  refine forall_cons (tf) ?_
  refine forall_cons (uf fun _ => noExn_ok _) ?_
  refine forall_cons (uf fun _ => noExn_ok _) ?_
  refine forall_cons (uf fun _ => noExn_ok _) ?_
  refine forall_cons (uf fun _ => noExn_ok _) ?_
  refine forall_cons (uf fun _ => noExn_ok _) ?_
  refine forall_cons (uf fun _ => noExn_ok _) ?_
  refine forall_cons (uf fun _ => noExn_ok _) ?_
  refine forall_cons (uf fun _ => noExn_ok _) ?_
  refine forall_cons (uf fun _ => noExn_ok _) ?_
  refine forall_cons (uf fun _ => noExn_ok _) ?_
  refine forall_cons (uf fun _ => noExn_ok _) ?_
  refine forall_cons (uf fun _ => noExn_ok _) ?_
  refine forall_cons (uf fun _ => noExn_ok _) ?_
  refine forall_cons (uf fun _ => noExn_ok _) ?_
  refine forall_cons (uf fun _ => noExn_ok _) ?_
  refine forall_cons (uf fun _ => noExn_ok _) ?_
  refine forall_cons (uf noExn_abs) ?_
  exact forall_nil

theorem standard_functions (fo : FloatOps F) : ∀ f ∈ (standardLevel fo).functions, Honest f.2.1 ∧ Mild f.2.1 := by
  intro f hf
  have hf : f ∈ fnRegs fo := hf
  obtain ⟨e, h1, ov, h2, h3⟩ := registered hf
  rw [tableOf_fnRegs] at h1
  have hn := defaultFns_number fo e h1 ov h2
  rw [h3] at hn
  refine ⟨fun args r hr => ?_, fun args => ⟨?_, fun r hr => (constant_closed (number_returns hn hr)).2⟩⟩
  · obtain ⟨h4, h5⟩ := (constant_closed (number_returns hn hr)).1
    refine ⟨fun x hx => ?_, fun x hx => absurd hx (h5 x)⟩
    obtain ⟨y, hy, _⟩ := h4 x hx
    cases hy
  · obtain ⟨p, hp, rfl⟩ := List.mem_map.1 hf
    exact noExn_table fo p hp args

theorem standard_vars (fo : FloatOps F) : ∀ x ∈ (standardLevel fo).vars, ClosedValue [] x.2 ∧ ¬ Untyped x.2 := by
  unfold standardLevel
  exact forall_cons (constant_closed rfl) (forall_cons (constant_closed rfl) (forall_cons (constant_closed rfl)
    (forall_cons (constant_closed rfl) (forall_cons (constant_closed rfl) forall_nil))))

end Milding

end Qasm
