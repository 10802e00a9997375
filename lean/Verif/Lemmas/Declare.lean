import Verif.Lemmas.Accept
import Verif.Lemmas.Frame
/-!
# Helper lemmas: declarations and names
-/

namespace Qasm

open Spec Sem

attribute [local irreducible] defaultInstrs defaultFns defaultVars

variable {F : Type}

theorem varFind_add {tbl tbl' : VariableTable F} {n x : Str} {v w : Value F} (h : tbl.add n v = .ok tbl')
    (hx : tbl.find x = some w) : tbl'.find x = some w := by
  unfold VariableTable.add at h
  split at h
  · cases h
  · rename_i hn
    cases h
    have : n ≠ x := fun he => by rw [he, hx] at hn; cases hn
    rw [VariableTable.find, if_neg this, hx]

/-- The only scope of `stateOf`. -/
def scopeOf (fo : FloatOps F) (D : List VarLink) (b : SBlock F) (vars : List (SVariable F)) : Scope F :=
  ⟨D.map (fun x => (x.name, ⟨.variableRef x, none⟩)) ++ defaultVars fo, defaultFns fo, defaultInstrs, b, vars⟩

/-- A statement never changes what a name of the only scope denotes. -/
theorem visitStatement_find {fo : FloatOps F} {v : Version} {sc : Scope F} {u : Nat} {s : Stmt F} {errs : List Err}
    {a' : Analyzer F} (h : visitStatement fo ⟨v, [sc], u⟩ s = .ok (errs, a')) :
    ∃ sc' u', a' = ⟨v, [sc'], u'⟩ ∧ ∀ x w, sc.variableTable.find x = some w → sc'.variableTable.find x = some w := by
  by_cases hd : IsDecl s
  · cases s with
    | gate => exact hd.elim
    | nonGate => exact hd.elim
    | asm => exact hd.elim
    | var l as name typ =>
      rw [visitStatement, visitVariable] at h
      cases hb : buildSemanticType typ with
      | err e => rw [hb] at h; cases h; exact ⟨_, _, rfl, fun _ _ h => h⟩
      | exn => rw [hb] at h; cases h
      | ub => rw [hb] at h; cases h
      | ok t =>
        rw [hb] at h
        dsimp only at h
        cases hv : visitAnnotations fo [sc] as with
        | err e => cases e
        | exn => rw [hv] at h; cases h
        | ub => rw [hv] at h; cases h
        | ok r =>
          obtain ⟨es, sas⟩ := r
          rw [hv, Res.bind_ok] at h
          simp only [Analyzer.addVariable, Analyzer.modifyCurrent, Res.bind_ok, Analyzer.registerVariable] at h
          cases ht : sc.variableTable.add name.name ⟨.variableRef (SVariable.link ⟨u, name.name, t, sas, name.loc⟩), none⟩ with
          | ok tbl =>
            rw [ht] at h
            cases h
            exact ⟨_, _, rfl, fun x w hx => varFind_add ht hx⟩
          | err e =>
            rw [ht] at h
            cases h
            exact ⟨_, _, rfl, fun _ _ h => h⟩
          | exn => rw [ht] at h; cases h
          | ub => rw [ht] at h; cases h
  · obtain ⟨r, hr⟩ := visitStatement_frame fo (bare sc) s hd
    rw [hr v sc u rfl] at h
    cases r with
    | err e => cases e
    | exn => cases h
    | ub => cases h
    | ok x =>
      cases h
      refine ⟨_, _, rfl, ?_⟩
      cases x.2 <;> exact fun _ _ h => h

theorem visitBlock_find {fo : FloatOps F} {v : Version} (ss : List (Stmt F)) : ∀ {sc : Scope F} {u : Nat} {errs : List Err}
    {a' : Analyzer F}, visitBlock fo ⟨v, [sc], u⟩ ss = .ok (errs, a') →
    ∃ sc' u', a' = ⟨v, [sc'], u'⟩ ∧ ∀ x w, sc.variableTable.find x = some w → sc'.variableTable.find x = some w := by
  induction ss with
  | nil => intro sc u errs a' h; cases h; exact ⟨_, _, rfl, fun _ _ h => h⟩
  | cons s ss ih =>
    intro sc u errs a' h
    rw [visitBlock] at h
    cases h1 : visitStatement fo ⟨v, [sc], u⟩ s with
    | err e => cases e
    | exn => rw [h1] at h; cases h
    | ub => rw [h1] at h; cases h
    | ok r =>
      obtain ⟨es, a1⟩ := r
      obtain ⟨sc1, u1, rfl, k1⟩ := visitStatement_find h1
      rw [h1, Res.bind_ok] at h
      cases h2 : visitBlock fo ⟨v, [sc1], u1⟩ ss with
      | err e => cases e
      | exn => rw [h2] at h; cases h
      | ub => rw [h2] at h; cases h
      | ok r =>
        obtain ⟨es', a2⟩ := r
        obtain ⟨sc2, u2, rfl, k2⟩ := ih h2
        rw [h2] at h
        cases h
        exact ⟨_, _, rfl, fun x w hx => k2 x w (k1 x w hx)⟩

/-- What a name denotes is not changed by analysing a program. -/
theorem analyze_find {fo : FloatOps F} {a a' : Analyzer F} {sc : Scope F} (hsc : a.scopes = [sc]) {p : ProgramAst F}
    {r : Result (SProgram F)} (h : analyze fo a p = .ok (a', r)) :
    ∃ sc', a'.scopes = [sc'] ∧ ∀ x w, sc.variableTable.find x = some w → sc'.variableTable.find x = some w := by
  obtain ⟨v, scs, u⟩ := a
  cases hsc
  unfold analyze visitProgram at h
  cases hb : visitBlock fo ⟨v, [sc], u⟩ p.block.statements with
  | err e => cases e
  | exn => rw [hb] at h; cases h
  | ub => rw [hb] at h; cases h
  | ok x =>
    obtain ⟨es, a1⟩ := x
    obtain ⟨sc', u', rfl, k⟩ := visitBlock_find _ hb
    rw [hb, Res.bind_ok] at h
    dsimp only at h
    rw [Res.bind_ok] at h
    split at h
    · cases h
    · cases h
      exact ⟨sc', rfl, k⟩

theorem resolveVariable_one {sc : Scope F} {x : Str} {w : Value F} :
    Analyzer.resolveVariable [sc] x = .ok w ↔ sc.variableTable.find x = some w := by
  unfold Analyzer.resolveVariable VariableTable.resolve
  cases sc.variableTable.find x with
  | none => simp [Analyzer.resolveVariable]
  | some v => simp

/-- A statement that uses a name which is neither built in nor declared is rejected. -/
theorem analysis_undeclared {fo : FloatOps F} {x : Str} (hr : x ∉ reserved) {s : Stmt F} (hx : x ∈ namesStmt s)
    {post : List (Stmt F)} (pre : List (Stmt F)) (hn : ∀ l as n typ, Stmt.var l as n typ ∈ pre → n.name ≠ x) :
    ∀ {D : List VarLink} {u : Nat} {vs : List (SVariable F)} {ts : List (SStatement F)} {bad : List (Stmt F)},
    (∀ y ∈ D, y.name ≠ x) → Analysis fo D u (pre ++ s :: post) vs ts bad → s ∈ bad := by
  induction pre with
  | nil =>
    intro D u vs ts bad hD h
    rw [List.nil_append] at h
    cases h with
    | decl => simp [namesStmt] at hx
    | instr h1 _ =>
      rcases instrOk_names h1 x hx with h | ⟨y, hy, he⟩
      · exact absurd h hr
      · exact absurd he (hD y hy)
    | badType => simp [namesStmt] at hx
    | redeclared => simp [namesStmt] at hx
    | badInstr => exact List.mem_cons_self ..
  | cons q pre ih =>
    intro D u vs ts bad hD h
    have ih := @ih fun l as n typ hm => hn l as n typ (List.mem_cons_of_mem _ hm)
    rw [List.cons_append] at h
    generalize hl : q :: (pre ++ s :: post) = l at h
    cases h with
    | nil => cases hl
    | @decl _ _ _ _ name _ _ t _ _ _ _ h1 h2 _ h3 =>
      cases hl
      refine ih ?_ h3
      intro y hy
      rcases List.mem_cons.mp hy with rfl | hy
      · exact hn _ _ _ _ (List.mem_cons_self ..)
      · exact hD y hy
    | instr _ h3 => cases hl; exact ih hD h3
    | badType _ h3 => cases hl; exact List.mem_cons_of_mem _ (ih hD h3)
    | redeclared _ _ _ h3 => cases hl; exact List.mem_cons_of_mem _ (ih hD h3)
    | badInstr _ _ _ h3 => cases hl; exact List.mem_cons_of_mem _ (ih hD h3)

/-- The types of all variable nodes. -/
theorem analysis_types {fo : FloatOps F} {D : List VarLink} {u : Nat} {ss : List (Stmt F)} {vs : List (SVariable F)}
    {ts : List (SStatement F)} {bad : List (Stmt F)} (h : Analysis fo D u ss vs ts bad) :
    ∀ x ∈ vs, Declares ss x.name x.typ := by
  have step : ∀ {s : Stmt F} {ss n t}, Declares ss n t → Declares (s :: ss) n t := by
    rintro s ss n t ⟨l, as, y, typ, g1, g2⟩
    exact ⟨l, as, y, typ, List.mem_cons_of_mem _ g1, g2⟩
  induction h with
  | nil => simp
  | decl h1 _ _ _ ih | redeclared h1 _ _ _ ih =>
    intro x hx
    rcases List.mem_cons.mp hx with rfl | hx
    · exact ⟨_, _, _, _, List.mem_cons_self .., rfl, h1⟩
    · exact step (ih x hx)
  | instr _ _ ih | badType _ _ ih | badInstr _ _ _ _ ih => exact fun x hx => step (ih x hx)

/-- The operands of a valid instruction are the values of its operand expressions. -/
theorem instrOk_operands {fo : FloatOps F} {D : List VarLink} {s : Stmt F} {t : SStatement F} (h : InstrOk fo D s t) :
    EvalAll fo D (operandExprs s) (operands t) := by
  cases h with
  | gate _ h2 => exact h2
  | measure h1 _ h2 => exact .cons ⟨rfl, h1⟩ (.cons ⟨rfl, h2⟩ .nil)
  | simple _ h1 => exact .cons ⟨rfl, h1⟩ .nil
  | wait h1 => exact .cons ⟨rfl, h1⟩ .nil
  | asm => exact .nil

theorem forall2_get {α β : Type} {R : α → β → Prop} {as : List α} {bs : List β} (h : Forall2 R as bs) :
    ∀ {i : Nat} {a : α}, as[i]? = some a → ∃ b, bs[i]? = some b ∧ R a b := by
  induction h with
  | nil => intro i a h; simp at h
  | @cons a b as bs h1 _ ih =>
    intro i a' h
    cases i with
    | zero => simp at h; subst h; exact ⟨b, by simp, h1⟩
    | succ i => simp at h; simpa using ih h

theorem eval_ident {fo : FloatOps F} {D : List VarLink} {l : Option Loc} {x : Str} {n : ValueNode F}
    (h : Eval fo D (.ident l x) n) : Denotes fo D x n := by
  generalize he : Expr.ident l x = e at h
  cases h with
  | ident h => cases he; exact h
  | _ => cases he

theorem denotes_variable {fo : FloatOps F} {D : List VarLink} {x : Str} {z : VarLink}
    (h : Denotes fo D x (.variableRef z)) : z ∈ D ∧ z.name = x := by
  generalize hn : (ValueNode.variableRef z : ValueNode F) = n at h
  cases h with
  | @const c _ => cases c <;> cases hn
  | var _ h1 h2 => cases hn; exact ⟨h1, h2⟩

end Qasm
