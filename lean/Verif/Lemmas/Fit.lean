import Verif.Lemmas.MoveProgram
import Verif.Lemmas.Independent
import Verif.Lemmas.Analyze
import Verif.Spec.Api
/-!
# Helper lemmas: an analyser only knows the variables it has made
-/

namespace Qasm

open Spec Sem

variable {F : Type} {fo : FloatOps F}

/-- The function keeps the numbers below `u`. -/
def Fixes (f : Nat → Nat) (u : Nat) : Prop := ∀ i, i < u → f i = i

/-- Everything in the scope is about variables that the function keeps. -/
structure Fixed (f : Nat → Nat) (s : Scope F) : Prop where
  table : ∀ n v, s.variableTable.find n = some v → moveValue f v = v
  statements : ∀ t ∈ s.block.statements, moveSStatement f t = t
  variables : ∀ v ∈ s.variables, moveSVariable f v = v

/-- The analyser has a scope, its functions compute numbers, and all it knows is about variables it has made. -/
structure Fit (a : Analyzer F) : Prop where
  shape : ∃ sc rest, a.scopes = sc :: rest
  numbers : ∀ s ∈ a.scopes, NumberTable s.fnTable
  fixed : ∀ f, Fixes f a.nextUid → ∀ s ∈ a.scopes, Fixed f s

theorem Fixed.find {f : Nat → Nat} {s : Scope F} (h : Fixed f s) (n : Str) :
    s.variableTable.find n = (s.variableTable.find n).map (moveValue f) := by
  cases hv : s.variableTable.find n with
  | none => rfl
  | some v => simp [h.table n v hv]

theorem fixed_resolve {f : Nat → Nat} {ss : List (Scope F)} (h : ∀ s ∈ ss, Fixed f s) (n : Str) :
    Analyzer.resolveVariable ss n = (Analyzer.resolveVariable ss n).mov (moveValue f) := by
  induction ss with
  | nil => rfl
  | cons s ss ih =>
    have hs := h s List.mem_cons_self
    simp only [Analyzer.resolveVariable, VariableTable.resolve]
    cases hv : s.variableTable.find n with
    | none => exact ih fun s hs => h s (List.mem_cons_of_mem _ hs)
    | some v => simp [hs.table n v hv]

theorem Fit.moved {f : Nat → Nat} {v : Version} {sc : Scope F} {rest : List (Scope F)} {u : Nat} (h : Fit ⟨v, sc :: rest, u⟩) (hf : Fixes f u) :
    Moved f (fun _ => True) False sc.block.statements sc.block.statements sc.variables sc.variables ⟨v, sc :: rest, u⟩ ⟨v, sc :: rest, u⟩ := by
  have hx := h.fixed f hf
  refine ⟨⟨sc, rest, sc, rest, rfl, rfl, fun n _ => (hx sc List.mem_cons_self).find n,
    fun n _ => fixed_resolve (fun s hs => hx s (List.mem_cons_of_mem _ hs)) n, ⟨[], by simp, by simp⟩, rfl, ⟨[], by simp, by simp⟩⟩,
    rfl, rfl, h.numbers, False.elim⟩

/-- The scope with one more variable. -/
def withVariable (sc : Scope F) (y : SVariable F) : Scope F := { sc with variables := sc.variables ++ [y] }

/-- The scope with one more variable, known by its name. -/
def withName (sc : Scope F) (y : SVariable F) : Scope F :=
  { withVariable sc y with variableTable := (y.name, ⟨.variableRef y.link, none⟩) :: sc.variableTable }

/-- What a declaration does. -/
theorem decl_step {v : Version} {sc : Scope F} {rest : List (Scope F)} {u : Nat} {l : Option Loc} {as : List (AnnotationData F)} {n : Ident}
    {t : TypeAst} {es : List Err} {a' : Analyzer F} (h : visitVariable fo ⟨v, sc :: rest, u⟩ l as n t = .ok (es, a')) :
    (∃ e, buildSemanticType t = .err e ∧ es = [e.context l] ∧ a' = ⟨v, sc :: rest, u⟩) ∨
    ∃ ty r, buildSemanticType t = .ok ty ∧ visitAnnotations fo (sc :: rest) as = .ok r ∧
      ((sc.variableTable.find n.name = none ∧ es = r.1 ∧ a' = ⟨v, withName sc ⟨u, n.name, ty, r.2, n.loc⟩ :: rest, u + 1⟩) ∨
      ((sc.variableTable.find n.name).isSome ∧ es = r.1 ++ [(Err.mk0 (c!"trying to redeclare variable '" ++ n.name ++ c!"'")).context l] ∧
        a' = ⟨v, withVariable sc ⟨u, n.name, ty, r.2, n.loc⟩ :: rest, u + 1⟩)) := by
  unfold visitVariable at h
  cases hb : buildSemanticType t with
  | err e => rw [hb] at h; cases h; exact .inl ⟨e, rfl, rfl, rfl⟩
  | exn c => rw [hb] at h; cases h
  | ub => rw [hb] at h; cases h
  | ok ty =>
    rw [hb] at h
    obtain ⟨r, hr, h⟩ := bind_ok_iff.1 h
    refine .inr ⟨ty, r, rfl, hr, ?_⟩
    simp only [Analyzer.addVariable, Analyzer.registerVariable, Analyzer.modifyCurrent, Res.bind_ok, VariableTable.add] at h
    cases hf : sc.variableTable.find n.name with
    | none =>
      rw [hf] at h
      simp only [Res.bind_ok, catchInto, Log.after] at h
      cases h
      exact .inl ⟨rfl, by simp, rfl⟩
    | some w =>
      rw [hf] at h
      simp only [catchInto, Log.after] at h
      cases h
      exact .inr ⟨rfl, rfl, rfl⟩

theorem annotations_fixed {f : Nat → Nat} {v : Version} {sc : Scope F} {rest : List (Scope F)} {u : Nat} (h : Fit ⟨v, sc :: rest, u⟩)
    (hf : Fixes f u) {as : List (AnnotationData F)} {r : Log (List (SAnnotation F))} (hr : visitAnnotations fo (sc :: rest) as = .ok r) :
    r.2.map (moveSAnnotation f) = r.2 := by
  have := visitAnnotations_mov (fo := fo) (h.moved hf).sees as fun _ _ => trivial
  simp only [hr, Res.mapE, Res.ok.injEq, movLog] at this
  exact (congrArg Prod.snd this).symm

theorem Fixes.mono {f : Nat → Nat} {u u' : Nat} (h : Fixes f u') (hu : u ≤ u') : Fixes f u := fun i hi => h i (by omega)

theorem fit_statement {a a' : Analyzer F} (h : Fit a) {s : Stmt F} {es : List Err} (hs : visitStatement fo a s = .ok (es, a')) :
    Fit a' ∧ a.nextUid ≤ a'.nextUid := by
  obtain ⟨v, scs, u⟩ := a
  obtain ⟨⟨sc, rest, hsc⟩, hn, hx⟩ := id h
  simp only at hsc
  subst hsc
  by_cases hd : IsDecl s
  · cases s with
    | var l as n t =>
      rw [visitStatement] at hs
      rcases decl_step hs with ⟨e, -, -, rfl⟩ | ⟨ty, r, -, hr, ⟨-, -, rfl⟩ | ⟨-, -, rfl⟩⟩
      · exact ⟨h, Nat.le_refl _⟩
      · refine ⟨⟨⟨_, _, rfl⟩, ?_, fun f hf s hs => ?_⟩, Nat.le_succ _⟩
        · intro s hs
          simp only [List.mem_cons] at hs
          rcases hs with rfl | hs
          · exact hn sc List.mem_cons_self
          · exact hn s (List.mem_cons_of_mem _ hs)
        · have hf' : Fixes f u := hf.mono (Nat.le_succ _)
          have hu : f u = u := hf u (Nat.lt_succ_self _)
          simp only [List.mem_cons] at hs
          rcases hs with rfl | hs
          · have h0 := hx f hf' sc List.mem_cons_self
            refine ⟨fun m w hm => ?_, h0.statements, fun y hy => ?_⟩
            · simp only [withName, VariableTable.find] at hm
              split at hm
              · cases hm; simp [moveValue, moveNode, moveLink, SVariable.link, hu]
              · exact h0.table m w hm
            · simp only [withName, withVariable, List.mem_append, List.mem_singleton] at hy
              rcases hy with hy | rfl
              · exact h0.variables y hy
              · simp [moveSVariable, hu, annotations_fixed h hf' hr]
          · exact hx f hf' s (List.mem_cons_of_mem _ hs)
      · refine ⟨⟨⟨_, _, rfl⟩, ?_, fun f hf s hs => ?_⟩, Nat.le_succ _⟩
        · intro s hs
          simp only [List.mem_cons] at hs
          rcases hs with rfl | hs
          · exact hn sc List.mem_cons_self
          · exact hn s (List.mem_cons_of_mem _ hs)
        · have hf' : Fixes f u := hf.mono (Nat.le_succ _)
          have hu : f u = u := hf u (Nat.lt_succ_self _)
          simp only [List.mem_cons] at hs
          rcases hs with rfl | hs
          · have h0 := hx f hf' sc List.mem_cons_self
            refine ⟨h0.table, h0.statements, fun y hy => ?_⟩
            simp only [withName, withVariable, List.mem_append, List.mem_singleton] at hy
            rcases hy with hy | rfl
            · exact h0.variables y hy
            · simp [moveSVariable, hu, annotations_fixed h hf' hr]
          · exact hx f hf' s (List.mem_cons_of_mem _ hs)
    | _ => exact hd.elim
  · obtain ⟨o, rfl⟩ := instr_adds hd hs
    refine ⟨⟨⟨_, _, rfl⟩, ?_, fun f hf s hs' => ?_⟩, Nat.le_refl _⟩
    · intro s hs
      simp only [List.mem_cons] at hs
      rcases hs with rfl | hs
      · have := hn _ List.mem_cons_self
        cases o <;> exact this
      · exact hn s (List.mem_cons_of_mem _ hs)
    · simp only [List.mem_cons] at hs'
      rcases hs' with rfl | hs'
      · have h0 := hx f hf sc List.mem_cons_self
        have h1 := visitStatement_mov (fo := fo) (h.moved hf) s (fun k => hd k) fun _ _ => trivial
        rw [hs] at h1
        obtain ⟨-, h1⟩ := h1
        obtain ⟨c, w, c', w', e, e', -, -, ⟨T, t1, t2⟩, -⟩ := h1.shape
        cases e
        cases e'
        rw [t1] at t2
        have t3 := List.append_cancel_left t2
        refine ⟨?_, fun t ht => ?_, ?_⟩
        · cases o <;> exact h0.table
        · rw [t1, List.mem_append] at ht
          rcases ht with ht | ht
          · exact h0.statements t ht
          · exact List.map_inj_left.1 (t3.symm.trans (List.map_id T).symm) t ht
        · rw [addOpt_variables]; exact h0.variables
      · exact hx f hf s (List.mem_cons_of_mem _ hs')

theorem fit_block (ss : List (Stmt F)) : ∀ {a a' : Analyzer F} {es : List Err}, Fit a → visitBlock fo a ss = .ok (es, a') →
    Fit a' ∧ a.nextUid ≤ a'.nextUid := by
  induction ss with
  | nil => intro a a' es h hs; cases hs; exact ⟨h, Nat.le_refl _⟩
  | cons s ss ih =>
    intro a a' es h hs
    obtain ⟨⟨e1, a1⟩, h1, h2⟩ := bind_ok_iff.1 hs
    obtain ⟨es2, h2⟩ := after_eq_ok h2
    have k1 := fit_statement h h1
    have k2 := ih k1.1 h2
    exact ⟨k2.1, Nat.le_trans k1.2 k2.2⟩

theorem fit_default (v : Version) : Fit (⟨v, [defaultScope fo], 0⟩ : Analyzer F) := by
  refine ⟨⟨_, _, rfl⟩, ?_, fun f _ s hs => ?_⟩
  · intro s hs
    cases List.mem_singleton.1 hs
    exact defaultFns_number fo
  · cases List.mem_singleton.1 hs
    refine ⟨fun n w h => ?_, by simp [defaultScope], by simp [defaultScope]⟩
    rw [show (defaultScope fo).variableTable = defaultVars fo from rfl, find_defaultVars] at h
    cases hb : builtin fo n with
    | none => simp [hb] at h
    | some c =>
      simp only [hb, Option.map_some, Option.some.injEq] at h
      subst h
      cases c <;> rfl

end Qasm
