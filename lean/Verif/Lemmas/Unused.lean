import Verif.Lemmas.Fit
import Verif.Props.Session
/-!
# Helper lemmas: declarations that do not concern one another
-/

namespace Qasm

open Spec Sem

variable {F : Type} {fo : FloatOps F}

theorem fit_reached {a : Analyzer F} (h : Reached fo a) : Fit a := by
  induction h with
  | fresh h => rw [default_state h]; exact fit_default _
  | analyzed _ h ih =>
    obtain ⟨es, sc, rest, h1, -⟩ := analyze_parts h
    exact (fit_block _ ih h1).1

/-! ## Keeping all identities -/

theorem moveValue_id (v : Value F) : moveValue id v = v := by
  obtain ⟨n, l⟩ := v
  cases n <;> rfl

theorem map_eq_self {α : Type} {g : α → α} (h : ∀ a, g a = a) (as : List α) : as.map g = as :=
  (List.map_congr_left fun a _ => h a).trans (List.map_id as)

theorem moveSAnnotation_id (a : SAnnotation F) : moveSAnnotation id a = a := by
  simp [moveSAnnotation, map_eq_self moveValue_id]

theorem moveSGate_id : ∀ g : SGate F, moveSGate id g = g
  | .mk n none ps as l => by simp [moveSGate, map_eq_self moveValue_id, map_eq_self moveSAnnotation_id]
  | .mk n (some g) ps as l => by simp [moveSGate, map_eq_self moveValue_id, map_eq_self moveSAnnotation_id, moveSGate_id g]

theorem moveSStatement_id (t : SStatement F) : moveSStatement id t = t := by
  cases t <;> simp [moveSStatement, map_eq_self moveValue_id, map_eq_self moveSAnnotation_id, moveSGate_id]

/-! ## What a declaration makes -/

/-- The scope after the declaration of the variable. -/
def declared (sc : Scope F) (y : SVariable F) : Scope F :=
  match sc.variableTable.find y.name with
  | none => withName sc y
  | some _ => withVariable sc y

/-- The error of a declaration of a known name. -/
def again (sc : Scope F) (n : Str) (l : Option Loc) : List Err :=
  match sc.variableTable.find n with
  | none => []
  | some _ => [(Err.mk0 (c!"trying to redeclare variable '" ++ n ++ c!"'")).context l]

theorem decl_declared {v : Version} {sc : Scope F} {rest : List (Scope F)} {u : Nat} {l : Option Loc} {as : List (AnnotationData F)} {n : Ident}
    {t : TypeAst} {es : List Err} {a' : Analyzer F} (h : visitVariable fo ⟨v, sc :: rest, u⟩ l as n t = .ok (es, a')) :
    (∃ e, buildSemanticType t = .err e ∧ es = [e.context l] ∧ a' = ⟨v, sc :: rest, u⟩) ∨
    ∃ ty r, buildSemanticType t = .ok ty ∧ visitAnnotations fo (sc :: rest) as = .ok r ∧ es = r.1 ++ again sc n.name l ∧
      a' = ⟨v, declared sc ⟨u, n.name, ty, r.2, n.loc⟩ :: rest, u + 1⟩ := by
  rcases decl_step h with h | ⟨ty, r, h1, h2, ⟨h3, rfl, rfl⟩ | ⟨h3, rfl, rfl⟩⟩
  · exact .inl h
  · exact .inr ⟨ty, r, h1, h2, by simp [again, h3], by simp [declared, h3]⟩
  · obtain ⟨w, h3⟩ := Option.isSome_iff_exists.1 h3
    exact .inr ⟨ty, r, h1, h2, by simp [again, h3], by simp [declared, h3]⟩

theorem declared_decl {v : Version} {sc : Scope F} {rest : List (Scope F)} {u : Nat} {l : Option Loc} {as : List (AnnotationData F)} {n : Ident}
    {t : TypeAst} {ty : Ty} {r : Log (List (SAnnotation F))} (h1 : buildSemanticType t = .ok ty)
    (h2 : visitAnnotations fo (sc :: rest) as = .ok r) : visitVariable fo ⟨v, sc :: rest, u⟩ l as n t =
      .ok (r.1 ++ again sc n.name l, ⟨v, declared sc ⟨u, n.name, ty, r.2, n.loc⟩ :: rest, u + 1⟩) := by
  simp only [visitVariable, h1, h2, Res.bind_ok, Analyzer.addVariable, Analyzer.registerVariable, Analyzer.modifyCurrent, VariableTable.add,
    again, declared]
  cases sc.variableTable.find n.name <;> rfl

theorem undeclared_decl {a : Analyzer F} {l : Option Loc} {as : List (AnnotationData F)} {n : Ident} {t : TypeAst} {e : Err}
    (h1 : buildSemanticType t = .err e) : visitVariable fo a l as n t = .ok ([e.context l], a) := by
  simp only [visitVariable, h1]

theorem find_declared (sc : Scope F) (y : SVariable F) (m : Str) : (declared sc y).variableTable.find m =
    if m = y.name ∧ sc.variableTable.find m = none then some ⟨.variableRef y.link, none⟩ else sc.variableTable.find m := by
  unfold declared
  by_cases hm : m = y.name
  · subst hm
    cases h : sc.variableTable.find y.name with
    | none => simp [withName, VariableTable.find]
    | some w => simp [withVariable, h]
  · have hm' : y.name ≠ m := fun h => hm h.symm
    cases h : sc.variableTable.find y.name with
    | none => simp [withName, VariableTable.find, hm, hm']
    | some w => simp [withVariable, hm]

theorem declared_block (sc : Scope F) (y : SVariable F) : (declared sc y).block = sc.block := by
  unfold declared; split <;> rfl

theorem declared_fns (sc : Scope F) (y : SVariable F) : (declared sc y).fnTable = sc.fnTable := by
  unfold declared; split <;> rfl

theorem declared_instructions (sc : Scope F) (y : SVariable F) : (declared sc y).instructionTable = sc.instructionTable := by
  unfold declared; split <;> rfl

theorem declared_variables (sc : Scope F) (y : SVariable F) : (declared sc y).variables = sc.variables ++ [y] := by
  unfold declared; split <;> rfl

theorem again_declared {sc : Scope F} {y : SVariable F} {m : Str} (h : m ≠ y.name) (l : Option Loc) : again (declared sc y) m l = again sc m l := by
  simp [again, find_declared, h]

/-- A new variable means nothing to what does not mention its name. -/
theorem sees_declared {f : Nat → Nat} {v : Version} {sc : Scope F} {rest : List (Scope F)} {u : Nat} (h : Fit ⟨v, sc :: rest, u⟩)
    (hf : Fixes f u) (D : Prop) (y : SVariable F) (hD : D → ∀ i, f (u + i) = u + 1 + i) :
    Moved f (fun m => m ≠ y.name) D sc.block.statements sc.block.statements sc.variables (sc.variables ++ [y])
      ⟨v, sc :: rest, u⟩ ⟨v, declared sc y :: rest, u + 1⟩ := by
  have hx := h.fixed f hf
  refine ⟨⟨sc, rest, _, rest, rfl, rfl, fun n hn => ?_,
    fun n _ => fixed_resolve (fun s hs => hx s (List.mem_cons_of_mem _ hs)) n, ⟨[], by simp, by simp [declared_block]⟩,
    by rw [declared_block], ⟨[], by simp, by simp [declared_variables]⟩⟩,
    by simp [declared_fns], by simp [declared_instructions], h.numbers, hD⟩
  rw [find_declared, if_neg fun h => hn h.1]
  exact (hx sc List.mem_cons_self).find n

theorem annotations_declared {v : Version} {sc : Scope F} {rest : List (Scope F)} {u : Nat} (h : Fit ⟨v, sc :: rest, u⟩)
    (y : SVariable F) {as : List (AnnotationData F)} (hy : y.name ∉ namesAnnotations as) :
    visitAnnotations fo (declared sc y :: rest) as = visitAnnotations fo (sc :: rest) as := by
  have := visitAnnotations_mov (fo := fo) (sees_declared (f := id) h (fun _ _ => rfl) False y False.elim).sees as
    fun n hn hm => hy (hm ▸ hn)
  rw [this]
  cases visitAnnotations fo (sc :: rest) as with
  | ok r => simp [Res.mapE, movLog, map_eq_self moveSAnnotation_id]
  | err e => exact e.elim
  | _ => rfl

/-! ## A declaration nobody mentions -/

theorem unused_step {v : Version} {sc : Scope F} {rest : List (Scope F)} {u : Nat} (h : Fit ⟨v, sc :: rest, u⟩) {l : Option Loc}
    {as : List (AnnotationData F)} {n : Ident} {t : TypeAst} {es : List Err} {a' : Analyzer F}
    (hd : visitVariable fo ⟨v, sc :: rest, u⟩ l as n t = .ok (es, a')) :
    ∃ f, ∃ o : Option (SVariable F), Moved f (fun m => m ≠ n.name) True sc.block.statements sc.block.statements sc.variables
        (sc.variables ++ o.toList) ⟨v, sc :: rest, u⟩ a' ∧
      Fixes f u ∧ (∀ i j, f i = f j → i = j) ∧ ∀ y ∈ o, y.name = n.name ∧ ∀ i, f i ≠ y.uid := by
  rcases decl_declared hd with ⟨e, -, -, rfl⟩ | ⟨ty, r, -, -, -, rfl⟩
  · refine ⟨id, none, ?_, fun _ _ => rfl, fun _ _ h => h, by simp⟩
    have := h.moved (f := id) fun _ _ => rfl
    obtain ⟨⟨c, w, c', w', e, e', h1, h2, h3⟩, h4, h5, h6, -⟩ := this
    exact ⟨⟨c, w, c', w', e, e', fun n _ => h1 n trivial, fun n _ => h2 n trivial, by simpa using h3⟩, h4, h5, h6, fun _ _ => rfl⟩
  · have hf : Fixes (fun i => if i < u then i else i + 1) u := fun i hi => if_pos hi
    refine ⟨fun i => if i < u then i else i + 1, some ⟨u, n.name, ty, r.2, n.loc⟩,
      sees_declared h hf True ⟨u, n.name, ty, r.2, n.loc⟩ fun _ i => ?_, hf, ?_, ?_⟩
    · simp only [show ¬ u + i < u by omega, if_false]; omega
    · intro i j
      simp only
      split <;> split <;> omega
    · intro y hy
      cases hy
      refine ⟨rfl, fun i => ?_⟩
      simp only
      split <;> omega

/-! ## A declaration and an instruction -/

theorem past_step {v : Version} {sc : Scope F} {rest : List (Scope F)} {u : Nat} (h : Fit ⟨v, sc :: rest, u⟩) {l : Option Loc}
    {as : List (AnnotationData F)} {n : Ident} {t : TypeAst} {i : Stmt F} (hi : ¬ IsDecl i) (hn : n.name ∉ mentioned i)
    {ed ei ed' ei' : List Err} {ad ai aid adi : Analyzer F} (h1 : visitVariable fo ⟨v, sc :: rest, u⟩ l as n t = .ok (ed, ad))
    (h2 : visitStatement fo ad i = .ok (ei, adi)) (g1 : visitStatement fo ⟨v, sc :: rest, u⟩ i = .ok (ei', ai))
    (g2 : visitVariable fo ai l as n t = .ok (ed', aid)) : ed' = ed ∧ ei' = ei ∧ aid = adi := by
  obtain ⟨o, rfl⟩ := instr_adds hi g1
  have hann : visitAnnotations fo (addOpt sc o :: rest) as = visitAnnotations fo (sc :: rest) as := by
    rw [← visitAnnotations_bares, ← visitAnnotations_bares fo (sc :: rest)]
    cases o <;> rfl
  have hag : again (addOpt sc o) n.name l = again sc n.name l := by cases o <;> rfl
  rcases decl_declared h1 with ⟨e, k1, rfl, rfl⟩ | ⟨ty, r, k1, k2, rfl, rfl⟩
  · rw [g1] at h2
    cases h2
    rcases decl_declared g2 with ⟨e', k1', rfl, rfl⟩ | ⟨ty', r', k1', -⟩
    · rw [k1] at k1'; cases k1'; exact ⟨rfl, rfl, rfl⟩
    · rw [k1] at k1'; cases k1'
  · rcases decl_declared g2 with ⟨e', k1', -⟩ | ⟨ty', r', k1', k2', rfl, rfl⟩
    · rw [k1] at k1'; cases k1'
    · rw [k1] at k1'
      cases k1'
      rw [hann, k2] at k2'
      cases k2'
      have hm := visitStatement_mov (fo := fo) (sees_declared (f := id) h (fun _ _ => rfl) False ⟨u, n.name, ty, r.2, n.loc⟩ False.elim) i
        (fun k => hi k) fun m hm e => hn (by rw [← show m = n.name from e]; exact hm)
      obtain ⟨o', rfl⟩ := instr_adds hi h2
      rw [g1, h2] at hm
      obtain ⟨he, ⟨c, w, c', w', e, e', -, -, ⟨T, t1, t2⟩, -⟩, -⟩ := hm
      cases e
      cases e'
      rw [addOpt_statements] at t1 t2
      rw [declared_block] at t2
      have t1 := List.append_cancel_left t1
      have t2 := List.append_cancel_left t2
      rw [map_eq_self moveSStatement_id] at t2
      have ho : o' = o := by
        have := t2.trans t1.symm
        cases o <;> cases o' <;> first | rfl | exact congrArg some (List.cons.inj this).1 | (cases this; done)
      subst ho
      refine ⟨by rw [hag], he.symm, ?_⟩
      have : declared (addOpt sc o') ⟨u, n.name, ty, r.2, n.loc⟩ = addOpt (declared sc ⟨u, n.name, ty, r.2, n.loc⟩) o' := by
        cases o' with
        | none => rfl
        | some t =>
          simp only [declared, addOpt, addTo]
          cases sc.variableTable.find n.name <;> rfl
      rw [this]

theorem annotations_addOpt (sc : Scope F) (rest : List (Scope F)) (o : Option (SStatement F)) (as : List (AnnotationData F)) :
    visitAnnotations fo (addOpt sc o :: rest) as = visitAnnotations fo (sc :: rest) as := by
  rw [← visitAnnotations_bares, ← visitAnnotations_bares fo (sc :: rest)]
  cases o <;> rfl

/-- Whether the visits of a declaration and an instruction return does not depend on their order. -/
theorem past_ok {v : Version} {sc : Scope F} {rest : List (Scope F)} {u : Nat} (h : Fit ⟨v, sc :: rest, u⟩) {l : Option Loc}
    {as : List (AnnotationData F)} {n : Ident} {t : TypeAst} {i : Stmt F} (hi : ¬ IsDecl i) (hn : n.name ∉ mentioned i) :
    (∃ ed ad ei adi, visitVariable fo ⟨v, sc :: rest, u⟩ l as n t = .ok (ed, ad) ∧ visitStatement fo ad i = .ok (ei, adi)) ↔
    ∃ ei ai ed aid, visitStatement fo ⟨v, sc :: rest, u⟩ i = .ok (ei, ai) ∧ visitVariable fo ai l as n t = .ok (ed, aid) := by
  have hm : ∀ ty (sas : List (SAnnotation F)), EndsAlike _ (visitStatement fo ⟨v, sc :: rest, u⟩ i)
      (visitStatement fo ⟨v, declared sc ⟨u, n.name, ty, sas, n.loc⟩ :: rest, u + 1⟩ i) := fun ty sas =>
    visitStatement_mov (fo := fo) (sees_declared (f := id) h (fun _ _ => rfl) False ⟨u, n.name, ty, sas, n.loc⟩ False.elim) i
      (fun k => hi k) fun m hm e => hn (by rw [← show m = n.name from e]; exact hm)
  constructor
  · rintro ⟨ed, ad, ei, adi, h1, h2⟩
    rcases decl_declared h1 with ⟨e, k1, rfl, rfl⟩ | ⟨ty, r, k1, k2, rfl, rfl⟩
    · exact ⟨ei, adi, _, _, h2, undeclared_decl k1⟩
    · have hm := hm ty r.2
      rw [h2] at hm
      cases g1 : visitStatement fo ⟨v, sc :: rest, u⟩ i with
      | ok x =>
        obtain ⟨o, ho⟩ := instr_adds hi g1
        have := declared_decl (fo := fo) (v := v) (u := u) (l := l) (n := n) (rest := rest) k1 ((annotations_addOpt sc rest o as).trans k2)
        rw [← ho] at this
        exact ⟨x.1, x.2, _, _, rfl, this⟩
      | err e => exact e.elim
      | _ => rw [g1] at hm; exact hm.elim
  · rintro ⟨ei, ai, ed, aid, g1, g2⟩
    obtain ⟨o, rfl⟩ := instr_adds hi g1
    rcases decl_declared g2 with ⟨e, k1, rfl, rfl⟩ | ⟨ty, r, k1, k2, rfl, rfl⟩
    · exact ⟨_, _, ei, _, undeclared_decl k1, g1⟩
    · rw [annotations_addOpt] at k2
      have hm := hm ty r.2
      rw [g1] at hm
      cases h2 : visitStatement fo ⟨v, declared sc ⟨u, n.name, ty, r.2, n.loc⟩ :: rest, u + 1⟩ i with
      | ok x => exact ⟨_, _, x.1, x.2, declared_decl k1 k2, h2⟩
      | err e => exact e.elim
      | _ => rw [h2] at hm; exact hm.elim

/-! ## Two declarations -/

/-- Whether the visits of two declarations return does not depend on their order. -/
theorem order_ok {v : Version} {sc : Scope F} {rest : List (Scope F)} {u : Nat} (h : Fit ⟨v, sc :: rest, u⟩) {l1 l2 : Option Loc}
    {as1 as2 : List (AnnotationData F)} {n1 n2 : Ident} {t1 t2 : TypeAst}
    (hn1 : n1.name ∉ namesAnnotations as2) (hn2 : n2.name ∉ namesAnnotations as1)
    {e1 e2 : List Err} {a1 a12 : Analyzer F} (h1 : visitVariable fo ⟨v, sc :: rest, u⟩ l1 as1 n1 t1 = .ok (e1, a1))
    (h2 : visitVariable fo a1 l2 as2 n2 t2 = .ok (e2, a12)) :
    ∃ e2 a2 e1 a21, visitVariable fo ⟨v, sc :: rest, u⟩ l2 as2 n2 t2 = .ok (e2, a2) ∧ visitVariable fo a2 l1 as1 n1 t1 = .ok (e1, a21) := by
  rcases decl_declared h1 with ⟨x1, b1, rfl, rfl⟩ | ⟨ty1, r1, b1, c1, rfl, rfl⟩
  · exact ⟨_, _, _, _, h2, undeclared_decl b1⟩
  · rcases decl_declared h2 with ⟨x2, b2, rfl, rfl⟩ | ⟨ty2, r2, b2, c2, rfl, rfl⟩
    · exact ⟨_, _, _, _, undeclared_decl b2, h1⟩
    · rw [annotations_declared h _ hn1] at c2
      exact ⟨_, _, _, _, declared_decl b2 c2, declared_decl b1 ((annotations_declared h _ hn2).trans c1)⟩

/-- The exchange of two neighbouring numbers. -/
def exchange (u i : Nat) : Nat := if i = u then u + 1 else if i = u + 1 then u else i

theorem exchange_twice (u i : Nat) : exchange u (exchange u i) = i := by
  simp only [exchange]
  split
  · subst_vars; simp
  · split
    · subst_vars; simp
    · simp [*]

theorem exchange_fixes (u : Nat) : Fixes (exchange u) u := fun i hi => by
  simp only [exchange]
  rw [if_neg (by omega), if_neg (by omega)]

theorem order_step {v : Version} {sc : Scope F} {rest : List (Scope F)} {u : Nat} (h : Fit ⟨v, sc :: rest, u⟩) {l1 l2 : Option Loc}
    {as1 as2 : List (AnnotationData F)} {n1 n2 : Ident} {t1 t2 : TypeAst} (hne : n1.name ≠ n2.name)
    (hn1 : n1.name ∉ namesAnnotations as2) (hn2 : n2.name ∉ namesAnnotations as1)
    {e1 e2 e1' e2' : List Err} {a1 a2 a12 a21 : Analyzer F} (h1 : visitVariable fo ⟨v, sc :: rest, u⟩ l1 as1 n1 t1 = .ok (e1, a1))
    (h2 : visitVariable fo a1 l2 as2 n2 t2 = .ok (e2, a12)) (g2 : visitVariable fo ⟨v, sc :: rest, u⟩ l2 as2 n2 t2 = .ok (e2', a2))
    (g1 : visitVariable fo a2 l1 as1 n1 t1 = .ok (e1', a21)) :
    e1' = e1 ∧ e2' = e2 ∧ ∃ f, ∃ o1 o2 : Option (SVariable F), Fixes f u ∧ (∀ i, f (f i) = i) ∧
      Moved f (fun _ => True) True sc.block.statements sc.block.statements (sc.variables ++ o1.toList ++ o2.toList)
        (sc.variables ++ (o2.toList ++ o1.toList).map (moveSVariable f)) a12 a21 := by
  have same : ∀ {v : Version} {sc : Scope F} {rest : List (Scope F)} {u : Nat}, Fit ⟨v, sc :: rest, u⟩ →
      Moved id (fun _ => True) True sc.block.statements sc.block.statements sc.variables sc.variables ⟨v, sc :: rest, u⟩ ⟨v, sc :: rest, u⟩ := by
    intro v sc rest u h
    obtain ⟨h3, h4, h5, h6, -⟩ := h.moved (f := id) fun _ _ => rfl
    exact ⟨h3, h4, h5, h6, fun _ _ => rfl⟩
  have keep : ∀ y : SVariable F, moveSVariable id y = y := fun y => by simp [moveSVariable, map_eq_self moveSAnnotation_id]
  rcases decl_declared h1 with ⟨x1, b1, rfl, rfl⟩ | ⟨ty1, r1, b1, c1, rfl, rfl⟩
  · rw [g2] at h2
    cases h2
    have hfit := (fit_statement (fo := fo) (s := .var l2 as2 n2 t2) h g2).1
    rcases decl_declared g2 with ⟨x2, b2, rfl, rfl⟩ | ⟨ty2, r2, b2, c2, rfl, rfl⟩
    · rw [h1] at g1
      cases g1
      exact ⟨rfl, rfl, id, none, none, fun _ _ => rfl, fun _ => rfl, by simpa using same h⟩
    · rcases decl_declared g1 with ⟨x1', b1', rfl, rfl⟩ | ⟨ty1, r1, b1', -⟩
      · rw [b1] at b1'
        cases b1'
        refine ⟨rfl, rfl, id, none, some ⟨u, n2.name, ty2, r2.2, n2.loc⟩, fun _ _ => rfl, fun _ => rfl, ?_⟩
        have := same hfit
        rw [declared_block, declared_variables] at this
        simpa [keep] using this
      · rw [b1] at b1'; cases b1'
  · have hfit := (fit_statement (fo := fo) (s := .var l1 as1 n1 t1) h h1).1
    rcases decl_declared g2 with ⟨x2, b2, rfl, rfl⟩ | ⟨ty2, r2, b2, c2, rfl, rfl⟩
    · rw [h1] at g1
      cases g1
      rcases decl_declared h2 with ⟨x2', b2', rfl, rfl⟩ | ⟨ty2, r2, b2', -⟩
      · rw [b2] at b2'
        cases b2'
        refine ⟨rfl, rfl, id, some ⟨u, n1.name, ty1, r1.2, n1.loc⟩, none, fun _ _ => rfl, fun _ => rfl, ?_⟩
        have := same hfit
        rw [declared_block, declared_variables] at this
        simpa [keep] using this
      · rw [b2] at b2'; cases b2'
    · rcases decl_declared h2 with ⟨x2', b2', -⟩ | ⟨ty2', r2', b2', c2', rfl, rfl⟩
      · rw [b2] at b2'; cases b2'
      rcases decl_declared g1 with ⟨x1', b1', -⟩ | ⟨ty1', r1', b1', c1', rfl, rfl⟩
      · rw [b1] at b1'; cases b1'
      rw [b1] at b1'
      rw [b2] at b2'
      cases b1'
      cases b2'
      rw [annotations_declared h _ hn1, c2] at c2'
      rw [annotations_declared h _ hn2, c1] at c1'
      cases c1'
      cases c2'
      have hfix := exchange_fixes u
      have hx := h.fixed _ hfix
      have m1 : moveSVariable (exchange u) ⟨u, n1.name, ty1, r1.2, n1.loc⟩ = ⟨u + 1, n1.name, ty1, r1.2, n1.loc⟩ := by
        simp [moveSVariable, exchange, annotations_fixed h hfix c1]
      have m2 : moveSVariable (exchange u) ⟨u + 1, n2.name, ty2, r2.2, n2.loc⟩ = ⟨u, n2.name, ty2, r2.2, n2.loc⟩ := by
        simp [moveSVariable, exchange, annotations_fixed h hfix c2]
      refine ⟨by rw [again_declared (y := ⟨u, n2.name, ty2, r2.2, n2.loc⟩) hne],
        by rw [again_declared (y := ⟨u, n1.name, ty1, r1.2, n1.loc⟩) (Ne.symm hne)], exchange u,
        some ⟨u, n1.name, ty1, r1.2, n1.loc⟩, some ⟨u + 1, n2.name, ty2, r2.2, n2.loc⟩, hfix, exchange_twice u, ?_⟩
      refine ⟨⟨_, rest, _, rest, rfl, rfl, fun m _ => ?_, fun m _ => fixed_resolve (fun s hs => hx s (List.mem_cons_of_mem _ hs)) m,
        ⟨[], by simp [declared_block], by simp [declared_block]⟩, by simp [declared_block],
        ⟨[], by simp [declared_variables], by simp [declared_variables, m1, m2]⟩⟩,
        by simp [declared_fns], by simp [declared_instructions], ?_, fun _ i => ?_⟩
      · have h0 := (hx sc List.mem_cons_self).find m
        simp only [find_declared]
        by_cases e1 : m = n1.name
        · subst e1
          cases hm : sc.variableTable.find n1.name with
          | none => simp [hne, moveValue, moveNode, moveLink, SVariable.link, exchange]
          | some w => rw [hm] at h0; simpa [hne] using h0
        · by_cases e2 : m = n2.name
          · subst e2
            cases hm : sc.variableTable.find n2.name with
            | none => simp [e1, moveValue, moveNode, moveLink, SVariable.link, exchange]
            | some w => rw [hm] at h0; simpa [e1] using h0
          · simpa [e1, e2] using h0
      · intro s hs
        simp only [List.mem_cons] at hs
        rcases hs with rfl | hs
        · simp only [declared_fns]; exact h.numbers sc List.mem_cons_self
        · exact h.numbers s (List.mem_cons_of_mem _ hs)
      · simp only [exchange]
        rw [if_neg (by omega), if_neg (by omega)]

end Qasm
