import Verif.Lemmas.Legal
import Verif.Lemmas.SyntacticShape
/-!
# Helper lemmas: positions do not matter for legal trees, and programs that can be written have the shape of parsed ones
-/

namespace Qasm.Legal

open Spec Sem Syn

variable {F : Type} {fo : FloatOps F} {stod : Str → Option F}

theorem strip_same {n m : ValueNode F} (h : Spec.stripNode n = Spec.stripNode m) :
    kindOf n = kindOf m ∧ Spec.elements n = Spec.elements m ∧ ∀ X, RefersIn X m → RefersIn X n := by
  cases n <;> cases m <;> simp only [Spec.stripNode, ValueNode.indexRef.injEq, reduceCtorEq] at h
  case indexRef.indexRef x is y js =>
    obtain ⟨rfl, h⟩ := h
    have hl : is.length = js.length := by simpa using congrArg List.length h
    refine ⟨?_, hl, ?_⟩
    · match is, js, hl with
      | [], [], _ => rfl
      | [_], [_], _ => rfl
      | _ :: _ :: _, _ :: _ :: _, _ => rfl
    · intro X hX
      cases hX with
      | elements h1 h2 h3 h4 =>
        refine .elements h1 h2 ?_ ?_
        · rintro rfl
          exact h3 (List.length_eq_zero_iff.1 hl.symm)
        · intro i hi
          have : (i.1, none) ∈ js.map fun i => (i.1, (none : Option Loc)) := by
            rw [← h]
            exact List.mem_map_of_mem (f := fun i : Int64 × Option Loc => (i.1, (none : Option Loc))) hi
          obtain ⟨j, hj, hij⟩ := List.mem_map.1 this
          have hij : j.1 = i.1 := (Prod.mk.inj hij).1
          rw [← hij]
          exact h4 j hj
  all_goals
    first
    | (cases h; exact ⟨rfl, rfl, fun _ h => h⟩)
    | exact absurd h (by simp)

theorem stripValue_node {v w : Value F} (h : stripValue v = stripValue w) : Spec.stripNode v.node = Spec.stripNode w.node :=
  congrArg Value.node h

theorem parameter_strip {v w : Value F} {k : Kind} (h : LegalParameter fo stod w k) (e : stripValue v = stripValue w) :
    LegalParameter fo stod v k := by
  obtain ⟨n, l⟩ := v
  have e := stripValue_node e
  cases h with
  | int => cases n <;> simp [Spec.stripNode] at e; subst e; exact .int
  | float h => cases n <;> simp [Spec.stripNode] at e; subst e; exact .float h

theorem forall2_strip {R : Value F → Kind → Prop} (hR : ∀ v w k, R w k → stripValue v = stripValue w → R v k) {ws : List (Value F)}
    {ks : List Kind} (h : Forall2 R ws ks) : ∀ {vs : List (Value F)}, vs.map stripValue = ws.map stripValue → Forall2 R vs ks := by
  induction h with
  | nil => intro vs e; simp at e; subst e; exact .nil
  | cons h _ ih =>
    intro vs e
    cases vs with
    | nil => simp at e
    | cons v vs =>
      simp only [List.map_cons, List.cons.injEq] at e
      exact .cons (hR _ _ _ h e.1) (ih e.2)

theorem qubit_strip {X : List VarLink} {v w : Value F} {k : Kind} (h : QubitOperand X w k) (e : stripValue v = stripValue w) :
    QubitOperand X v k := by
  obtain ⟨a, -, c⟩ := strip_same (stripValue_node e)
  exact ⟨c _ h.1, by rw [IsQubits, a]; exact h.2⟩

theorem bit_strip {X : List VarLink} {v w : Value F} {k : Kind} (h : BitOperand X w k) (e : stripValue v = stripValue w) :
    BitOperand X v k := by
  obtain ⟨a, -, c⟩ := strip_same (stripValue_node e)
  exact ⟨c _ h.1, by rw [IsBits, a]; exact h.2⟩

theorem gate_strip {g : SGate F} {n : Nat} (h : LegalGate fo stod g n) : ∀ {g' : SGate F}, stripSGate g' = stripSGate g →
    LegalGate fo stod g' n ∧ treeName g' = treeName g ∧ treeRoot g' = treeRoot g := by
  have par : ∀ {vs ws : List (Value F)} {ks}, Forall2 (LegalParameter fo stod) ws ks → vs.map stripValue = ws.map stripValue →
      Forall2 (LegalParameter fo stod) vs ks := fun h e => forall2_strip (R := LegalParameter fo stod) (fun _ _ _ => parameter_strip) h e
  induction h with
  | named h1 h2 =>
    rintro ⟨m, i, ps, as, l⟩ e
    cases i <;> simp [stripSGate] at e
    obtain ⟨rfl, e1, rfl⟩ := e
    exact ⟨.named h1 (par h2 (by simpa using e1)), rfl, rfl⟩
  | inv h1 ih =>
    rintro ⟨m, i, ps, as, l⟩ e
    cases i <;> simp [stripSGate] at e
    obtain ⟨rfl, e1, rfl, rfl⟩ := e
    obtain ⟨a, b, c⟩ := ih e1
    exact ⟨.inv a, by simp [treeName, c], by simp [treeRoot, c]⟩
  | pow h1 h2 ih =>
    rintro ⟨m, i, ps, as, l⟩ e
    cases i with
    | none => simp [stripSGate] at e
    | some g =>
    simp only [stripSGate, SGate.mk.injEq, Option.some.injEq, List.map_nil, List.map_eq_nil_iff, and_true] at e
    obtain ⟨rfl, e1, e2, rfl⟩ := e
    obtain ⟨a, b, c⟩ := ih e1
    have h3 := par (.cons h2 .nil) e2
    cases h3 with
    | cons h4 h5 => cases h5; exact ⟨.pow a h4, by simp [treeName, c], by simp [treeRoot, c]⟩
  | ctrl h1 ih =>
    rintro ⟨m, i, ps, as, l⟩ e
    cases i <;> simp [stripSGate] at e
    obtain ⟨rfl, e1, rfl, rfl⟩ := e
    obtain ⟨a, b, c⟩ := ih e1
    exact ⟨.ctrl a, by simp [treeName, c], by simp [treeRoot, c]⟩

theorem list_one {vs : List (Value F)} {w : Value F} (e : vs.map stripValue = [w].map stripValue) :
    ∃ v, vs = [v] ∧ stripValue v = stripValue w := by
  cases vs with
  | nil => simp at e
  | cons v vs =>
    simp only [List.map_cons, List.map_nil, List.cons.injEq, List.map_eq_nil_iff] at e
    exact ⟨v, by rw [e.2], e.1⟩

theorem list_two {vs : List (Value F)} {w x : Value F} (e : vs.map stripValue = [w, x].map stripValue) :
    ∃ v y, vs = [v, y] ∧ stripValue v = stripValue w ∧ stripValue y = stripValue x := by
  cases vs with
  | nil => simp at e
  | cons v vs =>
    rw [List.map_cons, List.map_cons, List.cons.injEq] at e
    obtain ⟨y, rfl, h⟩ := list_one e.2
    exact ⟨v, y, rfl, e.1, h⟩

theorem statement_strip {X : List VarLink} {t t' : SStatement F} (h : LegalStatement fo stod X t)
    (e : stripSStatement t' = stripSStatement t) : LegalStatement fo stod X t' := by
  have par : ∀ {vs ws : List (Value F)} {ks}, Forall2 (LegalParameter fo stod) ws ks → vs.map stripValue = ws.map stripValue →
      Forall2 (LegalParameter fo stod) vs ks := fun h e => forall2_strip (R := LegalParameter fo stod) (fun _ _ _ => parameter_strip) h e
  cases h with
  | @gate g vs ks l h1 h2 h3 =>
    cases t' <;> simp only [stripSStatement, reduceCtorEq, SStatement.gate.injEq] at e
    rename_i g' vs' as' l'
    obtain ⟨rfl, e1, e2, e3, -⟩ := e
    simp only [List.map_nil, List.map_eq_nil_iff] at e3
    subst e3
    obtain ⟨a, b, -⟩ := gate_strip h1 e1
    have hl : vs'.length = vs.length := by simpa using congrArg List.length e2
    rw [← b]
    rw [← hl] at a
    refine .gate a (forall2_strip (R := QubitOperand X) (fun _ _ _ => qubit_strip) h2 e2) ?_
    have : ∀ v ∈ vs', ∃ w ∈ vs, Spec.elements v.node = Spec.elements w.node := by
      intro v hv
      have : stripValue v ∈ vs.map stripValue := e2 ▸ List.mem_map_of_mem hv
      obtain ⟨w, hw, hvw⟩ := List.mem_map.1 this
      exact ⟨w, hw, (strip_same (stripValue_node hvw)).2.1.symm⟩
    intro v hv w hw
    obtain ⟨v', a1, a2⟩ := this v hv
    obtain ⟨w', a3, a4⟩ := this w hw
    rw [a2, a4]
    exact h3 _ a1 _ a3
  | @measure b q ps kb kq l h1 h2 h3 h4 =>
    cases t' <;> simp only [stripSStatement, reduceCtorEq, SStatement.nonGate.injEq] at e
    rename_i vs' ps' as' l'
    obtain ⟨rfl, rfl, e1, e2, e3, -⟩ := e
    simp only [List.map_nil, List.map_eq_nil_iff] at e3
    subst e3
    obtain ⟨b', q', rfl, f1⟩ := list_two e1
    · refine .measure (bit_strip h1 f1.1) (qubit_strip h2 f1.2) ?_ (h4.imp (par · e2) (par · e2))
      rw [(strip_same (stripValue_node f1.1)).2.1, (strip_same (stripValue_node f1.2)).2.1, h3]
  | @simple name q k l h1 h2 =>
    cases t' <;> simp only [stripSStatement, reduceCtorEq, SStatement.nonGate.injEq] at e
    rename_i vs' ps' as' l'
    obtain ⟨rfl, rfl, e1, e2, e3, -⟩ := e
    simp only [List.map_nil, List.map_eq_nil_iff] at e2 e3
    subst e2 e3
    obtain ⟨q', rfl, f1⟩ := list_one e1
    exact .simple h1 (qubit_strip h2 f1)
  | @wait q p k l h1 h2 =>
    cases t' <;> simp only [stripSStatement, reduceCtorEq, SStatement.nonGate.injEq] at e
    rename_i vs' ps' as' l'
    obtain ⟨rfl, rfl, e1, e2, e3, -⟩ := e
    simp only [List.map_nil, List.map_eq_nil_iff] at e3
    subst e3
    obtain ⟨q', rfl, f1⟩ := list_one e1
    obtain ⟨p', rfl, f2⟩ := list_one e2
    exact .wait (qubit_strip h1 f1) (parameter_strip h2 f2)
  | asm h1 h2 =>
    cases t' <;> simp only [stripSStatement, reduceCtorEq, SStatement.asm.injEq] at e
    obtain ⟨rfl, rfl, e3, -⟩ := e
    simp only [List.map_nil, List.map_eq_nil_iff] at e3
    subst e3
    exact .asm h1 h2

theorem program_strip {v : Version} {r r' : SProgram F} (h : LegalProgram fo stod v r) (e : stripSProgram r' = stripSProgram r) :
    LegalProgram fo stod v r' := by
  obtain ⟨va, ⟨vi, vl⟩, ⟨ts, bl⟩, vs⟩ := r
  obtain ⟨va', ⟨vi', vl'⟩, ⟨ts', bl'⟩, vs'⟩ := r'
  simp only [stripSProgram, SProgram.mk.injEq, SVersion.mk.injEq, SBlock.mk.injEq, and_true] at e
  obtain ⟨rfl, rfl, e1, e2⟩ := e
  have proj : ∀ {α : Type} (f : SVariable F → α), (∀ x, f (stripSVariable x) = f x) → vs'.map f = vs.map f := by
    intro α f hf
    have : f = f ∘ stripSVariable := by funext x; exact (hf x).symm
    rw [this, ← List.map_map, ← List.map_map, e2]
  have hl : vs'.length = vs.length := by simpa using congrArg List.length e2
  obtain ⟨h1, h2, ⟨h3, h4, h5⟩, h6⟩ := h
  refine ⟨h1, h2, ⟨?_, ?_, ?_⟩, ?_⟩
  · show vs'.map (·.uid) = _
    rw [proj (·.uid) fun _ => rfl, hl]
    exact h3
  · show (vs'.map (·.name)).Pairwise _
    rw [proj (·.name) fun _ => rfl]
    exact h4
  · intro x hx
    have : stripSVariable x ∈ vs.map stripSVariable := e2 ▸ List.mem_map_of_mem hx
    obtain ⟨y, hy, hxy⟩ := List.mem_map.1 this
    obtain ⟨a1, a2, a3, a4⟩ := h5 y hy
    simp only [stripSVariable, SVariable.mk.injEq, a4, List.map_nil, and_true] at hxy
    obtain ⟨-, b1, b2, b3⟩ := hxy
    refine ⟨b1 ▸ a1, b1 ▸ a2, b2 ▸ a3, ?_⟩
    exact List.map_eq_nil_iff.1 b3.symm
  · intro t ht
    have : stripSStatement t ∈ ts.map stripSStatement := e1 ▸ List.mem_map_of_mem ht
    obtain ⟨u, hu, htu⟩ := List.mem_map.1 this
    have := h6 u hu
    dsimp only at this ⊢
    rw [← proj (fun x => (⟨x.uid, x.name, x.typ⟩ : VarLink)) fun _ => rfl] at this
    exact statement_strip this htu.symm

/-! ## Shapes -/

/-- The index lists in a phrase are not empty. -/
def ShapedNode : Node F → Prop
  | .expr e => ShapedExpr e
  | .exprs es => ShapedExprs es
  | .entry i => ShapedEntries [i]
  | .entries is => ShapedEntries is

theorem shaped_node {n : Node F} (h : Writable stod n) : ShapedNode n := by
  induction h with
  | bool | int | float | ident => simp [ShapedNode, ShapedExpr]
  | index _ h _ ih => exact ⟨h, trivial, ih⟩
  | call _ _ ih => exact ih
  | un _ ih => exact ih
  | bin _ _ a b => exact ⟨a, b⟩
  | tern _ _ _ a b c => exact ⟨a, b, c⟩
  | exprs0 => exact trivial
  | exprsN _ _ a b => exact ⟨a, b⟩
  | item _ a => exact ⟨a, trivial⟩
  | range _ _ a b => exact ⟨a, b, trivial⟩
  | entries0 => exact trivial
  | @entriesN i is _ _ a b =>
    cases i with
    | item => exact ⟨a.1, b⟩
    | range => exact ⟨a.1, a.2.1, b⟩

theorem shaped_list {es : List (Expr F)} (h : ShapedExprs es) : ∀ e ∈ es, ShapedExpr e := by
  induction es with
  | nil => simp
  | cons e es ih =>
    intro x hx
    rcases List.mem_cons.1 hx with rfl | hx
    · exact h.1
    · exact ih h.2 x hx

theorem shaped_gate {g : Gate F} (h : WritableGate stod g) : ShapedGate g ∧ PlainGate g := by
  induction h with
  | named h _ => exact ⟨not_keyword h.2.1, rfl⟩
  | inv _ ih => exact ⟨⟨by decide, ih.1⟩, rfl, ih.2⟩
  | pow _ _ ih => exact ⟨⟨by decide, ih.1⟩, rfl, ih.2⟩
  | ctrl _ ih => exact ⟨⟨by decide, ih.1⟩, rfl, ih.2⟩

theorem shaped_stmt {s : Stmt F} (h : WritableStmt stod s) : ShapedStmt s := by
  have nil : ShapedAnnotations ([] : List (AnnotationData F)) := by simp [ShapedAnnotations]
  cases h with
  | var => exact nil
  | gate h1 _ h2 =>
    obtain ⟨a, b⟩ := shaped_gate h1
    exact ⟨nil, a, plain_annotations b, shaped_list (shaped_node h2)⟩
  | measure h1 h2 h3 =>
    refine ⟨nil, by decide, fun h => absurd h (by decide), ?_⟩
    intro e he
    simp at he
    rcases he with rfl | rfl
    · exact shaped_node h1
    · exact shaped_node h2
  | simple h1 h2 =>
    refine ⟨nil, ?_, ?_, ?_⟩
    · rcases h1 with rfl | rfl | rfl <;> decide
    · rcases h1 with rfl | rfl | rfl <;> exact fun h => absurd h (by decide)
    · intro e he
      simp at he
      subst he
      exact shaped_node h2
  | wait h1 h2 =>
    refine ⟨nil, by decide, by simp, ?_⟩
    intro e he
    simp at he
    subst he
    exact shaped_node h2
  | asm => exact nil

end Qasm.Legal
