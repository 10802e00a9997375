import Verif.Lemmas.Register
import Verif.Lemmas.Operand
/-!
# Helper lemmas: registers written as all their elements
-/

namespace Qasm.Spell

open Spec Sem

attribute [local irreducible] defaultInstrs defaultFns defaultVars

variable {F : Type} {fo : FloatOps F} {size : Str → Option Int64}

/-- What `AsDeclared` says about the declarations so far. -/
def Sized (size : Str → Option Int64) (D : List VarLink) : Prop :=
  ∀ x ∈ D, ∀ n, size x.name = some n → x.typ.size = n ∧ (x.typ.kind = .qubitArray ∨ x.typ.kind = .bitArray)

/-- The second value is the first up to spelling. -/
structure Rel (n n' : ValueNode F) : Prop where
  spelled : ∀ l, SpelledValue ⟨n, l⟩ ⟨n', l⟩
  elements : elements n = elements n'
  qubits : (∃ k, IsQubits n k) ↔ ∃ k, IsQubits n' k
  bits : (∃ k, IsBits n k) ↔ ∃ k, IsBits n' k

theorem Rel.refl (n : ValueNode F) : Rel n n := ⟨fun _ => .same _, rfl, .rfl, .rfl⟩

theorem rel_elements {y : VarLink} {is : List (Int64 × Option Loc)} (hk : y.typ.kind = .qubitArray ∨ y.typ.kind = .bitArray)
    (his : AllElements y.typ.size is) : Rel (F := F) (.variableRef y) (.indexRef y is) := by
  refine ⟨fun _ => .elements his, ?_, ?_, ?_⟩
  · have := congrArg List.length his
    simp only [List.length_map, List.length_range] at this
    simp only [Spec.elements, this]
  · obtain ⟨u, m, ⟨k, s⟩⟩ := y
    simp only at hk
    rcases hk with rfl | rfl <;> rcases is with _ | ⟨i, _ | ⟨j, is⟩⟩ <;> simp [IsQubits, kindOf, elementKind]
  · obtain ⟨u, m, ⟨k, s⟩⟩ := y
    simp only at hk
    rcases hk with rfl | rfl <;> rcases is with _ | ⟨i, _ | ⟨j, is⟩⟩ <;> simp [IsBits, kindOf, elementKind]

theorem allElements_range {n : Int64} {is : List (Int64 × Option Loc)} (h : AllElements n is) :
    ∀ i ∈ is, 0 ≤ i.1.toInt ∧ i.1.toInt < n.toInt := by
  intro i hi
  have : i.1.toInt ∈ is.map (·.1.toInt) := List.mem_map_of_mem (f := (·.1.toInt)) hi
  rw [h, List.mem_map] at this
  obtain ⟨j, hj, e⟩ := this
  rw [List.mem_range] at hj
  omega

/-- All elements of a declared register. -/
theorem eval_elements {D : List VarLink} (hS : Sized size D) {l l' : Option Loc} {x : Str} {n : Int64} {ixs : List (IndexEntry F)}
    {is : List (Int64 × Option Loc)} {y : VarLink} (hn : size x = some n) (hi : EvalIndices fo [] ixs is) (his : AllElements n is)
    (h : Eval fo D (.ident l' x) (.variableRef y)) : Eval fo D (.index l (.ident l' x) ixs) (.indexRef y is) ∧
      Rel (F := F) (.variableRef y) (.indexRef y is) := by
  obtain ⟨hy, l'', e⟩ := eval_whole h
  cases e
  obtain ⟨h1, h2⟩ := hS y hy n hn
  exact ⟨.index h h2 (evalIndices_mono (by simp) hi) (by rw [h1]; exact allElements_range his), rel_elements h2 (by rw [h1]; exact his)⟩

theorem spelled_forth {D : List VarLink} (hS : Sized size D) {e e' : Expr F} (hs : Spelled fo size e e') {n : ValueNode F}
    (h : Eval fo D e n) (hk : ∃ k, IsQubits n k ∨ IsBits n k) : ∃ n', Eval fo D e' n' ∧ Rel n n' := by
  cases hs with
  | same => exact ⟨n, h, .refl n⟩
  | @elements l l' x m ixs is h1 h2 h3 =>
    cases h with
    | ident h =>
      cases h with
      | @const c hc =>
        obtain ⟨k, h | h⟩ := hk
        · obtain ⟨h, h'⟩ := h
          cases c <;> cases h <;> simp at h'
        · obtain ⟨h, h'⟩ := h
          cases c <;> cases h <;> simp at h'
      | var a b c =>
        exact ⟨_, eval_elements hS h1 h2 h3 (.ident (.var a b c))⟩

theorem spelled_back {D : List VarLink} (hD : DeclsOk D) (hS : Sized size D) {e e' : Expr F} (hs : Spelled fo size e e') {n' : ValueNode F}
    (h : Eval fo D e' n') : ∃ n, Eval fo D e n ∧ Rel n n' := by
  cases hs with
  | same => exact ⟨n', h, .refl n'⟩
  | @elements l l' x m ixs is h1 h2 h3 =>
    have h0 := h
    cases h with
    | @index _ _ _ y is' k1 k2 k3 k4 =>
      obtain ⟨m1, m2⟩ := eval_elements (l := l) hS h1 h2 h3 k1
      cases eval_det (stateOf_env hD [] 0 ⟨[], none⟩ []) h0 m1
      cases k1 with
      | ident k => exact ⟨_, .ident k, m2⟩

theorem spelled_loc {e e' : Expr F} (hs : Spelled fo size e e') : e'.loc = e.loc := by cases hs <;> rfl

/-- The same for lists of values. -/
def Rels (vs vs' : List (Value F)) : Prop := Forall2 (fun v v' => v.loc = v'.loc ∧ Rel v.node v'.node) vs vs'

theorem rels_spelled {vs vs' : List (Value F)} (h : Rels vs vs') : Forall2 SpelledValue vs vs' := by
  induction h with
  | nil => exact .nil
  | @cons v v' _ _ h _ ih =>
    obtain ⟨n, l⟩ := v
    obtain ⟨n', l'⟩ := v'
    obtain ⟨rfl, h⟩ := h
    exact .cons (h.spelled _) ih

theorem rels_length {vs vs' : List (Value F)} (h : Rels vs vs') : vs'.length = vs.length := by
  induction h with
  | nil => rfl
  | cons _ _ ih => exact congrArg (· + 1) ih

theorem rels_kinds {vs vs' : List (Value F)} (h : Rels vs vs') :
    (∃ ks, Forall2 (fun v k => IsQubits v.node k) vs ks) ↔ ∃ ks, Forall2 (fun v k => IsQubits v.node k) vs' ks := by
  induction h with
  | nil => exact ⟨fun _ => ⟨[], .nil⟩, fun _ => ⟨[], .nil⟩⟩
  | cons h _ ih =>
    constructor
    · rintro ⟨ks, hk⟩
      cases hk with
      | cons h1 h2 =>
        obtain ⟨k, h3⟩ := h.2.qubits.1 ⟨_, h1⟩
        obtain ⟨ks, h4⟩ := ih.1 ⟨_, h2⟩
        exact ⟨k :: ks, .cons h3 h4⟩
    · rintro ⟨ks, hk⟩
      cases hk with
      | cons h1 h2 =>
        obtain ⟨k, h3⟩ := h.2.qubits.2 ⟨_, h1⟩
        obtain ⟨ks, h4⟩ := ih.2 ⟨_, h2⟩
        exact ⟨k :: ks, .cons h3 h4⟩

theorem rels_elements {vs vs' : List (Value F)} (h : Rels vs vs') :
    vs.map (elements ·.node) = vs'.map (elements ·.node) := by
  induction h with
  | nil => rfl
  | cons h _ ih => rw [List.map_cons, List.map_cons, h.2.elements, ih]

theorem uniform_iff {vs : List (Value F)} :
    (∀ v ∈ vs, ∀ w ∈ vs, elements v.node = elements w.node) ↔
      ∀ m ∈ vs.map (elements ·.node), ∀ n ∈ vs.map (elements ·.node), m = n := by
  simp only [List.mem_map]
  constructor
  · rintro h _ ⟨v, hv, rfl⟩ _ ⟨w, hw, rfl⟩
    exact h v hv w hw
  · intro h v hv w hw
    exact h _ ⟨v, hv, rfl⟩ _ ⟨w, hw, rfl⟩

theorem evalAll_forth {D : List VarLink} (hS : Sized size D) {es es' : List (Expr F)} (hs : Forall2 (Spelled fo size) es es') :
    ∀ {vs : List (Value F)} {ks : List Kind}, EvalAll fo D es vs → Forall2 (fun v k => IsQubits v.node k) vs ks →
      ∃ vs', EvalAll fo D es' vs' ∧ Rels vs vs' := by
  induction hs with
  | nil =>
    intro vs ks h _
    cases h
    exact ⟨[], .nil, .nil⟩
  | cons h1 _ ih =>
    intro vs ks h hk
    cases h with
    | @cons _ v _ _ k1 k2 =>
      cases hk with
      | cons m1 m2 =>
        obtain ⟨vs', a1, a2⟩ := ih k2 m2
        obtain ⟨n', b1, b2⟩ := spelled_forth hS h1 k1.2 ⟨_, .inl m1⟩
        exact ⟨⟨n', v.loc⟩ :: vs', .cons ⟨k1.1.trans (spelled_loc h1).symm, b1⟩ a1, .cons ⟨rfl, b2⟩ a2⟩

theorem evalAll_back {D : List VarLink} (hD : DeclsOk D) (hS : Sized size D) {es es' : List (Expr F)}
    (hs : Forall2 (Spelled fo size) es es') : ∀ {vs' : List (Value F)}, EvalAll fo D es' vs' → ∃ vs, EvalAll fo D es vs ∧ Rels vs vs' := by
  induction hs with
  | nil =>
    intro vs h
    cases h
    exact ⟨[], .nil, .nil⟩
  | cons h1 _ ih =>
    intro vs h
    cases h with
    | @cons _ v _ _ k1 k2 =>
      obtain ⟨vs', a1, a2⟩ := ih k2
      obtain ⟨n', b1, b2⟩ := spelled_back hD hS h1 k1.2
      exact ⟨⟨n', v.loc⟩ :: vs', .cons ⟨k1.1.trans (spelled_loc h1), b1⟩ a1, .cons ⟨rfl, b2⟩ a2⟩

theorem spelledSStatement_refl (t : SStatement F) : SpelledSStatement t t := by
  have : ∀ vs : List (Value F), Forall2 SpelledValue vs vs := by
    intro vs
    induction vs with
    | nil => exact .nil
    | cons v vs ih => exact .cons (.same v) ih
  cases t with
  | gate => exact .gate rfl (this _)
  | nonGate => exact .nonGate rfl (this _)
  | asm => exact .asm

theorem instrOk_forth {D : List VarLink} (hS : Sized size D) {s s' : Stmt F} (hs : SpelledStmt fo size s s') {t : SStatement F}
    (h : InstrOk fo D s t) : ∃ t', InstrOk fo D s' t' ∧ SpelledSStatement t t' := by
  cases hs with
  | same => exact ⟨t, h, spelledSStatement_refl t⟩
  | gate hs =>
    cases h with
    | gate h1 h2 h3 h4 h5 h6 =>
      obtain ⟨vs', k1, k2⟩ := evalAll_forth hS hs h2 h4
      obtain ⟨ks', k3⟩ := (rels_kinds k2).1 ⟨_, h4⟩
      exact ⟨_, .gate h1 k1 ((rels_length k2).trans h3) k3 (uniform_iff.2 (by rw [← rels_elements k2]; exact uniform_iff.1 h5)) h6,
        .gate rfl (rels_spelled k2)⟩
  | nonGate hs =>
    cases h with
    | measure h1 h2 h3 h4 h5 h6 h7 =>
      cases hs with
      | cons s1 hs =>
        cases hs with
        | cons s2 hs =>
          cases hs
          obtain ⟨n', a1, a2⟩ := spelled_forth hS s1 h1 ⟨_, .inr h2⟩
          obtain ⟨m', b1, b2⟩ := spelled_forth hS s2 h3 ⟨_, .inl h4⟩
          obtain ⟨kn, a3⟩ := a2.bits.1 ⟨_, h2⟩
          obtain ⟨km, b3⟩ := b2.qubits.1 ⟨_, h4⟩
          refine ⟨_, .measure a1 a3 b1 b3 (by rw [← a2.elements, ← b2.elements, h5]) h6 h7, .nonGate rfl ?_⟩
          rw [spelled_loc s1, spelled_loc s2]
          exact .cons (a2.spelled _) (.cons (b2.spelled _) .nil)
    | simple h0 h1 h2 h3 =>
      cases hs with
      | cons s1 hs =>
        cases hs
        obtain ⟨n', a1, a2⟩ := spelled_forth hS s1 h1 ⟨_, .inl h2⟩
        obtain ⟨kn, a3⟩ := a2.qubits.1 ⟨_, h2⟩
        refine ⟨_, .simple h0 a1 a3 h3, .nonGate rfl ?_⟩
        rw [spelled_loc s1]
        exact .cons (a2.spelled _) .nil
    | wait h1 h2 h3 h4 =>
      cases hs with
      | cons s1 hs =>
        cases hs
        obtain ⟨n', a1, a2⟩ := spelled_forth hS s1 h1 ⟨_, .inl h2⟩
        obtain ⟨kn, a3⟩ := a2.qubits.1 ⟨_, h2⟩
        refine ⟨_, .wait a1 a3 h3 h4, .nonGate rfl ?_⟩
        rw [spelled_loc s1]
        exact .cons (a2.spelled _) .nil

theorem instrOk_back {D : List VarLink} (hD : DeclsOk D) (hS : Sized size D) {s s' : Stmt F} (hs : SpelledStmt fo size s s')
    {t' : SStatement F} (h : InstrOk fo D s' t') : ∃ t, InstrOk fo D s t ∧ SpelledSStatement t t' := by
  cases hs with
  | same => exact ⟨t', h, spelledSStatement_refl t'⟩
  | gate hs =>
    cases h with
    | gate h1 h2 h3 h4 h5 h6 =>
      obtain ⟨vs', k1, k2⟩ := evalAll_back hD hS hs h2
      obtain ⟨ks', k3⟩ := (rels_kinds k2).2 ⟨_, h4⟩
      exact ⟨_, .gate h1 k1 ((rels_length k2).symm.trans h3) k3 (uniform_iff.2 (by rw [rels_elements k2]; exact uniform_iff.1 h5)) h6,
        .gate rfl (rels_spelled k2)⟩
  | nonGate hs =>
    cases h with
    | measure h1 h2 h3 h4 h5 h6 h7 =>
      cases hs with
      | cons s1 hs =>
        cases hs with
        | cons s2 hs =>
          cases hs
          obtain ⟨n', a1, a2⟩ := spelled_back hD hS s1 h1
          obtain ⟨m', b1, b2⟩ := spelled_back hD hS s2 h3
          obtain ⟨kn, a3⟩ := a2.bits.2 ⟨_, h2⟩
          obtain ⟨km, b3⟩ := b2.qubits.2 ⟨_, h4⟩
          refine ⟨_, .measure a1 a3 b1 b3 (by rw [a2.elements, b2.elements, h5]) h6 h7, .nonGate rfl ?_⟩
          rw [spelled_loc s1, spelled_loc s2]
          exact .cons (a2.spelled _) (.cons (b2.spelled _) .nil)
    | simple h0 h1 h2 h3 =>
      cases hs with
      | cons s1 hs =>
        cases hs
        obtain ⟨n', a1, a2⟩ := spelled_back hD hS s1 h1
        obtain ⟨kn, a3⟩ := a2.qubits.2 ⟨_, h2⟩
        refine ⟨_, .simple h0 a1 a3 h3, .nonGate rfl ?_⟩
        rw [spelled_loc s1]
        exact .cons (a2.spelled _) .nil
    | wait h1 h2 h3 h4 =>
      cases hs with
      | cons s1 hs =>
        cases hs
        obtain ⟨n', a1, a2⟩ := spelled_back hD hS s1 h1
        obtain ⟨kn, a3⟩ := a2.qubits.2 ⟨_, h2⟩
        refine ⟨_, .wait a1 a3 h3 h4, .nonGate rfl ?_⟩
        rw [spelled_loc s1]
        exact .cons (a2.spelled _) .nil

theorem sized_cons {D : List VarLink} (hS : Sized size D) {u : Nat} {name : Str} {typ : TypeAst} {t : Ty} (ht : TypeOk typ t)
    (h : ∀ n, size name = some n → typ.size = some n) : Sized size (⟨u, name, t⟩ :: D) := by
  intro x hx n hn
  rcases List.mem_cons.1 hx with rfl | hx
  · have := h n hn
    cases ht with
    | qubit => cases this
    | bit => cases this
    | qubits => cases this; exact ⟨rfl, .inl rfl⟩
    | bits => cases this; exact ⟨rfl, .inr rfl⟩
  · exact hS x hx n hn

theorem spelled_decl {l : Option Loc} {as : List (AnnotationData F)} {name : Ident} {typ : TypeAst} {s : Stmt F}
    (h : SpelledStmt fo size (.var l as name typ) s) : s = .var l as name typ := by cases h; rfl

theorem exec_forth {D : List VarLink} {ss : List (Stmt F)} {vs : List (SVariable F)} {ts : List (SStatement F)} (h : Exec fo D ss vs ts) :
    Sized size D → (∀ s ∈ ss, AsDeclared size s) → ∀ {ss' : List (Stmt F)}, Forall2 (SpelledStmt fo size) ss ss' →
    ∃ ts', Exec fo D ss' vs ts' ∧ Forall2 SpelledSStatement ts ts' := by
  induction h with
  | nil => intro _ _ ss' h; cases h; exact ⟨[], .nil, .nil⟩
  | instr h1 h2 ih =>
    intro hS hd ss' h
    cases h with
    | cons s1 s2 =>
      obtain ⟨ts', k1, k2⟩ := ih hS (fun s h => hd s (List.mem_cons_of_mem _ h)) s2
      obtain ⟨t', k3, k4⟩ := instrOk_forth hS s1 h1
      exact ⟨t' :: ts', .instr k3 k1, .cons k4 k2⟩
  | decl h1 h2 h3 h4 ih =>
    intro hS hd ss' h
    cases h with
    | cons s1 s2 =>
      obtain ⟨ts', k1, k2⟩ := ih (sized_cons hS h1 (hd _ List.mem_cons_self)) (fun s h => hd s (List.mem_cons_of_mem _ h)) s2
      rw [spelled_decl s1]
      exact ⟨ts', .decl h1 h2 h3 k1, k2⟩

theorem exec_back {D : List VarLink} {ss' : List (Stmt F)} {vs : List (SVariable F)} {ts' : List (SStatement F)} (h : Exec fo D ss' vs ts') :
    DeclsOk D → Sized size D → ∀ {ss : List (Stmt F)}, (∀ s ∈ ss, AsDeclared size s) → Forall2 (SpelledStmt fo size) ss ss' →
    ∃ ts, Exec fo D ss vs ts ∧ Forall2 SpelledSStatement ts ts' := by
  induction h with
  | nil => intro _ _ ss' _ h; cases h; exact ⟨[], .nil, .nil⟩
  | instr h1 h2 ih =>
    intro hD hS ss hd h
    cases h with
    | cons s1 s2 =>
      obtain ⟨ts', k1, k2⟩ := ih hD hS (fun s h => hd s (List.mem_cons_of_mem _ h)) s2
      obtain ⟨t', k3, k4⟩ := instrOk_back hD hS s1 h1
      exact ⟨t' :: ts', .instr k3 k1, .cons k4 k2⟩
  | decl h1 h2 h3 h4 ih =>
    intro hD hS ss hd h
    cases h with
    | cons s1 s2 =>
      cases s1
      obtain ⟨ts', k1, k2⟩ := ih (declsOk_cons hD h1 h2) (sized_cons hS h1 (hd _ List.mem_cons_self))
        (fun s h => hd s (List.mem_cons_of_mem _ h)) s2
      exact ⟨ts', .decl h1 h2 h3 k1, k2⟩

theorem spelled_sloc {t t' : SStatement F} (h : SpelledSStatement t t') : t'.loc = t.loc := by cases h <;> rfl

theorem blockAfter_locs {ts ts' : List (SStatement F)} (h : Forall2 SpelledSStatement ts ts') :
    (blockAfter (⟨[], none⟩ : SBlock F) ts').loc = (blockAfter (⟨[], none⟩ : SBlock F) ts).loc := by
  have : ∀ (b b' : SBlock F), b'.loc = b.loc → (blockAfter b' ts').loc = (blockAfter b ts).loc := by
    induction h with
    | nil => intro b b' h; exact h
    | cons h _ ih => intro b b' hb; exact ih _ _ (by simp only [addTo, hb, spelled_sloc h])
  exact this _ _ rfl

end Qasm.Spell
