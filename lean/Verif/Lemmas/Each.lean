import Verif.Spec.Each
import Verif.Lemmas.Register
/-!
# Helper lemmas: one instruction per element
-/

namespace Qasm.Each

open Spec Sem

attribute [local irreducible] defaultInstrs defaultFns defaultVars

variable {F : Type} {fo : FloatOps F} {D : List VarLink}

/-- The indices of the semantic tree. -/
def toIndices (is : List (Option Loc × Int64)) : List (Int64 × Option Loc) := is.map fun i => (i.2, i.1)

theorem items_of {is : List (Option Loc × Int64)} : EvalIndices fo D (is.map fun i => .item i.1 (.intLit i.1 i.2)) (toIndices is) := by
  induction is with
  | nil => exact .nil
  | cons i is ih => exact .cons (is := [(i.2, i.1)]) (.item (c := .int i.2) (.intLit _ _) (.same (.int _))) ih

theorem items_inv {is : List (Option Loc × Int64)} {js : List (Int64 × Option Loc)}
    (h : EvalIndices fo D (is.map fun i => .item i.1 (.intLit i.1 i.2)) js) : js = toIndices is := by
  induction is generalizing js with
  | nil => cases h; rfl
  | cons i is ih =>
    cases h with
    | cons h1 h2 =>
      rw [ih h2]
      cases h1 with
      | @item _ _ c m h3 h4 =>
        generalize hn : c.node = n at h3
        cases h3
        cases c with
        | int m =>
          cases hn
          cases h4
          rfl
        | bool => cases hn
        | float => cases hn

theorem eval_elements {r : Elements} {n : ValueNode F} : Eval fo D r.expr n ↔
    ∃ y, Eval fo D (.ident r.nameLoc r.name) (.variableRef y) ∧ (y.typ.kind = .qubitArray ∨ y.typ.kind = .bitArray) ∧
      n = .indexRef y (toIndices r.indices) ∧ ∀ i ∈ r.indices, 0 ≤ i.2.toInt ∧ i.2.toInt < y.typ.size.toInt := by
  constructor
  · intro h
    cases h with
    | @index _ _ _ y is h1 h2 h3 h4 =>
      cases items_inv h3
      refine ⟨y, h1, h2, rfl, fun i hi => h4 (i.2, i.1) ?_⟩
      exact List.mem_map_of_mem (f := fun i : Option Loc × Int64 => (i.2, i.1)) hi
  · rintro ⟨y, h1, h2, rfl, h4⟩
    refine .index h1 h2 items_of fun i hi => ?_
    obtain ⟨j, hj, rfl⟩ := List.mem_map.1 hi
    exact h4 j hj

theorem nth_indices (k : Nat) (r : Elements) : toIndices (r.nth k).indices = (toIndices r.indices)[k]?.toList := by
  simp only [toIndices, Elements.nth, List.getElem?_map]
  cases r.indices[k]? <;> rfl

theorem eval_nth {k : Nat} {r : Elements} {n : ValueNode F} (h : Eval fo D r.expr n) (l : Option Loc) :
    Eval fo D (r.nth k).expr (nthValue k ⟨n, l⟩).node := by
  obtain ⟨y, h1, h2, rfl, h4⟩ := eval_elements.1 h
  refine eval_elements.2 ⟨y, h1, h2, ?_, ?_⟩
  · rw [nth_indices]; rfl
  · intro i hi
    simp only [Elements.nth, Option.mem_toList] at hi
    exact h4 i (List.mem_of_getElem? hi)

theorem nthValue_loc (k : Nat) (v : Value F) : (nthValue k v).loc = v.loc := by
  obtain ⟨n, l⟩ := v
  cases n <;> rfl

theorem nth_elements {k : Nat} {r : Elements} (hk : k < r.indices.length) {n : ValueNode F} (h : Eval fo D r.expr n) (l : Option Loc) :
    elements (nthValue k ⟨n, l⟩).node = 1 := by
  obtain ⟨y, h1, h2, rfl, h4⟩ := eval_elements.1 h
  have : k < (toIndices r.indices).length := by simpa [toIndices] using hk
  simp [nthValue, elements, List.getElem?_eq_getElem this]

theorem whole_elements {r : Elements} {n : ValueNode F} (h : Eval fo D r.expr n) : elements n = r.indices.length := by
  obtain ⟨y, h1, h2, rfl, h4⟩ := eval_elements.1 h
  simp [elements, toIndices]

/-- What matters about kinds. -/
theorem kinds_nth {k : Nat} {r : Elements} (hk : k < r.indices.length) {n : ValueNode F} (h : Eval fo D r.expr n) (l : Option Loc) :
    ((∃ q, IsQubits n q) ↔ ∃ q, IsQubits (nthValue k ⟨n, l⟩).node q) ∧ ((∃ q, IsBits n q) ↔ ∃ q, IsBits (nthValue k ⟨n, l⟩).node q) := by
  obtain ⟨y, h1, h2, rfl, h4⟩ := eval_elements.1 h
  have : k < (toIndices r.indices).length := by simpa [toIndices] using hk
  simp only [nthValue, List.getElem?_eq_getElem this, Option.toList]
  generalize (toIndices r.indices)[k] = i
  generalize toIndices r.indices = is
  obtain ⟨u, m, ⟨kd, s⟩⟩ := y
  simp only at h2
  rcases h2 with rfl | rfl <;> rcases is with _ | ⟨i, _ | ⟨j, is⟩⟩ <;> simp [IsQubits, IsBits, kindOf, elementKind]

/-- All elements together, from those one by one. -/
theorem eval_all {r : Elements} (hn : r.indices ≠ []) (hD : DeclsOk D) (h : ∀ k < r.indices.length, ∃ n, Eval fo D (r.nth k).expr n) :
    ∃ n, Eval fo D r.expr n := by
  have h0 : 0 < r.indices.length := List.length_pos_iff.2 hn
  obtain ⟨n, h1⟩ := h 0 h0
  obtain ⟨y, h1, h2, -, -⟩ := eval_elements.1 h1
  refine ⟨_, eval_elements.2 ⟨y, h1, h2, rfl, fun i hi => ?_⟩⟩
  obtain ⟨k, hk, rfl⟩ := List.mem_iff_getElem.1 hi
  obtain ⟨m, h3⟩ := h k hk
  obtain ⟨z, k1, k2, k3, k4⟩ := eval_elements.1 h3
  cases eval_det (stateOf_env hD [] 0 ⟨[], none⟩ []) h1 k1
  exact k4 _ (by simp [Elements.nth, List.getElem?_eq_getElem hk])

/-! ## Lists of operands -/

theorem evalAll_nth {k : Nat} {rs : List Elements} : ∀ {vs : List (Value F)}, EvalAll fo D (rs.map Elements.expr) vs →
    EvalAll fo D ((rs.map (Elements.nth k)).map Elements.expr) (vs.map (nthValue k)) := by
  induction rs with
  | nil => intro vs h; cases h; exact .nil
  | cons r rs ih =>
    intro vs h
    cases h with
    | @cons _ v _ _ h1 h2 => exact .cons ⟨(nthValue_loc k v).trans h1.1, eval_nth h1.2 v.loc⟩ (ih h2)

theorem evalAll_all {m : Nat} (hm : 1 ≤ m) (hD : DeclsOk D) {rs : List Elements} : (∀ r ∈ rs, r.indices.length = m) →
    (∀ k < m, ∃ vs, EvalAll (F := F) fo D ((rs.map (Elements.nth k)).map Elements.expr) vs) →
    ∃ vs, EvalAll fo D (rs.map Elements.expr) vs := by
  induction rs with
  | nil => intro _ _; exact ⟨[], .nil⟩
  | cons r rs ih =>
    intro hl h
    obtain ⟨vs, h2⟩ := ih (fun r hr => hl r (List.mem_cons_of_mem _ hr)) fun k hk => by
      obtain ⟨vs, h⟩ := h k hk
      cases h with
      | cons _ h2 => exact ⟨_, h2⟩
    have hr := hl r List.mem_cons_self
    obtain ⟨n, h1⟩ := eval_all (fo := fo) (r := r) (by rintro h0; rw [h0] at hr; simp at hr; omega) hD fun k hk => by
      obtain ⟨vs, h⟩ := h k (by omega)
      cases h with
      | cons h1 _ => exact ⟨_, h1.2⟩
    exact ⟨⟨n, r.loc⟩ :: vs, .cons ⟨rfl, h1⟩ h2⟩

theorem kinds_all {k m : Nat} (hk : k < m) {rs : List Elements} : ∀ {vs : List (Value F)}, (∀ r ∈ rs, r.indices.length = m) →
    EvalAll fo D (rs.map Elements.expr) vs →
    ((∃ ks, Forall2 (fun v k => IsQubits v.node k) vs ks) ↔ ∃ ks, Forall2 (fun v k => IsQubits v.node k) (vs.map (nthValue k)) ks) := by
  induction rs with
  | nil => intro vs _ h; cases h; exact ⟨fun _ => ⟨[], .nil⟩, fun _ => ⟨[], .nil⟩⟩
  | cons r rs ih =>
    intro vs hl h
    cases h with
    | @cons _ v _ _ h1 h2 =>
      have h3 := ih (fun r hr => hl r (List.mem_cons_of_mem _ hr)) h2
      have h4 := (kinds_nth (k := k) (by rw [hl r List.mem_cons_self]; exact hk) h1.2 v.loc).1
      constructor
      · rintro ⟨ks, h⟩
        cases h with
        | cons a1 a2 =>
          obtain ⟨q, b1⟩ := h4.1 ⟨_, a1⟩
          obtain ⟨qs, b2⟩ := h3.1 ⟨_, a2⟩
          exact ⟨q :: qs, .cons b1 b2⟩
      · rintro ⟨ks, h⟩
        cases h with
        | cons a1 a2 =>
          obtain ⟨q, b1⟩ := h4.2 ⟨_, a1⟩
          obtain ⟨qs, b2⟩ := h3.2 ⟨_, a2⟩
          exact ⟨q :: qs, .cons b1 b2⟩

theorem elements_all {m : Nat} {rs : List Elements} : ∀ {vs : List (Value F)}, (∀ r ∈ rs, r.indices.length = m) →
    EvalAll fo D (rs.map Elements.expr) vs → (∀ v ∈ vs, elements v.node = m) ∧ ∀ k < m, ∀ v ∈ vs.map (nthValue k), elements v.node = 1 := by
  induction rs with
  | nil => intro vs _ h; cases h; simp
  | cons r rs ih =>
    intro vs hl h
    cases h with
    | @cons _ v _ _ h1 h2 =>
      have hr := hl r List.mem_cons_self
      obtain ⟨h3, h4⟩ := ih (fun r hr => hl r (List.mem_cons_of_mem _ hr)) h2
      constructor
      · intro w hw
        rcases List.mem_cons.1 hw with rfl | hw
        · exact (whole_elements h1.2).trans hr
        · exact h3 w hw
      · intro k hk w hw
        rcases List.mem_cons.1 hw with rfl | hw
        · exact nth_elements (by omega) h1.2 v.loc
        · exact h4 k hk w hw

theorem evalAll_det (hD : DeclsOk D) {es : List (Expr F)} : ∀ {vs vs' : List (Value F)}, EvalAll fo D es vs → EvalAll fo D es vs' → vs = vs' := by
  induction es with
  | nil => intro vs vs' h h'; cases h; cases h'; rfl
  | cons e es ih =>
    intro vs vs' h h'
    cases h with
    | @cons _ v _ _ h1 h2 =>
      cases h' with
      | @cons _ w _ _ k1 k2 =>
        rw [ih h2 k2]
        obtain ⟨n, l⟩ := v
        obtain ⟨n', l'⟩ := w
        obtain ⟨rfl, h1⟩ := h1
        obtain ⟨rfl, k1⟩ := k1
        cases eval_det (stateOf_env hD [] 0 ⟨[], none⟩ []) h1 k1
        rfl

/-! ## Instructions -/

/-- An instruction that is not a gate, with its operands in general. -/
theorem nonGate_iff {l : Option Loc} {as : List (AnnotationData F)} {name : Str} {es ps : List (Expr F)} {t : SStatement F} :
    InstrOk fo D (.nonGate l as name es ps) t ↔ ∃ vs ws sas ks, t = .nonGate (refOf name ks) name vs ws sas l ∧ EvalAll fo D es vs ∧
      EvalAnnotations fo D as sas ∧
      ((name = c!"measure" ∧ (EvalParams fo D ps [] ws ∨ EvalParams fo D ps [.float, .float, .float] ws) ∧ ∃ v w kv kw, vs = [v, w] ∧ ks = [kv, kw] ∧
          IsBits v.node kv ∧ IsQubits w.node kw ∧ elements v.node = elements w.node) ∨
        (name ∈ [c!"reset", c!"init", c!"barrier"] ∧ ps = [] ∧ ws = [] ∧ ∃ v k, vs = [v] ∧ ks = [k] ∧ IsQubits v.node k) ∨
        (name = c!"wait" ∧ EvalParams fo D ps [.int] ws ∧ ∃ v k, vs = [v] ∧ ks = [k] ∧ IsQubits v.node k)) := by
  constructor
  · intro h
    cases h with
    | measure h1 h2 h3 h4 h5 h6 h7 =>
      exact ⟨_, _, _, _, rfl, .cons ⟨rfl, h1⟩ (.cons ⟨rfl, h3⟩ .nil), h7, .inl ⟨rfl, h6, _, _, _, _, rfl, rfl, h2, h4, h5⟩⟩
    | simple h0 h1 h2 h3 =>
      exact ⟨_, _, _, _, rfl, .cons ⟨rfl, h1⟩ .nil, h3, .inr (.inl ⟨h0, rfl, rfl, _, _, rfl, rfl, h2⟩)⟩
    | wait h1 h2 h3 h4 =>
      exact ⟨_, _, _, _, rfl, .cons ⟨rfl, h1⟩ .nil, h4, .inr (.inr ⟨rfl, h3, _, _, rfl, rfl, h2⟩)⟩
  · rintro ⟨vs, ws, sas, ks, rfl, h1, h2, ⟨rfl, h3, ⟨n, ln⟩, ⟨m, lm⟩, kv, kw, rfl, rfl, h4, h5, h6⟩ | ⟨h3, rfl, rfl, ⟨n, ln⟩, k, rfl, rfl, h4⟩ |
      ⟨rfl, h3, ⟨n, ln⟩, k, rfl, rfl, h4⟩⟩
    · cases h1 with
      | cons a1 h1 =>
        cases h1 with
        | cons a2 h1 =>
          cases h1
          obtain ⟨rfl, a1⟩ := a1
          obtain ⟨rfl, a2⟩ := a2
          exact .measure a1 h4 a2 h5 h6 h3 h2
    · cases h1 with
      | cons a1 h1 =>
        cases h1
        obtain ⟨rfl, a1⟩ := a1
        exact .simple h3 a1 h4 h2
    · cases h1 with
      | cons a1 h1 =>
        cases h1
        obtain ⟨rfl, a1⟩ := a1
        exact .wait a1 h4 h3 h2

theorem instr_nth {m : Nat} (o : Operation F) {rs : List Elements} (hl : ∀ r ∈ rs, r.indices.length = m) {t : SStatement F}
    (h : InstrOk fo D (o.apply (rs.map Elements.expr)) t) {k : Nat} (hk : k < m) :
    ∃ t', InstrOk fo D (o.apply ((rs.map (Elements.nth k)).map Elements.expr)) t' ∧ NthInstruction k t t' := by
  cases o with
  | gate l as g =>
    cases h with
    | gate h1 h2 h3 h4 h5 h6 =>
      obtain ⟨ks, a⟩ := (kinds_all hk hl h2).1 ⟨_, h4⟩
      have b := (elements_all hl h2).2 k hk
      exact ⟨_, .gate h1 (evalAll_nth h2) (by simpa using h3) a (fun v hv w hw => (b v hv).trans (b w hw).symm) h6, .gate rfl⟩
  | nonGate l as name ps =>
    obtain ⟨vs, ws, sas, ks, rfl, h1, h2, h3⟩ := nonGate_iff.1 h
    suffices hh : ∃ ks', InstrOk fo D (.nonGate l as name ((rs.map (Elements.nth k)).map Elements.expr) ps)
        (.nonGate (refOf name ks') name (vs.map (nthValue k)) ws sas l) by
      obtain ⟨ks', hh⟩ := hh
      exact ⟨_, hh, .nonGate rfl⟩
    have h4 := evalAll_nth (k := k) h1
    rcases h3 with ⟨rfl, h5, v, w, kv, kw, rfl, rfl, h6, h7, h8⟩ | ⟨h5, rfl, rfl, v, kq, rfl, rfl, h6⟩ | ⟨rfl, h5, v, kq, rfl, rfl, h6⟩
    · obtain _ | ⟨r, _ | ⟨r', _ | ⟨_, _⟩⟩⟩ := rs
      · cases h1
      · cases h1 with | cons _ h => cases h
      · cases h1 with
        | cons a1 h =>
          cases h with
          | cons a2 _ =>
            have hr := hl r (by simp)
            have hr' := hl r' (by simp)
            obtain ⟨kv', b1⟩ := (kinds_nth (k := k) (by omega) a1.2 v.loc).2.1 ⟨_, h6⟩
            obtain ⟨kw', b2⟩ := (kinds_nth (k := k) (by omega) a2.2 w.loc).1.1 ⟨_, h7⟩
            refine ⟨[kv', kw'], nonGate_iff.2 ⟨_, _, _, _, rfl, h4, h2, .inl ⟨rfl, h5, _, _, _, _, rfl, rfl, b1, b2, ?_⟩⟩⟩
            exact (nth_elements (by omega) a1.2 v.loc).trans (nth_elements (by omega) a2.2 w.loc).symm
      · cases h1 with | cons _ h => cases h with | cons _ h => cases h
    · obtain _ | ⟨r, _ | ⟨_, _⟩⟩ := rs
      · cases h1
      · cases h1 with
        | cons a1 _ =>
          have hr := hl r (by simp)
          obtain ⟨kv', b1⟩ := (kinds_nth (k := k) (by omega) a1.2 v.loc).1.1 ⟨_, h6⟩
          exact ⟨[kv'], nonGate_iff.2 ⟨_, _, _, _, rfl, h4, h2, .inr (.inl ⟨h5, rfl, rfl, _, _, rfl, rfl, b1⟩)⟩⟩
      · cases h1 with | cons _ h => cases h
    · obtain _ | ⟨r, _ | ⟨_, _⟩⟩ := rs
      · cases h1
      · cases h1 with
        | cons a1 _ =>
          have hr := hl r (by simp)
          obtain ⟨kv', b1⟩ := (kinds_nth (k := k) (by omega) a1.2 v.loc).1.1 ⟨_, h6⟩
          exact ⟨[kv'], nonGate_iff.2 ⟨_, _, _, _, rfl, h4, h2, .inr (.inr ⟨rfl, h5, _, _, rfl, rfl, b1⟩)⟩⟩
      · cases h1 with | cons _ h => cases h

theorem instr_evalAll (o : Operation F) {es : List (Expr F)} {t : SStatement F} (h : InstrOk fo D (o.apply es) t) : ∃ vs, EvalAll fo D es vs := by
  cases o with
  | gate l as g => cases h with | gate _ h2 => exact ⟨_, h2⟩
  | nonGate l as name ps =>
    obtain ⟨vs, ws, sas, ks, rfl, h1, -⟩ := nonGate_iff.1 h
    exact ⟨vs, h1⟩

theorem instr_all {m : Nat} (hm : 1 ≤ m) (hD : DeclsOk D) (o : Operation F) {rs : List Elements} (hl : ∀ r ∈ rs, r.indices.length = m)
    (h : ∀ k < m, ∃ t, InstrOk fo D (o.apply ((rs.map (Elements.nth k)).map Elements.expr)) t) :
    ∃ t, InstrOk fo D (o.apply (rs.map Elements.expr)) t := by
  obtain ⟨vs, h1⟩ := evalAll_all hm hD hl fun k hk => by
    obtain ⟨t, h⟩ := h k hk
    exact instr_evalAll o h
  have h0 := evalAll_nth (k := 0) h1
  obtain ⟨t, h⟩ := h 0 (by omega)
  have he := (elements_all hl h1).1
  cases o with
  | gate l as g =>
    cases h with
    | gate a1 a2 a3 a4 a5 a6 =>
      cases evalAll_det hD h0 a2
      obtain ⟨ks, b⟩ := (kinds_all (k := 0) (by omega) hl h1).2 ⟨_, a4⟩
      exact ⟨_, .gate a1 h1 (by simpa using a3) b (fun v hv w hw => (he v hv).trans (he w hw).symm) a6⟩
  | nonGate l as name ps =>
    obtain ⟨vs', ws, sas, ks, rfl, a1, h2, h3⟩ := nonGate_iff.1 h
    cases evalAll_det hD h0 a1
    rcases h3 with ⟨rfl, h5, v, w, kv, kw, e, rfl, h6, h7, h8⟩ | ⟨h5, rfl, rfl, v, kq, e, rfl, h6⟩ | ⟨rfl, h5, v, kq, e, rfl, h6⟩
    · obtain _ | ⟨x, _ | ⟨y, _ | ⟨_, _⟩⟩⟩ := vs
      · cases e
      · cases e
      · simp only [List.map_cons, List.map_nil, List.cons.injEq, and_true] at e
        obtain ⟨rfl, rfl⟩ := e
        obtain _ | ⟨r, _ | ⟨r', rs⟩⟩ := rs
        · cases h1
        · cases h1 with | cons _ h => cases h
        · cases rs with
          | cons => cases h1 with | cons _ h => cases h with | cons _ h => cases h
          | nil =>
            have h1' := h1
            cases h1 with
            | cons c1 h1 =>
              cases h1 with
              | cons c2 _ =>
                have hr := hl r (by simp)
                have hr' := hl r' (by simp)
                obtain ⟨kv', b1⟩ := (kinds_nth (k := 0) (by omega) c1.2 x.loc).2.2 ⟨_, h6⟩
                obtain ⟨kw', b2⟩ := (kinds_nth (k := 0) (by omega) c2.2 y.loc).1.2 ⟨_, h7⟩
                exact ⟨_, nonGate_iff.2 ⟨_, _, _, _, rfl, h1', h2, .inl ⟨rfl, h5, _, _, _, _, rfl, rfl, b1, b2,
                  (he x (by simp)).trans (he y (by simp)).symm⟩⟩⟩
      · cases e
    · obtain _ | ⟨x, _ | ⟨_, _⟩⟩ := vs
      · cases e
      · simp only [List.map_cons, List.map_nil, List.cons.injEq, and_true] at e
        subst e
        obtain _ | ⟨r, _ | ⟨_, _⟩⟩ := rs
        · cases h1
        · have h1' := h1
          cases h1 with
          | cons c1 _ =>
            have hr := hl r (by simp)
            obtain ⟨kv', b1⟩ := (kinds_nth (k := 0) (by omega) c1.2 x.loc).1.2 ⟨_, h6⟩
            exact ⟨_, nonGate_iff.2 ⟨_, _, _, _, rfl, h1', h2, .inr (.inl ⟨h5, rfl, rfl, _, _, rfl, rfl, b1⟩)⟩⟩
        · cases h1 with | cons _ h => cases h
      · cases e
    · obtain _ | ⟨x, _ | ⟨_, _⟩⟩ := vs
      · cases e
      · simp only [List.map_cons, List.map_nil, List.cons.injEq, and_true] at e
        subst e
        obtain _ | ⟨r, _ | ⟨_, _⟩⟩ := rs
        · cases h1
        · have h1' := h1
          cases h1 with
          | cons c1 _ =>
            have hr := hl r (by simp)
            obtain ⟨kv', b1⟩ := (kinds_nth (k := 0) (by omega) c1.2 x.loc).1.2 ⟨_, h6⟩
            exact ⟨_, nonGate_iff.2 ⟨_, _, _, _, rfl, h1', h2, .inr (.inr ⟨rfl, h5, _, _, rfl, rfl, b1⟩)⟩⟩
        · cases h1 with | cons _ h => cases h
      · cases e

end Qasm.Each
