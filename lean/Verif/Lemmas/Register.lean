import Verif.Spec.Register
import Verif.Lemmas.Accept
/-!
# Helper lemmas: programs with larger registers
-/

namespace Qasm

open Spec Sem

attribute [local irreducible] defaultInstrs defaultFns defaultVars

variable {F : Type} {fo : FloatOps F} {size : Str → Option Int64}

/-- What `NoSmaller` says about the declarations so far. -/
def Growing (size : Str → Option Int64) (D : List VarLink) : Prop :=
  ∀ x ∈ D, x.typ.size.toInt ≤ (resizeLink size x).typ.size.toInt ∧
    (size x.name ≠ none → x.typ.kind = .qubitArray ∨ x.typ.kind = .bitArray)

theorem resizeNode_const (c : Const F) : resizeNode size c.node = c.node := by cases c <;> rfl

theorem resizeLink_kind (x : VarLink) : (resizeLink size x).typ.kind = x.typ.kind := by
  simp only [resizeLink, resizeTy]
  split <;> rfl

theorem resizeNode_kind (n : ValueNode F) : kindOf (resizeNode size n) = kindOf n := by
  cases n with
  | indexRef v is =>
    cases is with
    | nil => exact congrArg some (resizeLink_kind v)
    | cons i is =>
      cases is with
      | nil => exact congrArg elementKind (resizeLink_kind v)
      | cons j is => exact congrArg some (resizeLink_kind v)
  | variableRef v => exact congrArg some (resizeLink_kind v)
  | _ => rfl

mutual
theorem eval_resize {D : List VarLink} (hD : Growing size D) : {e : Expr F} → {n : ValueNode F} → Eval fo D e n →
    Eval fo (D.map (resizeLink size)) e (resizeNode size n)
  | _, _, .boolLit l b => .boolLit l b
  | _, _, .intLit l i => .intLit l i
  | _, _, .floatLit l f => .floatLit l f
  | _, _, .ident h => by
    refine .ident ?_
    cases h with
    | const h => rw [resizeNode_const]; exact .const h
    | var h1 h2 h3 => exact .var h1 (List.mem_map_of_mem h2) h3
  | _, _, .index (x := x) h1 h2 h3 h4 => by
    refine .index (eval_resize hD h1) ?_ (evalIndices_resize hD h3) ?_
    · rw [resizeLink_kind]; exact h2
    · intro i hi
      have hx : x ∈ D := by
        generalize hn : ValueNode.variableRef x = n at h1
        cases h1 with
        | ident h =>
          cases h with
          | @const c _ => cases c <;> cases hn
          | var _ h _ => cases hn; exact h
        | boolLit => cases hn
        | intLit => cases hn
        | floatLit => cases hn
        | index => cases hn
        | @call _ _ _ _ r => cases r <;> cases hn
        | @un _ _ _ _ r => cases r <;> cases hn
        | @bin _ _ _ _ _ _ r => cases r <;> cases hn
        | @tern _ _ _ _ _ _ _ r => cases r <;> cases hn
      have h5 := h4 i hi
      have h6 := (hD x hx).1
      omega
  | _, _, .call h1 h2 => by
    rw [resizeNode_const]
    exact .call (evalConsts_resize hD h1) h2
  | _, _, .un h1 h2 => by
    have h1 := eval_resize hD h1
    rw [resizeNode_const] at h1 ⊢
    exact .un h1 h2
  | _, _, .bin h1 h2 h => by
    have h1 := eval_resize hD h1
    have h2 := eval_resize hD h2
    rw [resizeNode_const] at h1 h2 ⊢
    exact .bin h1 h2 h
  | _, _, .tern h1 h2 h3 h => by
    have h1 := eval_resize hD h1
    have h2 := eval_resize hD h2
    have h3 := eval_resize hD h3
    rw [resizeNode_const] at h1 h2 h3 ⊢
    exact .tern h1 h2 h3 h
theorem evalConsts_resize {D : List VarLink} (hD : Growing size D) : {es : List (Expr F)} → {cs : List (Const F)} →
    EvalConsts fo D es cs → EvalConsts fo (D.map (resizeLink size)) es cs
  | _, _, .nil => .nil
  | _, _, .cons h1 h2 => by
    have h1 := eval_resize hD h1
    rw [resizeNode_const] at h1
    exact .cons h1 (evalConsts_resize hD h2)
theorem evalIndices_resize {D : List VarLink} (hD : Growing size D) : {is : List (IndexEntry F)} → {ns : List (Int64 × Option Loc)} →
    EvalIndices fo D is ns → EvalIndices fo (D.map (resizeLink size)) is ns
  | _, _, .nil => .nil
  | _, _, .cons h1 h2 => .cons (evalEntry_resize hD h1) (evalIndices_resize hD h2)
theorem evalEntry_resize {D : List VarLink} (hD : Growing size D) : {i : IndexEntry F} → {ns : List (Int64 × Option Loc)} →
    EvalEntry fo D i ns → EvalEntry fo (D.map (resizeLink size)) i ns
  | _, _, .item h1 h2 => by
    have h1 := eval_resize hD h1
    rw [resizeNode_const] at h1
    exact .item h1 h2
  | _, _, .range h1 h2 h3 h4 h5 => by
    have h1 := eval_resize hD h1
    have h3 := eval_resize hD h3
    rw [resizeNode_const] at h1 h3
    exact .range h1 h2 h3 h4 h5
end

theorem evalAll_resize {D : List VarLink} (hD : Growing size D) {es : List (Expr F)} {vs : List (Value F)} (h : EvalAll fo D es vs) :
    EvalAll fo (D.map (resizeLink size)) es (vs.map (resizeValue size)) := by
  induction h with
  | nil => exact .nil
  | cons h _ ih => exact .cons ⟨h.1, eval_resize hD h.2⟩ ih

theorem evalParams_resize {D : List VarLink} (hD : Growing size D) {es : List (Expr F)} {ks : List Kind} {vs : List (Value F)}
    (h : EvalParams fo D es ks vs) :
    EvalParams fo (D.map (resizeLink size)) es ks vs ∧ vs.map (resizeValue size) = vs := by
  induction h with
  | nil => exact ⟨.nil, rfl⟩
  | @cons e es k ks vs c c' h1 h2 _ ih =>
    have h1 := eval_resize (size := size) hD h1
    rw [resizeNode_const] at h1
    refine ⟨.cons h1 h2 ih.1, ?_⟩
    rw [List.map_cons, ih.2, resizeValue, resizeNode_const]

theorem values_resize {D : List VarLink} (hD : Growing size D) {es : List (Expr F)} {vs : List (Value F)}
    (h : Forall2 (fun e v => v.loc = none ∧ Eval fo D e v.node) es vs) :
    Forall2 (fun e v => v.loc = none ∧ Eval fo (D.map (resizeLink size)) e v.node) es (vs.map (resizeValue size)) := by
  induction h with
  | nil => exact .nil
  | cons h _ ih => exact .cons ⟨h.1, eval_resize hD h.2⟩ ih

theorem evalAnnotations_resize {D : List VarLink} (hD : Growing size D) {as : List (AnnotationData F)} {ss : List (SAnnotation F)}
    (h : EvalAnnotations fo D as ss) : EvalAnnotations fo (D.map (resizeLink size)) as (ss.map (resizeSAnnotation size)) := by
  induction h with
  | nil => exact .nil
  | cons h _ ih =>
    refine .cons ⟨h.1, h.2.1, h.2.2.1, ?_⟩ ih
    have h4 := h.2.2.2
    show Forall2 _ _ (List.map _ _)
    clear h ih
    exact values_resize hD h4

theorem gateOk_resize {D : List VarLink} (hD : Growing size D) {g : Gate F} {n : Nat} {s : SGate F} (h : GateOk fo D g n s) :
    GateOk fo (D.map (resizeLink size)) g n (resizeSGate size s) := by
  induction h with
  | named h1 h2 h3 =>
    have h2 := evalParams_resize hD h2
    simp only [resizeSGate, h2.2]
    exact .named h1 h2.1 (evalAnnotations_resize hD h3)
  | inv _ h ih => exact .inv ih (evalAnnotations_resize hD h)
  | pow _ h2 h ih =>
    have h2 := evalParams_resize hD h2
    simp only [resizeSGate, h2.2]
    exact .pow ih h2.1 (evalAnnotations_resize hD h)
  | ctrl _ h ih => exact .ctrl ih (evalAnnotations_resize hD h)

/-- A whole variable can only be written as its name. -/
theorem eval_whole {D : List VarLink} {e : Expr F} {x : VarLink} (h1 : Eval fo D e (.variableRef x)) :
    x ∈ D ∧ ∃ l, e = .ident l x.name := by
  generalize hn : ValueNode.variableRef x = n at h1
  cases h1 with
  | ident h =>
    cases h with
    | @const c _ => cases c <;> cases hn
    | var _ h hx => cases hn; exact ⟨h, _, by rw [hx]⟩
  | boolLit => cases hn
  | intLit => cases hn
  | floatLit => cases hn
  | index => cases hn
  | @call _ _ _ _ r => cases r <;> cases hn
  | @un _ _ _ _ r => cases r <;> cases hn
  | @bin _ _ _ _ _ _ r => cases r <;> cases hn
  | @tern _ _ _ _ _ _ _ r => cases r <;> cases hn

/-- A value no part of which gets a new size as a whole. -/
theorem elements_kept {D : List VarLink} {e : Expr F} {n : ValueNode F} (h : Eval fo D e n) (hs : ∀ l x, e = .ident l x → size x = none) :
    elements (resizeNode size n) = elements n := by
  cases n with
  | variableRef x =>
    obtain ⟨-, l, hl⟩ := eval_whole h
    have := hs l x.name hl
    simp only [resizeNode, elements, resizeLink, resizeTy, this, Option.getD_none]
    split <;> rfl
  | _ => rfl

/-- A whole register that gets a new size. -/
theorem elements_new {D : List VarLink} (hD : Growing size D) {l : Option Loc} {y : Str} {n : ValueNode F} {k : Kind} {m : Int64}
    (h : Eval fo D (.ident l y) n) (hk : kindOf n = some k) (hq : k = .qubit ∨ k = .qubitArray ∨ k = .bit ∨ k = .bitArray)
    (hm : size y = some m) : elements (resizeNode size n) = m.toInt.toNat := by
  cases n with
  | variableRef x =>
    obtain ⟨hx, l', hl⟩ := eval_whole h
    cases hl
    have := (hD x hx).2 (by rw [hm]; simp)
    simp [resizeNode, elements, resizeLink, resizeTy, hm, this]
  | indexRef v is =>
    cases h with
    | ident h =>
      generalize hn : ValueNode.indexRef v is = n at h
      cases h with
      | @const c _ => cases c <;> cases hn
      | var => cases hn
  | constBool => cases hk; simp at hq
  | constInt => cases hk; simp at hq
  | constFloat => cases hk; simp at hq

theorem elements_same {D : List VarLink} (hD : Growing size D) {es : List (Expr F)}
    (hc : (∀ l x, .ident l x ∈ es → size x = none) ∨ ∃ m, ∀ e ∈ es, ∃ l x, e = .ident l x ∧ size x = some m)
    {e e' : Expr F} (he : e ∈ es) (he' : e' ∈ es) {n n' : ValueNode F} (h : Eval fo D e n) (h' : Eval fo D e' n') {k k' : Kind}
    (hk : kindOf n = some k) (hq : k = .qubit ∨ k = .qubitArray ∨ k = .bit ∨ k = .bitArray)
    (hk' : kindOf n' = some k') (hq' : k' = .qubit ∨ k' = .qubitArray ∨ k' = .bit ∨ k' = .bitArray)
    (heq : elements n = elements n') : elements (resizeNode size n) = elements (resizeNode size n') := by
  rcases hc with hc | ⟨m, hc⟩
  · rw [elements_kept h fun l x hx => hc l x (hx ▸ he), elements_kept h' fun l x hx => hc l x (hx ▸ he'), heq]
  · obtain ⟨l, x, rfl, hx⟩ := hc e he
    obtain ⟨l', x', rfl, hx'⟩ := hc e' he'
    rw [elements_new hD h hk hq hx, elements_new hD h' hk' hq' hx']

theorem instrOk_resize {D : List VarLink} (hD : Growing size D) {s : Stmt F} {t : SStatement F} (hc : Compatible size s)
    (h : InstrOk fo D s t) : InstrOk fo (D.map (resizeLink size)) s (resizeSStatement size t) := by
  cases h with
  | @gate l as g es n s vs ks sas h1 h2 h3 h4 h5 h6 =>
    refine .gate (gateOk_resize hD h1) (evalAll_resize hD h2) (by simpa using h3) ?_ ?_ (evalAnnotations_resize hD h6)
    · clear h2 h3 h5
      induction h4 with
      | nil => exact .nil
      | cons h _ ih => exact .cons ⟨(resizeNode_kind _).trans h.1, h.2⟩ ih
    · have key : ∀ v ∈ vs, ∃ e ∈ es, Eval fo D e v.node ∧ ∃ k, kindOf v.node = some k ∧ (k = .qubit ∨ k = .qubitArray ∨ k = .bit ∨ k = .bitArray) := by
        intro v hv
        have a1 : ∃ e ∈ es, Eval fo D e v.node := by
          clear h3 h4 h5 hc
          induction h2 with
          | nil => cases hv
          | cons h _ ih =>
            rcases List.mem_cons.1 hv with rfl | hv
            · exact ⟨_, List.mem_cons_self, h.2⟩
            · obtain ⟨e, he, h⟩ := ih hv
              exact ⟨e, List.mem_cons_of_mem _ he, h⟩
        have a2 : ∃ k, kindOf v.node = some k ∧ (k = .qubit ∨ k = .qubitArray ∨ k = .bit ∨ k = .bitArray) := by
          clear h2 h3 h5 a1
          induction h4 with
          | nil => cases hv
          | @cons _ k _ _ h _ ih =>
            rcases List.mem_cons.1 hv with rfl | hv
            · exact ⟨k, h.1, h.2.elim .inl fun h => .inr (.inl h)⟩
            · exact ih hv
        obtain ⟨e, he, a1⟩ := a1
        exact ⟨e, he, a1, a2⟩
      intro v' hv' w' hw'
      obtain ⟨v, hv, rfl⟩ := List.mem_map.1 hv'
      obtain ⟨w, hw, rfl⟩ := List.mem_map.1 hw'
      obtain ⟨e, he, k1, k, k2, k3⟩ := key v hv
      obtain ⟨e', he', m1, k', m2, m3⟩ := key w hw
      exact elements_same hD hc he he' k1 m1 k2 k3 m2 m3 (h5 v hv w hw)
  | @measure l as b q ps n m kn km vs sas h1 h2 h3 h4 h5 h6 h7 =>
    have hv : vs.map (resizeValue size) = vs := by
      rcases h6 with h | h
      · exact (evalParams_resize hD h).2
      · exact (evalParams_resize hD h).2
    simp only [resizeSStatement, hv]
    refine .measure (eval_resize hD h1) ⟨(resizeNode_kind _).trans h2.1, h2.2⟩ (eval_resize hD h3) ⟨(resizeNode_kind _).trans h4.1, h4.2⟩ ?_
      ?_ (evalAnnotations_resize hD h7)
    · exact elements_same hD hc (e := b) (e' := q) (by simp [operandExprs]) (by simp [operandExprs]) h1 h3 h2.1
        (h2.2.elim (fun h => .inr (.inr (.inl h))) fun h => .inr (.inr (.inr h))) h4.1 (h4.2.elim .inl fun h => .inr (.inl h)) h5
    · exact h6.imp (fun h => (evalParams_resize hD h).1) fun h => (evalParams_resize hD h).1
  | simple h1 h2 h3 h4 =>
    exact .simple h1 (eval_resize hD h2) ⟨(resizeNode_kind _).trans h3.1, h3.2⟩ (evalAnnotations_resize hD h4)
  | wait h1 h2 h3 h4 =>
    have h3 := evalParams_resize hD h3
    simp only [resizeSStatement, h3.2]
    exact .wait (eval_resize hD h1) ⟨(resizeNode_kind _).trans h2.1, h2.2⟩ h3.1 (evalAnnotations_resize hD h4)
  | asm h => exact .asm (evalAnnotations_resize hD h)

theorem enlargeStmt_instr {s : Stmt F} {D : List VarLink} {t : SStatement F} (h : InstrOk fo D s t) : enlargeStmt size s = s := by
  cases h <;> rfl

theorem exec_resize {D : List VarLink} {ss : List (Stmt F)} {vs : List (SVariable F)} {ts : List (SStatement F)} (h : Exec fo D ss vs ts) :
    Growing size D → (∀ s ∈ ss, NoSmaller size s ∧ Compatible size s) →
    Exec fo (D.map (resizeLink size)) (ss.map (enlargeStmt size)) (vs.map (resizeSVariable size)) (ts.map (resizeSStatement size)) := by
  induction h with
  | nil => intro _ _; exact .nil
  | instr h1 h2 ih =>
    intro hD hs
    have h3 := instrOk_resize hD (hs _ List.mem_cons_self).2 h1
    rw [List.map_cons, enlargeStmt_instr h1]
    exact .instr h3 (ih hD fun s h => hs s (List.mem_cons_of_mem _ h))
  | @decl D l as name typ ss t sas vs ts h1 h2 h3 h4 ih =>
    intro hD hs
    have hg := (hs _ List.mem_cons_self).1
    have hf : Fresh (D.map (resizeLink size)) name.name := by
      refine ⟨h2.1, fun x hx => ?_⟩
      obtain ⟨y, hy, rfl⟩ := List.mem_map.1 hx
      exact h2.2 y hy
    have key : ∃ typ', enlargeStmt size (.var l as name typ) = .var l as name typ' ∧ TypeOk typ' (resizeTy size name.name t) ∧
        t.size.toInt ≤ (resizeTy size name.name t).size.toInt ∧ (size name.name ≠ none → t.kind = .qubitArray ∨ t.kind = .bitArray) := by
      simp only [NoSmaller] at hg
      cases h1 with
      | qubit =>
        refine ⟨_, rfl, .qubit, Int.le_refl _, fun h => ?_⟩
        cases hm : size name.name with
        | none => exact absurd hm h
        | some m => obtain ⟨n, hn, -⟩ := hg m hm; cases hn
      | bit =>
        refine ⟨_, rfl, .bit, Int.le_refl _, fun h => ?_⟩
        cases hm : size name.name with
        | none => exact absurd hm h
        | some m => obtain ⟨n, hn, -⟩ := hg m hm; cases hn
      | @qubits n k h =>
        refine ⟨_, rfl, ?_⟩
        simp only [resizeTy]
        cases hm : size name.name with
        | none => exact ⟨.qubits h, Int.le_refl _, fun h => absurd rfl h⟩
        | some m =>
          obtain ⟨n', hn, hl⟩ := hg m hm
          cases hn
          exact ⟨.qubits (by simpa using Int.lt_of_lt_of_le h hl), by simpa using hl, fun _ => by simp⟩
      | @bits n k h =>
        refine ⟨_, rfl, ?_⟩
        simp only [resizeTy]
        cases hm : size name.name with
        | none => exact ⟨.bits h, Int.le_refl _, fun h => absurd rfl h⟩
        | some m =>
          obtain ⟨n', hn, hl⟩ := hg m hm
          cases hn
          exact ⟨.bits (by simpa using Int.lt_of_lt_of_le h hl), by simpa using hl, fun _ => by simp⟩
    obtain ⟨typ', e1, e2, e3, e4⟩ := key
    have hD' : Growing size (⟨D.length, name.name, t⟩ :: D) := by
      intro x hx
      rcases List.mem_cons.1 hx with rfl | hx
      · exact ⟨e3, e4⟩
      · exact hD x hx
    have := ih hD' fun s h => hs s (List.mem_cons_of_mem _ h)
    rw [List.map_cons, e1]
    have h5 := Exec.decl (l := l) e2 hf (evalAnnotations_resize hD h3) (by simpa [resizeLink] using this)
    simpa [resizeSVariable] using h5

theorem resize_loc (t : SStatement F) : (resizeSStatement size t).loc = t.loc := by cases t <;> rfl

/-- The location of a block is determined by those of its statements. -/
theorem blockAfter_locs {f : SStatement F → SStatement F} (hf : ∀ t, (f t).loc = t.loc) (ts : List (SStatement F)) :
    (blockAfter (⟨[], none⟩ : SBlock F) (ts.map f)).loc = (blockAfter (⟨[], none⟩ : SBlock F) ts).loc := by
  have : ∀ (b b' : SBlock F), b.loc = b'.loc → (blockAfter b (ts.map f)).loc = (blockAfter b' ts).loc := by
    induction ts with
    | nil => intro b b' h; exact h
    | cons t ts ih =>
      intro b b' h
      exact ih _ _ (by simp only [addTo, h, hf])
  exact this _ _ rfl

end Qasm
