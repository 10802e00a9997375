import Verif.Spec.Join
import Verif.Lemmas.Operand
import Verif.Lemmas.Names
/-!
# Validity under other identities, and of joined programs
-/

namespace Qasm.Join

open Spec

variable {F : Type} {fo : FloatOps F} {f : Nat → Nat} {N : Str → Prop} {D D' : List VarLink}

/-- The variables of `D` whose names matter are in `D'` under other identities. -/
def Fits (f : Nat → Nat) (N : Str → Prop) (D D' : List VarLink) : Prop := ∀ x ∈ D, N x.name → moveLink f x ∈ D'

theorem move_const (f : Nat → Nat) (c : Const F) : moveNode f c.node = c.node := by cases c <;> rfl

mutual
theorem eval_move (hf : Fits f N D D') :
    {e : Expr F} → {n : ValueNode F} → Eval fo D e n → (∀ m ∈ names e, N m) → Eval fo D' e (moveNode f n)
  | _, _, .boolLit l b, _ => .boolLit l b
  | _, _, .intLit l i, _ => .intLit l i
  | _, _, .floatLit l x, _ => .floatLit l x
  | _, _, .ident (.const h), _ => by rw [move_const]; exact .ident (.const h)
  | _, _, .ident (.var h1 h2 h3), hn => .ident (.var h1 (hf _ h2 (h3 ▸ hn _ (by simp [names]))) h3)
  | _, _, .index h1 h2 h3 h4, hn =>
    .index (x := moveLink f _) (eval_move hf h1 fun m hm => hn m (by simp [names, hm])) h2
      (evalIndices_move hf h3 fun m hm => hn m (by simp [names, hm])) h4
  | _, _, .call h1 h2, hn => by rw [move_const]; exact .call (evalConsts_move hf h1 hn) h2
  | _, _, .un h1 h2, hn => by
    have := eval_move hf h1 hn
    rw [move_const] at this ⊢
    exact .un this h2
  | _, _, .bin h1 h2 h3, hn => by
    have g1 := eval_move hf h1 fun m hm => hn m (by simp [names, hm])
    have g2 := eval_move hf h2 fun m hm => hn m (by simp [names, hm])
    rw [move_const] at g1 g2 ⊢
    exact .bin g1 g2 h3
  | _, _, .tern h1 h2 h3 h4, hn => by
    have g1 := eval_move hf h1 fun m hm => hn m (by simp [names, hm])
    have g2 := eval_move hf h2 fun m hm => hn m (by simp [names, hm])
    have g3 := eval_move hf h3 fun m hm => hn m (by simp [names, hm])
    rw [move_const] at g1 g2 g3 ⊢
    exact .tern g1 g2 g3 h4
theorem evalConsts_move (hf : Fits f N D D') :
    {es : List (Expr F)} → {cs : List (Const F)} → EvalConsts fo D es cs → (∀ m ∈ namesList es, N m) → EvalConsts fo D' es cs
  | _, _, .nil, _ => .nil
  | _, _, .cons h1 h2, hn => by
    have g := eval_move hf h1 fun m hm => hn m (by simp [namesList, hm])
    rw [move_const] at g
    exact .cons g (evalConsts_move hf h2 fun m hm => hn m (by simp [namesList, hm]))
theorem evalIndices_move (hf : Fits f N D D') :
    {xs : List (IndexEntry F)} → {is : List (Int64 × Option Loc)} → EvalIndices fo D xs is → (∀ m ∈ namesEntries xs, N m) →
      EvalIndices fo D' xs is
  | _, _, .nil, _ => .nil
  | _, _, .cons (x := .item _ _) h1 h2, hn =>
    .cons (evalEntry_move hf h1 fun m hm => hn m (by simp [namesEntries] at hm ⊢; simp [hm]))
      (evalIndices_move hf h2 fun m hm => hn m (by simp [namesEntries, hm]))
  | _, _, .cons (x := .range _ _ _) h1 h2, hn =>
    .cons (evalEntry_move hf h1 fun m hm => hn m (by simp [namesEntries] at hm ⊢; rcases hm with h | h <;> simp [h]))
      (evalIndices_move hf h2 fun m hm => hn m (by simp [namesEntries, hm]))
theorem evalEntry_move (hf : Fits f N D D') :
    {x : IndexEntry F} → {is : List (Int64 × Option Loc)} → EvalEntry fo D x is → (∀ m ∈ namesEntries [x], N m) → EvalEntry fo D' x is
  | _, _, .item h1 h2, hn => by
    have g := eval_move hf h1 fun m hm => hn m (by simp [namesEntries, hm])
    rw [move_const] at g
    exact .item g h2
  | _, _, .range h1 h2 h3 h4 h5, hn => by
    have g1 := eval_move hf h1 fun m hm => hn m (by simp [namesEntries, hm])
    have g2 := eval_move hf h3 fun m hm => hn m (by simp [namesEntries, hm])
    rw [move_const] at g1 g2
    exact .range g1 h2 g2 h4 h5
end

theorem evalAll_move (hf : Fits f N D D') {es : List (Expr F)} {vs : List (Value F)} (h : EvalAll fo D es vs)
    (hn : ∀ m ∈ namesList es, N m) : EvalAll fo D' es (vs.map (moveValue f)) := by
  induction h with
  | nil => exact .nil
  | cons h1 _ ih =>
    exact .cons ⟨h1.1, eval_move hf h1.2 fun m hm => hn m (by simp [namesList, hm])⟩ (ih fun m hm => hn m (by simp [namesList, hm]))

theorem evalParams_move (hf : Fits f N D D') {es : List (Expr F)} {ks : List Kind} {vs : List (Value F)} (h : EvalParams fo D es ks vs)
    (hn : ∀ m ∈ namesList es, N m) : EvalParams fo D' es ks (vs.map (moveValue f)) := by
  induction h with
  | nil => exact .nil
  | cons h1 h2 _ ih =>
    have g := eval_move hf h1 fun m hm => hn m (by simp [namesList, hm])
    rw [move_const] at g
    simp only [List.map_cons, moveValue, move_const]
    exact .cons g h2 (ih fun m hm => hn m (by simp [namesList, hm]))

theorem evalAnnotations_move (hf : Fits f N D D') {as : List (AnnotationData F)} {ss : List (SAnnotation F)} (h : EvalAnnotations fo D as ss)
    (hn : ∀ m ∈ namesAnnotations as, N m) : EvalAnnotations fo D' as (ss.map (moveSAnnotation f)) := by
  induction h with
  | nil => exact .nil
  | @cons a s _ _ h1 _ ih =>
    obtain ⟨e1, e2, e3, h1⟩ := h1
    refine .cons ⟨e1, e2, e3, ?_⟩ (ih fun m hm => hn m (by simp [namesAnnotations, hm]))
    have hn' : ∀ m ∈ namesList a.operands, N m := fun m hm => hn m (by simp [namesAnnotations, hm])
    simp only [moveSAnnotation]
    generalize a.operands = es at h1 hn'
    generalize s.operands = vs at h1
    induction h1 with
    | nil => exact .nil
    | cons h2 _ ih =>
      exact .cons ⟨h2.1, eval_move hf h2.2 fun m hm => hn' m (by simp [namesList, hm])⟩ (ih fun m hm => hn' m (by simp [namesList, hm]))

theorem gateOk_move (hf : Fits f N D D') {g : Gate F} {n : Nat} {s : SGate F} (h : GateOk fo D g n s) (hn : ∀ m ∈ mentionedGate g, N m) :
    GateOk fo D' g n (moveSGate f s) := by
  induction h with
  | named h1 h2 h3 =>
    exact .named h1 (evalParams_move hf h2 fun m hm => hn m (by simp [mentionedGate, hm]))
      (evalAnnotations_move hf h3 fun m hm => hn m (by simp [mentionedGate, hm]))
  | inv _ h3 ih =>
    exact .inv (ih fun m hm => hn m (by simp [mentionedGate, hm])) (evalAnnotations_move hf h3 fun m hm => hn m (by simp [mentionedGate, hm]))
  | pow _ h2 h3 ih =>
    exact .pow (ih fun m hm => hn m (by simp [mentionedGate, hm])) (evalParams_move hf h2 fun m hm => hn m (by simp [mentionedGate, hm]))
      (evalAnnotations_move hf h3 fun m hm => hn m (by simp [mentionedGate, hm]))
  | ctrl _ h3 ih =>
    exact .ctrl (ih fun m hm => hn m (by simp [mentionedGate, hm])) (evalAnnotations_move hf h3 fun m hm => hn m (by simp [mentionedGate, hm]))

theorem kindOf_moved (f : Nat → Nat) (n : ValueNode F) : kindOf (moveNode f n) = kindOf n := by
  cases n with
  | indexRef x is => match is with
    | [] => rfl
    | [_] => rfl
    | _ :: _ :: _ => rfl
  | _ => rfl

theorem elements_moved (f : Nat → Nat) (n : ValueNode F) : elements (moveNode f n) = elements n := by cases n <;> rfl

theorem isQubits_moved {n : ValueNode F} {k : Kind} (h : IsQubits n k) : IsQubits (moveNode f n) k := ⟨(kindOf_moved f n).trans h.1, h.2⟩

theorem isBits_moved {n : ValueNode F} {k : Kind} (h : IsBits n k) : IsBits (moveNode f n) k := ⟨(kindOf_moved f n).trans h.1, h.2⟩

theorem instrOk_move (hf : Fits f N D D') {s : Stmt F} {t : SStatement F} (h : InstrOk fo D s t) (hn : ∀ m ∈ mentioned s, N m) :
    InstrOk fo D' s (moveSStatement f t) := by
  cases h with
  | gate h1 h2 h3 h4 h5 h6 =>
    refine .gate (gateOk_move hf h1 fun m hm => hn m (by simp [mentioned, hm])) (evalAll_move hf h2 fun m hm => hn m (by simp [mentioned, hm]))
      (by simpa using h3) ?_ ?_ (evalAnnotations_move hf h6 fun m hm => hn m (by simp [mentioned, hm]))
    · clear h2 h3 h5
      induction h4 with
      | nil => exact .nil
      | cons h _ ih => exact .cons (isQubits_moved h) ih
    · intro v hv w hw
      obtain ⟨v', hv', rfl⟩ := List.mem_map.1 hv
      obtain ⟨w', hw', rfl⟩ := List.mem_map.1 hw
      simp only [moveValue, elements_moved]
      exact h5 v' hv' w' hw'
  | measure h1 h2 h3 h4 h5 h6 h7 =>
    refine .measure (eval_move hf h1 fun m hm => hn m (by simp [mentioned, namesList, hm])) (isBits_moved h2)
      (eval_move hf h3 fun m hm => hn m (by simp [mentioned, namesList, hm])) (isQubits_moved h4) (by simpa [elements_moved] using h5)
      (h6.imp (fun h => evalParams_move hf h fun m hm => hn m (by simp [mentioned, hm]))
        fun h => evalParams_move hf h fun m hm => hn m (by simp [mentioned, hm]))
      (evalAnnotations_move hf h7 fun m hm => hn m (by simp [mentioned, hm]))
  | simple h1 h2 h3 h4 =>
    exact .simple h1 (eval_move hf h2 fun m hm => hn m (by simp [mentioned, namesList, hm])) (isQubits_moved h3)
      (evalAnnotations_move hf h4 fun m hm => hn m (by simp [mentioned, hm]))
  | wait h1 h2 h3 h4 =>
    exact .wait (eval_move hf h1 fun m hm => hn m (by simp [mentioned, namesList, hm])) (isQubits_moved h2)
      (evalParams_move hf h3 fun m hm => hn m (by simp [mentioned, hm]))
      (evalAnnotations_move hf h4 fun m hm => hn m (by simp [mentioned, hm]))
  | asm h => exact .asm (evalAnnotations_move hf h fun m hm => hn m (by simp [mentioned, hm]))

theorem exec_cons {s : Stmt F} {ss : List (Stmt F)} {vs : List (SVariable F)} {ts : List (SStatement F)} (h : Exec fo D (s :: ss) vs ts) :
    (∃ l as n typ t sas vs', s = .var l as n typ ∧ vs = ⟨D.length, n.name, t, sas, n.loc⟩ :: vs' ∧ TypeOk typ t ∧ Fresh D n.name ∧
      EvalAnnotations fo D as sas ∧ Exec fo (⟨D.length, n.name, t⟩ :: D) ss vs' ts) ∨
    (¬ IsDecl s ∧ ∃ t ts', ts = t :: ts' ∧ InstrOk fo D s t ∧ Exec fo D ss vs ts') := by
  cases h with
  | decl h1 h2 h3 h4 => exact .inl ⟨_, _, _, _, _, _, _, rfl, rfl, h1, h2, h3, h4⟩
  | instr h1 h2 => exact .inr ⟨by cases h1 <;> exact id, _, _, rfl, h1, h2⟩

variable {ι : Type} [DecidableEq ι]

theorem own_same (i : ι) (s : Stmt F) (ms : List (ι × Stmt F)) : own i ((i, s) :: ms) = s :: own i ms := by
  simp [own, part]

theorem own_other {i j : ι} (h : i ≠ j) (s : Stmt F) (ms : List (ι × Stmt F)) : own j ((i, s) :: ms) = own j ms := by
  simp [own, part, h]

theorem marks_instr (i : ι) {s : Stmt F} (h : ¬ IsDecl s) (ms : List (ι × Stmt F)) :
    declarationMarks ((i, s) :: ms) = declarationMarks ms ∧ instructionMarks ((i, s) :: ms) = i :: instructionMarks ms := by
  cases s with
  | var => exact absurd trivial h
  | _ => exact ⟨rfl, rfl⟩

theorem mem_own {i : ι} {s : Stmt F} {ms : List (ι × Stmt F)} : s ∈ own i ms ↔ (i, s) ∈ ms := by
  induction ms with
  | nil => simp [own, part]
  | cons m ms ih =>
    obtain ⟨j, t⟩ := m
    by_cases h : j = i
    · subst h
      rw [own_same]
      simp [ih]
    · rw [own_other h]
      simp only [ih, List.mem_cons, Prod.mk.injEq]
      constructor
      · exact .inr
      · rintro (⟨rfl, _⟩ | h')
        · exact absurd rfl h
        · exact h'

theorem exec_join (ms : List (ι × Stmt F)) : ∀ {Ds : ι → List VarLink} {D : List VarLink} {f : ι → Nat → Nat} {vs : ι → List (SVariable F)}
    {ts : ι → List (SStatement F)}, (∀ i, Exec fo (Ds i) (own i ms) (vs i) (ts i)) → (∀ i, Fits (f i) (fun _ => True) (Ds i) D) →
    (∀ i, ∀ x ∈ Ds i, x.uid < (Ds i).length) → (∀ x ∈ D, ∃ i, ∃ y ∈ Ds i, y.name = x.name) →
    (∀ i, ∀ y ∈ Ds i, ∀ s ∈ ms, s.1 ≠ i → ¬ DeclaresName y.name s.2) → DifferentNames ms →
    ∃ (V : List (SVariable F)) (T : List (SStatement F)) (g : ι → Nat → Nat), Exec fo D (ms.map Prod.snd) V T ∧ V.length = (declarationMarks ms).length ∧ T.length = (instructionMarks ms).length ∧
      ∀ i, (∀ k, k < (Ds i).length → g i k = f i k) ∧ part i (declarationMarks ms) V = (vs i).map (moveSVariable (g i)) ∧
        part i (instructionMarks ms) T = (ts i).map (moveSStatement (g i)) := by
  induction ms with
  | nil =>
    intro Ds D f vs ts h _ _ _ _ _
    refine ⟨[], [], f, .nil, rfl, rfl, fun i => ?_⟩
    have := h i
    generalize vs i = a at this
    generalize ts i = b at this
    cases this
    exact ⟨fun _ _ => rfl, rfl, rfl⟩
  | cons m ms ih =>
    obtain ⟨i, s⟩ := m
    intro Ds D f vs ts h hfit huid hnames hdis hdiff
    have hi := h i
    rw [own_same] at hi
    have hdiff' : DifferentNames ms := fun a ha b hb => hdiff a (by simp [ha]) b (by simp [hb])
    rcases exec_cons hi with ⟨l, as, n, typ, t, sas, vs', rfl, e1, h1, h2, h3, h4⟩ | ⟨hd, t, ts', e1, h1, h2⟩
    · have hfresh : Fresh D n.name := by
        refine ⟨h2.1, fun x hx he => ?_⟩
        obtain ⟨j, y, hy, hyx⟩ := hnames x hx
        by_cases hj : j = i
        · subst hj
          exact h2.2 y hy (hyx.trans he)
        · exact hdis j y hy (i, .var l as n typ) (by simp) (fun e => hj e.symm) (by simp [DeclaresName, hyx, he])
      let Ds' : ι → List VarLink := fun j => if j = i then ⟨(Ds i).length, n.name, t⟩ :: Ds i else Ds j
      let f' : ι → Nat → Nat := fun j k => if j = i ∧ k = (Ds i).length then D.length else f j k
      let vs1 : ι → List (SVariable F) := fun j => if j = i then vs' else vs j
      have a1 : ∀ j, Exec fo (Ds' j) (own j ms) (vs1 j) (ts j) := by
        intro j
        by_cases hj : j = i
        · subst hj; simpa [Ds', vs1] using h4
        · have := h j
          rw [own_other (Ne.symm hj)] at this
          simpa [Ds', vs1, hj] using this
      have a2 : ∀ j, Fits (f' j) (fun _ => True) (Ds' j) (⟨D.length, n.name, t⟩ :: D) := by
        intro j x hx _
        by_cases hj : j = i
        · subst hj
          simp only [Ds', if_true] at hx
          rcases List.mem_cons.1 hx with rfl | hx
          · simp [moveLink, f']
          · have := huid j x hx
            have hne : x.uid ≠ (Ds j).length := by omega
            have := hfit j x hx trivial
            simp only [moveLink, f', hne, and_false, if_false]
            exact List.mem_cons_of_mem _ this
        · simp only [Ds', if_neg hj] at hx
          have := hfit j x hx trivial
          simp only [moveLink, f', hj, false_and, if_false]
          exact List.mem_cons_of_mem _ this
      have a3 : ∀ j, ∀ x ∈ Ds' j, x.uid < (Ds' j).length := by
        intro j x hx
        by_cases hj : j = i
        · subst hj
          simp only [Ds', if_true] at hx ⊢
          rcases List.mem_cons.1 hx with rfl | hx
          · simp
          · have := huid j x hx
            simp; omega
        · simp only [Ds', if_neg hj] at hx ⊢
          exact huid j x hx
      have a4 : ∀ x ∈ (⟨D.length, n.name, t⟩ :: D : List VarLink), ∃ i, ∃ y ∈ Ds' i, y.name = x.name := by
        intro x hx
        rcases List.mem_cons.1 hx with rfl | hx
        · exact ⟨i, ⟨(Ds i).length, n.name, t⟩, by simp [Ds'], rfl⟩
        · obtain ⟨j, y, hy, hyx⟩ := hnames x hx
          refine ⟨j, y, ?_, hyx⟩
          by_cases hj : j = i
          · subst hj; simp [Ds', hy]
          · simp [Ds', hj, hy]
      have a5 : ∀ j, ∀ y ∈ Ds' j, ∀ s ∈ ms, s.1 ≠ j → ¬ DeclaresName y.name s.2 := by
        intro j y hy s hs hne
        by_cases hj : j = i
        · subst hj
          simp only [Ds', if_true] at hy
          rcases List.mem_cons.1 hy with rfl | hy
          · exact hdiff (j, .var l as n typ) (by simp) s (by simp [hs]) (fun e => hne e.symm) n.name rfl
          · exact hdis j y hy s (by simp [hs]) hne
        · simp only [Ds', if_neg hj] at hy
          exact hdis j y hy s (by simp [hs]) hne
      obtain ⟨V, T, g, b1, b2, b3, b4⟩ := ih a1 a2 a3 a4 a5 hdiff'
      have hg : ∀ j k, k < (Ds j).length → g j k = f j k := by
        intro j k hk
        have := (b4 j).1 k (by
          by_cases hj : j = i
          · subst hj; simp [Ds']; omega
          · simpa [Ds', hj] using hk)
        rw [this]
        by_cases hj : j = i
        · subst hj
          have : k ≠ (Ds j).length := by omega
          simp [f', this]
        · simp [f', hj]
      have hgi : g i (Ds i).length = D.length := by
        have := (b4 i).1 (Ds i).length (by simp [Ds'])
        rw [this]; simp [f']
      have hfg : Fits (g i) (fun _ => True) (Ds i) D := by
        intro x hx _
        have := hfit i x hx trivial
        simp only [moveLink] at this ⊢
        rw [hg i x.uid (huid i x hx)]
        exact this
      refine ⟨⟨D.length, n.name, t, sas.map (moveSAnnotation (g i)), n.loc⟩ :: V, T, g,
        .decl h1 hfresh (evalAnnotations_move hfg h3 fun _ _ => trivial) b1, by simp [declarationMarks, b2], b3, fun j => ⟨hg j, ?_, ?_⟩⟩
      · by_cases hj : j = i
        · subst hj
          have := (b4 j).2.1
          simp only [vs1, if_true] at this
          rw [e1]
          simp [declarationMarks, part, this, moveSVariable, hgi]
        · have := (b4 j).2.1
          simp only [vs1, if_neg hj] at this
          simp [declarationMarks, part, Ne.symm hj, this]
      · exact (b4 j).2.2
    · let ts1 : ι → List (SStatement F) := fun j => if j = i then ts' else ts j
      have a1 : ∀ j, Exec fo (Ds j) (own j ms) (vs j) (ts1 j) := by
        intro j
        by_cases hj : j = i
        · subst hj; simpa [ts1] using h2
        · have := h j
          rw [own_other (Ne.symm hj)] at this
          simpa [ts1, hj] using this
      obtain ⟨V, T, g, b1, b2, b3, b4⟩ := ih a1 hfit huid hnames (fun j y hy s hs => hdis j y hy s (by simp [hs])) hdiff'
      have hfg : Fits (g i) (fun _ => True) (Ds i) D := by
        intro x hx _
        have := hfit i x hx trivial
        simp only [moveLink] at this ⊢
        rw [(b4 i).1 x.uid (huid i x hx)]
        exact this
      obtain ⟨m1, m2⟩ := marks_instr i hd ms
      refine ⟨V, moveSStatement (g i) t :: T, g, .instr (instrOk_move hfg h1 fun _ _ => trivial) b1, by rw [m1, b2], by simp [m2, b3],
        fun j => ⟨(b4 j).1, by rw [m1]; exact (b4 j).2.1, ?_⟩⟩
      rw [m2]
      by_cases hj : j = i
      · subst hj
        have := (b4 j).2.2
        simp only [ts1, if_true] at this
        simp [part, this, e1]
      · have := (b4 j).2.2
        simp only [ts1, if_neg hj] at this
        simp [part, Ne.symm hj, this]

theorem exec_split (i : ι) (ms : List (ι × Stmt F)) : ∀ {D Di : List VarLink} {g : Nat → Nat} {V : List (SVariable F)} {T : List (SStatement F)},
    Exec fo D (ms.map Prod.snd) V T → Fits g (fun m => ∃ s ∈ own i ms, m ∈ mentioned s) D Di → (∀ x ∈ D, x.uid < D.length) →
    (∀ y ∈ Di, ∃ x ∈ D, x.name = y.name) → Separate ms → ∃ vs ts, Exec fo Di (own i ms) vs ts := by
  induction ms with
  | nil => intro D Di g V T _ _ _ _ _; exact ⟨[], [], .nil⟩
  | cons m ms ih =>
    obtain ⟨j, s⟩ := m
    intro D Di g V T h hfit huid hnames hsep
    have hsep' : Separate ms := fun a ha b hb => hsep a (by simp [ha]) b (by simp [hb])
    have hsub : ∀ s' ∈ own i ms, s' ∈ own i ((j, s) :: ms) := fun s' h' => by
      rw [mem_own] at h' ⊢; simp [h']
    have hfit' : Fits g (fun m => ∃ s ∈ own i ms, m ∈ mentioned s) D Di := fun x hx ⟨s', h1, h2⟩ => hfit x hx ⟨s', hsub s' h1, h2⟩
    rcases exec_cons h with ⟨l, as, n, typ, t, sas, vs', rfl, e1, h1, h2, h3, h4⟩ | ⟨hd, t, ts', e1, h1, h2⟩
    · have huid' : ∀ x ∈ (⟨D.length, n.name, t⟩ :: D : List VarLink), x.uid < (⟨D.length, n.name, t⟩ :: D : List VarLink).length := by
        intro x hx
        rcases List.mem_cons.1 hx with rfl | hx
        · simp
        · have := huid x hx
          simp; omega
      by_cases hj : j = i
      · subst hj
        rw [own_same] at hfit ⊢
        let g' : Nat → Nat := fun k => if k = D.length then Di.length else g k
        obtain ⟨vs, ts, b⟩ := ih (Di := ⟨Di.length, n.name, t⟩ :: Di) (g := g') h4 (by
          intro x hx hn
          rcases List.mem_cons.1 hx with rfl | hx
          · simp [moveLink, g']
          · have := huid x hx
            have hne : x.uid ≠ D.length := by omega
            simp only [moveLink, g', if_neg hne]
            exact List.mem_cons_of_mem _ (hfit' x hx hn)) huid' (by
          intro y hy
          rcases List.mem_cons.1 hy with rfl | hy
          · exact ⟨_, List.mem_cons_self .., rfl⟩
          · obtain ⟨x, hx, e⟩ := hnames y hy
            exact ⟨x, List.mem_cons_of_mem _ hx, e⟩) hsep'
        refine ⟨_, ts, .decl h1 ⟨h2.1, fun y hy e => ?_⟩
          (evalAnnotations_move hfit h3 fun m hm => ⟨_, List.mem_cons_self .., by simp [mentioned, hm]⟩) b⟩
        obtain ⟨x, hx, e'⟩ := hnames y hy
        exact h2.2 x hx (e'.trans e)
      · rw [own_other hj]
        refine ih (g := g) h4 ?_ huid' (fun y hy => ?_) hsep'
        · intro x hx hn
          rcases List.mem_cons.1 hx with rfl | hx
          · obtain ⟨s', k1, k2⟩ := hn
            rw [mem_own] at k1
            exact absurd rfl (hsep (i, s') (by simp [k1]) (j, .var l as n typ) (by simp) (fun e => hj e.symm) _ k2)
          · exact hfit' x hx hn
        · obtain ⟨x, hx, e⟩ := hnames y hy
          exact ⟨x, List.mem_cons_of_mem _ hx, e⟩
    · obtain ⟨vs, ts, b⟩ := ih h2 hfit' huid hnames hsep'
      by_cases hj : j = i
      · subst hj
        rw [own_same] at hfit ⊢
        exact ⟨vs, _, .instr (instrOk_move hfit h1 fun m hm => ⟨s, List.mem_cons_self .., hm⟩) b⟩
      · rw [own_other hj]
        exact ⟨vs, ts, b⟩

end Qasm.Join
