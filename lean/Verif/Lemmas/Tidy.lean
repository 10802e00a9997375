import Verif.Spec.Tidy
/-!
# Lemmas about registrations that keep trees in order
-/

namespace Qasm

open Spec

variable {F : Type} {fo : FloatOps F} {ls : List (Level F)} {vs : List (SVariable F)}

namespace Tidying

/-- The value refers to variables of the tree only, and if it refers to no elements, then of an array. -/
def Fine (vs : List (SVariable F)) (n : ValueNode F) : Prop :=
  (∀ x, RefersTo ⟨n, none⟩ x → ∃ y ∈ vs, y.uid = x.uid) ∧
    ∀ x, n = .indexRef x [] → x.typ.kind = .qubitArray ∨ x.typ.kind = .bitArray

theorem refers_node {v : Value F} {x : VarLink} {l : Option Loc} : RefersTo v x ↔ RefersTo ⟨v.node, l⟩ x := by
  obtain ⟨n, l'⟩ := v
  constructor <;> intro h <;> cases h <;> constructor

theorem closed_fine {v : Value F} (h : ClosedValue vs v) : Fine vs v.node :=
  ⟨fun x hx => h.1 x (refers_node.2 hx), fun x hx => absurd hx (h.2 x)⟩

theorem closed_node {v : Value F} {l : Option Loc} (h : ClosedValue vs v) : ClosedValue vs ⟨v.node, l⟩ :=
  ⟨fun x hx => h.1 x (refers_node.2 hx), h.2⟩

theorem closed_of {v : Value F} (h : Fine vs v.node) (hn : ∀ x, v.node ≠ .indexRef x []) : ClosedValue vs v :=
  ⟨fun x hx => h.1 x (refers_node.1 hx), hn⟩

theorem const_closed (c : Const F) (l : Option Loc) : ClosedValue vs ⟨c.node, l⟩ := by
  cases c <;> exact ⟨fun x hx => (by cases hx), fun x hx => (by cases hx)⟩

/-- Promoted values refer to what the values refer to. -/
theorem promotes_refers {v w : Value F} {k : Kind} (h : PromotesTo fo v k w) {x : VarLink} (hx : RefersTo w x) : RefersTo v x := by
  cases h with
  | same => exact hx
  | @const c c' => cases c' <;> cases hx
  | boolVar => exact hx

theorem promotes_closed {v w : Value F} {k : Kind} (h : PromotesTo fo v k w) (hv : ClosedValue vs v) : ClosedValue vs w := by
  cases h with
  | same => exact hv
  | @const c c' => exact const_closed _ _
  | boolVar => exact hv

theorem fits_refers {args ws : List (Value F)} {ts : List Ty} (h : Fits fo args ts ws) :
    ∀ w ∈ ws, ∀ x, RefersTo w x → ∃ a ∈ args, RefersTo a x := by
  induction h with
  | nil => intro w hw; cases hw
  | cons h1 _ ih =>
    intro w hw x hx
    rcases List.mem_cons.1 hw with rfl | hw
    · exact ⟨_, List.mem_cons_self .., promotes_refers h1 hx⟩
    · obtain ⟨a, ha, h⟩ := ih w hw x hx
      exact ⟨a, List.mem_cons_of_mem _ ha, h⟩

theorem fits_closed {args ws : List (Value F)} {ts : List Ty} (h : Fits fo args ts ws) (ha : ∀ a ∈ args, ClosedValue vs a) :
    ∀ w ∈ ws, ClosedValue vs w := by
  induction h with
  | nil => intro w hw; cases hw
  | cons h1 _ ih =>
    intro w hw
    rcases List.mem_cons.1 hw with rfl | hw
    · exact promotes_closed h1 (ha _ (List.mem_cons_self ..))
    · exact ih (fun a h => ha a (List.mem_cons_of_mem _ h)) w hw

theorem seen {name : Str} {v : Value F} (h : Seen name v ls) (ht : TidyLevels vs ls) : ClosedValue vs v := by
  induction h with
  | here h1 _ => exact (ht _ (List.mem_cons_self ..)).1 _ (by rw [h1]; exact List.mem_append_right _ (List.mem_cons_self ..))
  | outer _ _ ih => exact ih fun l hl => ht l (List.mem_cons_of_mem _ hl)

theorem promotes_empty {v w : Value F} {k : Kind} (h : PromotesTo fo v k w) {x : VarLink} (hx : w.node = .indexRef x []) :
    v.node = .indexRef x [] := by
  cases h with
  | same => exact hx
  | @const c c' => cases c' <;> cases hx
  | boolVar => cases hx

theorem fits_empty {args ws : List (Value F)} {ts : List Ty} (h : Fits fo args ts ws) :
    ∀ w ∈ ws, ∀ x, w.node = .indexRef x [] → ∃ a ∈ args, a.node = .indexRef x [] := by
  induction h with
  | nil => intro w hw; cases hw
  | cons h1 _ ih =>
    intro w hw x hx
    rcases List.mem_cons.1 hw with rfl | hw
    · exact ⟨_, List.mem_cons_self .., promotes_empty h1 hx⟩
    · obtain ⟨a, ha, h⟩ := ih w hw x hx
      exact ⟨a, List.mem_cons_of_mem _ ha, h⟩

/-- What a function returns. -/
theorem returns_args {name : Str} {args : List (Value F)} {r : Value F} (h : Returns fo ls name args r) (ht : TidyLevels vs ls) :
    (∀ x, RefersTo r x → ∃ a ∈ args, RefersTo a x) ∧ ∀ x, r.node = .indexRef x [] → ∃ a ∈ args, a.node = .indexRef x [] := by
  obtain ⟨g, f, args', h1, ⟨older, params, newer, h2, h3, _⟩, h4⟩ := h
  obtain ⟨h5, h6⟩ := (ht g (List.mem_of_getLast? h1)).2 (name, f, params)
    (by rw [h2]; exact List.mem_append_right _ (List.mem_cons_self ..)) args' r h4
  refine ⟨fun x hx => ?_, fun x hx => ?_⟩
  · obtain ⟨w, hw, hx⟩ := h5 x hx
    exact fits_refers h3 w hw x hx
  · obtain ⟨w, hw, hx⟩ := h6 x hx
    exact fits_empty h3 w hw x hx

theorem returns {name : Str} {args : List (Value F)} {r : Value F} (h : Returns fo ls name args r) (ht : TidyLevels vs ls)
    (ha : ∀ a ∈ args, Fine vs a.node) : Fine vs r.node := by
  obtain ⟨h1, h2⟩ := returns_args h ht
  refine ⟨fun x hx => ?_, fun x hx => ?_⟩
  · obtain ⟨a, ha', hx⟩ := h1 x (refers_node.2 hx)
    exact (ha a ha').1 x (refers_node.1 hx)
  · obtain ⟨a, ha', hx⟩ := h2 x hx
    exact (ha a ha').2 x hx

theorem returns_closed {name : Str} {args : List (Value F)} {r : Value F} (h : Returns fo ls name args r) (ht : TidyLevels vs ls)
    (ha : ∀ a ∈ args, ClosedValue vs a) : ClosedValue vs r := by
  obtain ⟨h1, h2⟩ := returns_args h ht
  refine ⟨fun x hx => ?_, fun x hx => ?_⟩
  · obtain ⟨a, ha', hx⟩ := h1 x hx
    exact (ha a ha').1 x hx
  · obtain ⟨a, ha', hx⟩ := h2 x hx
    exact (ha a ha').2 x hx

mutual
theorem evalIn (ht : TidyLevels vs ls) : ∀ {e : Expr F} {v : Value F}, EvalIn fo ls e v → Fine vs v.node
  | _, _, .boolLit l b => closed_fine (const_closed (.bool b) none)
  | _, _, .intLit l b => closed_fine (const_closed (.int b) none)
  | _, _, .floatLit l b => closed_fine (const_closed (.float b) none)
  | _, _, .ident h => closed_fine (seen h ht)
  | _, _, .index h1 h2 _ _ => ⟨fun x hx => by cases hx; exact (evalIn ht h1).1 _ .whole, fun x hx => by cases hx; exact h2⟩
  | _, _, .call h1 h2 => (returns h2 ht (argsIn ht h1))
  | _, _, .un h1 h2 => (returns h2 ht fun a ha => by
      cases List.mem_singleton.1 ha; exact (evalIn ht h1 :))
  | _, _, .bin h1 h2 h3 => (returns h3 ht fun a ha => by
      rcases List.mem_cons.1 ha with rfl | ha
      · exact (evalIn ht h1 :)
      · cases List.mem_singleton.1 ha; exact (evalIn ht h2 :))
  | _, _, .tern h1 h2 h3 h4 => (returns h4 ht fun a ha => by
      rcases List.mem_cons.1 ha with rfl | ha
      · exact (evalIn ht h1 :)
      · rcases List.mem_cons.1 ha with rfl | ha
        · exact (evalIn ht h2 :)
        · cases List.mem_singleton.1 ha; exact (evalIn ht h3 :))
theorem argsIn (ht : TidyLevels vs ls) : ∀ {es : List (Expr F)} {as : List (Value F)}, ArgsIn fo ls es as → ∀ a ∈ as, Fine vs a.node
  | _, _, .nil => fun a ha => by cases ha
  | _, _, .cons h1 h2 => fun a ha => by
      rcases List.mem_cons.1 ha with rfl | ha
      · exact (evalIn ht h1 :)
      · exact argsIn ht h2 a ha
end

theorem entry_ne {x : IndexEntry F} {is : List (Int64 × Option Loc)} (h : EntryIn fo ls x is) : is ≠ [] := by
  cases h with
  | item => simp
  | range _ _ _ _ h _ =>
    rintro rfl
    obtain ⟨h1, h2, _⟩ := h
    have := congrArg List.length h2
    simp at this
    omega

theorem indices_ne {xs : List (IndexEntry F)} {is : List (Int64 × Option Loc)} (h : IndicesIn fo ls xs is) (hx : xs ≠ []) : is ≠ [] := by
  cases h with
  | nil => exact absurd rfl hx
  | cons h1 _ => exact fun e => entry_ne h1 (List.append_eq_nil_iff.1 e).1

mutual
theorem shaped (ht : TidyLevels vs ls) : ∀ {e : Expr F} {v : Value F}, EvalIn fo ls e v → ShapedExpr e → ClosedValue vs v
  | _, _, .boolLit l b, _ => const_closed (.bool b) _
  | _, _, .intLit l b, _ => const_closed (.int b) _
  | _, _, .floatLit l b, _ => const_closed (.float b) _
  | _, _, .ident h, _ => seen h ht
  | _, _, .index h1 h2 h3 h4, hs => closed_of (evalIn ht (.index (l := none) h1 h2 h3 h4)) fun x e => by cases e; exact indices_ne h3 hs.1 rfl
  | _, _, .call h1 h2, hs => returns_closed h2 ht (shapedArgs ht h1 hs)
  | _, _, .un h1 h2, hs => returns_closed h2 ht fun a ha => by
      cases List.mem_singleton.1 ha; exact closed_node (shaped ht h1 hs)
  | _, _, .bin h1 h2 h3, hs => returns_closed h3 ht fun a ha => by
      rcases List.mem_cons.1 ha with rfl | ha
      · exact closed_node (shaped ht h1 hs.1)
      · cases List.mem_singleton.1 ha; exact closed_node (shaped ht h2 hs.2)
  | _, _, .tern h1 h2 h3 h4, hs => returns_closed h4 ht fun a ha => by
      rcases List.mem_cons.1 ha with rfl | ha
      · exact closed_node (shaped ht h1 hs.1)
      · rcases List.mem_cons.1 ha with rfl | ha
        · exact closed_node (shaped ht h2 hs.2.1)
        · cases List.mem_singleton.1 ha; exact closed_node (shaped ht h3 hs.2.2)
theorem shapedArgs (ht : TidyLevels vs ls) : ∀ {es : List (Expr F)} {as : List (Value F)}, ArgsIn fo ls es as → ShapedExprs es →
    ∀ a ∈ as, ClosedValue vs a
  | _, _, .nil, _ => fun a ha => by cases ha
  | _, _, .cons h1 h2, hs => fun a ha => by
      rcases List.mem_cons.1 ha with rfl | ha
      · exact closed_node (shaped ht h1 hs.1)
      · exact shapedArgs ht h2 hs.2 a ha
end

theorem operands (ht : TidyLevels vs ls) {es : List (Expr F)} {as : List (Value F)} (h : ArgsIn fo ls es as)
    (hs : ∀ e ∈ es, ShapedExpr e) : ∀ a ∈ as, ClosedValue vs a := by
  induction es generalizing as with
  | nil => cases h; intro a ha; cases ha
  | cons e es ih =>
    cases h with
    | cons h1 h2 =>
      intro a ha
      rcases List.mem_cons.1 ha with rfl | ha
      · exact closed_node (shaped ht h1 (hs e (List.mem_cons_self ..)))
      · exact ih h2 (fun e he => hs e (List.mem_cons_of_mem _ he)) a ha

theorem chosen {name : Str} {args ws : List (Value F)} {i : Instruction} (h : ChosenInstr fo name args i ws ls)
    (ha : ∀ a ∈ args, ClosedValue vs a) : ∀ w ∈ ws, ClosedValue vs w := by
  induction h with
  | here h =>
    obtain ⟨_, _, _, _, h, _⟩ := h
    exact fits_closed h ha
  | outer _ _ ih => exact ih

/-- Parameters are numbers. -/
theorem params {us ws : List (Value F)} {ks : List Kind} (h : ParamsIn fo us ks ws) (hk : ∀ k ∈ ks, k = .int ∨ k = .float)
    (hu : ∀ u ∈ us, Fine vs u.node) : ∀ w ∈ ws, ClosedValue vs w := by
  induction h with
  | nil => intro w hw; cases hw
  | @cons v us k ks ws ws' h1 _ ih =>
    intro w hw
    rcases List.mem_append.1 hw with hw | hw
    · cases h1 with
      | passed h1 =>
        cases List.mem_singleton.1 hw
        have hv := hu _ (List.mem_cons_self ..)
        have hk' := hk _ (List.mem_cons_self ..)
        cases h1 with
        | same h1 =>
          refine closed_of hv fun x hx => ?_
          rw [hx] at h1
          have := hv.2 x hx
          simp only [kindOf, Option.some.injEq] at h1
          rw [h1] at this
          rcases hk' with rfl | rfl <;> simp at this
        | const => exact const_closed _ _
        | boolVar => exact closed_of hv fun x hx => by cases hx
      | lost => cases hw
    · exact ih (fun k h => hk k (List.mem_cons_of_mem _ h)) (fun u h => hu u (List.mem_cons_of_mem _ h)) w hw

theorem evals (ht : TidyLevels vs ls) {es : List (Expr F)} {as : List (Value F)} (h : Forall2 (EvalIn fo ls) es as)
    (hs : ∀ e ∈ es, ShapedExpr e) : ∀ a ∈ as, ClosedValue vs a := by
  induction h with
  | nil => intro a ha; cases ha
  | cons h1 _ ih =>
    intro a ha
    rcases List.mem_cons.1 ha with rfl | ha
    · exact shaped ht h1 (hs _ (List.mem_cons_self ..))
    · exact ih (fun e he => hs e (List.mem_cons_of_mem _ he)) a ha

theorem notes (ht : TidyLevels vs ls) {as : List (AnnotationData F)} {sas : List (SAnnotation F)} (h : AnnotationsIn fo ls as sas)
    (hs : ShapedAnnotations as) : ∀ a ∈ sas, ∀ w ∈ a.operands, ClosedValue vs w := by
  unfold AnnotationsIn at h
  induction h with
  | nil => intro a ha; cases ha
  | cons h1 _ ih =>
    intro a ha
    rcases List.mem_cons.1 ha with rfl | ha
    · exact evals ht h1.2.2.2 (hs _ (List.mem_cons_self ..))
    · exact ih (fun a h => hs a (List.mem_cons_of_mem _ h)) a ha

theorem named_kinds : ∀ g ∈ namedGates, ∀ k ∈ g.2.2, k = .int ∨ k = .float := by decide

theorem nonGate_kinds : ∀ g ∈ nonGateParameters, ∀ k ∈ g.2, k = .int ∨ k = .float := by decide

theorem gate (ht : TidyLevels vs ls) {g : Gate F} {n : Nat} {s : SGate F} (h : GateHere fo ls g n s) (hs : ShapedGateAnnotations g) :
    ∀ w, InGate w s → ClosedValue vs w := by
  induction h with
  | named h1 h2 h3 h4 =>
    intro w hw
    cases hw with
    | parameter hw => exact params h3 (named_kinds _ h1) (argsIn ht h2) w hw
    | annotation h5 h6 => exact notes ht h4 hs _ h5 w h6
  | modified h1 _ h3 h4 h5 ih =>
    intro w hw
    cases hw with
    | parameter hw =>
      refine params h4 (fun k hk => ?_) (argsIn ht h3) w hw
      unfold modifierParameters at hk
      split at hk
      · exact .inr (List.mem_singleton.1 hk)
      · cases hk
    | annotation h6 h7 => exact notes ht h5 hs.1 _ h6 w h7
    | inner hw => exact ih hs.2 w hw

theorem instr (ht : TidyLevels vs ls) {s : Stmt F} {t : SStatement F} (h : InstrIn fo ls s t) (hs : ShapedStmt s) :
    ∀ w, InInstr w t → ClosedValue vs w := by
  cases h with
  | gate h1 h2 h3 _ h5 =>
    intro w hw
    cases hw with
    | gate hw => exact gate ht h1 hs.2.2.1 w hw
    | operand hw => exact chosen h3 (operands ht h2 hs.2.2.2) w hw
    | annotation h6 h7 => exact notes ht h5 hs.1 _ h6 w h7
  | nonGate h1 h2 h3 h4 h5 _ h7 =>
    intro w hw
    cases hw with
    | operand' hw => exact chosen h2 (operands ht h1 hs.2.2.2) w hw
    | parameter hw => exact params h5 (nonGate_kinds _ h4) (argsIn ht h3) w hw
    | annotation' h8 h9 => exact notes ht h7 hs.1 _ h8 w h9
  | asm h =>
    intro w hw
    cases hw with
    | asm h1 h2 => exact notes ht h hs _ h1 w h2

theorem closed_mono {ws : List (SVariable F)} {x : Value F} (h : ClosedValue vs x) : ClosedValue (vs ++ ws) x :=
  ⟨fun y hy => by obtain ⟨z, hz, e⟩ := h.1 y hy; exact ⟨z, List.mem_append_left _ hz, e⟩, h.2⟩

/-- Analyses keep things in order. -/
theorem analysis {r r' : Level F} {u : Nat} {ss : List (Stmt F)} {ws : List (SVariable F)} {ts : List (SStatement F)}
    {bad : List (Stmt F × Err)} (h : AnalysisIn fo ls r u ss ws ts bad r') (hs : ∀ s ∈ ss, ShapedStmt s) (ht : TidyLevels vs (r :: ls)) :
    TidyLevels (vs ++ ws) (r' :: ls) ∧ (∀ t ∈ ts, ∀ w, InInstr w t → ClosedValue (vs ++ ws) w) ∧ ∀ x ∈ ws, x.annotations = [] := by
  induction h generalizing vs with
  | nil => rw [List.append_nil]; exact ⟨ht, fun t ht => (by cases ht), fun t ht => (by cases ht)⟩
  | @decl r u l as name typ ss t ws ts bad r' _ _ _ ih =>
    have := ih (vs := vs ++ [⟨u, name.name, t, [], name.loc⟩]) (fun s h => hs s (List.mem_cons_of_mem _ h)) (fun l hl => by
      rcases List.mem_cons.1 hl with rfl | hl
      · refine ⟨fun x hx => ?_, (ht _ (List.mem_cons_self ..)).2⟩
        rcases List.mem_append.1 hx with hx | hx
        · exact closed_mono ((ht _ (List.mem_cons_self ..)).1 x hx)
        · cases List.mem_singleton.1 hx
          exact ⟨fun x hx => by cases hx; exact ⟨_, List.mem_append_right _ (List.mem_singleton.2 rfl), rfl⟩, nofun⟩
      · obtain ⟨h1, h2⟩ := ht l (List.mem_cons_of_mem _ hl)
        exact ⟨fun x hx => closed_mono (h1 x hx), h2⟩)
    rw [List.append_assoc] at this
    refine ⟨this.1, this.2.1, fun x hx => ?_⟩
    rcases List.mem_cons.1 hx with rfl | hx
    · rfl
    · exact this.2.2 x hx
  | instr h1 _ ih =>
    obtain ⟨i1, i2, i3⟩ := ih (fun s h => hs s (List.mem_cons_of_mem _ h)) ht
    refine ⟨i1, fun t h w hw => ?_, i3⟩
    rcases List.mem_cons.1 h with rfl | h
    · exact closed_mono (instr ht h1 (hs _ (List.mem_cons_self ..)) w hw)
    · exact i2 t h w hw
  | @redeclared r u l as name typ ss t ws ts bad r' _ _ _ ih =>
    have := ih (vs := vs ++ [⟨u, name.name, t, [], name.loc⟩]) (fun s h => hs s (List.mem_cons_of_mem _ h)) (fun l hl => by
      obtain ⟨h1, h2⟩ := ht l hl
      exact ⟨fun x hx => closed_mono (h1 x hx), h2⟩)
    rw [List.append_assoc] at this
    refine ⟨this.1, this.2.1, fun x hx => ?_⟩
    rcases List.mem_cons.1 hx with rfl | hx
    · rfl
    · exact this.2.2 x hx
  | badType _ _ _ ih | badInstr _ _ _ _ ih => exact ih (fun s h => hs s (List.mem_cons_of_mem _ h)) ht

theorem closed {vs ws : List (SVariable F)} {ts us : List (SStatement F)} (h : ClosedProgram vs ts)
    (hu : ∀ t ∈ us, ∀ w, InInstr w t → ClosedValue (vs ++ ws) w) (hw : ∀ x ∈ ws, x.annotations = []) :
    ClosedProgram (vs ++ ws) (ts ++ us) := by
  refine ⟨fun t ht w hw => ?_, fun x hx a ha y hy => ?_⟩
  · rcases List.mem_append.1 ht with ht | ht
    · exact closed_mono (h.1 t ht w hw)
    · exact hu t ht w hw
  · rcases List.mem_append.1 hx with hx | hx
    · exact closed_mono (h.2 x hx a ha y hy)
    · rw [hw x hx] at ha; cases ha

end Tidying

end Qasm
