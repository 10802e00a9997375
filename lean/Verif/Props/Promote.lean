import Verif.Lemmas.Promote
/-!
# C15, C16, C17: promotion and overload resolution
-/

namespace Qasm

open Spec

variable {F : Type}

/-! ## C15 -/

/-- `check_promote` accepts exactly the pairs of types whose kinds are equal or go up the chain
bool, int, float. The sizes of the types play no role. -/
theorem C15_check_promote (a b : Ty) : Values.checkPromote a b = true ↔ Widens a.kind b.kind := by
  obtain ⟨ka, sa⟩ := a
  obtain ⟨kb, sb⟩ := b
  cases ka <;> cases kb <;> simp [Values.checkPromote, Types.typeCheck] <;>
    first | exact .same _ | exact .boolInt | exact .boolFloat | exact .intFloat | (intro h; cases h)

example : Values.checkPromote ⟨.bool, 0⟩ ⟨.float, 7⟩ = true := rfl
example : Values.checkPromote ⟨.qubit, 1⟩ ⟨.qubitArray, 1⟩ = false := rfl

/-- `check_promote` is a preorder on types, and a partial order on their kinds. -/
theorem C15_partial_order :
    (∀ a : Ty, Values.checkPromote a a = true) ∧
    (∀ a b c : Ty, Values.checkPromote a b = true → Values.checkPromote b c = true → Values.checkPromote a c = true) ∧
    (∀ a b : Ty, Values.checkPromote a b = true → Values.checkPromote b a = true → a.kind = b.kind) := by
  refine ⟨fun a => (C15_check_promote a a).mpr (.same _), ?_, ?_⟩
  · intro a b c h1 h2
    rw [C15_check_promote] at *
    generalize a.kind = ka at *; generalize b.kind = kb at *; generalize c.kind = kc at *
    cases h1 <;> cases h2 <;> first | exact .same _ | exact .boolInt | exact .boolFloat | exact .intFloat
  · intro a b h1 h2
    rw [C15_check_promote] at *
    generalize a.kind = ka at *; generalize b.kind = kb at *
    cases h1 <;> cases h2 <;> rfl

example : Values.checkPromote ⟨.bool, 0⟩ ⟨.int, 0⟩ = true ∧ Values.checkPromote ⟨.int, 0⟩ ⟨.float, 0⟩ = true := ⟨rfl, rfl⟩

/-- Qubit and bit types, single or array, promote only to their own kind, and nothing else to them. -/
theorem C15_registers (a b : Ty) (k : Kind) (hk : k = .qubit ∨ k = .bit ∨ k = .qubitArray ∨ k = .bitArray)
    (h : a.kind = k ∨ b.kind = k) : Values.checkPromote a b = true ↔ a.kind = b.kind := by
  rw [C15_check_promote]
  constructor
  · intro hw
    generalize a.kind = ka at *; generalize b.kind = kb at *
    cases hw
    · rfl
    all_goals rcases hk with rfl | rfl | rfl | rfl <;> rcases h with h | h <;> cases h
  · intro he; rw [he]; exact .same _

example : (Ty.mk .bitArray 4).kind = .bitArray := rfl

/-! ## C16 -/

/-- Promotion of a constant: it succeeds exactly when the type check says so. The result is a constant of
exactly the wanted kind, with the same location, that denotes the same number. -/
theorem C16_constants (fo : FloatOps F) (c : Const F) (l : Option Loc) (t : Ty) :
    (∃ tv, Values.typeOf ⟨c.node, l⟩ = .ok tv ∧
      (Values.checkPromote tv t = true ↔ ∃ c' : Const F, Values.promote fo ⟨c.node, l⟩ t = .ok (some ⟨c'.node, l⟩)) ∧
      (Values.checkPromote tv t = false ↔ Values.promote fo ⟨c.node, l⟩ t = .ok none)) ∧
    (∀ w, Values.promote fo ⟨c.node, l⟩ t = .ok (some w) ↔ ∃ c', Converts fo c t.kind c' ∧ w = ⟨c'.node, l⟩) := by
  have hk : kindOf (⟨c.node, l⟩ : Value F).node = some c.kind := kindOf_node c
  have hk' : kindOf (⟨c.node, l⟩ : Value F).node ≠ none := by rw [hk]; simp
  have hw : ∀ w, PromotesTo fo ⟨c.node, l⟩ t.kind w ↔ ∃ c', Converts fo c t.kind c' ∧ w = ⟨c'.node, l⟩ := by
    intro w
    constructor
    · intro hp
      generalize hv : (⟨c.node, l⟩ : Value F) = v at hp
      generalize hkk : t.kind = kk at hp
      cases hp with
      | same h1 =>
        subst hv
        rw [hk] at h1
        cases Option.some.inj h1
        exact ⟨c, .same c, rfl⟩
      | @const d d' _ l' hd =>
        simp at hv
        obtain ⟨hv, rfl⟩ := hv
        cases node_inj hv
        exact ⟨d', hd, rfl⟩
      | boolVar => cases c <;> simp [Const.node] at hv
    · rintro ⟨c', h1, rfl⟩
      exact .const l h1
  obtain ⟨tv, h1, h2⟩ := typeOf_ok hk
  refine ⟨⟨tv, h1, ?_, ?_⟩, fun w => (promote_some_iff fo _ t hk' w).trans (hw w)⟩
  · rw [C15_check_promote, h2]
    constructor
    · intro h
      obtain ⟨c', hc'⟩ := widens_converts fo h
      exact ⟨c', (promote_some_iff fo _ t hk' _).mpr (.const l hc')⟩
    · rintro ⟨c', hc'⟩
      obtain ⟨d, hd, _⟩ := (hw _).mp ((promote_some_iff fo _ t hk' _).mp hc')
      exact converts_widens hd
  · rw [promote_none_iff fo _ t hk', ← Bool.not_eq_true, C15_check_promote, h2]
    constructor
    · intro h w hp
      obtain ⟨d, hd, _⟩ := (hw _).mp hp
      exact h (converts_widens hd)
    · intro h hwid
      obtain ⟨c', hc'⟩ := widens_converts fo hwid
      exact h _ (.const l hc')

example (fo : FloatOps F) : Converts fo (.bool true) .int (.int 1) := .trueInt

/-- Promotion of a reference to qubits or bits: it succeeds exactly when the type check says so, and then
gives the reference itself. -/
theorem C16_references (fo : FloatOps F) (v : Value F) (k : Kind) (hv : kindOf v.node = some k)
    (hk : k = .qubit ∨ k = .bit ∨ k = .qubitArray ∨ k = .bitArray) (t : Ty) :
    ∃ tv, Values.typeOf v = .ok tv ∧ tv.kind = k ∧
      (Values.checkPromote tv t = true ↔ Values.promote fo v t = .ok (some v)) ∧
      (Values.checkPromote tv t = false ↔ Values.promote fo v t = .ok none) := by
  have hk' : kindOf v.node ≠ none := by rw [hv]; simp
  obtain ⟨tv, h1, h2⟩ := typeOf_ok hv
  have hw : ∀ w, PromotesTo fo v t.kind w ↔ k = t.kind ∧ w = v := by
    intro w
    constructor
    · intro hp
      generalize hkk : t.kind = kk at hp
      cases hp with
      | same h => rw [hv] at h; exact ⟨Option.some.inj h, rfl⟩
      | @const c c' _ l hc =>
        rw [kindOf_node] at hv
        cases c <;> simp [Const.kind] at hv <;> subst hv <;> simp at hk
      | boolVar l hx =>
        simp [kindOf, hx] at hv
        subst hv; simp at hk
    · rintro ⟨h, rfl⟩; exact .same (h ▸ hv)
  have hc : Values.checkPromote tv t = true ↔ k = t.kind := by
    rw [← h2]
    exact C15_registers tv t k hk (.inl h2)
  refine ⟨tv, h1, h2, ?_, ?_⟩
  · rw [promote_some_iff fo v t hk', hw, hc]; simp
  · rw [promote_none_iff fo v t hk', ← Bool.not_eq_true, hc]
    constructor
    · intro h w hp; exact h ((hw w).mp hp).1
    · intro h he; exact h v ((hw v).mpr ⟨he, rfl⟩)

example : kindOf (.indexRef ⟨0, c!"q", ⟨.qubitArray, 3⟩⟩ [(1, none)] : ValueNode F) = some .qubit := rfl
example : kindOf (.indexRef ⟨0, c!"b", ⟨.bitArray, 3⟩⟩ [(1, none), (2, none)] : ValueNode F) = some .bitArray := rfl

/-- Whenever promotion succeeds the type check agrees, for every value that has a type. -/
theorem C16_promote_implies_check_partial (fo : FloatOps F) (v w : Value F) (t tv : Ty)
    (h : Values.typeOf v = .ok tv) (hp : Values.promote fo v t = .ok (some w)) :
    Values.checkPromote tv t = true := by
  have hk := kindOf_of_typeOf h
  have hk' : kindOf v.node ≠ none := by rw [hk]; simp
  rw [promote_some_iff fo v t hk'] at hp
  rw [C15_check_promote]
  generalize t.kind = kk at *
  cases hp with
  | same h1 => rw [hk] at h1; rw [Option.some.inj h1]; exact .same _
  | @const c c' _ l hc =>
    rw [kindOf_node] at hk
    rw [← Option.some.inj hk]; exact converts_widens hc
  | boolVar l hx =>
    simp [kindOf, hx] at hk
    rw [← hk]; exact .boolInt

example (fo : FloatOps F) : Values.promote fo ⟨.constInt 3, none⟩ (.bare .float) = .ok (some ⟨.constFloat (fo.ofInt 3), none⟩) := rfl

/-- As stated for every value, C16 is false: a reference to an int variable (which only an API user can
register) passes the type check for float, but its promotion is empty; and a reference to a bool variable
"promoted" to int is still of kind bool. -/
theorem C16_refuted (fo : FloatOps F) :
    (∃ (v : Value F) (tv t : Ty), Values.typeOf v = .ok tv ∧ Values.checkPromote tv t = true ∧
      Values.promote fo v t = .ok none) ∧
    (∃ (v w : Value F) (tw t : Ty), Values.promote fo v t = .ok (some w) ∧ Values.typeOf w = .ok tw ∧
      tw.kind ≠ t.kind) := by
  refine ⟨⟨⟨.variableRef ⟨0, c!"n", ⟨.int, 1⟩⟩, none⟩, ⟨.int, 1⟩, .bare .float, rfl, rfl, rfl⟩,
    ⟨⟨.variableRef ⟨0, c!"n", ⟨.bool, 1⟩⟩, none⟩, _, _, .bare .int, rfl, rfl, by decide⟩⟩

/-! ## C17 -/

/-- Resolving a call after any history of registrations gives the most recently registered overload of
that name that fits, with the arguments promoted. -/
theorem C17_resolve {T : Type} (fo : FloatOps F) (regs : List (Registration T)) (name : Str)
    (args : List (Value F)) (h : ∀ v ∈ args, kindOf v.node ≠ none) (tag : T) (args' : List (Value F)) :
    OverloadTable.resolve fo (tableOf regs) name args = .ok (tag, args') ↔
      LastFitting fo regs name args tag args' := by
  rcases resolve_spec fo regs name args h with ⟨t, ws, h1, h2⟩ | ⟨h1, h2⟩
  · rw [h1]
    constructor
    · intro he; simp at he; rw [← he.1, ← he.2]; exact h2
    · intro hl
      obtain ⟨e1, e2⟩ := lastFitting_det h2 hl
      rw [e1, e2]
  · constructor
    · intro he
      rcases h2 with ⟨_, h2⟩ | ⟨_, ts, _, h2⟩ <;> rw [h2] at he <;> cases he
    · rintro ⟨o, p, n, e, f, g⟩
      exact absurd ⟨_, f⟩ (h1 (name, tag, p) (by rw [e]; simp) rfl)

/-- Non-vacuity: with the overloads f(float) and then f(int), a bool argument goes to f(int) as an int. -/
example (fo : FloatOps F) :
    OverloadTable.resolve fo (tableOf [(c!"f", 1, [.bare .float]), (c!"f", 2, [.bare .int])]) c!"f"
      [⟨.constBool true, none⟩] = .ok (2, [⟨.constInt 1, none⟩]) := rfl

/-- Resolving fails exactly when no registered overload of that name fits, and then with an
`AnalysisError` naming the function (and the kinds of the arguments if the name is known at all). -/
theorem C17_fails {T : Type} (fo : FloatOps F) (regs : List (Registration T)) (name : Str)
    (args : List (Value F)) (h : ∀ v ∈ args, kindOf v.node ≠ none) :
    ((¬∃ tag args', OverloadTable.resolve fo (tableOf regs) name args = .ok (tag, args')) ↔
      ∀ r ∈ regs, r.1 = name → ¬∃ ws, Fits fo args r.2.2 ws) ∧
    ((∀ r ∈ regs, r.1 = name → ¬∃ ws, Fits fo args r.2.2 ws) →
      ∃ e : Err, OverloadTable.resolve fo (tableOf regs) name args = .err e ∧ e.location = none ∧
        e.message = if ∃ r ∈ regs, r.1 = name then
            c!"failed to resolve overload for '" ++ name ++ c!"' with argument pack (" ++
              joinStr c!", " (args.map fun v => ((kindOf v.node).map kindLabel).getD []) ++ c!")"
          else c!"failed to resolve '" ++ name ++ c!"'") := by
  rcases resolve_spec fo regs name args h with ⟨t, ws, h1, h2⟩ | ⟨h1, h2⟩
  · obtain ⟨o, p, n, e, f, g⟩ := h2
    have hbad : ¬ ∀ r ∈ regs, r.1 = name → ¬∃ ws, Fits fo args r.2.2 ws :=
      fun hc => hc (name, t, p) (by rw [e]; simp) rfl ⟨_, f⟩
    refine ⟨⟨fun hc => absurd ⟨t, ws, h1⟩ hc, fun hc => absurd hc hbad⟩, fun hc => absurd hc hbad⟩
  · rcases h2 with ⟨h2, h3⟩ | ⟨h2, ts, h3, h4⟩
    · refine ⟨⟨fun _ => h1, ?_⟩, fun _ => ⟨_, h3, rfl, ?_⟩⟩
      · rintro _ ⟨t, ws, he⟩; rw [h3] at he; cases he
      · rw [if_neg]
        rintro ⟨r, hr, he⟩; exact h2 r hr he
    · refine ⟨⟨fun _ => h1, ?_⟩, fun _ => ⟨_, h4, rfl, ?_⟩⟩
      · rintro _ ⟨t, ws, he⟩; rw [h4] at he; cases he
      · rw [if_pos h2]
        obtain ⟨ts', e1, e2⟩ := typesOf_ok h
        rw [h3] at e1
        cases e1
        have : args.map (fun v => ((kindOf v.node).map kindLabel).getD []) = ts.map Types.print := by
          have := congrArg (List.map fun o => (Option.map kindLabel o).getD []) e2
          show _ = ts.map (fun t => Types.kindName t.kind)
          simpa [List.map_map, Function.comp_def, kindName_eq] using this.symm
        rw [this]
        rfl

example (fo : FloatOps F) :
    OverloadTable.resolve fo (tableOf [(c!"f", 1, [.bare .int])]) c!"f" [⟨.constFloat fo.pi, none⟩]
      = .err ⟨c!"failed to resolve overload for 'f' with argument pack (float)", none⟩ := rfl

end Qasm
