import Verif.Spec.Standard
import Verif.Lemmas.FailsIn
import Verif.Lemmas.Fails
import Verif.Lemmas.Stops
import Verif.Lemmas.Instr
/-!
# Helper lemmas: what is registered in an analyser of the library
-/

namespace Qasm

open Spec Sem

attribute [local irreducible] defaultInstrs defaultFns defaultVars

variable {F : Type} {fo : FloatOps F}

theorem ordinary_good {x : Value F} (h : Ordinary x) : GoodNode x.node := by
  rcases h with h | ⟨k, h, hk⟩
  · exact .inl h
  · refine .inr ⟨k, hk, ?_⟩
    simpa [RegisterKind] using h

theorem ordinary_goods {args : List (Value F)} (h : ∀ x ∈ args, Ordinary x) : ∀ x ∈ args, GoodNode x.node :=
  fun x hx => ordinary_good (h x hx)

/-- The registrations of the library. -/
def standardLevel (fo : FloatOps F) : Level F :=
  ⟨[(c!"true", ⟨.constBool true, none⟩), (c!"false", ⟨.constBool false, none⟩), (c!"pi", ⟨.constFloat fo.pi, none⟩),
    (c!"eu", ⟨.constFloat fo.e, none⟩), (c!"tau", ⟨.constFloat fo.tau, none⟩)], fnRegs fo, instrRegs⟩

theorem holds_standard (fo : FloatOps F) : HoldsLevel (defaultScope fo) (standardLevel fo) := by
  refine ⟨fun name => ?_, (tableOf_fnRegs fo).symm, tableOf_instrRegs.symm⟩
  have : (defaultScope fo).variableTable = defaultVars fo := rfl
  rw [this, find_defaultVars]
  simp only [standardLevel, builtin, List.find?_cons]
  by_cases h1 : name = c!"true"
  · subst h1; rfl
  by_cases h2 : name = c!"false"
  · subst h2; rfl
  by_cases h3 : name = c!"pi"
  · subst h3; rfl
  by_cases h4 : name = c!"eu"
  · subst h4; rfl
  by_cases h5 : name = c!"tau"
  · subst h5; rfl
  simp [h1, h2, h3, h4, h5, Ne.symm h1, Ne.symm h2, Ne.symm h3, Ne.symm h4, Ne.symm h5]

theorem env_standard (fo : FloatOps F) : EnvOk fo [] [defaultScope fo] :=
  ⟨⟨by simp, by simp, by simp⟩, defaultScope fo, rfl, rfl, rfl, rfl⟩

instance (n : Nat) (ks : List Kind) : Decidable (QubitKinds n ks) := by unfold QubitKinds; infer_instance
instance (name : Str) (ks : List Kind) : Decidable (NonGateOperands name ks) := by unfold NonGateOperands; infer_instance
instance (name : Str) (ks : List Kind) : Decidable (StandardOperands name ks) := by unfold StandardOperands; infer_instance

theorem standardOperands_iff (name : Str) (ks : List Kind) : StandardOperands name ks ↔ (name, ks) ∈ instrKinds := by
  constructor
  · rintro (⟨g, hg, rfl, h⟩ | ⟨g, hg, h1, ⟨rfl, h⟩ | ⟨rfl, h⟩⟩ | h)
    · rw [← mem_kindsFor, kinds_named g hg, mem_combos]; exact h
    · rw [← mem_kindsFor, kinds_one g hg h1, mem_combos]; exact h
    · rw [← mem_kindsFor, kinds_two g hg h1, mem_combos]; exact h
    · have hn : name ∈ nonGates := by
        rcases h with ⟨rfl, _⟩ | ⟨h, _⟩
        · decide
        · exact List.mem_cons_of_mem _ h
      exact (nonGate_kinds hn ks).2 h
  · have : ∀ e ∈ instrKinds, StandardOperands e.1 e.2 := by decide +kernel
    exact this (name, ks)

theorem fn_fits {name : Str} {vs ws : List (Value F)} {f : CoreFn F} (hg : ∀ x ∈ vs, GoodNode x.node)
    (h : LastFitting fo (fnRegs fo) name vs f ws) : (∃ r, f ws = .ok (some r)) ∨ f ws = .ub := by
  obtain ⟨older, ps, newer, h2, h3, h4⟩ := h
  clear h4
  have hmem : (name, f, ps) ∈ fnRegs fo := by rw [h2]; simp
  obtain ⟨⟨fn, sig, f'⟩, hq, hqe⟩ := List.mem_map.mp hmem
  simp only [Prod.mk.injEq] at hqe
  obtain ⟨_, rfl, rfl⟩ := hqe
  rcases good_split vs hg with ⟨cs, hcs⟩ | ⟨v, hv, k, hk, hr⟩
  · obtain ⟨cs', g1, g2, _⟩ := fits_consts hcs h3
    rw [map_bare_kind] at g2
    have := fnTable_ok fo (fn, sig, f') hq cs' g2 ws g1
    dsimp only at this
    rw [this]
    cases fn.meaning fo cs' with
    | none => exact .inr rfl
    | some c => exact .inl ⟨_, rfl⟩
  · exfalso
    have hkinds := regFns_kinds (fn, sig) (by rw [← regFns_eq fo]; exact List.mem_map.mpr ⟨_, hq, rfl⟩)
    clear h2 hmem hq hg
    simp only at hkinds
    generalize hts : sig.map Ty.bare = ts at h3
    induction h3 generalizing sig with
    | nil => simp at hv
    | @cons v' w t vs ts ws hp hf ih =>
      cases sig with
      | nil => simp at hts
      | cons s sig =>
        simp only [List.map_cons, List.cons.injEq] at hts
        rcases List.mem_cons.mp hv with rfl | hv
        · have := (promotesTo_register hk hr hp).1
          rw [← hts.1] at this
          have hs := hkinds s (by simp)
          simp only [Ty.bare] at this
          subst this
          rcases hr with h | h | h | h <;> rw [h] at hs <;> simp at hs
        · exact ih sig hv (fun k hk => hkinds k (by simp [hk])) hts.2

theorem standard_level (fo : FloatOps F) : Standard fo (standardLevel fo) := by
  have hl : Forall2 HoldsLevel [defaultScope fo] [standardLevel fo] := .cons (holds_standard fo) .nil
  have henv := env_standard fo
  have hret : ∀ name args, (∀ x ∈ args, Ordinary x) → ∀ r,
      Returns fo [standardLevel fo] name args r ↔ ∃ c, Calculates fo name args (some c) ∧ r = ⟨c.node, none⟩ := by
    intro name args hx r
    rw [← callFunction_iff hl]
    constructor
    · intro h
      rcases callFunction_spec henv name args (ordinary_goods hx) with ⟨fn, cs, c, h1, h2, h3, h4⟩ | ⟨_, _, _, _, _, h4⟩ | ⟨_, _, _, h4⟩
      · rw [h] at h4; cases h4; exact ⟨c, ⟨fn, cs, h1, h2, h3⟩, rfl⟩
      · rw [h] at h4; cases h4
      · rw [h] at h4; cases h4
    · rintro ⟨c, ⟨fn, cs, h1, rfl, h3⟩, rfl⟩
      exact callFunction_consts henv fn args cs h1 _ h3
  have hund : ∀ name args, (∀ x ∈ args, Ordinary x) → ∀ o,
      CallStops fo [standardLevel fo] name args o ↔ o = .undefined ∧ Calculates fo name args none := by
    intro name args hx o
    rw [← callFunction_stop hl]
    constructor
    · intro h
      rcases callFunction_spec henv name args (ordinary_goods hx) with ⟨_, _, _, _, _, _, h4⟩ | ⟨fn, cs, h1, h2, h3, h4⟩ | ⟨_, _, _, h4⟩
      · rw [h] at h4; exact absurd h4.symm Stop.ne_ok
      · rw [h] at h4; exact ⟨Stop.inj (o' := .undefined) h4, fn, cs, h1, h2, h3⟩
      · rw [h] at h4; exact absurd h4.symm Stop.ne_err
    · rintro ⟨rfl, fn, cs, h1, rfl, h3⟩
      exact callFunction_consts henv fn args cs h1 _ h3
  refine ⟨rfl, fnRegs_name fo, hret, hund, fun name args hx => ?_, fun name => ?_, fun name args hx i ws => ?_⟩
  · constructor
    · rintro ⟨f, ws, h⟩
      rcases fn_fits (ordinary_goods hx) h with ⟨r, h1⟩ | h1
      · obtain ⟨c, h2, _⟩ := (hret name args hx r).1 ⟨_, f, ws, rfl, h, h1⟩
        exact ⟨_, h2⟩
      · exact ⟨_, ((hund name args hx .undefined).1 (.function rfl h h1)).2⟩
    · rintro ⟨_ | c, h⟩
      · cases (hund name args hx .undefined).2 ⟨rfl, h⟩ with
        | noScope h => cases h
        | function h1 h2 _ => cases h1; exact ⟨_, _, h2⟩
      · obtain ⟨g, f, ws, h1, h2, _⟩ := (hret name args hx _).2 ⟨c, h, rfl⟩
        cases h1
        exact ⟨f, ws, h2⟩
  · constructor
    · rintro ⟨r, hr, rfl⟩
      obtain ⟨ks, h, _⟩ := instrRegs_mem hr
      exact ⟨ks, (standardOperands_iff ..).2 h⟩
    · rintro ⟨ks, h⟩
      exact ⟨_, instrKinds_mem ((standardOperands_iff ..).1 h), rfl⟩
  · rw [← resolveInstruction_iff hl]
    constructor
    · intro h
      rcases resolveInstruction_spec henv name args (ordinary_goods hx) with ⟨ks, h1, h2, h3⟩ | ⟨_, _, h1, _⟩
      · rw [h] at h1; cases h1
        exact ⟨rfl, ks, (standardOperands_iff ..).2 h3, forall2_kinds.1 h2, rfl⟩
      · rw [h] at h1; cases h1
    · rintro ⟨rfl, ks, h1, h2, rfl⟩
      have h2 := forall2_kinds.2 h2
      rcases resolveInstruction_spec henv name ws (ordinary_goods hx) with ⟨ks', h3, h4, _⟩ | ⟨_, _, _, h3⟩
      · rw [h2] at h4
        have : ks = ks' := (List.map_inj_right fun a b h => Option.some.inj h).1 h4
        rw [h3, this]
      · exact absurd ((standardOperands_iff ..).1 h1) (h3 ks h2)

/-! ## Registrations that are added to others -/

theorem lastFitting_append {T : Type} {old mine : List (Registration T)} {name : Str} {args ws : List (Value F)} {t : T} :
    LastFitting fo (old ++ mine) name args t ws ↔ LastFitting fo mine name args t ws ∨
      (∀ r ∈ mine, r.1 = name → ¬∃ ws, Fits fo args r.2.2 ws) ∧ LastFitting fo old name args t ws := by
  constructor
  · rintro ⟨older, ps, newer, h1, h2, h3⟩
    rcases List.append_eq_append_iff.1 h1 with ⟨l, e1, e2⟩ | ⟨l, e1, e2⟩
    · exact .inl ⟨l, ps, newer, e2, h2, h3⟩
    · cases l with
      | nil => exact .inl ⟨[], ps, newer, by simpa using e2.symm, h2, h3⟩
      | cons x xs =>
        simp only [List.cons_append, List.cons.injEq] at e2
        obtain ⟨rfl, rfl⟩ := e2
        exact .inr ⟨fun r hr => h3 r (by simp [hr]), older, ps, xs, e1, h2, fun r hr => h3 r (by simp [hr])⟩
  · rintro (⟨older, ps, newer, rfl, h2, h3⟩ | ⟨h, older, ps, newer, rfl, h2, h3⟩)
    · exact ⟨old ++ older, ps, newer, by simp, h2, h3⟩
    · refine ⟨older, ps, newer ++ mine, by simp, h2, fun r hr => ?_⟩
      rcases List.mem_append.1 hr with hr | hr
      · exact h3 r hr
      · exact h r hr

end Qasm
