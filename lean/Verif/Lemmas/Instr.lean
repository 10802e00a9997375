import Verif.Lemmas.Gate
/-!
# Helper lemmas: resolving instructions against the default instruction table, operand counts
-/

namespace Qasm

open Spec Sem

variable {F : Type}

/-- The registrations behind the default instruction table. -/
def instrRegs : List (Registration Instruction) :=
  InstructionSet.registrations.map fun e => (e.1, ⟨e.1, (Types.fromSpec e.2).getD []⟩, (Types.fromSpec e.2).getD [])

theorem tableOf_instrRegs : tableOf instrRegs = defaultInstrs := by
  unfold tableOf instrRegs defaultInstrs
  rw [List.foldl_map]
  rfl

/-- Names and operand kinds of the default instruction table. -/
def instrKinds : List (Str × List Kind) :=
  InstructionSet.registrations.map fun e => (e.1, ((Types.fromSpec e.2).getD []).map Ty.kind)

theorem fromSpec_bare {s : Str} {ts : List Ty} (h : Types.fromSpec s = some ts) :
    ts = (ts.map Ty.kind).map Ty.bare := by
  induction s generalizing ts with
  | nil => simp [Types.fromSpec] at h; subst h; rfl
  | cons c s ih =>
    simp only [Types.fromSpec] at h
    cases hc : Types.fromSpecChar c with
    | none => rw [hc] at h; cases h
    | some t =>
      rw [hc] at h
      simp only [Option.map_eq_some_iff] at h
      obtain ⟨a, ha, rfl⟩ := h
      have ht : t = Ty.bare t.kind := by
        unfold Types.fromSpecChar at hc
        repeat (split at hc; · cases hc; rfl)
        cases hc
      rw [List.map_cons, List.map_cons, ← ih ha, ← ht]

theorem instrRegs_mem {r : Registration Instruction} (h : r ∈ instrRegs) :
    ∃ ks, (r.1, ks) ∈ instrKinds ∧ r.2.1 = refOf r.1 ks ∧ r.2.2 = ks.map Ty.bare := by
  obtain ⟨e, he, rfl⟩ := List.mem_map.mp h
  obtain ⟨ts, hts⟩ := Option.isSome_iff_exists.mp (instr_registrations_specs e he)
  refine ⟨ts.map Ty.kind, List.mem_map.mpr ⟨e, he, by simp [hts]⟩, ?_, ?_⟩
  · simp only [hts, Option.getD_some, refOf]
    rw [fromSpec_bare hts]
    simp [Ty.bare]
  · simp only [hts, Option.getD_some]
    exact fromSpec_bare hts

theorem instrKinds_mem {name : Str} {ks : List Kind} (h : (name, ks) ∈ instrKinds) :
    (name, refOf name ks, ks.map Ty.bare) ∈ instrRegs := by
  obtain ⟨e, he, h⟩ := List.mem_map.mp h
  obtain ⟨ts, hts⟩ := Option.isSome_iff_exists.mp (instr_registrations_specs e he)
  simp only [hts, Option.getD_some, Prod.mk.injEq] at h
  obtain ⟨rfl, rfl⟩ := h
  refine List.mem_map.mpr ⟨e, he, ?_⟩
  have := fromSpec_bare hts
  simp only [hts, Option.getD_some]
  refine congrArg _ ?_
  rw [Prod.mk.injEq]
  refine ⟨?_, this⟩
  simp only [refOf]
  congr 1

theorem instrKinds_register : ∀ e ∈ instrKinds, ∀ k ∈ e.2, k = .qubit ∨ k = .bit ∨ k = .qubitArray ∨ k = .bitArray := by
  decide +kernel

theorem fits_register {fo : FloatOps F} {vs ws : List (Value F)} {ks : List Kind}
    (hr : ∀ k ∈ ks, RegisterKind k) (hg : ∀ v ∈ vs, GoodNode v.node) :
    Fits fo vs (ks.map Ty.bare) ws ↔ vs.map (fun v => kindOf v.node) = ks.map some ∧ ws = vs := by
  induction ks generalizing vs ws with
  | nil =>
    constructor
    · intro h; cases h; exact ⟨rfl, rfl⟩
    · rintro ⟨h, rfl⟩
      have : ws = [] := by simpa using h
      subst this; exact .nil
  | cons k ks ih =>
    constructor
    · intro h
      cases h with
      | @cons v w t vs _ ws h1 h2 =>
        obtain ⟨h3, rfl⟩ := (ih (fun k hk => hr k (by simp [hk])) (fun v hv => hg v (by simp [hv]))).mp h2
        simp only [Ty.bare] at h1
        rcases hg v (by simp) with ⟨c, hc⟩ | ⟨k', hk', hr'⟩
        · exfalso
          have hkr := hr k (by simp)
          cases h1 with
          | same h => exact not_register_const c (hc ▸ h) hkr
          | const l h =>
            exact not_register_const _ (kindOf_node _) (converts_kind h ▸ hkr)
          | boolVar l h => rcases hkr with h | h | h | h <;> cases h
        · obtain ⟨rfl, rfl⟩ := promotesTo_register hk' hr' h1
          simp [hk', h3]
    · rintro ⟨h, rfl⟩
      cases ws with
      | nil => simp at h
      | cons v vs =>
        simp only [List.map_cons, List.cons.injEq] at h
        exact .cons (.same h.1) ((ih (fun k hk => hr k (by simp [hk])) (fun v hv => hg v (by simp [hv]))).mpr ⟨h.2, rfl⟩)

theorem resolveInstruction_spec {fo : FloatOps F} {D : List VarLink} {scopes : List (Scope F)} (henv : EnvOk fo D scopes)
    (name : Str) (vs : List (Value F)) (hg : ∀ v ∈ vs, GoodNode v.node) :
    (∃ ks, Analyzer.resolveInstruction fo scopes name vs = .ok (refOf name ks, vs) ∧
      vs.map (fun v => kindOf v.node) = ks.map some ∧ (name, ks) ∈ instrKinds) ∨
    (∃ err : Err, err.location = none ∧ Analyzer.resolveInstruction fo scopes name vs = .err err ∧
      ∀ ks, vs.map (fun v => kindOf v.node) = ks.map some → (name, ks) ∉ instrKinds) := by
  obtain ⟨s, rfl, _, h2, _⟩ := henv.scope
  have hty : ∀ v ∈ vs, kindOf v.node ≠ none := fun v hv => good_typed (hg v hv)
  have hreg : ∀ ks, (name, ks) ∈ instrKinds → ∀ k ∈ ks, RegisterKind k := fun ks h k hk => instrKinds_register _ h k hk
  rcases resolve_spec fo instrRegs name vs hty with ⟨tag, ws, h3, older, ps, newer, h4, h5, h6⟩ | ⟨h3, h4⟩
  · left
    obtain ⟨ks, g1, g2, g3⟩ := instrRegs_mem (r := (name, tag, ps)) (by rw [h4]; simp)
    simp only at g1 g2 g3
    subst g3
    obtain ⟨g4, rfl⟩ := (fits_register (hreg ks g1) hg).mp h5
    refine ⟨ks, ?_, g4, g1⟩
    simp only [Analyzer.resolveInstruction, h2, ← tableOf_instrRegs, h3, g2]
  · right
    have hno : ∀ ks, vs.map (fun v => kindOf v.node) = ks.map some → (name, ks) ∉ instrKinds := by
      intro ks h5 h6
      exact h3 _ (instrKinds_mem h6) rfl ⟨vs, (fits_register (hreg ks h6) hg).mpr ⟨h5, rfl⟩⟩
    obtain ⟨ts, hts, _⟩ := typesOf_ok hty
    rcases h4 with ⟨_, h4⟩ | ⟨_, _, _, h4⟩
    · refine ⟨_, ?_, by simp only [Analyzer.resolveInstruction, h2, ← tableOf_instrRegs, h4, hts, Res.bind_ok]; rfl, hno⟩
      rfl
    · refine ⟨_, ?_, by simp only [Analyzer.resolveInstruction, h2, ← tableOf_instrRegs, h4, hts, Res.bind_ok]; rfl, hno⟩
      rfl

/-! ## The operand kinds of the instructions -/

/-- All lists of `n` qubit kinds. -/
def combos : Nat → List (List Kind)
  | 0 => [[]]
  | n + 1 => [Kind.qubit, Kind.qubitArray].flatMap fun k => (combos n).map (k :: ·)

theorem mem_combos (n : Nat) (ks : List Kind) :
    ks ∈ combos n ↔ ks.length = n ∧ ∀ k ∈ ks, k = .qubit ∨ k = .qubitArray := by
  induction n generalizing ks with
  | zero =>
    simp only [combos, List.mem_singleton]
    constructor
    · rintro rfl; simp
    · rintro ⟨h, _⟩; exact List.length_eq_zero_iff.mp h
  | succ n ih =>
    simp only [combos, List.mem_flatMap, List.mem_map]
    constructor
    · rintro ⟨k, hk, ks, hks, rfl⟩
      have := (ih ks).mp hks
      refine ⟨by simp [this.1], ?_⟩
      intro k' hk'
      rcases List.mem_cons.mp hk' with rfl | hk'
      · simpa using hk
      · exact this.2 k' hk'
    · rintro ⟨h1, h2⟩
      cases ks with
      | nil => simp at h1
      | cons k ks =>
        refine ⟨k, ?_, ks, (ih ks).mpr ⟨by simpa using h1, fun k hk => h2 k (by simp [hk])⟩, rfl⟩
        simpa using h2 k (by simp)

/-- The operand kinds listed for a name. -/
def kindsFor (name : Str) : List (List Kind) := (instrKinds.filter fun e => e.1 = name).map (·.2)

theorem mem_kindsFor (name : Str) (ks : List Kind) : ks ∈ kindsFor name ↔ (name, ks) ∈ instrKinds := by
  simp only [kindsFor, List.mem_map, List.mem_filter, decide_eq_true_eq]
  constructor
  · rintro ⟨⟨a, b⟩, ⟨h1, h2⟩, h3⟩
    simp only at h2 h3; subst h2; subst h3; exact h1
  · intro h; exact ⟨_, ⟨h, rfl⟩, rfl⟩

theorem kinds_named : ∀ e ∈ namedGates, ∀ ks, ks ∈ kindsFor e.1 ↔ ks ∈ combos e.2.1 := by
  have key : ∀ e ∈ namedGates, (∀ ks ∈ kindsFor e.1, ks ∈ combos e.2.1) ∧ (∀ ks ∈ combos e.2.1, ks ∈ kindsFor e.1) := by
    decide +kernel
  exact fun e he ks => ⟨(key e he).1 ks, (key e he).2 ks⟩

theorem kinds_one : ∀ e ∈ namedGates, e.2.1 = 1 → ∀ ks, ks ∈ kindsFor (c!"1q_" ++ e.1) ↔ ks ∈ combos 1 := by
  have key : ∀ e ∈ namedGates, e.2.1 = 1 → (∀ ks ∈ kindsFor (c!"1q_" ++ e.1), ks ∈ combos 1) ∧
      (∀ ks ∈ combos 1, ks ∈ kindsFor (c!"1q_" ++ e.1)) := by decide +kernel
  exact fun e he h ks => ⟨(key e he h).1 ks, (key e he h).2 ks⟩

theorem kinds_two : ∀ e ∈ namedGates, e.2.1 = 1 → ∀ ks, ks ∈ kindsFor (c!"2q_" ++ e.1) ↔ ks ∈ combos 2 := by
  have key : ∀ e ∈ namedGates, e.2.1 = 1 → (∀ ks ∈ kindsFor (c!"2q_" ++ e.1), ks ∈ combos 2) ∧
      (∀ ks ∈ combos 2, ks ∈ kindsFor (c!"2q_" ++ e.1)) := by decide +kernel
  exact fun e he h ks => ⟨(key e he h).1 ks, (key e he h).2 ks⟩

/-- The named gate at the bottom of an accepted chain. -/
theorem gateOk_root {fo : FloatOps F} {D : List VarLink} {g : Gate F} {n : Nat} {s : SGate F}
    (h : GateOk fo D g n s) : ∃ m ks, (rootName g, m, ks) ∈ namedGates ∧
      (refName g = rootName g ∧ n = m ∨ m = 1 ∧ n = 1 ∧ refName g = c!"1q_" ++ rootName g ∨
        m = 1 ∧ n = 2 ∧ refName g = c!"2q_" ++ rootName g) := by
  induction h with
  | @named l as name ps n ks _ _ h1 => exact ⟨n, ks, by simpa [rootName] using h1, .inl ⟨by simp [rootName, refName], rfl⟩⟩
  | inv _ _ ih =>
    obtain ⟨m, ks, h1, h2⟩ := ih
    refine ⟨m, ks, by simpa [rootName] using h1, .inr (.inl ⟨?_, rfl, by simp [refName, rootName]⟩)⟩
    rcases h2 with ⟨_, h⟩ | ⟨h, _⟩ | ⟨h, _⟩
    · exact h.symm
    · exact h
    · exact h
  | pow _ _ _ ih =>
    obtain ⟨m, ks, h1, h2⟩ := ih
    refine ⟨m, ks, by simpa [rootName] using h1, .inr (.inl ⟨?_, rfl, by simp [refName, rootName]⟩)⟩
    rcases h2 with ⟨_, h⟩ | ⟨h, _⟩ | ⟨h, _⟩
    · exact h.symm
    · exact h
    · exact h
  | ctrl _ _ ih =>
    obtain ⟨m, ks, h1, h2⟩ := ih
    refine ⟨m, ks, by simpa [rootName] using h1, .inr (.inr ⟨?_, rfl, by simp [refName, rootName]⟩)⟩
    rcases h2 with ⟨_, h⟩ | ⟨h, _⟩ | ⟨h, _⟩
    · exact h.symm
    · exact h
    · exact h

theorem gate_kinds {fo : FloatOps F} {D : List VarLink} {g : Gate F} {n : Nat} {s : SGate F}
    (h : GateOk fo D g n s) (ks : List Kind) :
    (refName g, ks) ∈ instrKinds ↔ ks.length = n ∧ ∀ k ∈ ks, k = .qubit ∨ k = .qubitArray := by
  rw [← mem_kindsFor, ← mem_combos]
  obtain ⟨m, ps, h1, ⟨h2, rfl⟩ | ⟨rfl, rfl, h2⟩ | ⟨rfl, rfl, h2⟩⟩ := gateOk_root h
  · rw [h2]; exact kinds_named _ h1 ks
  · rw [h2]; exact kinds_one _ h1 rfl ks
  · rw [h2]; exact kinds_two _ h1 rfl ks

theorem nonGate_kinds {name : Str} (h : name ∈ nonGates) (ks : List Kind) :
    (name, ks) ∈ instrKinds ↔ NonGateOperands name ks := by
  rw [← mem_kindsFor]
  have k1 : (∀ ks ∈ kindsFor c!"measure",
      ks ∈ [[Kind.bit, .qubit], [.bit, .qubitArray], [.bitArray, .qubit], [.bitArray, .qubitArray]]) ∧
      ∀ ks ∈ [[Kind.bit, .qubit], [.bit, .qubitArray], [.bitArray, .qubit], [.bitArray, .qubitArray]],
        ks ∈ kindsFor c!"measure" := by decide +kernel
  have k2 : ∀ name ∈ [c!"reset", c!"init", c!"barrier", c!"wait"],
      (∀ ks ∈ kindsFor name, ks ∈ [[Kind.qubit], [.qubitArray]]) ∧
      ∀ ks ∈ [[Kind.qubit], [.qubitArray]], ks ∈ kindsFor name := by decide +kernel
  unfold NonGateOperands
  have hn : name = c!"measure" ∨ name ∈ [c!"reset", c!"init", c!"barrier", c!"wait"] := by
    simpa [nonGates] using h
  rcases hn with rfl | hn
  · constructor
    · intro h; exact .inl ⟨rfl, k1.1 ks h⟩
    · rintro (⟨_, h⟩ | ⟨h, _⟩)
      · exact k1.2 ks h
      · simp at h
  · constructor
    · intro h; exact .inr ⟨hn, (k2 name hn).1 ks h⟩
    · rintro (⟨rfl, _⟩ | ⟨_, h⟩)
      · simp at hn
      · exact (k2 name hn).2 ks h

theorem forall2_kinds {vs : List (Value F)} {ks : List Kind} :
    vs.map (fun v => kindOf v.node) = ks.map some ↔ Forall2 (fun v k => kindOf v.node = some k) vs ks := by
  induction vs generalizing ks with
  | nil =>
    cases ks with
    | nil => exact ⟨fun _ => .nil, fun _ => rfl⟩
    | cons k ks => exact ⟨fun h => by simp at h, fun h => nomatch h⟩
  | cons v vs ih =>
    cases ks with
    | nil => exact ⟨fun h => by simp at h, fun h => nomatch h⟩
    | cons k ks =>
      simp only [List.map_cons, List.cons.injEq, ih]
      exact ⟨fun h => .cons h.1 h.2, fun h => by cases h with | cons a b => exact ⟨a, b⟩⟩

/-! ## Counting qubits and bits -/

theorem eval_variable {fo : FloatOps F} {D : List VarLink} {e : Expr F} {x : VarLink}
    (h : Eval fo D e (.variableRef x)) : x ∈ D := by
  generalize hn : (ValueNode.variableRef x : ValueNode F) = n at h
  cases h with
  | ident hd =>
    cases hd with
    | @const c => cases c <;> cases hn
    | var _ h _ => cases hn; exact h
  | @call _ _ _ _ r => cases r <;> cases hn
  | @un _ _ _ _ r => cases r <;> cases hn
  | @bin _ _ _ _ _ _ r => cases r <;> cases hn
  | @tern _ _ _ _ _ _ _ r => cases r <;> cases hn
  | _ => cases hn

theorem eval_index {fo : FloatOps F} {D : List VarLink} {e : Expr F} {x : VarLink} {is : List (Int64 × Option Loc)}
    (h : Eval fo D e (.indexRef x is)) : x ∈ D ∧ (x.typ.kind = .qubitArray ∨ x.typ.kind = .bitArray) ∧
      ∀ i ∈ is, 0 ≤ i.1.toInt ∧ i.1.toInt < x.typ.size.toInt := by
  generalize hn : (ValueNode.indexRef x is : ValueNode F) = n at h
  cases h with
  | ident hd =>
    cases hd with
    | @const c => cases c <;> cases hn
    | var => cases hn
  | index h1 h2 _ h3 => cases hn; exact ⟨eval_variable h1, h2, h3⟩
  | @call _ _ _ _ r => cases r <;> cases hn
  | @un _ _ _ _ r => cases r <;> cases hn
  | @bin _ _ _ _ _ _ r => cases r <;> cases hn
  | @tern _ _ _ _ _ _ _ r => cases r <;> cases hn
  | _ => cases hn

theorem toUInt64_toNat {n : Int64} (h : 0 < n.toInt) : n.toUInt64.toNat = n.toInt.toNat := by
  have h1 : n.toInt = (n.toUInt64.toNat : Int).bmod (2 ^ 64) := by
    rw [Int64.toInt, BitVec.toInt_eq_toNat_bmod]; rfl
  have h2 : n.toUInt64.toNat < 2 ^ 64 := n.toUInt64.toNat_lt
  have h3 := n.toInt_lt
  rw [h1] at h h3 ⊢
  rw [Int.bmod_def] at h h3 ⊢
  split <;> omega

/-- The qubits and bits an operand counts for. -/
theorem counts {fo : FloatOps F} {D : List VarLink} (hD : DeclsOk D) {e : Expr F} {v : Value F}
    (h : Eval fo D e v.node) :
    (∀ k, IsQubits v.node k → qubitCount v = elements v.node ∧ bitCount v = 0) ∧
    (∀ k, IsBits v.node k → bitCount v = elements v.node ∧ qubitCount v = 0) := by
  obtain ⟨n, l⟩ := v
  simp only at h
  have key : ∀ k, kindOf n = some k → (k = .qubit ∨ k = .qubitArray →
      qubitCount (⟨n, l⟩ : Value F) = elements n ∧ bitCount (⟨n, l⟩ : Value F) = 0) ∧
      (k = .bit ∨ k = .bitArray → bitCount (⟨n, l⟩ : Value F) = elements n ∧ qubitCount (⟨n, l⟩ : Value F) = 0) := by
    intro k hk
    cases n with
    | constBool b => cases hk; simp
    | constInt b => cases hk; simp
    | constFloat b => cases hk; simp
    | variableRef x =>
      simp only [kindOf, Option.some.injEq] at hk
      subst hk
      have h1 : Int64.toInt 1 = 1 := by decide
      rcases hD.kinds x (eval_variable h) with ⟨h2 | h2, h3⟩ | ⟨h2 | h2, h3⟩
      · simp [h2, qubitCount, bitCount, elements, h3, h1]
      · simp [h2, qubitCount, bitCount, elements, h3, h1]
      · simp [h2, qubitCount, bitCount, elements, toUInt64_toNat h3]
      · simp [h2, qubitCount, bitCount, elements, toUInt64_toNat h3]
    | indexRef x is =>
      obtain ⟨_, h2, _⟩ := eval_index h
      have : (x.typ.kind = .qubitArray ∧ (k = .qubit ∨ k = .qubitArray)) ∨
          (x.typ.kind = .bitArray ∧ (k = .bit ∨ k = .bitArray)) := by
        rcases is with _ | ⟨i, _ | ⟨j, is⟩⟩ <;> rcases h2 with h2 | h2 <;>
          simp only [kindOf, h2, elementKind, Option.some.injEq] at hk <;> subst hk <;> simp [h2]
      rcases this with ⟨h3, h4 | h4⟩ | ⟨h3, h4 | h4⟩ <;> subst h4 <;> simp [qubitCount, bitCount, elements, h3]
  exact ⟨fun k hk => (key k hk.1).1 hk.2, fun k hk => (key k hk.1).2 hk.2⟩

theorem adjacentDiffer_iff (l : List Nat) : adjacentDiffer l = false ↔ ∀ a ∈ l, ∀ b ∈ l, a = b := by
  match l with
  | [] => simp [adjacentDiffer]
  | [a] => simp [adjacentDiffer]
  | a :: b :: rest =>
    have ih := adjacentDiffer_iff (b :: rest)
    simp only [adjacentDiffer, Bool.or_eq_false_iff, bne_eq_false_iff_eq, ih]
    constructor
    · rintro ⟨rfl, h⟩ x hx y hy
      rcases List.mem_cons.mp hx with rfl | hx <;> rcases List.mem_cons.mp hy with rfl | hy
      · rfl
      · exact h _ (by simp) _ hy
      · exact h _ hx _ (by simp)
      · exact h _ hx _ hy
    · intro h
      exact ⟨h a (by simp) b (by simp), fun x hx y hy => h x (by simp only [List.mem_cons] at hx ⊢; exact .inr hx) y (by simp only [List.mem_cons] at hy ⊢; exact .inr hy)⟩

theorem forall2_left {α β : Type} {R : α → β → Prop} {as : List α} {bs : List β} (h : Forall2 R as bs) :
    ∀ a ∈ as, ∃ b ∈ bs, R a b := by
  induction h with
  | nil => simp
  | cons h1 _ ih =>
    intro a ha
    rcases List.mem_cons.mp ha with rfl | ha
    · exact ⟨_, by simp, h1⟩
    · obtain ⟨b, hb, h⟩ := ih a ha
      exact ⟨b, by simp [hb], h⟩

theorem forall2_right {α β : Type} {R : α → β → Prop} {as : List α} {bs : List β} (h : Forall2 R as bs) :
    ∀ b ∈ bs, ∃ a ∈ as, R a b := by
  induction h with
  | nil => simp
  | cons h1 _ ih =>
    intro a ha
    rcases List.mem_cons.mp ha with rfl | ha
    · exact ⟨_, by simp, h1⟩
    · obtain ⟨b, hb, h⟩ := ih a ha
      exact ⟨b, by simp [hb], h⟩

theorem forall2_length {α β : Type} {R : α → β → Prop} {as : List α} {bs : List β} (h : Forall2 R as bs) :
    as.length = bs.length := by
  induction h with
  | nil => rfl
  | cons _ _ ih => simp [ih]

theorem forall2_and {α β : Type} {R : α → β → Prop} {P : β → Prop} {as : List α} {bs : List β} (h : Forall2 R as bs)
    (hp : ∀ b ∈ bs, P b) : Forall2 (fun a b => R a b ∧ P b) as bs := by
  induction h with
  | nil => exact .nil
  | cons h1 _ ih => exact .cons ⟨h1, hp _ (by simp)⟩ (ih fun b hb => hp b (by simp [hb]))

theorem forall2_imp {α β : Type} {R S : α → β → Prop} {as : List α} {bs : List β} (h : Forall2 R as bs)
    (hp : ∀ a b, R a b → S a b) : Forall2 S as bs := by
  induction h with
  | nil => exact .nil
  | cons h1 _ ih => exact .cons (hp _ _ h1) ih

theorem checkGateInstruction_spec {fo : FloatOps F} {D : List VarLink} (hD : DeclsOk D) {es : List (Expr F)}
    {vs : List (Value F)} {ks : List Kind} (h : EvalAll fo D es vs) (hk : Forall2 (fun v k => IsQubits v.node k) vs ks) :
    (checkGateInstruction vs = .ok () ∧ ∀ v ∈ vs, ∀ w ∈ vs, elements v.node = elements w.node) ∨
    (∃ e : Err, e.location = none ∧ checkGateInstruction vs = .err e ∧
      ¬ ∀ v ∈ vs, ∀ w ∈ vs, elements v.node = elements w.node) := by
  have hc : ∀ v ∈ vs, qubitCount v = elements v.node := by
    intro v hv
    obtain ⟨k, _, h1⟩ := forall2_left hk v hv
    obtain ⟨e, _, h2⟩ := forall2_right h v hv
    exact ((counts hD h2.2).1 k h1).1
  have hiff : adjacentDiffer (vs.map qubitCount) = false ↔ ∀ v ∈ vs, ∀ w ∈ vs, elements v.node = elements w.node := by
    rw [adjacentDiffer_iff]
    simp only [List.mem_map, forall_exists_index, and_imp]
    constructor
    · intro h v hv w hw
      have := h _ v hv rfl _ w hw rfl
      rwa [hc v hv, hc w hw] at this
    · rintro h _ v hv rfl _ w hw rfl
      rw [hc v hv, hc w hw]; exact h v hv w hw
  unfold checkGateInstruction
  cases hb : adjacentDiffer (vs.map qubitCount) with
  | false => exact .inl ⟨rfl, hiff.mp hb⟩
  | true => exact .inr ⟨_, rfl, rfl, fun h => by rw [hiff.mpr h] at hb; cases hb⟩

end Qasm
