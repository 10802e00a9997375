import Verif.Lemmas.Operand
/-!
# Properties of instructions (C26 to C36)

Most theorems are about one instruction `s` written after an accepted program `p`: `declared r` are then the
variables `p` declares.
-/

namespace Qasm

open Spec Sem

attribute [local irreducible] defaultInstrs defaultFns defaultVars

variable {F : Type}

/-! ## C30, C31: which gates are accepted -/

/-- C30. A gate without modifiers is accepted exactly if it is one of the standard set, its parameters match
in number and kind, and its operands are as many qubit references as the gate takes, all of the same number
of qubits. -/
theorem C30_accepted (fo : FloatOps F) (v : Version) (a : Analyzer F) (ha : Analyzer.default fo v = .ok a)
    (p : ProgramAst F) (hs : ShapedProgram p) (r : SProgram F) (h : Accepts fo a p r)
    (l l' : Option Loc) (name : Str) (ps es : List (Expr F)) (hn : name ∉ modifiers ∧ name ∉ nonGates)
    (hes : ∀ e ∈ es, ShapedExpr e) :
    (∃ r', Accepts fo a (andThen p (.gate l [] (.mk l' [] name none ps) es)) r') ↔
      ∃ n ks ws vs, (name, n, ks) ∈ namedGates ∧ EvalParams fo (declared r) ps ks ws ∧
        QubitOperands fo (declared r) es n vs := by
  have hsh : ShapedStmt (.gate l [] (.mk l' [] name none ps) es) :=
    ⟨by simp [ShapedAnnotations], hn, by simp [ShapedGateAnnotations, ShapedAnnotations], hes⟩
  rw [andThen_ok_iff ha hs h hsh (fun h => h), gateInstr_iff]
  constructor
  · rintro ⟨n, s, vs, h1, h2⟩
    obtain ⟨ks, ws, g1, g2, _⟩ := named_iff.mp h1
    exact ⟨n, ks, ws, vs, g1, g2, h2⟩
  · rintro ⟨n, ks, ws, vs, g1, g2, h2⟩
    exact ⟨n, _, vs, named_iff.mpr ⟨ks, ws, g1, g2, rfl⟩, h2⟩

/-- C30. What an accepted gate without modifiers adds to the result: one instruction with the gate as named,
the converted parameters and the operands, and nothing else. -/
theorem C30_result (fo : FloatOps F) (v : Version) (a : Analyzer F) (ha : Analyzer.default fo v = .ok a)
    (p : ProgramAst F) (hs : ShapedProgram p) (r : SProgram F) (h : Accepts fo a p r)
    (l l' : Option Loc) (name : Str) (ps es : List (Expr F)) (hn : name ∉ modifiers ∧ name ∉ nonGates)
    (hes : ∀ e ∈ es, ShapedExpr e) (r' : SProgram F)
    (h' : Accepts fo a (andThen p (.gate l [] (.mk l' [] name none ps) es)) r') :
    ∃ n ks ws vs ref, (name, n, ks) ∈ namedGates ∧ EvalParams fo (declared r) ps ks ws ∧
      QubitOperands fo (declared r) es n vs ∧ r'.variables = r.variables ∧
      r'.block.statements = r.block.statements ++ [.gate ref (.mk name none ws [] l') vs [] l] := by
  have hsh : ShapedStmt (.gate l [] (.mk l' [] name none ps) es) :=
    ⟨by simp [ShapedAnnotations], hn, by simp [ShapedGateAnnotations, ShapedAnnotations], hes⟩
  obtain ⟨t, h1, h2, h3⟩ := andThen_iff ha hs h hsh (fun h => h) h'
  cases h1 with
  | gate g1 g2 g3 g4 g5 g6 =>
    obtain ⟨ks, ws, k1, k2, rfl⟩ := named_iff.mp g1
    cases evalAnnotations_nil g6
    exact ⟨_, _, _, _, _, k1, k2, ⟨g2, g3, qubits_of_kinds g4, g5⟩, h3, h2⟩

/-- C30. The standard set has 25 gates with distinct names. -/
theorem C30_gate_set : namedGates.length = 25 ∧ (namedGates.map (·.1)).Nodup ∧
    (∀ g ∈ namedGates, g.2.1 = 1 ∨ g.2.1 = 2) := by decide +kernel

/-- C31. A chain of at least one modifier over a named gate is accepted exactly if the named gate is a
single-qubit gate with matching parameters, `ctrl` occurs at most as the outermost modifier, `inv` and
`ctrl` have no parameter, `pow` one number, and there is one qubit operand, or two under `ctrl`. -/
theorem C31_accepted (fo : FloatOps F) (v : Version) (a : Analyzer F) (ha : Analyzer.default fo v = .ok a)
    (p : ProgramAst F) (hs : ShapedProgram p) (r : SProgram F) (h : Accepts fo a p r)
    (l l' : Option Loc) (ms : List (Modifier F)) (hms : ms ≠ []) (hmn : ∀ m ∈ ms, m.name ∈ modifiers)
    (name : Str) (ps es : List (Expr F)) (hn : name ∉ modifiers ∧ name ∉ nonGates) (hes : ∀ e ∈ es, ShapedExpr e) :
    (∃ r', Accepts fo a (andThen p (.gate l [] (chain ms (.mk l' [] name none ps)) es)) r') ↔
      (∃ ks ws, (name, 1, ks) ∈ namedGates ∧ EvalParams fo (declared r) ps ks ws) ∧
      (∀ m ∈ ms, ModifierOk fo (declared r) m) ∧ (∀ m ∈ ms.tail, m.name ≠ c!"ctrl") ∧
      ∃ vs, QubitOperands fo (declared r) es (if ms.head?.map Modifier.name = some c!"ctrl" then 2 else 1) vs := by
  have hsg : ∀ ms : List (Modifier F), (∀ m ∈ ms, m.name ∈ modifiers) → ShapedGate (chain ms (.mk l' [] name none ps)) ∧
      ShapedGateAnnotations (chain ms (.mk l' [] name none ps)) := by
    intro ms
    induction ms with
    | nil => exact fun _ => ⟨hn, by simp [chain, ShapedGateAnnotations, ShapedAnnotations]⟩
    | cons m ms ih =>
      intro hm
      obtain ⟨i1, i2⟩ := ih fun x hx => hm x (List.mem_cons_of_mem _ hx)
      exact ⟨⟨hm m (List.mem_cons_self ..), i1⟩, by simp [ShapedAnnotations], i2⟩
  have hsh : ShapedStmt (.gate l [] (chain ms (.mk l' [] name none ps)) es) :=
    ⟨by simp [ShapedAnnotations], (hsg ms hmn).1, (hsg ms hmn).2, hes⟩
  rw [andThen_ok_iff ha hs h hsh (fun h => h), gateInstr_iff]
  constructor
  · rintro ⟨n, s, vs, h1, h2⟩
    obtain ⟨⟨s', g1⟩, g2, g3, g4⟩ := (chain_iff hms).mp ⟨s, h1⟩
    obtain ⟨ks, ws, k1, k2, _⟩ := named_iff.mp g1
    rw [g4] at h2
    exact ⟨⟨ks, ws, k1, k2⟩, g2, g3, vs, h2⟩
  · rintro ⟨⟨ks, ws, k1, k2⟩, g2, g3, vs, h2⟩
    obtain ⟨s, hg⟩ := (chain_iff hms).mpr ⟨⟨_, named_iff.mpr ⟨ks, ws, k1, k2, rfl⟩⟩, g2, g3, rfl⟩
    exact ⟨_, s, vs, hg, h2⟩

section Examples
open Sample

/-- `qubit[3] q; bit[2] b` -/
private def decls : ProgramAst Int := program [qubits c!"q" 3, bits c!"b" 2]

private theorem decls_shaped : ShapedProgram decls := by
  simp [decls, ShapedProgram, program, qubits, bits, ShapedStmt, ShapedAnnotations]

/-- The hypotheses of the theorems above: an accepted program after which instructions can follow. -/
example : ∃ a r, Analyzer.default fo [3, 0] = .ok a ∧ ShapedProgram decls ∧ Accepts fo a decls r := by
  obtain ⟨a, ha⟩ := default30
  obtain ⟨r, hr⟩ := accepted ha decls_shaped (by decide +kernel)
  exact ⟨a, r, ha, decls_shaped, hr⟩

example : messages (andThen decls (Sample.gate c!"CRk" [int 2] [slice c!"q" 0 1, slice c!"q" 1 2])) = some [] := by decide +kernel
example : messages (andThen decls (Sample.gate c!"CRk" [int 2] [slice c!"q" 0 1, at_ c!"q" 2])) ≠ some [] := by decide +kernel
example : messages (andThen decls (Sample.gate c!"CRk" [name c!"pi"] [at_ c!"q" 1, at_ c!"q" 2])) ≠ some [] := by decide +kernel

private def m (x : Str) (ps : List (Expr Int)) : Modifier Int := ⟨none, x, ps⟩

example : messages (andThen decls (.gate none [] (chain [m c!"ctrl" [], m c!"pow" [int 2], m c!"inv" []]
    (.mk none [] c!"X" none [])) [at_ c!"q" 0, at_ c!"q" 1])) = some [] := by decide +kernel
example : messages (andThen decls (.gate none [] (chain [m c!"inv" [], m c!"ctrl" []]
    (.mk none [] c!"X" none [])) [at_ c!"q" 0, at_ c!"q" 1])) ≠ some [] := by decide +kernel
example : messages (andThen decls (.gate none [] (chain [m c!"pow" []]
    (.mk none [] c!"X" none [])) [at_ c!"q" 0])) ≠ some [] := by decide +kernel
end Examples

/-! ## C34, C35: the other instructions -/

/-- C34. `measure` is accepted exactly with a bit reference, a qubit reference of as many elements, and no
or three numeric parameters. -/
theorem C34_accepted (fo : FloatOps F) (v : Version) (a : Analyzer F) (ha : Analyzer.default fo v = .ok a)
    (p : ProgramAst F) (hs : ShapedProgram p) (r : SProgram F) (h : Accepts fo a p r)
    (l : Option Loc) (es ps : List (Expr F)) (hes : ∀ e ∈ es, ShapedExpr e) :
    (∃ r', Accepts fo a (andThen p (.nonGate l [] c!"measure" es ps)) r') ↔
      (∃ b q n m kn km, es = [b, q] ∧ Eval fo (declared r) b n ∧ IsBits n kn ∧ Eval fo (declared r) q m ∧ IsQubits m km ∧
        elements n = elements m) ∧
      (ps = [] ∨ ∃ ws, EvalParams fo (declared r) ps [.float, .float, .float] ws) := by
  have hsh : ShapedStmt (.nonGate l [] c!"measure" es ps) :=
    ⟨by simp [ShapedAnnotations], by decide, fun h => absurd h (by decide), hes⟩
  rw [andThen_ok_iff ha hs h hsh (fun h => h)]
  constructor
  · rintro ⟨t, ht⟩
    generalize hn : c!"measure" = name at ht
    cases ht with
    | measure h1 h2 h3 h4 h5 h6 =>
      exact ⟨⟨_, _, _, _, _, _, rfl, h1, h2, h3, h4, h5⟩, h6.imp (fun h => (evalParams_nil h).1) fun h => ⟨_, h⟩⟩
    | simple h1 => subst hn; exact absurd h1 (by decide)
    | wait => exact absurd hn (by decide)
  · rintro ⟨⟨b, q, n, m, kn, km, rfl, h1, h2, h3, h4, h5⟩, h6⟩
    rcases h6 with rfl | ⟨ws, h6⟩
    · exact ⟨_, .measure h1 h2 h3 h4 h5 (.inl .nil) .nil⟩
    · exact ⟨_, .measure h1 h2 h3 h4 h5 (.inr h6) .nil⟩

/-- C35. `reset`, `init` and `barrier` are accepted exactly with one qubit reference and no parameter. -/
theorem C35_accepted (fo : FloatOps F) (v : Version) (a : Analyzer F) (ha : Analyzer.default fo v = .ok a)
    (p : ProgramAst F) (hs : ShapedProgram p) (r : SProgram F) (h : Accepts fo a p r)
    (l : Option Loc) (name : Str) (hn : name ∈ [c!"reset", c!"init", c!"barrier"]) (es ps : List (Expr F))
    (hes : ∀ e ∈ es, ShapedExpr e) :
    (∃ r', Accepts fo a (andThen p (.nonGate l [] name es ps)) r') ↔
      (∃ q n k, es = [q] ∧ Eval fo (declared r) q n ∧ IsQubits n k) ∧ ps = [] := by
  have hne : name ≠ c!"wait" ∧ name ≠ c!"measure" ∧ name ∈ nonGates := by
    have : ∀ name ∈ [c!"reset", c!"init", c!"barrier"], name ≠ c!"wait" ∧ name ≠ c!"measure" ∧ name ∈ nonGates := by decide
    exact this name hn
  have hsh : ShapedStmt (.nonGate l [] name es ps) :=
    ⟨by simp [ShapedAnnotations], hne.2.2, fun h => absurd h hne.1, hes⟩
  rw [andThen_ok_iff ha hs h hsh (fun h => h)]
  constructor
  · rintro ⟨t, ht⟩
    cases ht with
    | measure => exact absurd rfl hne.2.1
    | simple _ h1 h2 => exact ⟨⟨_, _, _, rfl, h1, h2⟩, rfl⟩
    | wait => exact absurd rfl hne.1
  · rintro ⟨⟨q, n, k, rfl, h1, h2⟩, rfl⟩
    exact ⟨_, .simple hn h1 h2 .nil⟩

/-- C35. `wait` with a parameter list (the grammar requires one) is accepted exactly with one qubit
reference and one parameter that is an integer. -/
theorem C35_wait (fo : FloatOps F) (v : Version) (a : Analyzer F) (ha : Analyzer.default fo v = .ok a)
    (p : ProgramAst F) (hs : ShapedProgram p) (r : SProgram F) (h : Accepts fo a p r)
    (l : Option Loc) (es ps : List (Expr F)) (hps : ps ≠ []) (hes : ∀ e ∈ es, ShapedExpr e) :
    (∃ r', Accepts fo a (andThen p (.nonGate l [] c!"wait" es ps)) r') ↔
      (∃ q n k, es = [q] ∧ Eval fo (declared r) q n ∧ IsQubits n k) ∧
      ∃ (e : Expr F) (c : Const F) (i : Int64), ps = [e] ∧ Eval fo (declared r) e c.node ∧ Converts fo c .int (.int i) := by
  have hsh : ShapedStmt (.nonGate l [] c!"wait" es ps) :=
    ⟨by simp [ShapedAnnotations], by decide, fun _ => hps, hes⟩
  rw [andThen_ok_iff ha hs h hsh (fun h => h)]
  constructor
  · rintro ⟨t, ht⟩
    generalize hn : c!"wait" = name at ht
    cases ht with
    | measure => exact absurd hn (by decide)
    | simple h1 => subst hn; exact absurd h1 (by decide)
    | wait h1 h2 h3 =>
      obtain ⟨e, c, c', g1, g2, g3, _⟩ := evalParams_one h3
      have : ∃ i, c' = .int i := by
        have := converts_kind g3
        cases c' <;> cases this
        exact ⟨_, rfl⟩
      obtain ⟨i, rfl⟩ := this
      exact ⟨⟨_, _, _, rfl, h1, h2⟩, e, c, i, g1, g2, g3⟩
  · rintro ⟨⟨q, n, k, rfl, h1, h2⟩, e, c, i, rfl, h3, h4⟩
    exact ⟨_, .wait h1 h2 (.cons h3 h4 .nil) .nil⟩

section Examples
open Sample
example : messages (andThen decls (Sample.measure (name c!"b") (slice c!"q" 0 1))) = some [] := by decide +kernel
example : messages (andThen decls (Sample.measure (name c!"b") (name c!"q"))) ≠ some [] := by decide +kernel
example : messages (andThen decls (.nonGate none [] c!"measure" [at_ c!"b" 0, at_ c!"q" 0] [int 1, int 0, name c!"pi"])) = some [] := by
  decide +kernel
example : messages (andThen decls (.nonGate none [] c!"reset" [name c!"q"] [])) = some [] := by decide +kernel
example : messages (andThen decls (.nonGate none [] c!"reset" [name c!"b"] [])) ≠ some [] := by decide +kernel
example : messages (andThen decls (.nonGate none [] c!"wait" [name c!"q"] [int 5])) = some [] := by decide +kernel
example : messages (andThen decls (.nonGate none [] c!"wait" [name c!"q"] [name c!"pi"])) ≠ some [] := by decide +kernel
end Examples

end Qasm
