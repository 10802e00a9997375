import Verif.Lemmas.Operand
/-!
# Properties of operands and parameters in results (C26 to C29, C32, C33, C36)
-/

namespace Qasm

open Spec Sem

attribute [local irreducible] defaultInstrs defaultFns defaultVars

variable {F : Type}

/-! ## C32, C33, C36: parameters, operands and the instruction reference -/

/-- C32. Every parameter in a result is a constant of exactly the declared kind. -/
theorem C32_kinds (fo : FloatOps F) (v : Version) (a : Analyzer F) (ha : Analyzer.default fo v = .ok a)
    (p : ProgramAst F) (hs : ShapedProgram p) (a' : Analyzer F) (r : SProgram F) (errs : List Err)
    (h : analyze fo a p = .ok (a', ⟨some r, errs⟩)) (hp : errs = [] ∨ PlainProgram p) :
    ∀ t ∈ r.block.statements, ParametersTyped t := by
  intro t ht
  obtain ⟨s, D, _, _, _, h3, _⟩ := result_instr ha hs h hp t ht
  exact instrOk_typed h3

/-- C32. Every parameter in an accepted program is the value written, converted to its kind. -/
theorem C32_values (fo : FloatOps F) (v : Version) (a : Analyzer F) (ha : Analyzer.default fo v = .ok a)
    (p : ProgramAst F) (hs : ShapedProgram p) (r : SProgram F) (h : Accepts fo a p r)
    (pre post : List (Stmt F)) (s : Stmt F) (hd : ¬ IsDecl s) (hp : p.block.statements = pre ++ s :: post) :
    ∃ t, r.block.statements[instructions pre]? = some t ∧
      Forall2 (fun e w => w.loc = e.loc ∧ ∃ c c' : Const F, Eval fo (declared r) e c.node ∧ Converts fo c c'.kind c' ∧
        w.node = c'.node) (parameterExprs s) (parameters t) := by
  obtain ⟨t, D, h1, h2, h3⟩ := accepted_at ha hs h hd hp
  refine ⟨t, h1, forall2_imp (instrOk_paramOf h2) ?_⟩
  rintro e w ⟨g1, c, c', g2, g3⟩
  exact ⟨g1, c, c', eval_mono h3 g2, g3⟩

/-- C33. A gate in a result has one or two operands, which are qubit references that denote the same number
of qubits, at least one. -/
theorem C33_equal_counts (fo : FloatOps F) (v : Version) (a : Analyzer F) (ha : Analyzer.default fo v = .ok a)
    (p : ProgramAst F) (hs : ShapedProgram p) (a' : Analyzer F) (r : SProgram F) (errs : List Err)
    (h : analyze fo a p = .ok (a', ⟨some r, errs⟩)) (hp : errs = [] ∨ PlainProgram p)
    (ref : Instruction) (g : SGate F) (ops : List (Value F)) (as : List (SAnnotation F)) (l : Option Loc)
    (ht : .gate ref g ops as l ∈ r.block.statements) :
    (ops.length = 1 ∨ ops.length = 2) ∧
    ∃ n, 1 ≤ n ∧ ∀ w ∈ ops, elements w.node = n ∧ ∃ k, IsQubits w.node k := by
  obtain ⟨s, D, _, hsh, hD, h3, _⟩ := result_instr ha hs h hp _ ht
  cases h3 with
  | @gate _ _ _ es _ _ _ _ _ h1 h2 h3 h4 h5 _ =>
    have harity := (gateOk_names h1).arity
    rw [← h3] at harity
    refine ⟨harity, ?_⟩
    cases ops with
    | nil => rcases harity with h | h <;> cases h
    | cons w ws =>
      refine ⟨elements w.node, ?_, fun x hx => ⟨h5 x hx w (List.mem_cons_self ..), qubits_of_kinds h4 x hx⟩⟩
      obtain ⟨k, hk⟩ := qubits_of_kinds h4 w (List.mem_cons_self ..)
      obtain ⟨e, he, _, hev⟩ := forall2_right h2 w (List.mem_cons_self ..)
      exact elements_pos hD (hsh.2.2.2 e he) hev (.inl hk)

/-- C36. The instruction recorded with a gate has the name of the gate (or `1q_X`, `2q_X` for modifiers over
`X`) and one operand type per operand, of the kind of the operand. -/
theorem C36_gate (fo : FloatOps F) (v : Version) (a : Analyzer F) (ha : Analyzer.default fo v = .ok a)
    (p : ProgramAst F) (hs : ShapedProgram p) (a' : Analyzer F) (r : SProgram F) (errs : List Err)
    (h : analyze fo a p = .ok (a', ⟨some r, errs⟩)) (hp : errs = [] ∨ PlainProgram p)
    (ref : Instruction) (g : SGate F) (ops : List (Value F)) (as : List (SAnnotation F)) (l : Option Loc)
    (ht : .gate ref g ops as l ∈ r.block.statements) : Describes ref (refNameOf g) ops := by
  obtain ⟨s, D, _, _, _, h3, _⟩ := result_instr ha hs h hp _ ht
  exact instrOk_describes h3

/-- C36. The instruction recorded with another instruction has its name and one operand type per operand, of
the kind of the operand. -/
theorem C36_nonGate (fo : FloatOps F) (v : Version) (a : Analyzer F) (ha : Analyzer.default fo v = .ok a)
    (p : ProgramAst F) (hs : ShapedProgram p) (a' : Analyzer F) (r : SProgram F) (errs : List Err)
    (h : analyze fo a p = .ok (a', ⟨some r, errs⟩)) (hp : errs = [] ∨ PlainProgram p)
    (ref : Instruction) (name : Str) (ops ps : List (Value F)) (as : List (SAnnotation F)) (l : Option Loc)
    (ht : .nonGate ref name ops ps as l ∈ r.block.statements) : Describes ref name ops := by
  obtain ⟨s, D, _, _, _, h3, _⟩ := result_instr ha hs h hp _ ht
  exact instrOk_describes h3

/-- C36. The operands of an accepted instruction are the values of the operand expressions, unchanged and in
order, located where they are written. -/
theorem C36_operands (fo : FloatOps F) (v : Version) (a : Analyzer F) (ha : Analyzer.default fo v = .ok a)
    (p : ProgramAst F) (hs : ShapedProgram p) (r : SProgram F) (h : Accepts fo a p r)
    (pre post : List (Stmt F)) (s : Stmt F) (hd : ¬ IsDecl s) (hp : p.block.statements = pre ++ s :: post) :
    ∃ t, r.block.statements[instructions pre]? = some t ∧ t.loc = s.loc ∧
      Forall2 (fun e w => w.loc = e.loc ∧ Eval fo (declared r) e w.node) (operandExprs s) (operands t) := by
  obtain ⟨t, D, h1, h2, h3⟩ := accepted_at ha hs h hd hp
  exact ⟨t, h1, (instrOk_loc h2).1, forall2_imp (instrOk_operands h2) fun e w hw => ⟨hw.1, eval_mono h3 hw.2⟩⟩

section Examples
open Sample

private def sample : ProgramAst Int := program [qubits c!"q" 3, bits c!"b" 2,
  Sample.gate c!"CRk" [int 2] [slice c!"q" 0 1, slice c!"q" 1 2],
  .gate none [] (.mk none [] c!"ctrl" (some (.mk none [] c!"pow" (some (.mk none [] c!"Rx" none [int 1])) [int 2])) [])
    [at_ c!"q" 0, at_ c!"q" 1],
  .nonGate none [] c!"wait" [name c!"q"] [.bin none .add (int 1) (int 2)]]

private theorem sample_shaped : ShapedProgram sample := by
  simp [sample, ShapedProgram, program, qubits, bits, ShapedStmt, ShapedAnnotations, Sample.gate, ShapedGate,
    ShapedGateAnnotations, modifiers, nonGates, slice, at_, ShapedExpr, ShapedEntries, name, int]

/-- The hypotheses of the theorems above, with gates, modifiers and other instructions. -/
example : ∃ a r, Analyzer.default fo [3, 0] = .ok a ∧ ShapedProgram sample ∧ PlainProgram sample ∧ Accepts fo a sample r := by
  obtain ⟨a, ha⟩ := default30
  obtain ⟨r, hr⟩ := accepted ha sample_shaped (by decide +kernel)
  refine ⟨a, r, ha, sample_shaped, ?_, hr⟩
  simp [sample, PlainProgram, program, qubits, bits, PlainStmt, Sample.gate, PlainGate]
end Examples

/-! ## C26, C27, C28: index lists -/

/-- C26. Every index reference anywhere in the instructions of a result is into an array variable of the
program, has an index, and all its indices are in range. -/
theorem C26_in_range (fo : FloatOps F) (v : Version) (a : Analyzer F) (ha : Analyzer.default fo v = .ok a)
    (p : ProgramAst F) (hs : ShapedProgram p) (a' : Analyzer F) (r : SProgram F) (errs : List Err)
    (h : analyze fo a p = .ok (a', ⟨some r, errs⟩)) (hp : errs = [] ∨ PlainProgram p) :
    ∀ t ∈ r.block.statements, ∀ w x is, InInstr w t → w.node = .indexRef x is →
      is ≠ [] ∧ (∃ y ∈ r.variables, x = ⟨y.uid, y.name, y.typ⟩) ∧
      (x.typ.kind = .qubitArray ∨ x.typ.kind = .bitArray) ∧
      ∀ i ∈ is, 0 ≤ i.1.toInt ∧ i.1.toInt < x.typ.size.toInt := by
  intro t ht w x is hw hn
  obtain ⟨s, D, _, hsh, _, h3, h4⟩ := result_instr ha hs h hp t ht
  obtain ⟨g1, g2, g3, g4⟩ := (instrOk_refIn h3 hsh w (inInstr_iff.mp hw)).2 x is hn
  exact ⟨g2, h4 x g1, g3, g4⟩

/-- C27. In an accepted program, an operand `x[…]` denotes exactly the elements written: an index itself, a
range all indices from its first to its last, in order; every range is written with first ≤ last. -/
theorem C27_expansion (fo : FloatOps F) (v : Version) (a : Analyzer F) (ha : Analyzer.default fo v = .ok a)
    (p : ProgramAst F) (hs : ShapedProgram p) (r : SProgram F) (h : Accepts fo a p r)
    (pre post : List (Stmt F)) (s : Stmt F) (hd : ¬ IsDecl s) (hp : p.block.statements = pre ++ s :: post)
    (i : Nat) (l : Option Loc) (e : Expr F) (ixs : List (IndexEntry F)) (hi : (operandExprs s)[i]? = some (.index l e ixs)) :
    ∃ t x is bs, r.block.statements[instructions pre]? = some t ∧ (operands t)[i]? = some ⟨.indexRef x is, l⟩ ∧
      Eval fo (declared r) e (.variableRef x) ∧ Forall2 (Bounds fo (declared r)) ixs bs ∧
      (∀ b ∈ bs, b.1 ≤ b.2 ∧ 0 ≤ b.1 ∧ b.2 < x.typ.size.toInt) ∧
      is.map (fun j => j.1.toInt) = bs.flatMap upTo := by
  obtain ⟨t, D, h1, h2, h3⟩ := accepted_at ha hs h hd hp
  obtain ⟨w, h4, h5, h6⟩ := forall2_get (instrOk_operands h2) hi
  obtain ⟨x, is, g1, g2, g3, g4, g5⟩ := eval_index_iff.mp h6
  obtain ⟨bs, k1, k2, k3⟩ := evalIndices_bounds g4
  refine ⟨t, x, is, bs, h1, ?_, eval_mono h3 g2, forall2_imp k1 fun _ _ => bounds_mono h3, ?_, k3⟩
  · rw [h4]
    obtain ⟨n, lw⟩ := w
    dsimp only at g1 h5
    rw [g1, h5]
    rfl
  · intro b hb
    have hle := k2 b hb
    have hall : ∀ z ∈ bs.flatMap upTo, 0 ≤ z ∧ z < x.typ.size.toInt := by
      rw [← k3]
      intro z hz
      obtain ⟨j, hj, rfl⟩ := List.mem_map.mp hz
      exact g5 j hj
    refine ⟨hle, (hall b.1 ?_).1, (hall b.2 ?_).2⟩ <;>
    · rw [List.mem_flatMap]; exact ⟨b, hb, mem_upTo.mpr (by omega)⟩

/-- C27. Conversely such an operand is accepted: `X q[…]` with indices and ranges that denote numbers is
accepted exactly if every range has first ≤ last and all indices are in range. -/
theorem C27_accepted (fo : FloatOps F) (v : Version) (a : Analyzer F) (ha : Analyzer.default fo v = .ok a)
    (p : ProgramAst F) (hs : ShapedProgram p) (r : SProgram F) (h : Accepts fo a p r)
    (y : SVariable F) (hy : y ∈ r.variables) (hk : y.typ.kind = .qubitArray)
    (l₁ l₂ l₃ l₄ : Option Loc) (ixs : List (IndexEntry F)) (h0 : ixs ≠ []) (hsh : ShapedEntries ixs) (bs : List (Int × Int))
    (hbs : Forall2 (Bounds fo (declared r)) ixs bs) :
    (∃ r', Accepts fo a (andThen p (.gate l₁ [] (.mk l₂ [] c!"X" none []) [.index l₃ (.ident l₄ y.name) ixs])) r') ↔
      ∀ b ∈ bs, b.1 ≤ b.2 ∧ 0 ≤ b.1 ∧ b.2 < y.typ.size.toInt := by
  have hD := declared_ok ha hs h
  obtain ⟨scopes, henv⟩ := env_of (fo := fo) hD
  rw [andThen_ok_iff ha hs h (shaped_x (shaped_ident h0 hsh)) (fun h => h), x_gate]
  have hden := denotes_of_mem (fo := fo) hD (mem_declared hy)
  constructor
  · rintro ⟨n, k, h1, h2⟩
    obtain ⟨x, is, g1, g2, g3, g4, g5⟩ := eval_index_iff.mp h1
    have hx : x = ⟨y.uid, y.name, y.typ⟩ := by
      have := eval_det henv g2 (.ident hden)
      injection this
    subst hx
    obtain ⟨bs', k1, k2, k3⟩ := evalIndices_bounds g4
    cases bounds_list_det henv hbs k1
    intro b hb
    have hle := k2 b hb
    have hall : ∀ z ∈ bs.flatMap upTo, 0 ≤ z ∧ z < y.typ.size.toInt := by
      rw [← k3]
      intro z hz
      obtain ⟨j, hj, rfl⟩ := List.mem_map.mp hz
      exact g5 j hj
    refine ⟨hle, (hall b.1 ?_).1, (hall b.2 ?_).2⟩ <;>
    · rw [List.mem_flatMap]; exact ⟨b, hb, mem_upTo.mpr (by omega)⟩
  · intro hb
    obtain ⟨is, g1, g2⟩ := bounds_evalIndices hbs fun b hb' => (hb b hb').1
    obtain ⟨k, hkk⟩ := kind_index (F := F) (x := ⟨y.uid, y.name, y.typ⟩) hk is
    refine ⟨_, k, .index (.ident hden) (.inl hk) g1 ?_, hkk⟩
    intro i hi
    have hm : i.1.toInt ∈ bs.flatMap upTo := by rw [← g2]; exact List.mem_map.mpr ⟨i, hi, rfl⟩
    obtain ⟨b, hb1, hb2⟩ := List.mem_flatMap.mp hm
    have := mem_upTo.mp hb2
    have := hb b hb1
    dsimp only
    omega

/-- C27. Otherwise, that is if a range has first > last or an index is out of range, there is exactly one
error, in the instruction, and no other effect. (A range up to the largest 64-bit integer is excluded: see
`C27_overflow`.) -/
theorem C27_error (fo : FloatOps F) (v : Version) (a : Analyzer F) (ha : Analyzer.default fo v = .ok a)
    (p : ProgramAst F) (hs : ShapedProgram p) (r : SProgram F) (h : Accepts fo a p r)
    (y : SVariable F) (hy : y ∈ r.variables) (hk : y.typ.kind = .qubitArray)
    (l₁ l₂ l₃ l₄ : Option Loc) (ixs : List (IndexEntry F)) (h0 : ixs ≠ []) (hsh : ShapedEntries ixs) (bs : List (Int × Int))
    (hbs : Forall2 (Bounds fo (declared r)) ixs bs) (hmax : ∀ b ∈ bs, b.2 ≠ 2 ^ 63 - 1)
    (hbad : ¬ ∀ b ∈ bs, b.1 ≤ b.2 ∧ 0 ≤ b.1 ∧ b.2 < y.typ.size.toInt) :
    ∃ a' e, analyze fo a (andThen p (.gate l₁ [] (.mk l₂ [] c!"X" none []) [.index l₃ (.ident l₄ y.name) ixs])) =
        .ok (a', ⟨some r, [e]⟩) ∧
      ReportedAt (.gate l₁ [] (.mk l₂ [] c!"X" none []) [.index l₃ (.ident l₄ y.name) ixs]) e := by
  have hD := declared_ok ha hs h
  refine andThen_reported ha hs h (shaped_x (shaped_ident h0 hsh)) ⟨rfl, rfl⟩ (fun h => h) ?_ ?_
  · intro ht
    have := andThen_ok_iff ha hs h (shaped_x (shaped_ident h0 hsh)) (fun h => h) |>.mpr ht
    exact hbad ((C27_accepted fo v a ha p hs r h y hy hk l₁ l₂ l₃ l₄ ixs h0 hsh bs hbs).mp this)
  · rw [x_undef]
    have hden := denotes_of_mem (fo := fo) hD (mem_declared hy)
    intro hu
    cases hu with
    | indexSub hu => exact eval_not_undef hD (.ident hden) hu
    | indexNonVariable he hne =>
      obtain ⟨scopes, henv⟩ := env_of (fo := fo) hD
      exact hne _ (eval_det henv he (.ident hden))
    | indexIndices _ _ hu => exact bounds_not_undef hD hbs hmax hu

/-- C27. The exception: with a range `i:9223372036854775807` (first ≤ last) the loop that expands it
overflows, which is undefined behaviour, for every array and every first index. -/
theorem C27_overflow (fo : FloatOps F) (v : Version) (a : Analyzer F) (ha : Analyzer.default fo v = .ok a)
    (p : ProgramAst F) (hs : ShapedProgram p) (r : SProgram F) (h : Accepts fo a p r)
    (y : SVariable F) (hy : y ∈ r.variables) (hk : y.typ.kind = .qubitArray) (l₁ l₂ l₃ l₄ l₅ l₆ l₇ : Option Loc) (i : Int64) :
    analyze fo a (andThen p (.gate l₁ [] (.mk l₂ [] c!"X" none [])
      [.index l₃ (.ident l₄ y.name) [.range l₅ (.intLit l₆ i) (.intLit l₇ Int64.maxValue)]])) = .ub := by
  have hD := declared_ok ha hs h
  have hden := denotes_of_mem (fo := fo) hD (mem_declared hy)
  have hsh : ShapedStmt (.gate l₁ [] (.mk l₂ [] c!"X" none [])
      [.index l₃ (.ident l₄ y.name) [.range l₅ (.intLit l₆ i) (.intLit l₇ Int64.maxValue)]] : Stmt F) :=
    shaped_x (shaped_ident (by simp) (by simp [ShapedEntries, ShapedExpr]))
  have hle : i.toInt ≤ Int64.maxValue.toInt := by
    rw [toInt_max]; have := i.toInt_lt; omega
  have hu : UndefStmt fo (declared r) (.gate l₁ [] (.mk l₂ [] c!"X" none [])
      [.index l₃ (.ident l₄ y.name) [.range l₅ (.intLit l₆ i) (.intLit l₇ Int64.maxValue)]]) :=
    x_undef.mpr (.indexIndices (.ident hden) (.inl hk)
      (.head (.rangeEnd (c := .int i) (d := .int Int64.maxValue) (.intLit _ _) (.same _) (.intLit _ _) (.same _) hle toInt_max)))
  rcases andThen_outcome ha hs h hsh ⟨rfl, rfl⟩ (fun h => h) with ⟨t, _, g, _⟩ | ⟨g, _⟩ | ⟨_, _, _, _, _, g⟩
  · exact absurd hu (instrOk_not_undef hD hsh g)
  · exact g
  · exact absurd hu g

section Examples
open Sample

private def decls : ProgramAst Int := program [qubits c!"q" 3, bits c!"b" 2]

private theorem decls_shaped : ShapedProgram decls := by
  simp [decls, ShapedProgram, program, qubits, bits, ShapedStmt, ShapedAnnotations]

/-- The hypotheses of `C27_accepted` and `C27_error`: `X q[0, 2:1]`. -/
example : ∃ a r y bs, Analyzer.default fo [3, 0] = .ok a ∧ Accepts fo a decls r ∧ y ∈ r.variables ∧ y.typ.kind = .qubitArray ∧
    Forall2 (Bounds fo (declared r)) [.item none (int 0), .range none (int 2) (int 1)] bs ∧ (∀ b ∈ bs, b.2 ≠ 2 ^ 63 - 1) ∧
    ¬ ∀ b ∈ bs, b.1 ≤ b.2 ∧ 0 ≤ b.1 ∧ b.2 < y.typ.size.toInt := by
  obtain ⟨a, ha⟩ := default30
  obtain ⟨r, hr⟩ := accepted ha decls_shaped (by decide +kernel)
  have hv := (accepts_valid ha decls_shaped hr).1.2
  have h1 : Exec fo [] decls.block.statements [⟨0, c!"q", ⟨.qubitArray, 3⟩, [], none⟩, ⟨1, c!"b", ⟨.bitArray, 2⟩, [], none⟩] [] :=
    .decl (D := []) (.qubits (by decide)) ⟨by decide, by simp⟩ .nil
      (.decl (D := [_]) (.bits (by decide)) ⟨by decide, by simp⟩ .nil .nil)
  have h2 := (exec_det declsOk_nil hv h1).1
  refine ⟨a, r, ⟨0, c!"q", ⟨.qubitArray, 3⟩, [], none⟩, [(0, 0), (2, 1)], ha, hr, by rw [h2]; simp, rfl, ?_, by decide, by decide⟩
  exact .cons (.item (c := .int 0) (.intLit _ _) (.same _))
    (.cons (.range (c := .int 2) (d := .int 1) (.intLit _ _) (.same _) (.intLit _ _) (.same _)) .nil)
example : messages (andThen decls (Sample.gate c!"X" [] [slice c!"q" 2 1])) =
    some [c!"last index is lower than first index"] := by decide +kernel
example : messages (andThen decls (Sample.gate c!"X" [] [slice c!"q" 0 2])) = some [] := by decide +kernel
end Examples

/-- C28 is false: `X q[0, 0]` is accepted, and so is any list of in-range indices however often it repeats
one of them. -/
theorem C28_refuted (fo : FloatOps F) (v : Version) (a : Analyzer F) (ha : Analyzer.default fo v = .ok a)
    (p : ProgramAst F) (hs : ShapedProgram p) (r : SProgram F) (h : Accepts fo a p r)
    (y : SVariable F) (hy : y ∈ r.variables) (hk : y.typ.kind = .qubitArray) (hsz : 0 < y.typ.size.toInt) :
    ∃ r' t w x is, Accepts fo a (andThen p (.gate none [] (.mk none [] c!"X" none [])
        [.index none (.ident none y.name) [.item none (.intLit none 0), .item none (.intLit none 0)]])) r' ∧
      t ∈ r'.block.statements ∧ InInstr w t ∧ w.node = .indexRef x is ∧ ¬ (is.map Prod.fst).Nodup := by
  have hz : (0 : Int64).toInt = 0 := by decide
  have hb : Forall2 (Bounds fo (declared r)) [.item none (.intLit none 0), .item none (.intLit none 0)] [(0, 0), (0, 0)] := by
    have := Bounds.item (fo := fo) (D := declared r) (l := none) (e := .intLit none 0) (c := .int 0) (i := 0) (.intLit _ _) (.same _)
    rw [hz] at this
    exact .cons this (.cons this .nil)
  have hsh : ShapedStmt (.gate none [] (.mk none [] c!"X" none [])
        [.index none (.ident none y.name) [.item none (.intLit none 0), .item none (.intLit none 0)]] : Stmt F) :=
    shaped_x (shaped_ident (by simp) (by simp [ShapedEntries, ShapedExpr]))
  obtain ⟨r', hr'⟩ := (C27_accepted fo v a ha p hs r h y hy hk none none none none _ (by simp)
    (by simp [ShapedEntries, ShapedExpr]) _ hb).mpr (by simp; omega)
  obtain ⟨t, x, is, bs, g1, g2, _, g4, _, g5⟩ := C27_expansion fo v a ha _ (shaped_andThen hs hsh) r' hr' p.block.statements []
    (.gate none [] (.mk none [] c!"X" none [])
        [.index none (.ident none y.name) [.item none (.intLit none 0), .item none (.intLit none 0)]])
    (fun h => h) rfl 0 none (.ident none y.name) [.item none (.intLit none 0), .item none (.intLit none 0)] rfl
  obtain ⟨scopes, henv⟩ := env_of (fo := fo) (declared_ok ha (shaped_andThen hs hsh) hr')
  have hb' : Forall2 (Bounds fo (declared r')) [.item none (.intLit none 0), .item none (.intLit none 0)] [(0, 0), (0, 0)] := by
    have := Bounds.item (fo := fo) (D := declared r') (l := none) (e := .intLit none 0) (c := .int 0) (i := 0) (.intLit _ _) (.same _)
    rw [hz] at this
    exact .cons this (.cons this .nil)
  cases bounds_list_det henv g4 hb'
  refine ⟨r', t, ⟨.indexRef x is, none⟩, x, is, hr', List.mem_of_getElem? g1, ?_, rfl, ?_⟩
  · have hm := List.mem_of_getElem? g2
    cases t with
    | gate => exact .operand hm
    | nonGate => exact .operand' hm
    | asm => cases hm
  · intro hnd
    have key : ∀ js : List (Int64 × Option Loc), js.map (fun j => j.1.toInt) = [0, 0] → ¬ (js.map Prod.fst).Nodup := by
      intro js hj
      match js with
      | [] => simp at hj
      | [_] => simp at hj
      | [i, j] =>
        simp only [List.map_cons, List.map_nil, List.cons.injEq, and_true] at hj
        have hij : i.1 = j.1 := Int64.toInt_inj.mp (hj.1.trans hj.2.symm)
        simp [hij]
      | _ :: _ :: _ :: _ => simp at hj
    exact key is g5 hnd

/-- C28, what does hold: the indices of the result are pairwise distinct exactly if no two of the indices and ranges overlap as
they are written. So the indices repeat only if the program writes them so. -/
theorem C28_distinct_partial (fo : FloatOps F) (v : Version) (a : Analyzer F) (ha : Analyzer.default fo v = .ok a)
    (p : ProgramAst F) (hs : ShapedProgram p) (r : SProgram F) (h : Accepts fo a p r)
    (pre post : List (Stmt F)) (s : Stmt F) (hd : ¬ IsDecl s) (hp : p.block.statements = pre ++ s :: post)
    (i : Nat) (l : Option Loc) (e : Expr F) (ixs : List (IndexEntry F)) (hi : (operandExprs s)[i]? = some (.index l e ixs))
    (bs : List (Int × Int)) (hbs : Forall2 (Bounds fo (declared r)) ixs bs) :
    ∃ t x is, r.block.statements[instructions pre]? = some t ∧ (operands t)[i]? = some ⟨.indexRef x is, l⟩ ∧
      ((is.map Prod.fst).Nodup ↔ bs.Pairwise fun b c => b.2 < c.1 ∨ c.2 < b.1) := by
  obtain ⟨t, x, is, bs', g1, g2, _, g4, g5, g6⟩ := C27_expansion fo v a ha p hs r h pre post s hd hp i l e ixs hi
  obtain ⟨scopes, henv⟩ := env_of (fo := fo) (declared_ok ha hs h)
  cases bounds_list_det henv g4 hbs
  refine ⟨t, x, is, g1, g2, ?_⟩
  have hup : ∀ b : Int × Int, (upTo b).Nodup := by
    intro b
    unfold upTo
    rw [List.Nodup, List.pairwise_map]
    exact List.nodup_range.imp fun hne => by omega
  have key : ∀ bs : List (Int × Int), bs.Pairwise (fun b c => b.2 < c.1 ∨ c.2 < b.1) → (bs.flatMap upTo).Nodup := by
    intro bs hp
    induction hp with
    | nil => simp
    | @cons b bs h1 _ ih =>
      rw [List.flatMap_cons, List.nodup_append]
      refine ⟨hup b, ih, ?_⟩
      intro z hz w hw hzw
      obtain ⟨c, hc, hw⟩ := List.mem_flatMap.mp hw
      have := h1 c hc
      rw [mem_upTo] at hz hw
      omega
  have back : ∀ bs : List (Int × Int), (∀ b ∈ bs, b.1 ≤ b.2) → (bs.flatMap upTo).Nodup →
      bs.Pairwise (fun b c => b.2 < c.1 ∨ c.2 < b.1) := by
    intro bs hle hn
    induction bs with
    | nil => exact .nil
    | cons b bs ih =>
      rw [List.flatMap_cons, List.nodup_append] at hn
      obtain ⟨_, h2, h3⟩ := hn
      refine List.pairwise_cons.2 ⟨fun c hc => ?_, ih (fun c hc => hle c (List.mem_cons_of_mem _ hc)) h2⟩
      by_cases hlt : b.2 < c.1 ∨ c.2 < b.1
      · exact hlt
      · exfalso
        have hb := hle b (List.mem_cons_self ..)
        have hc' := hle c (List.mem_cons_of_mem _ hc)
        refine h3 (max b.1 c.1) ?_ (max b.1 c.1) (List.mem_flatMap.2 ⟨c, hc, ?_⟩) rfl
        · rw [mem_upTo]; omega
        · rw [mem_upTo]; omega
  have hmap : (is.map Prod.fst).Nodup ↔ (bs.flatMap upTo).Nodup := by
    rw [← g6, show (fun j : Int64 × Option Loc => j.1.toInt) = Int64.toInt ∘ Prod.fst from rfl, ← List.map_map]
    constructor
    · intro hn
      rw [List.Nodup, List.pairwise_map]
      exact hn.imp fun hne he => hne (Int64.toInt_inj.mp he)
    · intro hn
      rw [List.Nodup, List.pairwise_map] at hn
      exact hn.imp fun hne he => hne (by rw [he])
  exact hmap.trans ⟨back bs fun b hb => (g5 b hb).1, key bs⟩

/-! ## C29: indexing what is not an array -/

/-- C29 is false: indexing a constant dereferences a null pointer, for every expression that denotes a
constant (`pi[0]`, `1[0]`) and every index list. -/
theorem C29_refuted (fo : FloatOps F) (v : Version) (a : Analyzer F) (ha : Analyzer.default fo v = .ok a)
    (p : ProgramAst F) (hs : ShapedProgram p) (r : SProgram F) (h : Accepts fo a p r)
    (l₁ l₂ l₃ : Option Loc) (e : Expr F) (c : Const F) (he : Eval fo (declared r) e c.node) (hse : ShapedExpr e)
    (ixs : List (IndexEntry F)) (h0 : ixs ≠ []) (hsh : ShapedEntries ixs) :
    analyze fo a (andThen p (.gate l₁ [] (.mk l₂ [] c!"X" none []) [.index l₃ e ixs])) = .ub := by
  have hD := declared_ok ha hs h
  have hst : ShapedStmt (.gate l₁ [] (.mk l₂ [] c!"X" none []) [.index l₃ e ixs]) := shaped_x ⟨h0, hse, hsh⟩
  have hu : UndefStmt fo (declared r) (.gate l₁ [] (.mk l₂ [] c!"X" none []) [.index l₃ e ixs]) :=
    x_undef.mpr (.indexNonVariable he fun x hx => by cases c <;> cases hx)
  rcases andThen_outcome ha hs h hst ⟨rfl, rfl⟩ (fun h => h) with ⟨t, _, g, _⟩ | ⟨g, _⟩ | ⟨_, _, _, _, _, g⟩
  · exact absurd hu (instrOk_not_undef hD hst g)
  · exact g
  · exact absurd hu g

/-- C29, what does hold: indexing a declared variable that is not an array, or a name that is not declared,
gives exactly one error, in the instruction, and no other effect. -/
theorem C29_variables_partial (fo : FloatOps F) (v : Version) (a : Analyzer F) (ha : Analyzer.default fo v = .ok a)
    (p : ProgramAst F) (hs : ShapedProgram p) (r : SProgram F) (h : Accepts fo a p r)
    (l₁ l₂ l₃ l₄ : Option Loc) (x : Str) (hx : x ∉ [c!"true", c!"false", c!"pi", c!"eu", c!"tau"])
    (hk : ∀ y ∈ r.variables, y.name = x → y.typ.kind = .qubit ∨ y.typ.kind = .bit)
    (ixs : List (IndexEntry F)) (h0 : ixs ≠ []) (hsh : ShapedEntries ixs) :
    ∃ a' e, analyze fo a (andThen p (.gate l₁ [] (.mk l₂ [] c!"X" none []) [.index l₃ (.ident l₄ x) ixs])) =
        .ok (a', ⟨some r, [e]⟩) ∧
      ReportedAt (.gate l₁ [] (.mk l₂ [] c!"X" none []) [.index l₃ (.ident l₄ x) ixs]) e := by
  have hvar : ∀ n, Eval fo (declared r) (.ident l₄ x) n → ∃ y ∈ r.variables, n = .variableRef ⟨y.uid, y.name, y.typ⟩ ∧
      (y.typ.kind = .qubit ∨ y.typ.kind = .bit) := by
    intro n hn
    cases eval_ident hn with
    | const hc => rw [(builtin_none fo).mp hx] at hc; cases hc
    | var _ h1 h2 =>
      obtain ⟨y, hy, rfl⟩ := declared_mem h1
      exact ⟨y, hy, rfl, hk y hy h2⟩
  have hnarr : ∀ {z : VarLink}, Eval fo (declared r) (.ident l₄ x) (.variableRef z) →
      (z.typ.kind = .qubitArray ∨ z.typ.kind = .bitArray) → False := by
    intro z hz hkz
    obtain ⟨y, _, h1, h2⟩ := hvar _ hz
    cases h1
    dsimp only at hkz
    rcases h2 with h2 | h2 <;> rw [h2] at hkz <;> rcases hkz with h | h <;> cases h
  refine andThen_reported ha hs h (shaped_x (shaped_ident h0 hsh)) ⟨rfl, rfl⟩ (fun h => h) ?_ ?_
  · rw [x_gate]
    rintro ⟨n, k, h1, _⟩
    obtain ⟨z, is, _, g1, g2, _⟩ := eval_index_iff.mp h1
    exact hnarr g1 g2
  · rw [x_undef]
    intro hu
    cases hu with
    | indexSub hu => cases hu
    | indexNonVariable he hne =>
      obtain ⟨y, _, h1, _⟩ := hvar _ he
      exact hne _ h1
    | indexIndices he hk' _ => exact hnarr he hk'

/-- C29, for every expression that does not denote an array variable: indexing it has undefined behaviour exactly if evaluating
the expression has, or if its value is not a variable (a constant, or elements of an array as in `q[0][0]`, which only trees
built by hand contain). Otherwise there is
exactly one error, in the instruction, and no other effect. -/
theorem C29_exactly_partial (fo : FloatOps F) (v : Version) (a : Analyzer F) (ha : Analyzer.default fo v = .ok a)
    (p : ProgramAst F) (hs : ShapedProgram p) (r : SProgram F) (h : Accepts fo a p r) (l₁ l₂ l₃ : Option Loc) (e : Expr F) (hse : ShapedExpr e)
    (hne : ∀ x, Eval fo (declared r) e (.variableRef x) → x.typ.kind ≠ .qubitArray ∧ x.typ.kind ≠ .bitArray)
    (ixs : List (IndexEntry F)) (h0 : ixs ≠ []) (hsh : ShapedEntries ixs) (s : Stmt F)
    (hst : s = .gate l₁ [] (.mk l₂ [] c!"X" none []) [.index l₃ e ixs]) :
    (analyze fo a (andThen p s) = .ub ↔ Undef fo (declared r) e ∨ ∃ n, Eval fo (declared r) e n ∧ ∀ x, n ≠ .variableRef x) ∧
    (analyze fo a (andThen p s) ≠ .ub → ∃ a' e, analyze fo a (andThen p s) = .ok (a', ⟨some r, [e]⟩) ∧ ReportedAt s e) := by
  subst hst
  have hsh' := shaped_x (l := l₁) (l' := l₂) (e := .index l₃ e ixs) ⟨h0, hse, hsh⟩
  have hno : ¬ ∃ t, InstrOk fo (declared r) (.gate l₁ [] (.mk l₂ [] c!"X" none []) [.index l₃ e ixs]) t := by
    rw [x_gate]
    rintro ⟨n, k, h1, _⟩
    obtain ⟨z, is, _, g1, g2, _⟩ := eval_index_iff.mp h1
    rcases g2 with g2 | g2
    · exact (hne _ g1).1 g2
    · exact (hne _ g1).2 g2
  have hu : UndefStmt fo (declared r) (.gate l₁ [] (.mk l₂ [] c!"X" none []) [.index l₃ e ixs]) ↔
      Undef fo (declared r) e ∨ ∃ n, Eval fo (declared r) e n ∧ ∀ x, n ≠ .variableRef x := by
    rw [x_undef]
    constructor
    · intro hu
      cases hu with
      | indexSub hu => exact .inl hu
      | indexNonVariable he hn => exact .inr ⟨_, he, hn⟩
      | indexIndices he hk _ =>
        rcases hk with hk | hk
        · exact absurd hk (hne _ he).1
        · exact absurd hk (hne _ he).2
    · rintro (hu | ⟨n, he, hn⟩)
      · exact .indexSub hu
      · exact .indexNonVariable he hn
  rcases andThen_outcome ha hs h hsh' ⟨rfl, rfl⟩ (fun h => h) with ⟨t, _, g, _⟩ | ⟨g, g'⟩ | ⟨a', err, g1, g2, _, g⟩
  · exact absurd ⟨t, g⟩ hno
  · exact ⟨⟨fun _ => hu.1 g', fun _ => g⟩, fun hn => absurd g hn⟩
  · refine ⟨⟨fun hh => ?_, fun hh => absurd (hu.2 hh) g⟩, fun _ => ⟨a', err, g1, g2⟩⟩
    rw [g1] at hh
    cases hh

section Examples
open Sample
example : Sample.undefined (andThen decls (Sample.gate c!"X" [] [at_ c!"pi" 0])) = true := by decide +kernel
example : Sample.undefined (andThen decls (Sample.gate c!"X" [] [.index none (at_ c!"q" 0) [.item none (int 0)]])) = true := by decide +kernel
example : messages (andThen decls (Sample.gate c!"X" [] [at_ c!"z" 0])) = some [c!"failed to resolve variable 'z'"] := by decide +kernel
example : messages (program [.var none [] ⟨c!"x", none⟩ ⟨c!"qubit", none, none⟩, Sample.gate c!"X" [] [at_ c!"x" 0]]) =
    some [c!"indexation is not supported for value of type 'qubit'"] := by decide +kernel
end Examples

end Qasm
