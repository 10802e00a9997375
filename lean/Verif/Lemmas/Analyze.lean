import Verif.Lemmas.Program
import Verif.Props.Version
import Verif.Props.Location
/-!
# Helper lemmas: `Analyzer::analyze` on a fresh default analyser
-/

namespace Qasm

open Spec Sem

variable {F : Type}

attribute [local irreducible] defaultInstrs defaultFns defaultVars

/-! ## References in the result -/

/-- The value is a constant, or a reference to one of `D`; if it is indexed, then it has at least one index, the
variable is an array and all indices are in range. -/
def RefIn (D : List VarLink) (n : ValueNode F) : Prop :=
  (∀ x, n = .variableRef x → x ∈ D) ∧ ∀ x is, n = .indexRef x is → x ∈ D ∧ is ≠ [] ∧
    (x.typ.kind = .qubitArray ∨ x.typ.kind = .bitArray) ∧ ∀ i ∈ is, 0 ≤ i.1.toInt ∧ i.1.toInt < x.typ.size.toInt

theorem refIn_const (D : List VarLink) (c : Const F) : RefIn D c.node := by
  cases c <;> exact ⟨nofun, nofun⟩

theorem RefIn.mono {D D' : List VarLink} {n : ValueNode F} (h : RefIn D n) (hD : ∀ x ∈ D, x ∈ D') : RefIn D' n :=
  ⟨fun x hx => hD x (h.1 x hx), fun x is hx => ⟨hD x (h.2 x is hx).1, (h.2 x is hx).2⟩⟩

theorem evalEntry_nonempty {fo : FloatOps F} {D : List VarLink} {x : IndexEntry F} {is : List (Int64 × Option Loc)}
    (h : EvalEntry fo D x is) : is ≠ [] := by
  cases h with
  | item => simp
  | @range _ _ _ _ _ i j _ _ _ _ _ hr =>
    rintro rfl
    have h1 := hr.1
    have h2 := congrArg List.length hr.2.1
    simp at h2
    omega

theorem evalIndices_nonempty {fo : FloatOps F} {D : List VarLink} {xs : List (IndexEntry F)}
    {is : List (Int64 × Option Loc)} (h : EvalIndices fo D xs is) (hx : xs ≠ []) : is ≠ [] := by
  cases h with
  | nil => exact absurd rfl hx
  | cons h _ =>
    have := evalEntry_nonempty h
    simp [this]

theorem eval_refIn {fo : FloatOps F} {D : List VarLink} {e : Expr F} {n : ValueNode F} (hs : ShapedExpr e)
    (h : Eval fo D e n) : RefIn D n := by
  cases h with
  | boolLit _ b => exact refIn_const D (.bool b)
  | intLit _ i => exact refIn_const D (.int i)
  | floatLit _ f => exact refIn_const D (.float f)
  | ident hd =>
    cases hd with
    | @const c => exact refIn_const D c
    | var _ h _ => exact ⟨fun x hx => (by cases hx; exact h), nofun⟩
  | index h1 h3 h2 h4 =>
    refine ⟨nofun, fun x is hx => ?_⟩
    cases hx
    exact ⟨eval_variable h1, evalIndices_nonempty h2 hs.1, h3, h4⟩
  | call => exact refIn_const D _
  | un => exact refIn_const D _
  | bin => exact refIn_const D _
  | tern => exact refIn_const D _

theorem evalAll_refIn {fo : FloatOps F} {D : List VarLink} {es : List (Expr F)} {vs : List (Value F)}
    (hs : ∀ e ∈ es, ShapedExpr e) (h : EvalAll fo D es vs) : ∀ v ∈ vs, RefIn D v.node := by
  intro v hv
  obtain ⟨e, he, h⟩ := forall2_right h v hv
  exact eval_refIn (hs e he) h.2

theorem evalParams_refIn {fo : FloatOps F} {D : List VarLink} {es : List (Expr F)} {ks : List Kind} {vs : List (Value F)}
    (h : EvalParams fo D es ks vs) : ∀ v ∈ vs, RefIn D v.node := by
  induction h with
  | nil => simp
  | @cons _ _ _ _ _ _ c' _ _ _ ih =>
    intro v hv
    rcases List.mem_cons.mp hv with rfl | hv
    · exact refIn_const D c'
    · exact ih v hv

theorem evalAnnotations_refIn {fo : FloatOps F} {D : List VarLink} {as : List (AnnotationData F)}
    {sas : List (SAnnotation F)} (hs : ShapedAnnotations as) (h : EvalAnnotations fo D as sas) :
    ∀ v ∈ SProgram.annotationValues sas, RefIn D v.node := by
  intro v hv
  obtain ⟨s, h1, h2⟩ := List.mem_flatMap.mp hv
  obtain ⟨a, ha, h3⟩ := forall2_right h s h1
  obtain ⟨e, he, h4⟩ := forall2_right h3.2.2.2 v h2
  exact eval_refIn (hs a ha e he) h4.2

theorem gateOk_refIn {fo : FloatOps F} {D : List VarLink} {g : Gate F} {n : Nat} {s : SGate F} (h : GateOk fo D g n s)
    (hs : ShapedGateAnnotations g) : ∀ v ∈ SProgram.gateValues s, RefIn D v.node := by
  induction h with
  | named _ h1 h2 =>
    intro v hv
    simp only [SProgram.gateValues, List.nil_append, List.mem_append] at hv
    rcases hv with hv | hv
    · exact evalParams_refIn h1 v hv
    · exact evalAnnotations_refIn hs h2 v hv
  | inv _ h2 ih | ctrl _ h2 ih =>
    intro v hv
    simp only [SProgram.gateValues, List.append_nil, List.mem_append] at hv
    rcases hv with hv | hv
    · exact ih hs.2 v hv
    · exact evalAnnotations_refIn hs.1 h2 v hv
  | pow _ h1 h2 ih =>
    intro v hv
    simp only [SProgram.gateValues, List.mem_append] at hv
    rcases hv with (hv | hv) | hv
    · exact ih hs.2 v hv
    · exact evalParams_refIn h1 v hv
    · exact evalAnnotations_refIn hs.1 h2 v hv

theorem instrOk_refIn {fo : FloatOps F} {D : List VarLink} {s : Stmt F} {t : SStatement F} (h : InstrOk fo D s t)
    (hs : ShapedStmt s) : ∀ v ∈ SProgram.statementValues t, RefIn D v.node := by
  intro v hv
  cases h with
  | gate h1 h2 _ _ _ h3 =>
    obtain ⟨g1, _, g2, g3⟩ := hs
    simp only [SProgram.statementValues, List.mem_append] at hv
    rcases hv with (hv | hv) | hv
    · exact gateOk_refIn h1 g2 v hv
    · exact evalAll_refIn g3 h2 v hv
    · exact evalAnnotations_refIn g1 h3 v hv
  | measure h1 _ h2 _ _ h3 h4 =>
    obtain ⟨g1, _, _, g3⟩ := hs
    simp only [SProgram.statementValues, List.mem_append, List.mem_cons, List.not_mem_nil, or_false] at hv
    rcases hv with ((rfl | rfl) | hv) | hv
    · exact eval_refIn (g3 _ (by simp)) h1
    · exact eval_refIn (g3 _ (by simp)) h2
    · exact h3.elim (fun h => evalParams_refIn h v hv) (fun h => evalParams_refIn h v hv)
    · exact evalAnnotations_refIn g1 h4 v hv
  | simple _ h1 _ h4 =>
    obtain ⟨g1, _, _, g3⟩ := hs
    simp only [SProgram.statementValues, List.mem_append, List.mem_cons, List.not_mem_nil, or_false] at hv
    rcases hv with rfl | hv
    · exact eval_refIn (g3 _ (by simp)) h1
    · exact evalAnnotations_refIn g1 h4 v hv
  | wait h1 _ h3 h4 =>
    obtain ⟨g1, _, _, g3⟩ := hs
    simp only [SProgram.statementValues, List.mem_append, List.mem_cons, List.not_mem_nil, or_false] at hv
    rcases hv with (rfl | hv) | hv
    · exact eval_refIn (g3 _ (by simp)) h1
    · exact evalParams_refIn h3 v hv
    · exact evalAnnotations_refIn g1 h4 v hv
  | asm h4 => exact evalAnnotations_refIn hs h4 v hv

theorem exec_refIn {fo : FloatOps F} {D : List VarLink} {ss : List (Stmt F)} {vs : List (SVariable F)}
    {ts : List (SStatement F)} (h : Exec fo D ss vs ts) (hs : ∀ s ∈ ss, ShapedStmt s) :
    (∀ t ∈ ts, ∀ v ∈ SProgram.statementValues t, RefIn ((vs.map SVariable.link).reverse ++ D) v.node) ∧
    ∀ x ∈ vs, ∀ v ∈ SProgram.annotationValues x.annotations, RefIn ((vs.map SVariable.link).reverse ++ D) v.node := by
  induction h with
  | nil => simp
  | decl _ _ h3 _ ih =>
    obtain ⟨i1, i2⟩ := ih fun s hs' => hs s (by simp [hs'])
    have hs := hs _ (List.mem_cons_self ..)
    refine ⟨?_, ?_⟩
    · simpa [SVariable.link] using i1
    · intro x hx v hv
      rcases List.mem_cons.mp hx with rfl | hx
      · exact (evalAnnotations_refIn hs h3 v hv).mono (by simp +contextual)
      · simpa [SVariable.link] using i2 x hx v hv
  | instr h1 _ ih =>
    obtain ⟨i1, i2⟩ := ih fun s hs' => hs s (by simp [hs'])
    have hs := hs _ (List.mem_cons_self ..)
    refine ⟨?_, i2⟩
    intro t ht v hv
    rcases List.mem_cons.mp ht with rfl | ht
    · exact (instrOk_refIn h1 hs v hv).mono (by simp +contextual)
    · exact i1 t ht v hv

theorem valueOk_of_refIn {vs : List (SVariable F)} {v : Value F} (h : RefIn (vs.map SVariable.link).reverse v.node) :
    SProgram.valueOk vs v = true := by
  have key : ∀ x, x ∈ (vs.map SVariable.link).reverse → (vs.map (·.uid)).contains x.uid = true := by
    intro x hx
    simp only [List.mem_reverse, List.mem_map] at hx
    obtain ⟨y, hy, rfl⟩ := hx
    simp only [List.contains_eq_mem, List.mem_map, decide_eq_true_eq]
    exact ⟨y, hy, rfl⟩
  unfold SProgram.valueOk
  split
  · rename_i x hx; exact key x (h.1 x hx)
  · rename_i x is hx
    simp only [key x (h.2 x is hx).1, Bool.true_and, Bool.not_eq_true', List.isEmpty_eq_false_iff]
    exact (h.2 x is hx).2.1
  · rfl

theorem exec_wellFormed {fo : FloatOps F} {ss : List (Stmt F)} {vs : List (SVariable F)}
    {ts : List (SStatement F)} (h : Exec fo [] ss vs ts) (hs : ∀ s ∈ ss, ShapedStmt s) (v : Version) (w : SVersion)
    (l : Option Loc) : SProgram.wellFormed ⟨v, w, ⟨ts, l⟩, vs⟩ = true := by
  obtain ⟨h1, h2⟩ := exec_refIn h hs
  simp only [List.append_nil] at h1 h2
  simp only [SProgram.wellFormed, SProgram.values, List.all_eq_true, List.mem_append, List.mem_flatMap]
  rintro x (⟨t, ht, hx⟩ | ⟨y, hy, hx⟩)
  · exact valueOk_of_refIn (h1 t ht x hx)
  · exact valueOk_of_refIn (h2 y hy x hx)

theorem blockAfter_eq (ts : List (SStatement F)) :
    blockAfter (⟨[], none⟩ : SBlock F) ts = ⟨ts, (blockAfter (⟨[], none⟩ : SBlock F) ts).loc⟩ := by
  have h := blockAfter_statements (⟨[], none⟩ : SBlock F) ts
  rw [List.nil_append] at h
  generalize blockAfter (⟨[], none⟩ : SBlock F) ts = b at *
  cases b
  cases h
  rfl

/-! ## The version statement -/

theorem lt_zero_iff (i : Int64) : i < 0 ↔ i.toInt < 0 := by
  rw [Int64.lt_iff_toInt_lt]; simp

theorem visitVersion_of_ok {v : Version} {node : VersionAst} (h : VersionOk v node.items) :
    visitVersion v node = ([], ⟨node.items, node.loc⟩) := by
  unfold visitVersion
  have h1 : node.items.any (fun i => decide (i < 0)) = false := by
    rw [List.any_eq_false]
    intro c hc
    have := h.1 c hc
    simp only [decide_eq_true_eq, lt_zero_iff]
    omega
  rw [h1, (C08_eq node.items v).mpr h.2]
  simp

theorem visitVersion_of_bad {v : Version} {node : VersionAst} (h : ¬ VersionOk v node.items) :
    ∃ e : Err, e.location = node.loc ∧ visitVersion v node = ([e], ⟨v, node.loc⟩) ∧
      ((∃ c ∈ node.items, c.toInt < 0) ∧ e.message = c!"invalid version component" ∨
       (∀ c ∈ node.items, 0 ≤ c.toInt) ∧ e.message = c!"the only cQASM version supported is " ++ Version.print v
        ++ c!", but the cQASM file is version " ++ Version.print node.items) := by
  unfold visitVersion
  by_cases h1 : node.items.any (fun i => decide (i < 0)) = true
  · rw [if_pos h1]
    obtain ⟨c, hc, hlt⟩ := List.any_eq_true.1 h1
    exact ⟨_, rfl, rfl, .inl ⟨⟨c, hc, (lt_zero_iff c).1 (by simpa using hlt)⟩, by simp [Err.mk0, Err.mkNode, Err.context, Err.normMsg]⟩⟩
  · rw [if_neg h1]
    have h0 : ∀ c ∈ node.items, 0 ≤ c.toInt := by
      intro c hc
      simp only [Bool.not_eq_true, List.any_eq_false, decide_eq_true_eq, lt_zero_iff] at h1
      have := h1 c hc
      omega
    by_cases h2 : Version.eq node.items v = true
    · exact absurd ⟨h0, (C08_eq _ _).mp h2⟩ h
    · rw [if_pos (by simpa using h2)]
      refine ⟨_, rfl, rfl, .inr ⟨h0, ?_⟩⟩
      simp [Err.mk0, Err.mkNode, Err.context, Err.normMsg]

theorem visitVersion_nil_iff (v : Version) (node : VersionAst) : (visitVersion v node).1 = [] ↔ VersionOk v node.items := by
  by_cases h : VersionOk v node.items
  · simp [visitVersion_of_ok h, h]
  · obtain ⟨e, _, h2, _⟩ := visitVersion_of_bad h
    simp [h2, h]

/-! ## Analysing with a fresh default analyser -/

theorem default_cases (fo : FloatOps F) (v : Version) :
    (Analyzer.default fo v = .ok (stateOf fo v [] 0 ⟨[], none⟩ []) ∧ VersionSame v [3, 0]) ∨
    (Analyzer.default fo v = .exn c!"std::invalid_argument" ∧ ¬ VersionSame v [3, 0]) := by
  cases h : Version.eq v [3, 0] with
  | true => exact .inl ⟨default_eq fo v h, (C08_eq _ _).mp h⟩
  | false => exact .inr ⟨default_none fo v h, fun h' => by rw [(C08_eq _ _).mpr h'] at h; cases h⟩

theorem default_state {fo : FloatOps F} {v : Version} {a : Analyzer F} (h : Analyzer.default fo v = .ok a) :
    a = stateOf fo v [] 0 ⟨[], none⟩ [] := by
  rcases default_cases fo v with ⟨h', _⟩ | ⟨h', _⟩ <;> rw [h'] at h <;> cases h
  rfl

/-- The state of the analyser and its result after visiting the block. -/
theorem visitProgram_state (fo : FloatOps F) (a : Analyzer F) (p : ProgramAst F) {errs : List Err}
    {v : Version} {D : List VarLink} {u : Nat} {b : SBlock F} {vars : List (SVariable F)}
    (h : visitBlock fo a p.block.statements = .ok (errs, stateOf fo v D u b vars)) :
    visitProgram fo a p = .ok (stateOf fo v D u b vars,
      ⟨some ⟨a.apiVersion, (visitVersion a.apiVersion p.version).2, b, vars⟩, (visitVersion a.apiVersion p.version).1 ++ errs⟩) := by
  unfold visitProgram
  rw [h]
  rfl

theorem analyze_valid {fo : FloatOps F} {v : Version} {a : Analyzer F} (ha : Analyzer.default fo v = .ok a)
    {p : ProgramAst F} (hs : ShapedProgram p) {vs : List (SVariable F)} {ts : List (SStatement F)}
    (h : Valid fo v p vs ts) :
    analyze fo a p = .ok (stateOf fo v (vs.map SVariable.link).reverse vs.length (blockAfter ⟨[], none⟩ ts) vs,
      ⟨some ⟨v, ⟨p.version.items, p.version.loc⟩, blockAfter ⟨[], none⟩ ts, vs⟩, []⟩) := by
  have := default_state ha
  subst this
  have h1 := visitBlock_of_exec v h.2 ⟨[], none⟩ [] declsOk_nil
  simp only [List.length_nil, Nat.zero_add, List.append_nil, List.nil_append] at h1
  have h3 := exec_wellFormed h.2 hs v ⟨p.version.items, p.version.loc⟩ (blockAfter ⟨[], none⟩ ts).loc
  have h5 := blockAfter_eq ts
  unfold analyze
  rw [visitProgram_state fo _ p h1]
  have h6 : (stateOf fo v [] 0 ⟨[], none⟩ []).apiVersion = v := rfl
  rw [h6, visitVersion_of_ok h.1, Res.bind_ok]
  dsimp only
  rw [← h5] at h3
  simp [h3]

theorem analyze_noErrors {fo : FloatOps F} {v : Version} {a : Analyzer F} (ha : Analyzer.default fo v = .ok a)
    {p : ProgramAst F} (hs : ShapedProgram p) {a' : Analyzer F} {root : Option (SProgram F)}
    (h : analyze fo a p = .ok (a', ⟨root, []⟩)) : ∃ vs ts, Valid fo v p vs ts := by
  have := default_state ha
  subst this
  unfold analyze visitProgram at h
  have h6 : (stateOf fo v [] 0 ⟨[], none⟩ []).apiVersion = v := rfl
  rw [h6] at h
  cases hb : visitBlock fo (stateOf fo v [] 0 ⟨[], none⟩ []) p.block.statements with
  | ub => rw [hb] at h; cases h
  | exn c => rw [hb] at h; cases h
  | err e => exact e.elim
  | ok r =>
    rw [hb, Res.bind_ok] at h
    obtain ⟨errs, a1⟩ := r
    dsimp only at h
    cases hsc : a1.scopes with
    | nil => rw [hsc] at h; cases h
    | cons sc rest =>
      rw [hsc] at h
      dsimp only at h
      rw [Res.bind_ok] at h
      split at h
      · cases h
      · injection h with h
        injection h with _ h
        injection h with _ h
        obtain ⟨e1, e2⟩ := List.append_eq_nil_iff.mp h
        subst e2
        obtain ⟨vs, ts, h'⟩ := visitBlock_noErrors v _ hs [] _ _ a1 declsOk_nil hb
        exact ⟨vs, ts, (visitVersion_nil_iff v p.version).mp e1, h'⟩

/-- What analysis of an annotation-free program gives. -/
theorem analyze_plain {fo : FloatOps F} {v : Version} {a : Analyzer F} (ha : Analyzer.default fo v = .ok a)
    {p : ProgramAst F} (hs : ShapedProgram p) (hp : PlainProgram p) :
    (∃ errs vs ts bad D' u', analyze fo a p = .ok (stateOf fo v D' u' (blockAfter ⟨[], none⟩ ts) vs,
        ⟨some ⟨v, (visitVersion v p.version).2, blockAfter ⟨[], none⟩ ts, vs⟩, (visitVersion v p.version).1 ++ errs⟩) ∧
      visitBlock fo a p.block.statements = .ok (errs, stateOf fo v D' u' (blockAfter ⟨[], none⟩ ts) vs) ∧
      Analysis fo [] 0 p.block.statements vs ts bad ∧ Forall2 ReportedAt bad errs ∧ DeclsOk D' ∧
      ∀ l as name typ, Stmt.var l as name typ ∈ p.block.statements → (∃ t, TypeOk typ t) → ¬ Fresh D' name.name) ∨
    (analyze fo a p = .ub ∧ visitBlock fo a p.block.statements = .ub ∧ UndefStmts fo [] 0 p.block.statements) := by
  have := default_state ha
  subst this
  rcases visitBlock_noExn_plain (fo := fo) v p.block.statements hs hp [] 0 ⟨[], none⟩ [] declsOk_nil with
    ⟨errs, vs, ts, bad, D', u', h1, h2, h3, h4, _, h6⟩ | ⟨h1, h2⟩
  · left
    rw [List.nil_append] at h1
    refine ⟨errs, vs, ts, bad, D', u', ?_, h1, h2, h3, h4, h6⟩
    unfold analyze
    rw [visitProgram_state fo _ p h1, Res.bind_ok]
    have h6 : (stateOf fo v [] 0 ⟨[], none⟩ []).apiVersion = v := rfl
    rw [h6]
    dsimp only
    split
    · rename_i hc
      exfalso
      simp only [Bool.and_eq_true, List.isEmpty_iff, List.append_eq_nil_iff, Option.map_some, Option.getD_some,
        Bool.not_eq_true'] at hc
      obtain ⟨⟨_, e2⟩, e3⟩ := hc
      subst e2
      cases h3
      have h5 := exec_wellFormed (exec_iff_analysis.mpr h2) hs v (visitVersion v p.version).2 (blockAfter ⟨[], none⟩ ts).loc
      rw [← blockAfter_eq] at h5
      rw [h5] at e3
      cases e3
    · rfl
  · right
    refine ⟨?_, h1, h2⟩
    unfold analyze visitProgram
    rw [h1]
    rfl

/-! ## The location of the block -/

/-- All ranges are ordered (which every range built by `Range(first, last)` is). -/
theorem expand_two (l sl : Loc) (h : PosLe sl.range.first sl.range.last) :
    Includes ((l.expandToInclude sl.range.first).expandToInclude sl.range.last).range l.range ∧
    Includes ((l.expandToInclude sl.range.first).expandToInclude sl.range.last).range sl.range ∧
    (∀ r, Includes r l.range → Includes r sl.range →
      Includes r ((l.expandToInclude sl.range.first).expandToInclude sl.range.last).range) ∧
    ((l.expandToInclude sl.range.first).expandToInclude sl.range.last).fileName = l.fileName := by
  simp only [Loc.expandToInclude, Includes, Index.min, Index.max, Index.lt, Bool.or_eq_true, decide_eq_true_eq,
    Bool.and_eq_true, beq_iff_eq, PosLe] at *
  refine ⟨?_, ?_, ?_, trivial⟩
  · constructor <;> (repeat' split) <;> omega
  · constructor <;> (repeat' split) <;> omega
  · intro r h1 h2
    constructor <;> (repeat' split) <;> omega

theorem includes_refl (r : Range) : Includes r r := ⟨.inr ⟨rfl, Nat.le_refl _⟩, .inr ⟨rfl, Nat.le_refl _⟩⟩

theorem includes_trans {a b c : Range} (h : Includes a b) (h' : Includes b c) : Includes a c := by
  simp only [Includes, PosLe] at *
  omega

theorem blockAfter_loc_some (ts : List (SStatement F)) (hr : ∀ t ∈ ts, ∀ l, t.loc = some l → PosLe l.range.first l.range.last) :
    ∀ (b : SBlock F) (l : Loc) (ls : List Loc), b.loc = some l → IsHull ls l →
    ∃ l', (blockAfter b ts).loc = some l' ∧ IsHull (ls ++ ts.filterMap SStatement.loc) l' := by
  induction ts with
  | nil => intro b l ls hb h; exact ⟨l, hb, by simpa using h⟩
  | cons t ts ih =>
    intro b l ls hb h
    have ih := ih fun t ht => hr t (by simp [ht])
    have hr := hr t (by simp)
    rw [blockAfter, List.foldl_cons, ← blockAfter]
    cases ht : t.loc with
    | none =>
      have : (addTo b t).loc = some l := by simp [addTo, Analyzer.blockLoc, ht, hb]
      simpa [ht] using ih (addTo b t) l ls this h
    | some sl =>
      have h1 : (addTo b t).loc = some ((l.expandToInclude sl.range.first).expandToInclude sl.range.last) := by
        simp [addTo, Analyzer.blockLoc, ht, hb]
      obtain ⟨e1, e2, e3, e4⟩ := expand_two l sl (hr sl ht)
      obtain ⟨⟨x, hx1, hx2⟩, h3, h4⟩ := h
      have h2 : IsHull (ls ++ [sl]) ((l.expandToInclude sl.range.first).expandToInclude sl.range.last) := by
        refine ⟨⟨x, by cases ls <;> simp_all, by rw [e4, hx2]⟩, ?_, ?_⟩
        · intro y hy
          rcases List.mem_append.mp hy with hy | hy
          · exact includes_trans e1 (h3 y hy)
          · simp only [List.mem_singleton] at hy
            subst hy
            exact e2
        · intro r hr
          exact e3 r (h4 r fun y hy => hr y (by simp [hy])) (hr sl (by simp))
      simpa [ht] using ih (addTo b t) _ _ h1 h2

theorem blockAfter_loc (ts : List (SStatement F)) (hr : ∀ t ∈ ts, ∀ l, t.loc = some l → PosLe l.range.first l.range.last) :
    ((blockAfter (⟨[], none⟩ : SBlock F) ts).loc = none ∧ ts.filterMap SStatement.loc = []) ∨
    ∃ l, (blockAfter (⟨[], none⟩ : SBlock F) ts).loc = some l ∧ IsHull (ts.filterMap SStatement.loc) l := by
  suffices h : ∀ b : SBlock F, b.loc = none → ((blockAfter b ts).loc = none ∧ ts.filterMap SStatement.loc = []) ∨
      ∃ l, (blockAfter b ts).loc = some l ∧ IsHull (ts.filterMap SStatement.loc) l from h _ rfl
  induction ts with
  | nil => intro b hb; exact .inl ⟨hb, rfl⟩
  | cons t ts ih =>
    intro b hb
    have ih := ih fun t ht => hr t (by simp [ht])
    rw [blockAfter, List.foldl_cons, ← blockAfter]
    cases ht : t.loc with
    | none =>
      have : (addTo b t).loc = none := by simp [addTo, Analyzer.blockLoc, ht, hb]
      simpa [ht] using ih (addTo b t) this
    | some sl =>
      right
      have h1 : (addTo b t).loc = some sl := by simp [addTo, Analyzer.blockLoc, ht, hb]
      have h2 : IsHull [sl] sl := ⟨⟨sl, rfl, rfl⟩, by simp [includes_refl], fun r hr => hr sl (by simp)⟩
      simpa [ht] using blockAfter_loc_some ts (fun t ht => hr t (by simp [ht])) (addTo b t) sl [sl] h1 h2

end Qasm
