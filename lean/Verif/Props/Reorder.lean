import Verif.Lemmas.Reorder
import Verif.Props.Join
/-!
# Statements in another order (C102)
-/

namespace Qasm

open Spec Sem

attribute [local irreducible] defaultInstrs defaultFns defaultVars

variable {F : Type} {fo : FloatOps F}

namespace Reorder

theorem name_of {D : List VarLink} {it : Item F} (h : Fact fo D it) (x : Str) : itemName it = some x ↔ DeclaresName x it.1 := by
  rcases h with ⟨l, n, typ, y, rfl, -, -, hn, -⟩ | ⟨s, t, rfl, hd, -⟩
  · simp [itemName, DeclaresName, hn]
  · cases s with
    | var => exact absurd trivial hd
    | _ => simp [itemName, DeclaresName]

theorem names_of {D : List VarLink} {items : List (Item F)} (h : ∀ it ∈ items, Fact fo D it) (x : Str) :
    x ∈ items.filterMap itemName ↔ ∃ d ∈ items.map Prod.fst, DeclaresName x d := by
  rw [List.mem_filterMap]
  constructor
  · rintro ⟨it, h1, h2⟩
    exact ⟨it.1, List.mem_map.2 ⟨it, h1, rfl⟩, (name_of (h it h1) x).1 h2⟩
  · rintro ⟨d, hd, hx⟩
    obtain ⟨it, h1, rfl⟩ := List.mem_map.1 hd
    exact ⟨it, h1, (name_of (h it h1) x).2 hx⟩

theorem item_names (items : List (Item F)) : items.filterMap itemName = (items.filterMap itemVar).map (·.name) := by
  induction items with
  | nil => rfl
  | cons it items ih =>
    obtain ⟨s, o⟩ := it
    cases o <;> simp [List.filterMap_cons, itemName, itemVar, ih]

theorem exec_declares_name {D : List VarLink} {ss : List (Stmt F)} {vs : List (SVariable F)} {ts : List (SStatement F)} (h : Exec fo D ss vs ts) :
    (∀ x ∈ vs, ∃ d ∈ ss, DeclaresName x.name d) ∧ ∀ d ∈ ss, ∀ x, DeclaresName x d → x ∉ reserved := by
  induction h with
  | nil => simp
  | decl _ h2 _ _ ih =>
    refine ⟨fun x hx => ?_, fun d hd x hx => ?_⟩
    · rcases List.mem_cons.1 hx with rfl | hx
      · exact ⟨_, List.mem_cons_self .., rfl⟩
      · obtain ⟨d, hd, h⟩ := ih.1 x hx
        exact ⟨d, List.mem_cons_of_mem _ hd, h⟩
    · rcases List.mem_cons.1 hd with rfl | hd
      · cases hx; exact h2.1
      · exact ih.2 d hd x hx
  | instr h1 _ ih =>
    refine ⟨fun x hx => ?_, fun d hd x hx => ?_⟩
    · obtain ⟨d, hd, h⟩ := ih.1 x hx
      exact ⟨d, List.mem_cons_of_mem _ hd, h⟩
    · rcases List.mem_cons.1 hd with rfl | hd
      · cases h1 <;> exact hx.elim
      · exact ih.2 d hd x hx

theorem declared_first {ss : List (Stmt F)} {vs : List (SVariable F)} {ts : List (SStatement F)} (h : Exec fo [] ss vs ts) : DeclaredFirst ss := by
  rintro pre s post rfl x hx ⟨d, hd, hdx⟩
  by_cases hs : IsDecl s
  · cases s with
    | var => cases hx
    | _ => exact hs.elim
  · obtain ⟨vs1, vs2, ts1, t, -, h2, -, -, -, h5⟩ := exec_at declsOk_nil h hs
    rcases instrOk_names h5 x hx with hr | ⟨y, hy, rfl⟩
    · exact absurd hr ((exec_declares_name h).2 d hd x hdx)
    · simp only [List.append_nil, List.mem_reverse, List.mem_map] at hy
      obtain ⟨z, hz, rfl⟩ := hy
      exact (exec_declares_name h2).1 z hz

theorem uid_unique {ss : List (Stmt F)} {vs : List (SVariable F)} {ts : List (SStatement F)} (h : Exec fo [] ss vs ts) {x y : SVariable F}
    (hx : x ∈ vs) (hy : y ∈ vs) (e : x.uid = y.uid) : x = y := by
  have hn : (vs.map (·.uid)).Nodup := by
    rw [(exec_variables h).2.1]
    simpa using List.nodup_range
  clear h
  induction vs with
  | nil => cases hx
  | cons z vs ih =>
    simp only [List.map_cons, List.nodup_cons, List.mem_map, not_exists, not_and] at hn
    rcases List.mem_cons.1 hx with hx' | hx' <;> rcases List.mem_cons.1 hy with hy' | hy'
    · rw [hx', hy']
    · exact absurd (e.symm.trans (congrArg _ hx')) (hn.1 y hy')
    · exact absurd (e.trans (congrArg _ hy')) (hn.1 x hx')
    · exact ih hx' hy' hn.2

theorem exec_reorder {ss ss' : List (Stmt F)} {vs : List (SVariable F)} {ts : List (SStatement F)} (h : Exec fo [] ss vs ts)
    (hp : ∀ s ∈ ss, PlainStmt s) (hperm : ss'.Perm ss) (hfirst : DeclaredFirst ss') :
    ∃ (vs' : List (SVariable F)) (ts' : List (SStatement F)) (f : Nat → Nat), Exec fo [] ss' vs' ts' ∧
      (∀ x ∈ vs, ∀ y ∈ vs, f x.uid = f y.uid → x = y) ∧
      (outcomes ss' vs' ts').Perm ((outcomes ss vs ts).map fun x => (x.1, moveOutcome f x.2)) := by
  obtain ⟨f1, f2, f3, f4, f5, f6⟩ := facts h hp
  obtain ⟨items, e1, e2⟩ := perm_lift hperm f2
  simp only [List.append_nil] at f1
  have hfact : ∀ it ∈ items, Fact fo (vs.map SVariable.link).reverse it := fun it hit => f1 it (e2.mem_iff.1 hit)
  have hvars : (items.filterMap itemVar).Perm vs := f3 ▸ e2.filterMap _
  have hnames : (items.filterMap itemName).Perm (vs.map (·.name)) := by rw [item_names]; exact hvars.map _
  have hnod : (items.filterMap itemName).Nodup := hnames.nodup_iff.2 f5
  let f : Nat → Nat := fun u => open Classical in
    if h : ∃ y, y ∈ vs ∧ y.uid = u then (items.filterMap itemName).idxOf h.choose.name else 0
  have hf : ∀ y ∈ vs, f y.uid = (items.filterMap itemName).idxOf y.name := by
    intro y hy
    have hex : ∃ z, z ∈ vs ∧ z.uid = y.uid := ⟨y, hy, rfl⟩
    simp only [f, dif_pos hex]
    rw [uid_unique h hex.choose_spec.1 hy hex.choose_spec.2]
  obtain ⟨g1, g2⟩ := exec_items (fo := fo) (D := (vs.map SVariable.link).reverse) (f := f) items hfact
    (fun it hit => hp _ (hperm.mem_iff.1 (e1 ▸ List.mem_map.2 ⟨it, hit, rfl⟩))) hnod
    (fun x hx => by
      simp only [List.mem_reverse, List.mem_map] at hx
      obtain ⟨y, hy, rfl⟩ := hx
      exact ⟨y, hvars.mem_iff.2 hy, rfl⟩)
    (fun y hy => hf y (hvars.mem_iff.1 hy))
    (fun pre it post e x hx hm => by
      refine (names_of (fun it' h' => hfact it' (by rw [e]; simp [h'])) x).2 ?_
      refine hfirst (pre.map Prod.fst) it.1 (post.map Prod.fst) (by rw [← e1, e]; simp) x hx ?_
      rw [← e1]
      exact (names_of hfact x).1 hm)
    items [] [] rfl rfl (by simp) (fun x _ hx => by simp at hx)
  rw [e1] at g1 g2
  refine ⟨_, _, f, g1, ?_, ?_⟩
  · intro x hx y hy e
    rw [hf x hx, hf y hy] at e
    have hx' : x.name ∈ items.filterMap itemName := hnames.mem_iff.2 (List.mem_map.2 ⟨x, hx, rfl⟩)
    have hy' : y.name ∈ items.filterMap itemName := hnames.mem_iff.2 (List.mem_map.2 ⟨y, hy, rfl⟩)
    have hn : x.name = y.name := by
      have h1 := List.getElem_idxOf (List.idxOf_lt_length_iff.2 hx')
      have h2 := List.getElem_idxOf (List.idxOf_lt_length_iff.2 hy')
      rw [← h1, ← h2]
      simp only [e]
    have : ∀ vs : List (SVariable F), (vs.map (·.name)).Nodup → x ∈ vs → y ∈ vs → x = y := by
      intro vs
      induction vs with
      | nil => intro _ h; cases h
      | cons z vs ih =>
        intro hnd h1 h2
        simp only [List.map_cons, List.nodup_cons, List.mem_map, not_exists, not_and] at hnd
        rcases List.mem_cons.1 h1 with h1' | h1' <;> rcases List.mem_cons.1 h2 with h2' | h2'
        · rw [h1', h2']
        · exact absurd (hn.symm.trans (congrArg _ h1')) (hnd.1 y h2')
        · exact absurd (hn.trans (congrArg _ h2')) (hnd.1 x h1')
        · exact ih hnd.2 h1' h2'
    exact this vs f5 hx hy
  · rw [g2]
    exact e2.map _

end Reorder

/-- The outcomes of an accepted program: every statement has one, and every variable and instruction of the result is one, in order. -/
theorem C102_outcomes {v : Version} {a : Analyzer F} (ha : Analyzer.default fo v = .ok a) {p : ProgramAst F} (hs : ShapedProgram p)
    (hp : PlainProgram p) {r : SProgram F} (h : Accepts fo a p r) :
    (outcomes p.block.statements r.variables r.block.statements).map Prod.fst = p.block.statements ∧
    (outcomes p.block.statements r.variables r.block.statements).filterMap (fun x => x.2.getLeft?) = r.variables ∧
    (outcomes p.block.statements r.variables r.block.statements).filterMap (fun x => x.2.getRight?) = r.block.statements := by
  obtain ⟨-, h2, h3, h4, -⟩ := Reorder.facts (accepts_valid ha hs h).1.2 hp
  refine ⟨h2, ?_, ?_⟩
  · refine Eq.trans ?_ h3
    congr 1
    funext ⟨s, o⟩
    cases o <;> rfl
  · refine Eq.trans ?_ h4
    congr 1
    funext ⟨s, o⟩
    cases o <;> rfl

/-- **C102.** The statements of an accepted program in another order are accepted exactly if every variable is declared before its uses. -/
theorem C102_order {v : Version} {a : Analyzer F} (ha : Analyzer.default fo v = .ok a) {p : ProgramAst F} (hs : ShapedProgram p)
    (hp : PlainProgram p) {r : SProgram F} (h : Accepts fo a p r) {ss : List (Stmt F)} (hperm : ss.Perm p.block.statements) :
    (∃ r', Accepts fo a (withStatements p ss) r') ↔ DeclaredFirst ss := by
  have hs' : ShapedProgram (withStatements p ss) := fun s hm => hs s (hperm.mem_iff.1 hm)
  obtain ⟨⟨h1, h2⟩, -⟩ := accepts_valid ha hs h
  constructor
  · rintro ⟨r', h'⟩
    exact Reorder.declared_first (accepts_valid ha hs' h').1.2
  · intro hf
    obtain ⟨vs', ts', f, g, -⟩ := Reorder.exec_reorder h2 hp hperm hf
    exact ⟨_, valid_accepts ha hs' ⟨h1, g⟩⟩

/-- **C102.** Each statement then has the same outcome as before, the variables having other identities. -/
theorem C102_result {v : Version} {a : Analyzer F} (ha : Analyzer.default fo v = .ok a) {p : ProgramAst F} (hs : ShapedProgram p)
    (hp : PlainProgram p) {r : SProgram F} (h : Accepts fo a p r) {ss : List (Stmt F)} (hperm : ss.Perm p.block.statements) {r' : SProgram F}
    (h' : Accepts fo a (withStatements p ss) r') :
    r'.apiVersion = r.apiVersion ∧ r'.version = r.version ∧ ∃ f : Nat → Nat,
      (∀ x ∈ r.variables, ∀ y ∈ r.variables, f x.uid = f y.uid → x = y) ∧
      (outcomes ss r'.variables r'.block.statements).Perm
        ((outcomes p.block.statements r.variables r.block.statements).map fun x => (x.1, moveOutcome f x.2)) := by
  have hs' : ShapedProgram (withStatements p ss) := fun s hm => hs s (hperm.mem_iff.1 hm)
  obtain ⟨⟨h1, h2⟩, a1, a2, -⟩ := accepts_valid ha hs h
  obtain ⟨⟨h1', h2'⟩, b1, b2, -⟩ := accepts_valid ha hs' h'
  refine ⟨b1.trans a1.symm, b2.trans a2.symm, ?_⟩
  obtain ⟨vs', ts', f, g, hi, hperm'⟩ := Reorder.exec_reorder h2 hp hperm (Reorder.declared_first h2')
  obtain ⟨rfl, rfl⟩ := exec_det declsOk_nil g h2'
  exact ⟨f, hi, hperm'⟩

section Examples

open Sample

/-- `qubit[2] q; X q[1]; qubit[3] r; bit[3] b; b = measure r`. The second part may come first, but not the last statement. -/
private def five : List (Stmt Int) :=
  [qubits c!"q" 2, gate c!"X" [] [at_ c!"q" 1], qubits c!"r" 3, bits c!"b" 3, Sample.measure (name c!"b") (name c!"r")]

private def moved : List (Stmt Int) :=
  [qubits c!"r" 3, bits c!"b" 3, Sample.measure (name c!"b") (name c!"r")] ++ [qubits c!"q" 2, gate c!"X" [] [at_ c!"q" 1]]

example : moved.Perm five ∧ five.reverse.Perm five := ⟨List.perm_append_comm, List.reverse_perm _⟩

example : messages (program five) = some [] ∧ messages (program moved) = some [] ∧
    (messages (program five.reverse)).map List.length = some 2 := by
  decide +kernel

example : ¬ DeclaredFirst five.reverse := by
  intro h
  obtain ⟨d, hd, -⟩ := h [] (Sample.measure (name c!"b") (name c!"r"))
    [bits c!"b" 3, qubits c!"r" 3, gate c!"X" [] [at_ c!"q" 1], qubits c!"q" 2] rfl c!"b" (by decide) ⟨bits c!"b" 3, by simp [five], rfl⟩
  cases hd

end Examples

end Qasm
