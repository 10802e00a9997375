import Verif.Lemmas.Unused
import Verif.Props.Independent
import Verif.Spec.Witness
/-!
# Declarations matter only to what mentions them (C87)

Variables are told apart by an identity, a number the analyser gives them. Where the order of declarations changes, or one of them is
missing, the identities change, and nothing else: the theorems give the function that maps the old identities to the new ones.
-/

namespace Qasm

open Spec Sem

variable {F : Type} {fo : FloatOps F}

theorem after_ok_iff {α : Type} {es es' : List Err} {x : Res Empty (Log α)} {y : α} :
    Log.after es x = .ok (es', y) ↔ ∃ es1, x = .ok (es1, y) ∧ es' = es ++ es1 := by
  cases x with
  | ok x =>
    obtain ⟨a, b⟩ := x
    constructor
    · intro h; cases h; exact ⟨a, rfl, rfl⟩
    · rintro ⟨e, h, rfl⟩; cases h; rfl
  | _ => simp [Log.after]

theorem block_cons {a a' : Analyzer F} {s : Stmt F} {ss : List (Stmt F)} {es : List Err} :
    visitBlock fo a (s :: ss) = .ok (es, a') ↔ ∃ e1 a1 e2, visitStatement fo a s = .ok (e1, a1) ∧ visitBlock fo a1 ss = .ok (e2, a') ∧
      es = e1 ++ e2 := by
  rw [visitBlock, bind_ok_iff]
  constructor
  · rintro ⟨⟨e1, a1⟩, h1, h2⟩
    obtain ⟨e2, h3, rfl⟩ := after_ok_iff.1 h2
    exact ⟨e1, a1, e2, h1, h3, rfl⟩
  · rintro ⟨e1, a1, e2, h1, h2, rfl⟩
    exact ⟨(e1, a1), h1, after_ok_iff.2 ⟨e2, h2, rfl⟩⟩

theorem block_append {a a' : Analyzer F} {xs ys : List (Stmt F)} {es : List Err} :
    visitBlock fo a (xs ++ ys) = .ok (es, a') ↔ ∃ e1 a1 e2, visitBlock fo a xs = .ok (e1, a1) ∧ visitBlock fo a1 ys = .ok (e2, a') ∧
      es = e1 ++ e2 := by
  rw [visitBlock_append, bind_ok_iff]
  constructor
  · rintro ⟨⟨e1, a1⟩, h1, h2⟩
    obtain ⟨e2, h3, rfl⟩ := after_ok_iff.1 h2
    exact ⟨e1, a1, e2, h1, h3, rfl⟩
  · rintro ⟨e1, a1, e2, h1, h2, rfl⟩
    exact ⟨(e1, a1), h1, after_ok_iff.2 ⟨e2, h2, rfl⟩⟩

theorem moved_block {f : Nat → Nat} {v : Version} {sc : Scope F} {rest : List (Scope F)} {u : Nat} (h : Fit ⟨v, sc :: rest, u⟩)
    (hf : Fixes f u) {b b' : SBlock F} {T : List (SStatement F)} (h1 : b.statements = sc.block.statements ++ T)
    (h2 : b'.statements = sc.block.statements ++ T.map (moveSStatement f)) (hl : b'.loc = b.loc) : b' = moveSBlock f b := by
  have hx := (h.fixed f hf sc List.mem_cons_self).statements
  have : sc.block.statements.map (moveSStatement f) = sc.block.statements :=
    (List.map_congr_left hx).trans (List.map_id _)
  obtain ⟨ts, l⟩ := b
  obtain ⟨ts', l'⟩ := b'
  simp only at h1 h2 hl
  simp [moveSBlock, h1, h2, hl, this]

/-- The analyser knows the variables before. -/
theorem fixes_before {f : Nat → Nat} {v : Version} {sc : Scope F} {rest : List (Scope F)} {u : Nat} (h : Fit ⟨v, sc :: rest, u⟩)
    (hf : Fixes f u) : ∀ y ∈ sc.variables, f y.uid = y.uid := fun y hy =>
  congrArg SVariable.uid ((h.fixed f hf sc List.mem_cons_self).variables y hy)

/-- **C87.** A declaration whose name nothing after it mentions adds its errors and at most one variable, in its place. The other
variables, statements and errors are those of the program without it, with other identities, none of which is that of the variable. -/
theorem C87_unused {a a0 a1 a2 : Analyzer F} (ha : Reached fo a) {p : ProgramAst F} {pre post : List (Stmt F)} {l : Option Loc}
    {as : List (AnnotationData F)} {n : Ident} {t : TypeAst} (hn : Unmentioned n.name post) {r0 r1 r2 : Result (SProgram F)}
    (h0 : analyze fo a (withStatements p pre) = .ok (a0, r0)) (h1 : analyze fo a (withStatements p (pre ++ post)) = .ok (a1, r1))
    (h2 : analyze fo a (withStatements p (pre ++ .var l as n t :: post)) = .ok (a2, r2)) :
    ∃ s0 s1 s2 es B W, ∃ o : Option (SVariable F), ∃ f : Nat → Nat, r0.root = some s0 ∧ r1.root = some s1 ∧ r2.root = some s2 ∧
      r1.errors = r0.errors ++ B ∧ r2.errors = r0.errors ++ es ++ B ∧ s2.block = moveSBlock f s1.block ∧
      s1.variables = s0.variables ++ W ∧ s2.variables = s0.variables ++ o.toList ++ W.map (moveSVariable f) ∧
      s2.apiVersion = s1.apiVersion ∧ s2.version = s1.version ∧
      (∀ i j, f i = f j → i = j) ∧ (∀ y ∈ s0.variables, f y.uid = y.uid) ∧ ∀ y ∈ o, y.name = n.name ∧ ∀ i, f i ≠ y.uid := by
  obtain ⟨e0, sc0, rest0, g0, k0, l0, m0⟩ := analyze_ran h0
  obtain ⟨e1, sc1, rest1, g1, k1, l1, m1⟩ := analyze_ran h1
  obtain ⟨e2, sc2, rest2, g2, k2, l2, m2⟩ := analyze_ran h2
  have hfit := (fit_block _ (fit_reached ha) g0).1
  obtain ⟨e0', a0', B, q0, q1, rfl⟩ := block_append.1 g1
  rw [g0] at q0
  cases q0
  obtain ⟨e0', a0', e', q0, q2, rfl⟩ := block_append.1 g2
  rw [g0] at q0
  cases q0
  obtain ⟨es, ad, B', q3, q4, rfl⟩ := block_cons.1 q2
  obtain ⟨v0, scs0, u0⟩ := a0
  simp only at k0
  subst k0
  obtain ⟨f, o, hm, hf, hi, ho⟩ := unused_step hfit q3
  have hend := visitBlock_mov (fo := fo) post hm (fun _ _ _ => trivial) fun s hs m hm' e => hn s hs (e ▸ hm')
  rw [q1, q4] at hend
  obtain ⟨rfl, ⟨c, w, c', w', j, j', -, -, ⟨T, t1, t2⟩, hl, ⟨W, w1, w2⟩⟩, -⟩ := hend
  rw [show a1.scopes = c :: w from j] at k1
  rw [show a2.scopes = c' :: w' from j'] at k2
  cases k1
  cases k2
  refine ⟨_, _, _, es, B', W, o, f, m0, m1, m2, ?_, ?_, moved_block hfit hf t1 t2 hl, w1, w2, rfl, rfl, hi, fixes_before hfit hf, ho⟩
  · rw [l0, l1, List.append_assoc]
  · rw [l0, l2]; simp only [List.append_assoc]

open Sample in
example := (C87_unused (fo := Sample.fo) fresh_reached (p := program []) (pre := [qubits c!"q" 2]) (l := none) (as := []) (n := ⟨c!"b", none⟩)
  (t := ⟨c!"bit", some 3, none⟩) (post := [qubits c!"r" 2, gate c!"H" [] [name c!"q"], gate c!"X" [] [at_ c!"r" 1]])
  (by unfold Unmentioned; decide +kernel) (ran₂ (by decide +kernel)) (ran₂ (by decide +kernel)) (ran₂ (by decide +kernel)) : _)

/-- **C87.** Exchanging a declaration and a neighbouring instruction that does not mention its name exchanges their errors, and
changes nothing else. -/
theorem C87_past {a a0 a1 a2 : Analyzer F} (ha : Reached fo a) {p : ProgramAst F} {pre post : List (Stmt F)} {l : Option Loc}
    {as : List (AnnotationData F)} {n : Ident} {t : TypeAst} {i : Stmt F} (hi : ¬ IsDecl i) (hn : n.name ∉ mentioned i)
    {r0 r1 r2 : Result (SProgram F)} (h0 : analyze fo a (withStatements p pre) = .ok (a0, r0))
    (h1 : analyze fo a (withStatements p (pre ++ .var l as n t :: i :: post)) = .ok (a1, r1))
    (h2 : analyze fo a (withStatements p (pre ++ i :: .var l as n t :: post)) = .ok (a2, r2)) :
    ∃ ed ei B, r1.errors = r0.errors ++ ed ++ ei ++ B ∧ r2.errors = r0.errors ++ ei ++ ed ++ B ∧ r2.root = r1.root ∧ a2 = a1 := by
  obtain ⟨e0, sc0, rest0, g0, k0, l0, m0⟩ := analyze_ran h0
  obtain ⟨e1, sc1, rest1, g1, k1, l1, m1⟩ := analyze_ran h1
  obtain ⟨e2, sc2, rest2, g2, k2, l2, m2⟩ := analyze_ran h2
  have hfit := (fit_block _ (fit_reached ha) g0).1
  obtain ⟨e0', a0', x1, q0, q1, rfl⟩ := block_append.1 g1
  rw [g0] at q0
  cases q0
  obtain ⟨e0', a0', x2, q0, q2, rfl⟩ := block_append.1 g2
  rw [g0] at q0
  cases q0
  obtain ⟨ed, ad, y1, u1, p1, rfl⟩ := block_cons.1 q1
  obtain ⟨ei, adi, B, u2, z1, rfl⟩ := block_cons.1 p1
  obtain ⟨ei', ai, y2, u3, p2, rfl⟩ := block_cons.1 q2
  obtain ⟨ed', aid, B', u4, z2, rfl⟩ := block_cons.1 p2
  obtain ⟨v0, scs0, u0⟩ := a0
  simp only at k0
  subst k0
  obtain ⟨rfl, rfl, rfl⟩ := past_step hfit hi hn u1 u2 u3 u4
  rw [z1] at z2
  cases z2
  rw [k1] at k2
  cases k2
  refine ⟨ed', ei', B, ?_, ?_, m2.trans m1.symm, rfl⟩
  · rw [l0, l1]; simp only [List.append_assoc]
  · rw [l0, l2]; simp only [List.append_assoc]

open Sample in
example := (C87_past (fo := Sample.fo) fresh_reached (p := program []) (pre := [qubits c!"q" 2]) (l := none) (as := []) (n := ⟨c!"b", none⟩)
  (t := ⟨c!"bit", some 3, none⟩) (i := gate c!"H" [] [name c!"q"]) id (by decide +kernel)
  (post := [measure (at_ c!"b" 0) (at_ c!"q" 1)]) (ran₂ (by decide +kernel)) (ran₂ (by decide +kernel)) (ran₂ (by decide +kernel)) : _)

/-- **C87.** Exchanging two neighbouring declarations of different names, neither of which mentions the other, exchanges their errors
and their variables. The statements and the other variables and errors stay the same, with other identities. -/
theorem C87_order {a a0 a1 a2 : Analyzer F} (ha : Reached fo a) {p : ProgramAst F} {pre post : List (Stmt F)} {l l' : Option Loc}
    {as as' : List (AnnotationData F)} {n n' : Ident} {t t' : TypeAst} (hne : n.name ≠ n'.name)
    (hn : n.name ∉ namesAnnotations as') (hn' : n'.name ∉ namesAnnotations as)
    {r0 r1 r2 : Result (SProgram F)} (h0 : analyze fo a (withStatements p pre) = .ok (a0, r0))
    (h1 : analyze fo a (withStatements p (pre ++ .var l as n t :: .var l' as' n' t' :: post)) = .ok (a1, r1))
    (h2 : analyze fo a (withStatements p (pre ++ .var l' as' n' t' :: .var l as n t :: post)) = .ok (a2, r2)) :
    ∃ s0 s1 s2 e e' B W, ∃ o o' : Option (SVariable F), ∃ f : Nat → Nat, r0.root = some s0 ∧ r1.root = some s1 ∧ r2.root = some s2 ∧
      r1.errors = r0.errors ++ e ++ e' ++ B ∧ r2.errors = r0.errors ++ e' ++ e ++ B ∧ s2.block = moveSBlock f s1.block ∧
      s1.variables = s0.variables ++ o.toList ++ o'.toList ++ W ∧
      s2.variables = s0.variables ++ (o'.toList ++ o.toList ++ W).map (moveSVariable f) ∧
      s2.apiVersion = s1.apiVersion ∧ s2.version = s1.version ∧
      (∀ i, f (f i) = i) ∧ (∀ y ∈ s0.variables, f y.uid = y.uid) := by
  obtain ⟨e0, sc0, rest0, g0, k0, l0, m0⟩ := analyze_ran h0
  obtain ⟨e1, sc1, rest1, g1, k1, l1, m1⟩ := analyze_ran h1
  obtain ⟨e2, sc2, rest2, g2, k2, l2, m2⟩ := analyze_ran h2
  have hfit := (fit_block _ (fit_reached ha) g0).1
  obtain ⟨e0', a0', x1, q0, q1, rfl⟩ := block_append.1 g1
  rw [g0] at q0
  cases q0
  obtain ⟨e0', a0', x2, q0, q2, rfl⟩ := block_append.1 g2
  rw [g0] at q0
  cases q0
  obtain ⟨d1, b1, y1, u1, p1, rfl⟩ := block_cons.1 q1
  obtain ⟨d2, b12, B, u2, z1, rfl⟩ := block_cons.1 p1
  obtain ⟨d2', b2, y2, u3, p2, rfl⟩ := block_cons.1 q2
  obtain ⟨d1', b21, B', u4, z2, rfl⟩ := block_cons.1 p2
  obtain ⟨v0, scs0, u0⟩ := a0
  simp only at k0
  subst k0
  obtain ⟨rfl, rfl, f, o, o', hf, hi, hm⟩ := order_step hfit hne hn hn' u1 u2 u3 u4
  have hend := visitBlock_mov (fo := fo) post hm (fun _ _ _ => trivial) fun _ _ _ _ => trivial
  rw [z1, z2] at hend
  obtain ⟨rfl, ⟨c, w, c', w', j, j', -, -, ⟨T, t1, t2⟩, hl, ⟨W, w1, w2⟩⟩, -⟩ := hend
  rw [show a1.scopes = c :: w from j] at k1
  rw [show a2.scopes = c' :: w' from j'] at k2
  cases k1
  cases k2
  refine ⟨_, _, _, d1', d2', B', W, o, o', f, m0, m1, m2, ?_, ?_, moved_block hfit hf t1 t2 hl, w1, ?_, rfl, rfl, hi,
    fixes_before hfit hf⟩
  · rw [l0, l1]; simp only [List.append_assoc]
  · rw [l0, l2]; simp only [List.append_assoc]
  · rw [w2]; simp only [List.map_append, List.append_assoc]

open Sample in
example := (C87_order (fo := Sample.fo) fresh_reached (p := program []) (pre := [qubits c!"q" 2]) (l := none) (as := []) (n := ⟨c!"b", none⟩)
  (t := ⟨c!"bit", some 3, none⟩) (l' := none) (as' := []) (n' := ⟨c!"r", none⟩) (t' := ⟨c!"qubit", none, none⟩)
  (by decide) (by decide) (by decide) (post := [measure (at_ c!"b" 0) (name c!"r")])
  (ran₂ (by decide +kernel)) (ran₂ (by decide +kernel)) (ran₂ (by decide +kernel)) : _)

/-! ## Whether the analysis returns -/

theorem gateValues_mov (f : Nat → Nat) : ∀ g : SGate F, SProgram.gateValues (moveSGate f g) = (SProgram.gateValues g).map (moveValue f)
  | .mk n none ps as l => by simp [moveSGate, SProgram.gateValues, SProgram.annotationValues, List.map_flatMap, List.flatMap_map, moveSAnnotation]
  | .mk n (some g) ps as l => by
    simp [moveSGate, SProgram.gateValues, SProgram.annotationValues, List.map_flatMap, List.flatMap_map, moveSAnnotation, gateValues_mov f g]

theorem annotationValues_mov (f : Nat → Nat) (as : List (SAnnotation F)) :
    SProgram.annotationValues (as.map (moveSAnnotation f)) = (SProgram.annotationValues as).map (moveValue f) := by
  simp [SProgram.annotationValues, List.map_flatMap, List.flatMap_map, moveSAnnotation]

theorem statementValues_mov (f : Nat → Nat) (t : SStatement F) :
    SProgram.statementValues (moveSStatement f t) = (SProgram.statementValues t).map (moveValue f) := by
  cases t <;> simp [moveSStatement, SProgram.statementValues, annotationValues_mov, gateValues_mov]

/-- The variables of a list of values are among those of the program. -/
def Sound (vars : List (SVariable F)) (vs : List (Value F)) : Prop := ∀ v ∈ vs, SProgram.valueOk vars v = true

theorem wellFormed_iff (p : SProgram F) : p.wellFormed = true ↔
    (∀ t ∈ p.block.statements, Sound p.variables (SProgram.statementValues t)) ∧
    ∀ y ∈ p.variables, Sound p.variables (SProgram.annotationValues y.annotations) := by
  simp only [SProgram.wellFormed, SProgram.values, List.all_eq_true, List.mem_append, List.mem_flatMap, Sound]
  constructor
  · exact fun h => ⟨fun t ht v hv => h v (.inl ⟨t, ht, hv⟩), fun y hy v hv => h v (.inr ⟨y, hy, hv⟩)⟩
  · rintro ⟨h1, h2⟩ v (⟨t, ht, hv⟩ | ⟨y, hy, hv⟩)
    · exact h1 t ht v hv
    · exact h2 y hy v hv

theorem Sound.moved {f : Nat → Nat} {vars vars' : List (SVariable F)} {vs : List (Value F)} (h : Sound vars vs)
    (hv : ∀ y ∈ vars, ∃ y' ∈ vars', y'.uid = f y.uid) : Sound vars' (vs.map (moveValue f)) := by
  intro v hm
  obtain ⟨w, hw, rfl⟩ := List.mem_map.1 hm
  have key : ∀ u, (vars.map (·.uid)).contains u = true → (vars'.map (·.uid)).contains (f u) = true := by
    intro u hu
    simp only [List.contains_iff_mem, List.mem_map] at hu ⊢
    obtain ⟨y, hy, rfl⟩ := hu
    obtain ⟨y', hy', e⟩ := hv y hy
    exact ⟨y', hy', e⟩
  have hw := h w hw
  obtain ⟨n, l⟩ := w
  cases n with
  | variableRef x => exact key _ hw
  | indexRef x is =>
    simp only [SProgram.valueOk, Bool.and_eq_true] at hw
    simp only [SProgram.valueOk, moveValue, moveNode, moveLink, Bool.and_eq_true]
    exact ⟨key _ hw.1, hw.2⟩
  | _ => rfl

theorem Sound.more {vars vars' : List (SVariable F)} {vs : List (Value F)} (h : Sound vars vs) (hv : ∀ y ∈ vars, y ∈ vars') : Sound vars' vs := by
  have := h.moved (f := id) (vars' := vars') fun y hy => ⟨y, hv y hy, rfl⟩
  rwa [map_eq_self moveValue_id] at this

/-- The analysis returns if it is defined and its result, if there are no errors, is well formed. -/
theorem returns_of {a a' : Analyzer F} {p : ProgramAst F} {ss : List (Stmt F)} {es : List Err} {sc : Scope F} {rest : List (Scope F)}
    (h : visitBlock fo a ss = .ok (es, a')) (hs : a'.scopes = sc :: rest)
    (hw : (visitVersion a.apiVersion p.version).1 ++ es = [] →
      SProgram.wellFormed ⟨a.apiVersion, (visitVersion a.apiVersion p.version).2, sc.block, sc.variables⟩ = true) :
    ∃ a' r, analyze fo a (withStatements p ss) = .ok (a', r) := by
  rw [analyze_block_eq h hs]
  split
  · rename_i hc
    simp only [Bool.and_eq_true, List.isEmpty_iff, Bool.not_eq_true'] at hc
    rw [hw hc.1] at hc
    cases hc.2
  · exact ⟨_, _, rfl⟩

theorem returned {a a' : Analyzer F} {p : ProgramAst F} {ss : List (Stmt F)} {es : List Err} {sc : Scope F} {rest : List (Scope F)}
    {r : Result (SProgram F)} (h : visitBlock fo a ss = .ok (es, a')) (hs : a'.scopes = sc :: rest)
    (hr : analyze fo a (withStatements p ss) = .ok (a', r)) (he : (visitVersion a.apiVersion p.version).1 ++ es = []) :
    SProgram.wellFormed ⟨a.apiVersion, (visitVersion a.apiVersion p.version).2, sc.block, sc.variables⟩ = true := by
  rw [analyze_block_eq h hs, he] at hr
  cases hw : SProgram.wellFormed (⟨a.apiVersion, (visitVersion a.apiVersion p.version).2, sc.block, sc.variables⟩ : SProgram F) with
  | true => rfl
  | false => simp [hw] at hr

/-- **C87.** If the analysis returns without the declaration, and with nothing after it, then it returns with it. -/
theorem C87_unused_returns {a a1 a3 : Analyzer F} (ha : Reached fo a) {p : ProgramAst F} {pre post : List (Stmt F)} {l : Option Loc}
    {as : List (AnnotationData F)} {n : Ident} {t : TypeAst} (hn : Unmentioned n.name post) {r1 r3 : Result (SProgram F)}
    (h1 : analyze fo a (withStatements p (pre ++ post)) = .ok (a1, r1))
    (h3 : analyze fo a (withStatements p (pre ++ [.var l as n t])) = .ok (a3, r3)) :
    ∃ a2 r2, analyze fo a (withStatements p (pre ++ .var l as n t :: post)) = .ok (a2, r2) := by
  obtain ⟨e1, sc1, rest1, g1, k1, -, -⟩ := analyze_ran h1
  obtain ⟨e3, sc3, rest3, g3, k3, -, -⟩ := analyze_ran h3
  obtain ⟨e0, a0, B, q0, q1, rfl⟩ := block_append.1 g1
  obtain ⟨e0', a0', es, q0', q3, rfl⟩ := block_append.1 g3
  rw [q0] at q0'
  cases q0'
  obtain ⟨es', ad, e4, q4, q5, rfl⟩ := block_cons.1 q3
  cases q5
  have hfit := (fit_block _ (fit_reached ha) q0).1
  obtain ⟨v0, scs0, u0⟩ := a0
  obtain ⟨⟨sc0, rest0, hsc⟩, -⟩ := id hfit
  simp only at hsc
  subst hsc
  obtain ⟨f, o, hm, hf, hi, ho⟩ := unused_step hfit q4
  have hend := visitBlock_mov (fo := fo) post hm (fun _ _ _ => trivial) fun s hs m hm' e => hn s hs (e ▸ hm')
  obtain ⟨c3, w3, c3', w3', j3, j3', -, -, ⟨T3, -, t4⟩, -, ⟨W3, v3, v4⟩⟩ := hm.shape
  cases j3
  rw [j3'] at k3
  cases k3
  have v3 := List.append_cancel_left (v3.symm.trans (List.append_nil _).symm)
  subst v3
  rw [List.map_nil, List.append_nil] at v4
  rw [q1] at hend
  cases q2 : visitBlock fo a3 post with
  | ok x =>
    rw [q2] at hend
    obtain ⟨hB, ⟨c, w, c', w', j, j', -, -, ⟨T, t1, t2⟩, hl, ⟨W, w1, w2⟩⟩, -⟩ := hend
    rw [show a1.scopes = c :: w from j] at k1
    cases k1
    have g2 : visitBlock fo a (pre ++ .var l as n t :: post) = .ok (e0 ++ (es' ++ B), x.2) := by
      refine block_append.2 ⟨_, _, _, q0, block_cons.2 ⟨_, _, _, q4, ?_, rfl⟩, rfl⟩
      rw [q2, ← show x.1 = B from hB]
    refine returns_of g2 j' fun he => ?_
    simp only [List.append_eq_nil_iff] at he
    obtain ⟨hv, rfl, rfl, rfl⟩ := he
    have r1 := (wellFormed_iff _).1 (returned g1 j h1 (by simp [hv]))
    have r3 := (wellFormed_iff _).1 (returned g3 j3' h3 (by simp [hv]))
    have fx := fixes_before hfit hf
    have hvars : ∀ y ∈ sc1.variables, ∃ y' ∈ c'.variables, y'.uid = f y.uid := by
      intro y hy
      rw [w1, List.mem_append] at hy
      rcases hy with hy | hy
      · exact ⟨y, by simp [w2, hy], (fx y hy).symm⟩
      · exact ⟨moveSVariable f y, by rw [w2]; exact List.mem_append_right _ (List.mem_map_of_mem hy), rfl⟩
    refine (wellFormed_iff _).2 ⟨fun t ht => ?_, fun y hy => ?_⟩
    · rw [show c'.block = moveSBlock f sc1.block from moved_block hfit hf t1 t2 hl] at ht
      simp only [moveSBlock] at ht
      obtain ⟨t, ht', rfl⟩ := List.mem_map.1 ht
      rw [statementValues_mov]
      exact (r1.1 t ht').moved hvars
    · simp only [w2] at hy
      rw [List.mem_append] at hy
      rcases hy with hy | hy
      · refine (r3.2 y (by rw [v4]; exact hy)).more fun y hy => ?_
        rw [v4] at hy
        rw [w2]
        exact List.mem_append_left _ hy
      · obtain ⟨y, hy', rfl⟩ := List.mem_map.1 hy
        rw [show (moveSVariable f y).annotations = y.annotations.map (moveSAnnotation f) from rfl, annotationValues_mov]
        exact (r1.2 y (by rw [w1]; exact List.mem_append_right _ hy')).moved hvars
  | err e => exact e.elim
  | _ => rw [q2] at hend; exact hend.elim

open Sample in
example := (C87_unused_returns (fo := Sample.fo) fresh_reached (p := program []) (pre := [qubits c!"q" 2]) (l := none) (as := [])
  (n := ⟨c!"b", none⟩) (t := ⟨c!"bit", some 3, none⟩) (post := [qubits c!"r" 2, gate c!"H" [] [name c!"q"]])
  (by unfold Unmentioned; decide +kernel) (ran₂ (by decide +kernel)) (ran₂ (by decide +kernel)) : _)

/-- **C87.** The order of a declaration and a neighbouring instruction that does not mention its name does not decide whether the
analysis returns. -/
theorem C87_past_returns {a : Analyzer F} (ha : Reached fo a) {p : ProgramAst F} {pre post : List (Stmt F)} {l : Option Loc}
    {as : List (AnnotationData F)} {n : Ident} {t : TypeAst} {i : Stmt F} (hi : ¬ IsDecl i) (hn : n.name ∉ mentioned i) :
    (∃ a1 r1, analyze fo a (withStatements p (pre ++ .var l as n t :: i :: post)) = .ok (a1, r1)) ↔
    ∃ a2 r2, analyze fo a (withStatements p (pre ++ i :: .var l as n t :: post)) = .ok (a2, r2) := by
  constructor
  · rintro ⟨a1, r1, h1⟩
    obtain ⟨e1, sc1, rest1, g1, k1, -, -⟩ := analyze_ran h1
    obtain ⟨e0, a0, x1, q0, q1, rfl⟩ := block_append.1 g1
    obtain ⟨ed, ad, y1, u1, p1, rfl⟩ := block_cons.1 q1
    obtain ⟨ei, adi, B, u2, z1, rfl⟩ := block_cons.1 p1
    have hfit := (fit_block _ (fit_reached ha) q0).1
    obtain ⟨v0, scs0, u0⟩ := a0
    obtain ⟨⟨sc0, rest0, hsc⟩, -⟩ := id hfit
    simp only at hsc
    subst hsc
    obtain ⟨ei', ai, ed', aid, u3, u4⟩ := (past_ok hfit hi hn).1 ⟨ed, ad, ei, adi, u1, u2⟩
    obtain ⟨rfl, rfl, rfl⟩ := past_step hfit hi hn u1 u2 u3 u4
    refine returns_of (block_append.2 ⟨_, _, _, q0, block_cons.2 ⟨_, _, _, u3, block_cons.2 ⟨_, _, _, u4, z1, rfl⟩, rfl⟩, rfl⟩) k1 fun he => ?_
    simp only [List.append_eq_nil_iff] at he
    exact returned g1 k1 h1 (by simp [he])
  · rintro ⟨a1, r1, h1⟩
    obtain ⟨e1, sc1, rest1, g1, k1, -, -⟩ := analyze_ran h1
    obtain ⟨e0, a0, x1, q0, q1, rfl⟩ := block_append.1 g1
    obtain ⟨ei, ai, y1, u1, p1, rfl⟩ := block_cons.1 q1
    obtain ⟨ed, aid, B, u2, z1, rfl⟩ := block_cons.1 p1
    have hfit := (fit_block _ (fit_reached ha) q0).1
    obtain ⟨v0, scs0, u0⟩ := a0
    obtain ⟨⟨sc0, rest0, hsc⟩, -⟩ := id hfit
    simp only at hsc
    subst hsc
    obtain ⟨ed', ad, ei', adi, u3, u4⟩ := (past_ok hfit hi hn).2 ⟨ei, ai, ed, aid, u1, u2⟩
    obtain ⟨rfl, rfl, rfl⟩ := past_step hfit hi hn u3 u4 u1 u2
    refine returns_of (block_append.2 ⟨_, _, _, q0, block_cons.2 ⟨_, _, _, u3, block_cons.2 ⟨_, _, _, u4, z1, rfl⟩, rfl⟩, rfl⟩) k1 fun he => ?_
    simp only [List.append_eq_nil_iff] at he
    exact returned g1 k1 h1 (by simp [he])

open Sample in
example := ((C87_past_returns (fo := Sample.fo) fresh_reached (p := program []) (pre := [qubits c!"q" 2]) (l := none) (as := [])
  (n := ⟨c!"b", none⟩) (t := ⟨c!"bit", some 3, none⟩) (i := gate c!"H" [] [name c!"q"]) id (by decide +kernel)
  (post := [measure (at_ c!"b" 0) (at_ c!"q" 1)])).1 ⟨_, _, ran₂ (by decide +kernel)⟩ : _)

/-- **C87.** The order of two neighbouring declarations does not decide whether the analysis returns. -/
theorem C87_order_returns {a a1 : Analyzer F} (ha : Reached fo a) {p : ProgramAst F} {pre post : List (Stmt F)} {l l' : Option Loc}
    {as as' : List (AnnotationData F)} {n n' : Ident} {t t' : TypeAst} (hne : n.name ≠ n'.name)
    (hn : n.name ∉ namesAnnotations as') (hn' : n'.name ∉ namesAnnotations as) {r1 : Result (SProgram F)}
    (h1 : analyze fo a (withStatements p (pre ++ .var l as n t :: .var l' as' n' t' :: post)) = .ok (a1, r1)) :
    ∃ a2 r2, analyze fo a (withStatements p (pre ++ .var l' as' n' t' :: .var l as n t :: post)) = .ok (a2, r2) := by
  obtain ⟨e1, sc1, rest1, g1, k1, -, -⟩ := analyze_ran h1
  obtain ⟨e0, a0, x1, q0, q1, rfl⟩ := block_append.1 g1
  obtain ⟨d1, b1, y1, u1, p1, rfl⟩ := block_cons.1 q1
  obtain ⟨d2, b12, B, u2, z1, rfl⟩ := block_cons.1 p1
  have hfit := (fit_block _ (fit_reached ha) q0).1
  obtain ⟨v0, scs0, u0⟩ := a0
  obtain ⟨⟨sc0, rest0, hsc⟩, -⟩ := id hfit
  simp only at hsc
  subst hsc
  obtain ⟨d2', b2, d1', b21, u3, u4⟩ := order_ok hfit hn hn' u1 u2
  obtain ⟨rfl, rfl, f, o, o', hf, hi, hm⟩ := order_step hfit hne hn hn' u1 u2 u3 u4
  have hend := visitBlock_mov (fo := fo) post hm (fun _ _ _ => trivial) fun _ _ _ _ => trivial
  rw [z1] at hend
  cases z2 : visitBlock fo b21 post with
  | ok x =>
    rw [z2] at hend
    obtain ⟨hB, ⟨c, w, c', w', j, j', -, -, ⟨T, t1, t2⟩, hl, ⟨W, w1, w2⟩⟩, -⟩ := hend
    rw [show a1.scopes = c :: w from j] at k1
    cases k1
    refine returns_of (block_append.2 ⟨_, _, _, q0, block_cons.2 ⟨_, _, _, u3, block_cons.2 ⟨_, _, x.1, u4, z2, rfl⟩, rfl⟩, rfl⟩) j' fun he => ?_
    simp only [List.append_eq_nil_iff] at he
    have r1 := (wellFormed_iff _).1 (returned g1 j h1 (by have hB : x.1 = B := hB; simp [he, ← hB]))
    have hold := (hfit.fixed f hf sc0 List.mem_cons_self).variables
    have hback : ∀ y ∈ c'.variables, ∃ y' ∈ sc1.variables, moveSVariable f y' = y := by
      intro y hy
      rw [w2] at hy
      simp only [List.mem_append, List.mem_map] at hy
      rcases hy with (hy | ⟨y', hy | hy, rfl⟩) | ⟨y', hy, rfl⟩
      · exact ⟨y, by simp [w1, hy], hold y hy⟩
      · exact ⟨y', by rw [w1]; simp only [List.mem_append, hy, true_or, or_true], rfl⟩
      · exact ⟨y', by rw [w1]; simp only [List.mem_append, hy, true_or, or_true], rfl⟩
      · exact ⟨y', by rw [w1]; simp only [List.mem_append, hy, true_or, or_true], rfl⟩
    have hvars : ∀ y ∈ sc1.variables, ∃ y' ∈ c'.variables, y'.uid = f y.uid := by
      intro y hy
      rw [w1] at hy
      simp only [List.mem_append] at hy
      rcases hy with ((hy | hy) | hy) | hy
      · exact ⟨y, by simp [w2, hy], (fixes_before hfit hf y hy).symm⟩
      all_goals
        refine ⟨moveSVariable f y, ?_, rfl⟩
        rw [w2]
        simp only [List.map_append, List.mem_append, List.mem_map_of_mem hy, true_or, or_true]
    refine (wellFormed_iff _).2 ⟨fun t ht => ?_, fun y hy => ?_⟩
    · rw [show c'.block = moveSBlock f sc1.block from moved_block hfit hf t1 t2 hl] at ht
      simp only [moveSBlock] at ht
      obtain ⟨t, ht', rfl⟩ := List.mem_map.1 ht
      rw [statementValues_mov]
      exact (r1.1 t ht').moved hvars
    · obtain ⟨y, hy', rfl⟩ := hback y hy
      rw [show (moveSVariable f y).annotations = y.annotations.map (moveSAnnotation f) from rfl, annotationValues_mov]
      exact (r1.2 y hy').moved hvars
  | err e => exact e.elim
  | _ => rw [z2] at hend; exact hend.elim

open Sample in
example := (C87_order_returns (fo := Sample.fo) fresh_reached (p := program []) (pre := [qubits c!"q" 2]) (l := none) (as := [])
  (n := ⟨c!"b", none⟩) (t := ⟨c!"bit", some 3, none⟩) (l' := none) (as' := []) (n' := ⟨c!"r", none⟩) (t' := ⟨c!"qubit", none, none⟩)
  (by decide) (by decide) (by decide) (post := [measure (at_ c!"b" 0) (name c!"r")]) (ran₂ (by decide +kernel)) : _)

/-! ## Examples -/

namespace Sample

/-- The names and identities of the variables, and the identities the statements use. -/
def identities (p : ProgramAst Int) : Option (List (Str × Nat) × List Nat) :=
  match Analyzer.default Sample.fo [3, 0] with
  | .ok a =>
    match analyze Sample.fo a p with
    | .ok (_, r) => r.root.map fun s => (s.variables.map fun y => (y.name, y.uid), s.values.filterMap fun v =>
      match v.node with
      | .variableRef l => some l.uid
      | .indexRef l _ => some l.uid
      | _ => none)
    | _ => none
  | _ => none

end Sample

open Sample in
/-- A declaration nobody mentions, before another one and two gates: all that follows is renumbered. -/
example : identities (program [qubits c!"q" 2, qubits c!"r" 2, gate c!"H" [] [name c!"q"], gate c!"X" [] [at_ c!"r" 1]]) =
      some ([(c!"q", 0), (c!"r", 1)], [0, 1]) ∧
    identities (program [qubits c!"q" 2, bits c!"b" 3, qubits c!"r" 2, gate c!"H" [] [name c!"q"], gate c!"X" [] [at_ c!"r" 1]]) =
      some ([(c!"q", 0), (c!"b", 1), (c!"r", 2)], [0, 2]) ∧
    Unmentioned c!"b" [qubits c!"r" 2, gate c!"H" [] [name c!"q"], gate c!"X" [] [at_ c!"r" 1]] := by
  refine ⟨by decide +kernel, by decide +kernel, ?_⟩
  unfold Unmentioned
  decide +kernel

open Sample in
/-- An instruction before and after a declaration it does not mention; two declarations in both orders. -/
example : identities (program [qubits c!"q" 2, bits c!"b" 3, gate c!"H" [] [name c!"q"], measure (at_ c!"b" 0) (at_ c!"q" 1)]) =
      some ([(c!"q", 0), (c!"b", 1)], [0, 1, 0]) ∧
    identities (program [qubits c!"q" 2, gate c!"H" [] [name c!"q"], bits c!"b" 3, measure (at_ c!"b" 0) (at_ c!"q" 1)]) =
      some ([(c!"q", 0), (c!"b", 1)], [0, 1, 0]) ∧
    identities (program [bits c!"b" 3, qubits c!"q" 2, gate c!"H" [] [name c!"q"], measure (at_ c!"b" 0) (at_ c!"q" 1)]) =
      some ([(c!"b", 0), (c!"q", 1)], [1, 0, 1]) := by
  exact ⟨by decide +kernel, by decide +kernel, by decide +kernel⟩

open Sample in
/-- If a name is mentioned, or declared again, the claims are false. -/
example : (messages (program [qubits c!"q" 2, gate c!"H" [] [name c!"q"]])).get!.length = 0 ∧
    (messages (program [gate c!"H" [] [name c!"q"], qubits c!"q" 2])).get!.length = 1 ∧
    (messages (program [qubits c!"q" 2, bits c!"q" 3, gate c!"H" [] [name c!"q"]])).get!.length = 1 ∧
    (messages (program [bits c!"q" 3, qubits c!"q" 2, gate c!"H" [] [name c!"q"]])).get!.length = 2 := by
  decide +kernel

end Qasm
