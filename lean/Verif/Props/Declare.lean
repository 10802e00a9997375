import Verif.Lemmas.Declare
/-!
# Properties of declarations and names (C10, C11, C12, C13, C58, C59)
-/

namespace Qasm

open Spec Sem

attribute [local irreducible] defaultInstrs defaultFns defaultVars

variable {F : Type}

/-! ## C10, C13: redeclarations -/

private theorem redeclare {fo : FloatOps F} {v : Version} {a : Analyzer F}
    (ha : Analyzer.default fo v = .ok a) {p : ProgramAst F} {pre post : List (Stmt F)} {l : Option Loc} {name : Ident} {typ : TypeAst}
    {t : Ty} (ht : TypeOk typ t)
    (hs : ShapedProgram (withStatements p (pre ++ .var l [] name typ :: post)))
    (hp : PlainProgram (withStatements p (pre ++ .var l [] name typ :: post)))
    (hpost : ∀ s ∈ post, ¬ IsDecl s)
    (hn : name.name ∈ reserved ∨ ∃ l' as' n' typ' t', Stmt.var l' as' n' typ' ∈ pre ∧ n'.name = name.name ∧ TypeOk typ' t')
    {a1 : Analyzer F} {r1 : SProgram F} {errs1 : List Err}
    (h1 : analyze fo a (withStatements p (pre ++ post)) = .ok (a1, ⟨some r1, errs1⟩)) :
    ∃ a2 r2 es es' u, analyze fo a (withStatements p (pre ++ .var l [] name typ :: post)) = .ok (a2, ⟨some r2,
        es ++ ⟨c!"trying to redeclare variable '" ++ name.name ++ c!"'", l⟩ :: es'⟩) ∧ errs1 = es ++ es' ∧
      r2 = { r1 with variables := r1.variables ++ [⟨u, name.name, t, [], name.loc⟩] } ∧
      (∀ x, Analyzer.resolveVariable a2.scopes x = Analyzer.resolveVariable a1.scopes x) := by
  have sub : ∀ {xs : List (Stmt F)}, (∀ x ∈ xs, x ∈ pre ++ .var l [] name typ :: post) →
      (∀ x ∈ xs, ShapedStmt x) ∧ (∀ x ∈ xs, PlainStmt x) := fun h => ⟨fun x hx => hs x (h x hx), fun x hx => hp x (h x hx)⟩
  have m1 : ∀ x ∈ pre, x ∈ pre ++ .var l [] name typ :: post := fun x hx => by simp [hx]
  have m3 : ∀ x ∈ pre ++ post, x ∈ pre ++ .var l [] name typ :: post := fun x hx => by
    simp at hx ⊢; rcases hx with h | h <;> simp [h]
  rcases block_plain ha (sub m1).1 (sub m1).2 with ⟨errs, D, u, b, vars, g1, hD, hdecl⟩ | g1
  · have hf : ¬ Fresh D name.name := by
      rcases hn with hn | ⟨l', as', n', typ', t', k1, k2, k3⟩
      · exact fun hf => hf.1 hn
      · rw [← k2]; exact hdecl _ _ _ _ k1 ⟨t', k3⟩
    obtain ⟨rb, hfr⟩ := visitBlock_frame fo (bare (scopeOf fo D b vars)) post hpost
    have g2 : visitStatement fo (stateOf fo v D u b vars) (.var l [] name typ) =
        .ok ([⟨c!"trying to redeclare variable '" ++ name.name ++ c!"'", l⟩],
          stateOf fo v D (u + 1) b (vars ++ [⟨u, name.name, t, [], name.loc⟩])) := by
      rcases visitVariable_spec hD v u b vars l [] name typ (sas := []) .nil with ⟨_, _, k, _⟩ | ⟨t', e, k1, _, k2, k3⟩ | ⟨_, k, _⟩
      · exact absurd k hf
      · rw [k3, k2.2, typeOk_det k1 ht]
        rfl
      · exact absurd ⟨t, ht⟩ k
    have f1 := hfr v (scopeOf fo D b vars) u rfl
    have f2 := hfr v (scopeOf fo D b (vars ++ [⟨u, name.name, t, [], name.loc⟩])) (u + 1) rfl
    have e1 : visitBlock fo a (pre ++ post) = Log.after errs (visitBlock fo (stateOf fo v D u b vars) post) := by
      rw [visitBlock_append, g1, Res.bind_ok]
    have e2 : visitBlock fo a (pre ++ .var l [] name typ :: post) =
        Log.after errs (Log.after [⟨c!"trying to redeclare variable '" ++ name.name ++ c!"'", l⟩]
          (visitBlock fo (stateOf fo v D (u + 1) b (vars ++ [⟨u, name.name, t, [], name.loc⟩])) post)) := by
      rw [visitBlock_append, g1, Res.bind_ok]; dsimp only; rw [visitBlock, g2]; rfl
    have s1 : (⟨v, [(scopeOf fo D b vars)], u⟩ : Analyzer F) = stateOf fo v D u b vars := rfl
    have s2 : (⟨v, [(scopeOf fo D b (vars ++ [⟨u, name.name, t, [], name.loc⟩]))], u + 1⟩ : Analyzer F) =
        stateOf fo v D (u + 1) b (vars ++ [⟨u, name.name, t, [], name.loc⟩]) := rfl
    rw [s1] at f1
    rw [s2] at f2
    cases rb with
    | err e => cases e
    | exn c =>
      rw [f1] at e1
      exfalso
      unfold analyze visitProgram at h1
      have : (withStatements p (pre ++ post)).block.statements = pre ++ post := rfl
      rw [this, e1] at h1
      cases h1
    | ub =>
      rw [f1] at e1
      rw [analyze_of_ub (p := withStatements p (pre ++ post)) e1] at h1
      cases h1
    | ok x =>
      obtain ⟨xe, xt⟩ := x
      have q1 : (⟨v, [addAll (scopeOf fo D b vars) xt], u⟩ : Analyzer F) =
        stateOf fo v D u (blockAfter b xt) vars := rfl
      have q2 : (⟨v, [addAll (scopeOf fo D b (vars ++ [⟨u, name.name, t, [], name.loc⟩])) xt], u + 1⟩ : Analyzer F) =
        stateOf fo v D (u + 1) (blockAfter b xt) (vars ++ [⟨u, name.name, t, [], name.loc⟩]) := rfl
      rw [Res.bind_ok] at f1 f2
      dsimp only at f1 f2
      rw [q1] at f1
      rw [q2] at f2
      rw [f1, after_ok] at e1
      rw [f2, after_ok, after_ok] at e2
      have k1 := analyze_of_block ha (p := withStatements p (pre ++ post)) (sub m3).1 (sub m3).2 e1
      have k2 := analyze_of_block ha (p := withStatements p (pre ++ .var l [] name typ :: post)) hs hp e2
      rw [h1] at k1
      injection k1 with k1
      injection k1 with k3 k1
      injection k1 with k4 k5
      injection k4 with k4
      subst k3 k4 k5
      rw [List.singleton_append, ← List.append_assoc] at k2
      refine ⟨_, _, (visitVersion v p.version).1 ++ errs, xe, u, k2, ?_, rfl, fun x => rfl⟩
      rw [List.append_assoc]
      rfl
  · have : visitBlock fo a (pre ++ post) = .ub := by rw [visitBlock_append, g1]; rfl
    rw [analyze_of_ub (p := withStatements p (pre ++ post)) this] at h1
    cases h1

/-- C10. A second declaration of a name, with a proper type, yields exactly the error `trying to redeclare
variable 'x'` at the declaration. The instructions after it are analysed as without it: same block, same
errors, and every name (`x` included) resolves to the same as without it. Only the list of variables has
an entry for it. -/
theorem C10_redeclaration (fo : FloatOps F) (v : Version) (a : Analyzer F) (ha : Analyzer.default fo v = .ok a)
    (p : ProgramAst F) (pre post : List (Stmt F)) (l : Option Loc) (name : Ident) (typ : TypeAst) (t : Ty) (ht : TypeOk typ t)
    (hs : ShapedProgram (withStatements p (pre ++ .var l [] name typ :: post)))
    (hp : PlainProgram (withStatements p (pre ++ .var l [] name typ :: post)))
    (hpost : ∀ s ∈ post, ¬ IsDecl s) (t0 : Ty) (hn : Declares pre name.name t0)
    (a1 : Analyzer F) (r1 : SProgram F) (errs1 : List Err)
    (h1 : analyze fo a (withStatements p (pre ++ post)) = .ok (a1, ⟨some r1, errs1⟩)) :
    ∃ a2 r2 es es' u, analyze fo a (withStatements p (pre ++ .var l [] name typ :: post)) = .ok (a2, ⟨some r2,
        es ++ ⟨c!"trying to redeclare variable '" ++ name.name ++ c!"'", l⟩ :: es'⟩) ∧ errs1 = es ++ es' ∧
      r2 = { r1 with variables := r1.variables ++ [⟨u, name.name, t, [], name.loc⟩] } ∧
      (∀ x, Analyzer.resolveVariable a2.scopes x = Analyzer.resolveVariable a1.scopes x) := by
  refine redeclare ha ht hs hp hpost (.inr ?_) h1
  obtain ⟨l', as', x, typ', k1, k2, k3⟩ := hn
  exact ⟨l', as', x, typ', t0, k1, k2, k3⟩

/-- C10. The first declaration wins, for every analyser with one scope and every program: what a name
denotes before the analysis, it denotes afterwards. -/
theorem C10_first_wins (fo : FloatOps F) (a a' : Analyzer F) (sc : Scope F) (hsc : a.scopes = [sc]) (p : ProgramAst F)
    (r : Result (SProgram F)) (h : analyze fo a p = .ok (a', r)) (x : Str) (w : Value F)
    (hx : Analyzer.resolveVariable a.scopes x = .ok w) : Analyzer.resolveVariable a'.scopes x = .ok w := by
  obtain ⟨sc', h1, h2⟩ := analyze_find hsc h
  rw [hsc] at hx
  rw [h1]
  exact resolveVariable_one.mpr (h2 x w (resolveVariable_one.mp hx))

section Examples
open Sample
example : messages (program ([qubits c!"q" 2] ++ bits c!"q" 3 :: [Sample.gate c!"X" [] [at_ c!"q" 1]])) =
    some [c!"trying to redeclare variable 'q'"] := by decide +kernel
end Examples

/-! ## C13 -/

/-- C13. Declaring the name of a built-in constant is the error `trying to redeclare variable 'pi'` (etc.);
what follows is analysed as without the declaration. -/
theorem C13_cannot_redeclare (fo : FloatOps F) (v : Version) (a : Analyzer F) (ha : Analyzer.default fo v = .ok a)
    (p : ProgramAst F) (pre post : List (Stmt F)) (l : Option Loc) (name : Ident) (typ : TypeAst) (t : Ty) (ht : TypeOk typ t)
    (hs : ShapedProgram (withStatements p (pre ++ .var l [] name typ :: post)))
    (hp : PlainProgram (withStatements p (pre ++ .var l [] name typ :: post)))
    (hpost : ∀ s ∈ post, ¬ IsDecl s) (hn : name.name ∈ [c!"true", c!"false", c!"pi", c!"eu", c!"tau"])
    (a1 : Analyzer F) (r1 : SProgram F) (errs1 : List Err)
    (h1 : analyze fo a (withStatements p (pre ++ post)) = .ok (a1, ⟨some r1, errs1⟩)) :
    ∃ a2 r2 es es' u, analyze fo a (withStatements p (pre ++ .var l [] name typ :: post)) = .ok (a2, ⟨some r2,
        es ++ ⟨c!"trying to redeclare variable '" ++ name.name ++ c!"'", l⟩ :: es'⟩) ∧ errs1 = es ++ es' ∧
      r2 = { r1 with variables := r1.variables ++ [⟨u, name.name, t, [], name.loc⟩] } ∧
      (∀ x, Analyzer.resolveVariable a2.scopes x = Analyzer.resolveVariable a1.scopes x) :=
  redeclare ha ht hs hp hpost (.inl hn) h1

/-- C13. The built-in names denote their constants in a fresh default analyser, and still do after any
number of analysed programs. -/
theorem C13_constants (fo : FloatOps F) (v : Version) (a : Analyzer F) (ha : Analyzer.default fo v = .ok a)
    (a' : Analyzer F) (hist : ∃ ps : List (ProgramAst F), ps.foldl (fun (s : Option (Analyzer F)) p =>
      match s with
      | none => none
      | some x =>
        match analyze fo x p with
        | .ok r => some r.1
        | _ => none) (some a) = some a') :
    Analyzer.resolveVariable a'.scopes c!"true" = .ok ⟨.constBool true, none⟩ ∧
    Analyzer.resolveVariable a'.scopes c!"false" = .ok ⟨.constBool false, none⟩ ∧
    Analyzer.resolveVariable a'.scopes c!"pi" = .ok ⟨.constFloat fo.pi, none⟩ ∧
    Analyzer.resolveVariable a'.scopes c!"eu" = .ok ⟨.constFloat fo.e, none⟩ ∧
    Analyzer.resolveVariable a'.scopes c!"tau" = .ok ⟨.constFloat fo.tau, none⟩ := by
  obtain ⟨ps, hist⟩ := hist
  have hst := default_state ha
  have key : ∀ (ps : List (ProgramAst F)) (x : Analyzer F), (∃ sc, x.scopes = [sc]) →
      ps.foldl (fun (s : Option (Analyzer F)) p =>
        match s with
        | none => none
        | some x =>
          match analyze fo x p with
          | .ok r => some r.1
          | _ => none) (some x) = some a' →
      ∀ n w, Analyzer.resolveVariable x.scopes n = .ok w → Analyzer.resolveVariable a'.scopes n = .ok w := by
    intro ps
    induction ps with
    | nil => intro x _ h n w hw; cases h; exact hw
    | cons p ps ih =>
      intro x ⟨sc, hsc⟩ h n w hw
      rw [List.foldl_cons] at h
      dsimp only at h
      have hnone : ∀ qs : List (ProgramAst F), qs.foldl (fun (s : Option (Analyzer F)) p =>
        match s with
        | none => none
        | some x =>
          match analyze fo x p with
          | .ok r => some r.1
          | _ => none) none = none := by
        intro qs
        induction qs with
        | nil => rfl
        | cons q qs ihq => rw [List.foldl_cons]; exact ihq
      cases hx : analyze fo x p with
      | ok r =>
        rw [hx] at h
        obtain ⟨sc', h1, _⟩ := analyze_find hsc hx
        exact ih r.1 ⟨sc', h1⟩ h n w (C10_first_wins fo x r.1 sc hsc p r.2 hx n w hw)
      | err e => cases e
      | exn => rw [hx, hnone] at h; cases h
      | ub => rw [hx, hnone] at h; cases h
  have hk := key ps a ⟨_, by rw [hst]; rfl⟩ hist
  have res : ∀ n c, builtin fo n = some c → Analyzer.resolveVariable a.scopes n = .ok ⟨c.node, none⟩ := by
    intro n c hc
    rw [hst]
    refine resolveVariable_one.mpr ?_
    show VariableTable.find (([] : List VarLink).map _ ++ defaultVars fo) n = _
    rw [List.map_nil, List.nil_append, find_defaultVars, hc]
    rfl
  exact ⟨hk _ _ (res c!"true" (.bool true) rfl), hk _ _ (res c!"false" (.bool false) rfl),
    hk _ _ (res c!"pi" (.float fo.pi) rfl), hk _ _ (res c!"eu" (.float fo.e) rfl), hk _ _ (res c!"tau" (.float fo.tau) rfl)⟩

section Examples
open Sample
example : messages (program [qubits c!"pi" 2, qubits c!"q" 1, Sample.gate c!"Rx" [name c!"pi"] [name c!"q"]]) =
    some [c!"trying to redeclare variable 'pi'"] := by decide +kernel
end Examples

/-! ## C11, C12 -/

/-- C11. In an accepted program, every variable reference anywhere in an instruction (operands,
parameters, annotations) is to a variable of the program that a statement before the instruction declares. -/
theorem C11_declared_before (fo : FloatOps F) (v : Version) (a : Analyzer F) (ha : Analyzer.default fo v = .ok a)
    (p : ProgramAst F) (hs : ShapedProgram p) (r : SProgram F) (h : Accepts fo a p r)
    (pre post : List (Stmt F)) (s : Stmt F) (hd : ¬ IsDecl s) (hp : p.block.statements = pre ++ s :: post) :
    ∃ t, r.block.statements[instructions pre]? = some t ∧ t.loc = s.loc ∧
      ∀ w x, InInstr w t → RefersTo w x →
        (∃ i y, i < (declarations pre).length ∧ r.variables[i]? = some y ∧ x = ⟨y.uid, y.name, y.typ⟩) ∧
        Declares pre x.name x.typ := by
  have hv := (accepts_valid ha hs h).1.2
  rw [hp] at hv
  obtain ⟨vs1, vs2, ts1, t, h1, h2, _, _, h4, h5⟩ := exec_at declsOk_nil hv hd
  refine ⟨t, h4, (instrOk_loc h5).1, ?_⟩
  intro w x hw hx
  have hr := instrOk_refIn h5 (hs s (by rw [hp]; simp)) w (inInstr_iff.mp hw)
  have hm : x ∈ (vs1.map SVariable.link).reverse ++ [] := by
    cases hx with
    | whole => exact hr.1 _ rfl
    | elements => exact (hr.2 _ _ rfl).1
  rw [List.append_nil, List.mem_reverse, List.mem_map] at hm
  obtain ⟨y, hy, rfl⟩ := hm
  refine ⟨?_, exec_declares h2 y hy⟩
  obtain ⟨i, hi, he⟩ := List.mem_iff_getElem.mp hy
  refine ⟨i, y, ?_, ?_, rfl⟩
  · rw [forall2_length (exec_variables h2).1]; exact hi
  · rw [h1, List.getElem?_append_left hi, List.getElem?_eq_getElem hi, he]

/-- C11. A statement that uses, at any depth, a name which is not built in and not declared by a statement
before it is rejected: one of the errors is reported in it. -/
theorem C11_undeclared (fo : FloatOps F) (v : Version) (a : Analyzer F) (ha : Analyzer.default fo v = .ok a)
    (p : ProgramAst F) (hs : ShapedProgram p) (hpl : PlainProgram p) (pre post : List (Stmt F)) (s : Stmt F)
    (hp : p.block.statements = pre ++ s :: post) (x : Str) (hx : x ∈ namesStmt s)
    (hr : x ∉ [c!"true", c!"false", c!"pi", c!"eu", c!"tau"])
    (hn : ∀ l as n typ, Stmt.var l as n typ ∈ pre → n.name ≠ x)
    (a' : Analyzer F) (r : Result (SProgram F)) (h : analyze fo a p = .ok (a', r)) :
    ∃ e ∈ r.errors, ReportedAt s e := by
  rcases analyze_plain ha hs hpl with ⟨errs, vs, ts, bad, D', u', h1, _, h2, h3, _⟩ | ⟨h1, _⟩
  · rw [h1] at h
    cases h
    rw [hp] at h2
    have := analysis_undeclared hr hx pre hn (D := []) (by simp) h2
    obtain ⟨e, he, h4⟩ := forall2_left h3 s this
    exact ⟨e, by simp [he], h4⟩
  · rw [h1] at h; cases h

/-- C12. The variables of an accepted program are its declarations in source order: same names, the
declared types, numbered from 0; their names are distinct. -/
theorem C12_variables (fo : FloatOps F) (v : Version) (a : Analyzer F) (ha : Analyzer.default fo v = .ok a)
    (p : ProgramAst F) (hs : ShapedProgram p) (r : SProgram F) (h : Accepts fo a p r) :
    Forall2 (fun d x => x.name = d.1.name ∧ x.loc = d.1.loc ∧ TypeOk d.2 x.typ) (declarations p.block.statements) r.variables ∧
    r.variables.map (·.uid) = List.range r.variables.length ∧
    r.variables.Pairwise (fun x y => x.name ≠ y.name) := by
  have hv := (accepts_valid ha hs h).1.2
  obtain ⟨h1, h2, _⟩ := exec_variables hv
  refine ⟨h1, by simpa using h2, ?_⟩
  have h3 := (exec_declsOk hv declsOk_nil).names
  rw [List.append_nil, List.pairwise_reverse, List.pairwise_map] at h3
  exact h3.imp fun hne => Ne.symm hne

/-- C12. An operand that is a name denotes the variable with that name, and an operand that indexes a name
denotes elements of it. (Names of variables are distinct by the previous theorem.) -/
theorem C12_operands (fo : FloatOps F) (v : Version) (a : Analyzer F) (ha : Analyzer.default fo v = .ok a)
    (p : ProgramAst F) (hs : ShapedProgram p) (r : SProgram F) (h : Accepts fo a p r)
    (pre post : List (Stmt F)) (s : Stmt F) (hd : ¬ IsDecl s) (hp : p.block.statements = pre ++ s :: post) :
    ∃ t, r.block.statements[instructions pre]? = some t ∧ (operands t).length = (operandExprs s).length ∧
      (∀ (i : Nat) l x, (operandExprs s)[i]? = some (.ident l x) →
        ∃ y ∈ r.variables, y.name = x ∧ (operands t)[i]? = some ⟨.variableRef ⟨y.uid, y.name, y.typ⟩, l⟩) ∧
      (∀ (i : Nat) l l' x ixs, (operandExprs s)[i]? = some (.index l (.ident l' x) ixs) →
        ∃ y is, y ∈ r.variables ∧ y.name = x ∧ (operands t)[i]? = some ⟨.indexRef ⟨y.uid, y.name, y.typ⟩ is, l⟩) := by
  have hv := (accepts_valid ha hs h).1.2
  rw [hp] at hv
  obtain ⟨vs1, vs2, ts1, t, h1, h2, _, _, h4, h5⟩ := exec_at declsOk_nil hv hd
  have ho := instrOk_operands h5
  have mem : ∀ x ∈ (vs1.map SVariable.link).reverse ++ [], ∃ y ∈ r.variables, x = ⟨y.uid, y.name, y.typ⟩ := by
    intro x hx
    rw [List.append_nil, List.mem_reverse, List.mem_map] at hx
    obtain ⟨y, hy, rfl⟩ := hx
    exact ⟨y, by rw [h1]; simp [hy], rfl⟩
  have kinds : ∀ k ∈ (operands t), ∀ c : Const F, k.node ≠ c.node := by
    intro k hk c hc
    have isq : ∀ {k' : Kind}, kindOf k.node = some k' → k' ∉ [Kind.bool, .int, .float] → False := by
      intro k' g1 g2
      rw [hc] at g1
      cases c <;> cases g1 <;> simp at g2
    cases h5 with
    | gate _ _ _ g4 _ _ =>
      obtain ⟨k', _, g⟩ := forall2_left g4 k hk
      exact isq g.1 (by rcases g.2 with h | h <;> simp [h])
    | measure _ g1 _ g2 _ _ _ =>
      simp only [operands, List.mem_cons, List.not_mem_nil, or_false] at hk
      rcases hk with rfl | rfl
      · exact isq g1.1 (by rcases g1.2 with h | h <;> simp [h])
      · exact isq g2.1 (by rcases g2.2 with h | h <;> simp [h])
    | simple _ _ g _ | wait _ g _ _ =>
      simp only [operands, List.mem_cons, List.not_mem_nil, or_false] at hk
      subst hk
      exact isq g.1 (by rcases g.2 with h | h <;> simp [h])
    | asm => cases hk
  refine ⟨t, h4, (forall2_length ho).symm, ?_, ?_⟩
  · intro i l x hi
    obtain ⟨w, hw, hl, he⟩ := forall2_get ho hi
    cases hden : w.node with
    | variableRef z =>
      rw [hden] at he
      obtain ⟨g2, g3⟩ := denotes_variable (eval_ident he)
      obtain ⟨y, hy, rfl⟩ := mem z g2
      refine ⟨y, hy, g3, ?_⟩
      have hl : w.loc = l := hl
      rw [hw, ← hden, ← hl]
    | indexRef z is =>
      rw [hden] at he
      have hE := eval_ident he
      generalize hn : (ValueNode.indexRef z is : ValueNode F) = n at hE
      cases hE with
      | @const c _ => cases c <;> cases hn
      | var => cases hn
    | constBool b => exact absurd hden (kinds w (List.mem_of_getElem? hw) (.bool b))
    | constInt b => exact absurd hden (kinds w (List.mem_of_getElem? hw) (.int b))
    | constFloat b => exact absurd hden (kinds w (List.mem_of_getElem? hw) (.float b))
  · intro i l l' x ixs hi
    obtain ⟨w, hw, hl, he⟩ := forall2_get ho hi
    generalize hE : (Expr.index l (.ident l' x) ixs : Expr F) = e at he
    generalize hn : w.node = n at he
    cases he with
    | @index _ _ _ _ is g1 _ _ _ =>
      cases hE
      obtain ⟨g2, g3⟩ := denotes_variable (eval_ident g1)
      obtain ⟨y, hy, rfl⟩ := mem _ g2
      refine ⟨y, is, hy, g3, ?_⟩
      have hl : w.loc = l := hl
      rw [hw, ← hn, ← hl]
    | _ => cases hE

section Examples
open Sample
/-- An undeclared name inside an index inside an operand. -/
example : messages (program [qubits c!"q" 2, Sample.gate c!"X" [] [.index none (name c!"q") [.item none (.bin none .add (int 1) (name c!"n"))]]]) =
    some [c!"failed to resolve variable 'n'"] := by decide +kernel
end Examples

/-! ## C58 -/

/-- C58. After an accepted program, a declaration is accepted exactly if the type is `qubit` or `bit`, the
size is missing or positive, and the name is new and not built in. Then the variable has exactly that type. -/
theorem C58_declaration_iff (fo : FloatOps F) (v : Version) (a : Analyzer F) (ha : Analyzer.default fo v = .ok a)
    (p : ProgramAst F) (hs : ShapedProgram p) (r : SProgram F) (h : Accepts fo a p r)
    (l : Option Loc) (name : Ident) (typ : TypeAst) :
    ((∃ r', Accepts fo a (andThen p (.var l [] name typ)) r') ↔
      (typ.name = c!"qubit" ∨ typ.name = c!"bit") ∧ (∀ n, typ.size = some n → 0 < n.toInt) ∧
      name.name ∉ [c!"true", c!"false", c!"pi", c!"eu", c!"tau"] ∧ ∀ x ∈ r.variables, x.name ≠ name.name) ∧
    ∀ r', Accepts fo a (andThen p (.var l [] name typ)) r' →
      r'.variables = r.variables ++ [⟨r.variables.length, name.name,
        match typ.size with
        | none => ⟨if typ.name = c!"qubit" then .qubit else .bit, 1⟩
        | some n => ⟨if typ.name = c!"qubit" then .qubitArray else .bitArray, n⟩, [], name.loc⟩] ∧
      r'.block = r.block := by
  have hs' : ShapedProgram (andThen p (.var l [] name typ)) := by
    intro s hm
    rcases List.mem_append.mp hm with hm | hm
    · exact hs s hm
    · rw [List.mem_singleton.mp hm]
      simp [ShapedStmt, ShapedAnnotations]
  obtain ⟨hv, hv2, hv3, hb⟩ := accepts_valid ha hs h
  have key : ∀ vs ts, Exec fo [] (p.block.statements ++ [.var l [] name typ]) vs ts ↔
      ∃ t, TypeOk typ t ∧ Fresh (r.variables.map SVariable.link).reverse name.name ∧
        vs = r.variables ++ [⟨r.variables.length, name.name, t, [], name.loc⟩] ∧ ts = r.block.statements := by
    intro vs ts
    rw [exec_append]
    constructor
    · rintro ⟨vs1, vs2, ts1, ts2, rfl, rfl, h1, h2⟩
      obtain ⟨rfl, rfl⟩ := exec_det declsOk_nil hv.2 h1
      rw [List.append_nil] at h2
      cases h2 with
      | decl g1 g2 g3 g4 =>
        cases g4
        have := evalAnnotations_nil g3
        subst this
        exact ⟨_, g1, g2, by simp, by simp⟩
      | instr g1 => exact absurd trivial (instrOk_loc g1).2
    · rintro ⟨t, g1, g2, rfl, rfl⟩
      refine ⟨r.variables, _, r.block.statements, [], rfl, by simp, hv.2, ?_⟩
      have := Exec.decl (fo := fo) (l := l) (as := []) (sas := []) g1 g2 .nil .nil
      simpa using this
  have hfresh : Fresh (r.variables.map SVariable.link).reverse name.name ↔
      name.name ∉ [c!"true", c!"false", c!"pi", c!"eu", c!"tau"] ∧ ∀ x ∈ r.variables, x.name ≠ name.name := by
    unfold Fresh reserved
    refine and_congr Iff.rfl ?_
    simp [SVariable.link]
  have htype : ∀ t, TypeOk typ t ↔ ((typ.name = c!"qubit" ∨ typ.name = c!"bit") ∧ (∀ n, typ.size = some n → 0 < n.toInt)) ∧
      t = match typ.size with
        | none => ⟨if typ.name = c!"qubit" then .qubit else .bit, 1⟩
        | some n => ⟨if typ.name = c!"qubit" then .qubitArray else .bitArray, n⟩ := by
    intro t
    constructor
    · intro ht
      cases ht with
      | qubit => exact ⟨⟨.inl rfl, by simp⟩, rfl⟩
      | bit => exact ⟨⟨.inr rfl, by simp⟩, rfl⟩
      | qubits hn => exact ⟨⟨.inl rfl, by simpa using hn⟩, rfl⟩
      | bits hn => exact ⟨⟨.inr rfl, by simpa using hn⟩, rfl⟩
    · obtain ⟨n, sz⟩ := typ
      rintro ⟨⟨hn, hz⟩, rfl⟩
      dsimp only at hn hz ⊢
      rcases hn with rfl | rfl <;> cases sz with
      | none => first | exact .qubit | exact .bit
      | some z => first | exact .qubits (hz z rfl) | exact .bits (hz z rfl)
  refine ⟨?_, ?_⟩
  · rw [accepts_iff ha hs']
    constructor
    · rintro ⟨vs, ts, g1, g2⟩
      obtain ⟨t, k1, k2, _⟩ := (key vs ts).mp g2
      exact ⟨((htype t).mp k1).1.1, ((htype t).mp k1).1.2, hfresh.mp k2⟩
    · rintro ⟨k1, k2, k3⟩
      exact ⟨_, _, hv.1, (key _ _).mpr ⟨_, (htype _).mpr ⟨⟨k1, k2⟩, rfl⟩, hfresh.mpr k3, rfl, rfl⟩⟩
  · intro r' h'
    obtain ⟨hv', _, _, hb'⟩ := accepts_valid ha hs' h'
    obtain ⟨t, k1, k2, k3, k4⟩ := (key _ _).mp hv'.2
    refine ⟨by rw [k3, ((htype t).mp k1).2], ?_⟩
    rw [hb', k4, ← hb]

/-- C58. In every result, with or without errors, each variable is a single qubit or bit (size 1) or an array
with a positive size, as declared by a statement of the program. -/
theorem C58_sizes (fo : FloatOps F) (v : Version) (a : Analyzer F) (ha : Analyzer.default fo v = .ok a)
    (p : ProgramAst F) (hs : ShapedProgram p) (hp : PlainProgram p) (a' : Analyzer F) (root : SProgram F) (errs : List Err)
    (h : analyze fo a p = .ok (a', ⟨some root, errs⟩)) (x : SVariable F) (hx : x ∈ root.variables) :
    ((x.typ.kind = .qubit ∨ x.typ.kind = .bit) ∧ x.typ.size.toInt = 1 ∨
      (x.typ.kind = .qubitArray ∨ x.typ.kind = .bitArray) ∧ 0 < x.typ.size.toInt) ∧
    Declares p.block.statements x.name x.typ := by
  rcases analyze_plain ha hs hp with ⟨errs, vs, ts, bad, D', u', h1, _, h2, h3, _⟩ | ⟨h1, _⟩
  · rw [h1] at h
    cases h
    have := analysis_types h2 x hx
    refine ⟨?_, this⟩
    obtain ⟨_, _, _, _, _, _, ht⟩ := this
    generalize x.typ = t at ht
    cases ht with
    | qubit => exact .inl ⟨.inl rfl, by decide⟩
    | bit => exact .inl ⟨.inr rfl, by decide⟩
    | qubits h => exact .inr ⟨.inl rfl, h⟩
    | bits h => exact .inr ⟨.inr rfl, h⟩
  · rw [h1] at h; cases h

section Examples
open Sample
example : messages (program [qubits c!"q" 2]) = some [] ∧
    messages (program [qubits c!"q" 0]) = some [c!"found qubit array of size <= 0"] := by decide +kernel
end Examples

/-! ## C59 -/

/-- C59. An analyser can be made exactly for the API versions equal to 3.0 up to trailing zeros. It starts with
one scope in which no name, function or instruction is known and no statement or variable recorded. -/
theorem C59_new (v : Version) :
    (VersionSame v [3, 0] ∧ ∃ a : Analyzer F, Analyzer.new v = some a ∧ a.apiVersion = v ∧
      ∃ sc, a.scopes = [sc] ∧ sc.block = ⟨[], none⟩ ∧ sc.variables = [] ∧
        (∀ x w, Analyzer.resolveVariable a.scopes x ≠ .ok w) ∧
        (∀ (fo : FloatOps F) x args w, Analyzer.resolveFunction fo a.scopes x args ≠ .ok w) ∧
        (∀ (fo : FloatOps F) x args w, Analyzer.resolveInstruction fo a.scopes x args ≠ .ok w)) ∨
    (¬ VersionSame v [3, 0] ∧ (Analyzer.new v : Option (Analyzer F)) = none) := by
  unfold Analyzer.new
  by_cases h : Version.eq v [3, 0] = true
  · left
    rw [if_pos h]
    refine ⟨(C08_eq _ _).mp h, _, rfl, rfl, _, rfl, rfl, rfl, ?_, ?_, ?_⟩
    · intro x w hw
      have := resolveVariable_one.mp hw
      cases this
    · intro fo x args w hw
      simp only [Analyzer.resolveFunction, List.getLast?_singleton, Scope.empty] at hw
      simp [FnTable.resolve, OverloadTable.resolve, OverloadTable.find] at hw
    · intro fo x args w hw
      simp only [Analyzer.resolveInstruction, Scope.empty] at hw
      simp only [OverloadTable.resolve, OverloadTable.find] at hw
      cases ht : Values.typesOf args with
      | ok _ => rw [ht] at hw; cases hw
      | err _ => rw [ht] at hw; cases hw
      | exn _ => rw [ht] at hw; cases hw
      | ub => rw [ht] at hw; cases hw
  · right
    rw [if_neg h]
    exact ⟨fun h' => h ((C08_eq _ _).mpr h'), rfl⟩

/-- C59. The same for the default analyser. -/
theorem C59_default (fo : FloatOps F) (v : Version) :
    ((∃ a, Analyzer.default fo v = .ok a) ↔ VersionSame v [3, 0]) ∧
    (¬ VersionSame v [3, 0] → Analyzer.default fo v = .exn c!"std::invalid_argument") := by
  rcases default_cases fo v with ⟨h1, h2⟩ | ⟨h1, h2⟩
  · exact ⟨⟨fun _ => h2, fun _ => ⟨_, h1⟩⟩, fun h => absurd h2 h⟩
  · refine ⟨⟨fun ⟨a, ha⟩ => ?_, fun h => absurd h h2⟩, fun _ => h1⟩
    rw [h1] at ha; cases ha

example : VersionSame [3, 0, 0] [3, 0] ∧ ¬ VersionSame [3, 1] [3, 0] := by
  rw [← C08_eq, ← C08_eq]; decide

end Qasm
