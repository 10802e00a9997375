import Verif.Spec.Api
import Verif.Lemmas.Exec
import Verif.Lemmas.Independent
import Verif.Spec.Sample
import Verif.Spec.Witness
/-!
# What follows does not change what precedes (C83), instructions do not influence one another (C84)

The theorems hold for every analyser that has a scope, whatever was registered with it and whatever it has
analysed before.
-/

namespace Qasm

open Spec Sem

variable {F : Type} {fo : FloatOps F}

/-- A call of `analyze` that returns, in terms of the statements. -/
theorem analyze_ran {a a' : Analyzer F} {p : ProgramAst F} {ss : List (Stmt F)} {r : Result (SProgram F)}
    (h : analyze fo a (withStatements p ss) = .ok (a', r)) : ∃ es sc rest, visitBlock fo a ss = .ok (es, a') ∧
      a'.scopes = sc :: rest ∧ r.errors = (visitVersion a.apiVersion p.version).1 ++ es ∧
      r.root = some ⟨a.apiVersion, (visitVersion a.apiVersion p.version).2, sc.block, sc.variables⟩ := by
  obtain ⟨x, h1, h2⟩ := bind_ok_iff.1 h
  split at h2
  · cases h2
  · cases h2
    obtain ⟨y, h3, h4⟩ := bind_ok_iff.1 h1
    split at h4
    · cases h4
    · rename_i s rest hs
      cases h4
      exact ⟨y.1, s, rest, h3, hs, rfl, rfl⟩

theorem analyze_ub {a : Analyzer F} {p : ProgramAst F} {ss : List (Stmt F)} {v : Version} {sc : Scope F} {rest : List (Scope F)} {u : Nat}
    (ha : a = ⟨v, sc :: rest, u⟩) : analyze fo a (withStatements p ss) = .ub ↔ visitBlock fo a ss = .ub := by
  subst ha
  obtain ⟨r, -, h⟩ := visitBlock_effect fo ss ((sc :: rest).map bare) u
  have h := h v sc rest rfl
  simp only [analyze, visitProgram, withStatements, h]
  cases r with
  | ok x =>
    simp only [Res.bind_ok, reduceCtorEq, iff_false]
    split <;> simp
  | _ => simp [Res.bind]

/-- **C83.** Appending statements to a program appends to the errors, the variables and the statements of its
result, and changes nothing else. -/
theorem C83_prefix {a a1 a2 : Analyzer F} {p : ProgramAst F} {pre post : List (Stmt F)} {r1 r2 : Result (SProgram F)}
    (h1 : analyze fo a (withStatements p pre) = .ok (a1, r1)) (h2 : analyze fo a (withStatements p (pre ++ post)) = .ok (a2, r2)) :
    ∃ s1 s2 es vs ts, r1.root = some s1 ∧ r2.root = some s2 ∧ r2.errors = r1.errors ++ es ∧
      s2.variables = s1.variables ++ vs ∧ s2.block.statements = s1.block.statements ++ ts ∧
      s2.apiVersion = s1.apiVersion ∧ s2.version = s1.version := by
  obtain ⟨e1, sc1, rest1, g1, k1, l1, m1⟩ := analyze_ran h1
  obtain ⟨e2, sc2, rest2, g2, k2, l2, m2⟩ := analyze_ran h2
  rw [visitBlock_append, g1, Res.bind_ok] at g2
  obtain ⟨v1, scs1, u1⟩ := a1
  simp only at k1
  subst k1
  obtain ⟨r, -, h⟩ := visitBlock_effect fo post ((sc1 :: rest1).map bare) u1
  rw [h v1 sc1 rest1 rfl] at g2
  cases r with
  | ok x =>
    simp only [Res.bind_ok, Log.after] at g2
    cases g2
    cases k2
    exact ⟨_, _, x.1, x.2.variables, x.2.statements, m1, m2, by rw [l1, l2, List.append_assoc], rfl, apply_statements _ _, rfl, rfl⟩
  | _ => cases g2

open Sample in
example := (C83_prefix (fo := Sample.fo) (a := analyzer) (p := program []) (pre := [qubits c!"q" 2, gate c!"X" [] [at_ c!"q" 7]])
  (post := [bits c!"b" 1, gate c!"H" [] [name c!"x"], gate c!"H" [] [name c!"q"]])
  (ran₂ (by decide +kernel)) (ran₂ (by decide +kernel)) : _)

/-- **C83.** If the analysis of a program is undefined, no statements appended to it make it defined. -/
theorem C83_undefined {a : Analyzer F} (ha : a.scopes ≠ []) {p : ProgramAst F} {pre : List (Stmt F)} (post : List (Stmt F))
    (h : analyze fo a (withStatements p pre) = .ub) : analyze fo a (withStatements p (pre ++ post)) = .ub := by
  obtain ⟨v, _ | ⟨sc, rest⟩, u⟩ := a
  · exact absurd rfl ha
  · rw [analyze_ub rfl] at h ⊢
    rw [visitBlock_append, h]
    rfl

open Sample in
example := (C83_undefined (fo := Sample.fo) (a := analyzer) (by decide +kernel) (p := program []) [gate c!"H" [] [name c!"q"]]
  (pre := [qubits c!"q" 2, gate c!"Rx" [.bin none .div (int 1) (int 0)] [name c!"q"]]) (isUndefined (by decide +kernel)) : _)

/-- The analysis of `pre`, then the instruction `i`, then `post`, in terms of what each contributes. -/
theorem instr_between {v : Version} {sc : Scope F} {rest : List (Scope F)} {u : Nat} (i : Stmt F) (hi : ¬ IsDecl i) (post : List (Stmt F)) :
    ∃ (r : Res Empty (List Err × Option (SStatement F))) (q : Res Empty (List Err × Effect F)),
      (∀ sc', bare sc' = bare sc → ∃ f : Option (SStatement F) → Scope F,
        visitStatement fo ⟨v, sc' :: rest, u⟩ i = (r.bind fun x => .ok (x.1, ⟨v, f x.2 :: rest, u⟩)) ∧
        (∀ o, bare (f o) = bare sc) ∧ (∀ o, (f o).block.statements = sc'.block.statements ++ o.toList) ∧
        ∀ o, (f o).variables = sc'.variables) ∧
      ∀ sc', bare sc' = bare sc → visitBlock fo ⟨v, sc' :: rest, u⟩ post =
        q.bind fun x => .ok (x.1, ⟨v, x.2.apply sc' :: rest, x.2.nextUid⟩) := by
  obtain ⟨r, h⟩ := instr_effect (fo := fo) i hi ((sc :: rest).map bare) u
  obtain ⟨q, -, g⟩ := visitBlock_effect fo post ((sc :: rest).map bare) u
  refine ⟨r, q, fun sc' e => ?_, fun sc' e => g v sc' rest (by simp [e])⟩
  obtain ⟨f, f1, f2, f3, f4⟩ := h v sc' rest (by simp [e])
  exact ⟨f, f1, fun o => (f2 o).trans e, f3, f4⟩

/-- **C84.** Inserting an instruction into a program inserts its errors and at most one statement, in its place,
and changes nothing else. What precedes is what the analysis of the preceding statements alone yields. -/
theorem C84_remove {a a0 a1 a2 : Analyzer F} {p : ProgramAst F} {pre post : List (Stmt F)} {i : Stmt F} (hi : ¬ IsDecl i)
    {r0 r1 r2 : Result (SProgram F)} (h0 : analyze fo a (withStatements p pre) = .ok (a0, r0))
    (h1 : analyze fo a (withStatements p (pre ++ post)) = .ok (a1, r1))
    (h2 : analyze fo a (withStatements p (pre ++ i :: post)) = .ok (a2, r2)) :
    ∃ s0 s1 s2 es B T, ∃ o : Option (SStatement F), r0.root = some s0 ∧ r1.root = some s1 ∧ r2.root = some s2 ∧
      r1.errors = r0.errors ++ B ∧ r2.errors = r0.errors ++ es ++ B ∧
      s1.block.statements = s0.block.statements ++ T ∧ s2.block.statements = s0.block.statements ++ o.toList ++ T ∧
      s2.variables = s1.variables ∧ s2.apiVersion = s1.apiVersion ∧ s2.version = s1.version := by
  obtain ⟨e0, sc0, rest0, g0, k0, l0, m0⟩ := analyze_ran h0
  obtain ⟨e1, sc1, rest1, g1, k1, l1, m1⟩ := analyze_ran h1
  obtain ⟨e2, sc2, rest2, g2, k2, l2, m2⟩ := analyze_ran h2
  rw [visitBlock_append, g0, Res.bind_ok] at g1 g2
  obtain ⟨v0, scs0, u0⟩ := a0
  simp only at k0
  subst k0
  obtain ⟨r, q, hr, hq⟩ := instr_between (fo := fo) (v := v0) (sc := sc0) (rest := rest0) (u := u0) i hi post
  obtain ⟨f, f1, f2, f3, f4⟩ := hr sc0 rfl
  simp only [visitBlock, f1] at g2
  rw [hq sc0 rfl] at g1
  cases r with
  | ok x =>
    simp only [Res.bind_ok] at g2
    rw [hq _ (f2 x.2)] at g2
    cases q with
    | ok y =>
      simp only [Res.bind_ok, Log.after] at g1 g2
      cases g1
      cases g2
      cases k1
      cases k2
      refine ⟨_, _, _, x.1, y.1, y.2.statements, x.2, m0, m1, m2, ?_, ?_, apply_statements _ _, ?_, ?_, rfl, rfl⟩
      · rw [l0, l1, List.append_assoc]
      · rw [l0, l2]; simp only [List.append_assoc]
      · simp only [apply_statements, f3]
      · simp only [apply_variables, f4]
    | _ => cases g1
  | _ => cases g2

open Sample in
example := (C84_remove (fo := Sample.fo) (a := analyzer) (p := program []) (pre := [qubits c!"q" 2]) (i := gate c!"X" [] [at_ c!"q" 1]) id
  (post := [gate c!"H" [] [name c!"x"], gate c!"H" [] [name c!"q"]])
  (ran₂ (by decide +kernel)) (ran₂ (by decide +kernel)) (ran₂ (by decide +kernel)) : _)

/-- **C84.** Exchanging two neighbouring instructions exchanges their errors and their statements, and changes
nothing else. -/
theorem C84_swap {a a0 a1 a2 : Analyzer F} {p : ProgramAst F} {pre post : List (Stmt F)} {i j : Stmt F} (hi : ¬ IsDecl i) (hj : ¬ IsDecl j)
    {r0 r1 r2 : Result (SProgram F)} (h0 : analyze fo a (withStatements p pre) = .ok (a0, r0))
    (h1 : analyze fo a (withStatements p (pre ++ i :: j :: post)) = .ok (a1, r1))
    (h2 : analyze fo a (withStatements p (pre ++ j :: i :: post)) = .ok (a2, r2)) :
    ∃ s0 s1 s2 ei ej B T, ∃ oi oj : Option (SStatement F), r0.root = some s0 ∧ r1.root = some s1 ∧ r2.root = some s2 ∧
      r1.errors = r0.errors ++ ei ++ ej ++ B ∧ r2.errors = r0.errors ++ ej ++ ei ++ B ∧
      s1.block.statements = s0.block.statements ++ oi.toList ++ oj.toList ++ T ∧
      s2.block.statements = s0.block.statements ++ oj.toList ++ oi.toList ++ T ∧
      s2.variables = s1.variables ∧ s2.apiVersion = s1.apiVersion ∧ s2.version = s1.version := by
  obtain ⟨e0, sc0, rest0, g0, k0, l0, m0⟩ := analyze_ran h0
  obtain ⟨e1, sc1, rest1, g1, k1, l1, m1⟩ := analyze_ran h1
  obtain ⟨e2, sc2, rest2, g2, k2, l2, m2⟩ := analyze_ran h2
  rw [visitBlock_append, g0, Res.bind_ok] at g1 g2
  obtain ⟨v0, scs0, u0⟩ := a0
  simp only at k0
  subst k0
  obtain ⟨r, q, hr, hq⟩ := instr_between (fo := fo) (v := v0) (sc := sc0) (rest := rest0) (u := u0) i hi post
  obtain ⟨r', -, hr', -⟩ := instr_between (fo := fo) (v := v0) (sc := sc0) (rest := rest0) (u := u0) j hj post
  obtain ⟨f, f1, f2, f3, f4⟩ := hr sc0 rfl
  obtain ⟨g, f1', f2', f3', f4'⟩ := hr' sc0 rfl
  simp only [visitBlock, f1] at g1
  simp only [visitBlock, f1'] at g2
  cases r with
  | ok x =>
    cases r' with
    | ok x' =>
      obtain ⟨F1, t1, t2, t3, t4⟩ := hr' _ (f2 x.2)
      obtain ⟨F2, w1, w2, w3, w4⟩ := hr _ (f2' x'.2)
      simp only [Res.bind_ok] at g1 g2 t1 w1
      simp only [t1, Res.bind_ok] at g1
      simp only [w1, Res.bind_ok] at g2
      rw [hq _ (t2 _)] at g1
      rw [hq _ (w2 _)] at g2
      cases q with
      | ok y =>
        simp only [Res.bind_ok, Log.after] at g1 g2
        cases g1
        cases g2
        cases k1
        cases k2
        refine ⟨_, _, _, x.1, x'.1, y.1, y.2.statements, x.2, x'.2, m0, m1, m2, ?_, ?_, ?_, ?_, ?_, rfl, rfl⟩
        · rw [l0, l1]; simp only [List.append_assoc]
        · rw [l0, l2]; simp only [List.append_assoc]
        · simp only [apply_statements, t3, f3]
        · simp only [apply_statements, w3, f3']
        · simp only [apply_variables, t4, f4, w4, f4']
      | _ => cases g1
    | _ => cases g2
  | _ => cases g1

open Sample in
example := (C84_swap (fo := Sample.fo) (a := analyzer) (p := program []) (pre := [qubits c!"q" 2]) (i := gate c!"X" [] [at_ c!"q" 1]) id
  (j := gate c!"H" [] [name c!"x"]) id (post := [gate c!"H" [] [name c!"q"]])
  (ran₂ (by decide +kernel)) (ran₂ (by decide +kernel)) (ran₂ (by decide +kernel)) : _)

/-- A call of `analyze` in terms of the statements. -/
theorem analyze_block_eq {a a' : Analyzer F} {p : ProgramAst F} {ss : List (Stmt F)} {es : List Err} {sc : Scope F} {rest : List (Scope F)}
    (h : visitBlock fo a ss = .ok (es, a')) (hs : a'.scopes = sc :: rest) : analyze fo a (withStatements p ss) =
      if ((visitVersion a.apiVersion p.version).1 ++ es).isEmpty &&
        !SProgram.wellFormed ⟨a.apiVersion, (visitVersion a.apiVersion p.version).2, sc.block, sc.variables⟩ then
        .exn c!"std::runtime_error"
      else .ok (a', ⟨some ⟨a.apiVersion, (visitVersion a.apiVersion p.version).2, sc.block, sc.variables⟩,
        (visitVersion a.apiVersion p.version).1 ++ es⟩) := by
  simp only [analyze, visitProgram, withStatements, h, Res.bind_ok, hs]
  rfl

/-- **C84.** The order of two neighbouring instructions does not decide whether the analysis returns. -/
theorem C84_returns {a a1 : Analyzer F} (ha : a.scopes ≠ []) {p : ProgramAst F} {pre post : List (Stmt F)} {i j : Stmt F}
    (hi : ¬ IsDecl i) (hj : ¬ IsDecl j) {r1 : Result (SProgram F)}
    (h1 : analyze fo a (withStatements p (pre ++ i :: j :: post)) = .ok (a1, r1)) :
    ∃ a2 r2, analyze fo a (withStatements p (pre ++ j :: i :: post)) = .ok (a2, r2) := by
  obtain ⟨v, _ | ⟨sc, rest⟩, u⟩ := a
  · exact absurd rfl ha
  obtain ⟨e1, sc1, rest1, g1, k1, -, -⟩ := analyze_ran h1
  rw [analyze_block_eq g1 k1] at h1
  obtain ⟨r, -, hpre⟩ := visitBlock_effect fo pre ((sc :: rest).map bare) u
  have hpre := hpre v sc rest rfl
  rw [visitBlock_append, hpre] at g1
  cases r with
  | ok x0 =>
    simp only [Res.bind_ok] at g1 hpre
    obtain ⟨r, q, hr, hq⟩ := instr_between (fo := fo) (v := v) (sc := x0.2.apply sc) (rest := rest) (u := x0.2.nextUid) i hi post
    obtain ⟨r', -, hr', -⟩ := instr_between (fo := fo) (v := v) (sc := x0.2.apply sc) (rest := rest) (u := x0.2.nextUid) j hj post
    obtain ⟨f, f1, f2, f3, f4⟩ := hr _ rfl
    obtain ⟨g, f1', f2', f3', f4'⟩ := hr' _ rfl
    simp only [visitBlock, f1] at g1
    cases r with
    | ok x =>
      obtain ⟨F1, t1, t2, t3, t4⟩ := hr' _ (f2 x.2)
      simp only [Res.bind_ok, t1] at g1
      cases r' with
      | ok x' =>
        obtain ⟨F2, w1, w2, w3, w4⟩ := hr _ (f2' x'.2)
        simp only [Res.bind_ok, hq _ (t2 _)] at g1
        cases q with
        | ok y =>
          have g2 : visitBlock fo ⟨v, sc :: rest, u⟩ (pre ++ j :: i :: post) = .ok (x0.1 ++ (x'.1 ++ (x.1 ++ y.1)),
              ⟨v, y.2.apply (F2 x.2) :: rest, y.2.nextUid⟩) := by
            rw [visitBlock_append, hpre]
            simp only [Res.bind_ok, visitBlock, f1', w1, hq _ (w2 _), Log.after]
          simp only [Res.bind_ok, Log.after] at g1
          cases g1
          cases k1
          rw [analyze_block_eq g2 rfl]
          have hv : (y.2.apply (F2 x.2)).variables = (y.2.apply (F1 x'.2)).variables := by
            simp only [apply_variables, w4, f4', t4, f4]
          have hw : SProgram.wellFormed (⟨v, (visitVersion v p.version).2, (y.2.apply (F2 x.2)).block, (y.2.apply (F2 x.2)).variables⟩ : SProgram F) =
              SProgram.wellFormed ⟨v, (visitVersion v p.version).2, (y.2.apply (F1 x'.2)).block, (y.2.apply (F1 x'.2)).variables⟩ := by
            simp only [SProgram.wellFormed, SProgram.values, hv, apply_statements, w3, f3', t3, f3, List.flatMap_append, List.all_append,
              Bool.and_assoc, Bool.and_left_comm]
          have he : ((visitVersion v p.version).1 ++ (x0.1 ++ (x'.1 ++ (x.1 ++ y.1)))).isEmpty =
              ((visitVersion v p.version).1 ++ (x0.1 ++ (x.1 ++ (x'.1 ++ y.1)))).isEmpty := by
            rw [Bool.eq_iff_iff]
            simp only [List.isEmpty_iff, List.append_eq_nil_iff, and_left_comm]
          dsimp only at h1 ⊢
          rw [hw, he]
          split
          · rename_i hc
            rw [if_pos hc] at h1
            cases h1
          · exact ⟨_, _, rfl⟩
        | _ => cases g1
      | _ => cases g1
    | _ => cases g1
  | _ => cases g1

open Sample in
example := (C84_returns (fo := Sample.fo) (a := analyzer) (by decide +kernel) (p := program []) (pre := [qubits c!"q" 2])
  (i := gate c!"X" [] [at_ c!"q" 1]) id (j := gate c!"H" [] [name c!"x"]) id (post := [gate c!"H" [] [name c!"q"]])
  (ran₂ (by decide +kernel)) : _)

theorem onlyDeclarations_instr {s : Stmt F} (h : ¬ IsDecl s) (ss : List (Stmt F)) : onlyDeclarations (s :: ss) = onlyDeclarations ss := by
  cases s with
  | var => exact absurd trivial h
  | _ => rfl

theorem onlyDeclarations_decl {s : Stmt F} (h : IsDecl s) (ss : List (Stmt F)) : onlyDeclarations (s :: ss) = s :: onlyDeclarations ss := by
  cases s with
  | var => rfl
  | _ => exact h.elim

/-- Statements leave the tables, the variables and the identities their declarations alone would leave. -/
theorem visitBlock_declarations (ss : List (Stmt F)) : ∀ {v : Version} {sc sc' : Scope F} {rest : List (Scope F)} {u : Nat} {es : List Err}
    {a1 : Analyzer F}, bare sc = bare sc' → sc.variables = sc'.variables → visitBlock fo ⟨v, sc :: rest, u⟩ ss = .ok (es, a1) →
    ∃ es' sc1 sc1' u1, a1 = ⟨v, sc1 :: rest, u1⟩ ∧ visitBlock fo ⟨v, sc' :: rest, u⟩ (onlyDeclarations ss) = .ok (es', ⟨v, sc1' :: rest, u1⟩) ∧
      bare sc1 = bare sc1' ∧ sc1.variables = sc1'.variables := by
  induction ss with
  | nil => intro v sc sc' rest u es a1 hb hv h; cases h; exact ⟨_, _, _, _, rfl, rfl, hb, hv⟩
  | cons s ss ih =>
    intro v sc sc' rest u es a1 hb hv h
    rw [visitBlock] at h
    obtain ⟨⟨e0, a0⟩, h1, h⟩ := bind_ok_iff.1 h
    obtain ⟨e2, h⟩ := after_eq_ok h
    by_cases hd : IsDecl s
    · obtain ⟨r, -, hr⟩ := visitStatement_effect fo ((sc :: rest).map bare) u s
      rw [hr v sc rest rfl] at h1
      have hr' := hr v sc' rest (by simp [hb])
      cases r with
      | ok x =>
        rw [Res.bind_ok] at h1 hr'
        cases h1
        obtain ⟨es', sc1, sc1', u1, k1, k2, k3, k4⟩ := ih (sc' := x.2.apply sc') (bare_apply hb) (by simp only [apply_variables, hv]) h
        refine ⟨x.1 ++ es', sc1, sc1', u1, k1, ?_, k3, k4⟩
        rw [onlyDeclarations_decl hd, visitBlock, hr', Res.bind_ok, k2]
        rfl
      | _ => cases h1
    · obtain ⟨o, rfl⟩ := instr_adds hd h1
      rw [onlyDeclarations_instr hd]
      exact ih (by rw [bare_addOpt, hb]) (by rw [addOpt_variables, hv]) h

/-- **C84.** What statements contribute to a result depends, of the statements before them, on the declarations only. -/
theorem C84_context {a a1 a2 b1 b2 : Analyzer F} (ha : a.scopes ≠ []) {p : ProgramAst F} {pre post : List (Stmt F)} {r1 r2 q1 q2 : Result (SProgram F)}
    (h1 : analyze fo a (withStatements p pre) = .ok (a1, r1)) (h2 : analyze fo a (withStatements p (pre ++ post)) = .ok (a2, r2))
    (g1 : analyze fo a (withStatements p (onlyDeclarations pre)) = .ok (b1, q1))
    (g2 : analyze fo a (withStatements p (onlyDeclarations pre ++ post)) = .ok (b2, q2)) :
    ∃ s1 s2 t1 t2 B V T, r1.root = some s1 ∧ r2.root = some s2 ∧ q1.root = some t1 ∧ q2.root = some t2 ∧
      r2.errors = r1.errors ++ B ∧ q2.errors = q1.errors ++ B ∧
      s2.block.statements = s1.block.statements ++ T ∧ t2.block.statements = t1.block.statements ++ T ∧
      s1.variables = t1.variables ∧ s2.variables = s1.variables ++ V ∧ t2.variables = t1.variables ++ V := by
  obtain ⟨v, _ | ⟨sc, rest⟩, u⟩ := a
  · exact absurd rfl ha
  obtain ⟨e1, c1, w1, j1, k1, l1, m1⟩ := analyze_ran h1
  obtain ⟨e2, c2, w2, j2, k2, l2, m2⟩ := analyze_ran h2
  obtain ⟨f1, d1, x1, n1, o1, p1, z1⟩ := analyze_ran g1
  obtain ⟨f2, d2, x2, n2, o2, p2, z2⟩ := analyze_ran g2
  obtain ⟨es', sc1, sc1', u1, rfl, hdecl, hb, hv⟩ := visitBlock_declarations pre (sc' := sc) rfl rfl j1
  rw [hdecl] at n1
  cases n1
  cases k1
  cases o1
  rw [visitBlock_append, j1, Res.bind_ok] at j2
  rw [visitBlock_append, hdecl, Res.bind_ok] at n2
  obtain ⟨r, -, hr⟩ := visitBlock_effect fo post ((c1 :: rest).map bare) u1
  rw [hr v c1 rest rfl] at j2
  rw [hr v d1 rest (by simp [hb])] at n2
  cases r with
  | ok x =>
    simp only [Res.bind_ok, Log.after] at j2 n2
    cases j2
    cases n2
    cases k2
    cases o2
    refine ⟨_, _, _, _, x.1, x.2.variables, x.2.statements, m1, m2, z1, z2, ?_, ?_, apply_statements _ _, apply_statements _ _, hv, rfl, rfl⟩
    · rw [l1, l2, List.append_assoc]
    · rw [p1, p2, List.append_assoc]
  | _ => cases j2

open Sample in
example := (C84_context (fo := Sample.fo) (a := analyzer) (by decide +kernel) (p := program []) (post := [gate c!"H" [] [name c!"q"]])
  (pre := [qubits c!"q" 2, gate c!"X" [] [at_ c!"q" 1], gate c!"H" [] [name c!"x"]])
  (ran₂ (by decide +kernel)) (ran₂ (by decide +kernel)) (ran₂ (by decide +kernel)) (ran₂ (by decide +kernel)) : _)

/-! ## Examples -/

open Sample in
/-- Two instructions with errors between a declaration and a good instruction, in both orders and without the first. -/
example : messages (program [qubits c!"q" 2, gate c!"H" [] [name c!"x"], gate c!"X" [] [at_ c!"q" 7], gate c!"H" [] [name c!"q"]]) =
      some ((messages (program [qubits c!"q" 2, gate c!"H" [] [name c!"x"]])).get! ++
        (messages (program [qubits c!"q" 2, gate c!"X" [] [at_ c!"q" 7]])).get!) ∧
    messages (program [qubits c!"q" 2, gate c!"X" [] [at_ c!"q" 7], gate c!"H" [] [name c!"x"], gate c!"H" [] [name c!"q"]]) =
      some ((messages (program [qubits c!"q" 2, gate c!"X" [] [at_ c!"q" 7]])).get! ++
        (messages (program [qubits c!"q" 2, gate c!"H" [] [name c!"x"]])).get!) ∧
    ((messages (program [qubits c!"q" 2, gate c!"H" [] [name c!"x"]])).get!).length = 1 ∧
    messages (program [qubits c!"q" 2, gate c!"H" [] [name c!"q"]]) = some [] := by
  decide +kernel

open Sample in
/-- C83: a program with an error, and the same with a declaration and a wrong instruction appended. -/
example : (messages (program [qubits c!"q" 2, gate c!"X" [] [at_ c!"q" 7]])).get!.length = 1 ∧
    (messages (program [qubits c!"q" 2, gate c!"X" [] [at_ c!"q" 7], bits c!"b" 1, gate c!"H" [] [name c!"x"]])).get!.take 1 =
      (messages (program [qubits c!"q" 2, gate c!"X" [] [at_ c!"q" 7]])).get! := by
  decide +kernel

/-- The statement inserted in the example is no declaration; a declaration is one. -/
example : ¬ IsDecl (Sample.gate c!"H" [] [Sample.name c!"q"]) ∧ IsDecl (Sample.qubits c!"q" 2) := ⟨id, trivial⟩

open Sample in
/-- Without `¬ IsDecl` the claim is false: removing a declaration makes a later instruction fail. -/
example : messages (program [qubits c!"q" 2, gate c!"H" [] [name c!"q"]]) = some [] ∧
    (messages (program [gate c!"H" [] [name c!"q"]])).get!.length = 1 := by
  decide +kernel

end Qasm
