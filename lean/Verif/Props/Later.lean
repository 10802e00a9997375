import Verif.Props.Inside
/-!
# Sessions after something was done in a scope of its own (C128)
-/

namespace Qasm

open Spec Sem Analyzer

attribute [local irreducible] defaultInstrs defaultFns defaultVars

variable {F : Type} {fo : FloatOps F} {f : Nat → Nat}

namespace Insides

/-- The scopes are the same but for the identities. -/
structure ScopeTwin (f : Nat → Nat) (s s' : Scope F) : Prop where
  find : ∀ n, s'.variableTable.find n = (s.variableTable.find n).map (moveValue f)
  block : s'.block = moveSBlock f s.block
  variables : s'.variables = s.variables.map (moveSVariable f)
  functions : s'.fnTable = s.fnTable
  instructions : s'.instructionTable = s.instructionTable

/-- The analysers are the same but for the identities. -/
structure Twin (f : Nat → Nat) (a a' : Analyzer F) : Prop where
  version : a'.apiVersion = a.apiVersion
  scopes : Forall2 (ScopeTwin f) a.scopes a'.scopes
  numbers : ∀ s ∈ a.scopes, NumberTable s.fnTable
  fresh : ∀ i, f (a.nextUid + i) = a'.nextUid + i

theorem twin_resolve {ss ss' : List (Scope F)} (h : Forall2 (ScopeTwin f) ss ss') (n : Str) :
    resolveVariable ss' n = (resolveVariable ss n).mov (moveValue f) := by
  induction h with
  | nil => rfl
  | @cons s s' _ _ h _ ih =>
    simp only [resolveVariable, VariableTable.resolve, h.find]
    cases s.variableTable.find n with
    | none => exact ih
    | some v => rfl

theorem twin_functions {ss ss' : List (Scope F)} (h : Forall2 (ScopeTwin f) ss ss') : ss'.map Scope.fnTable = ss.map Scope.fnTable := by
  induction h with
  | nil => rfl
  | cons h _ ih => simp [h.functions, ih]

theorem twin_instructions {ss ss' : List (Scope F)} (h : Forall2 (ScopeTwin f) ss ss') :
    ss'.map Scope.instructionTable = ss.map Scope.instructionTable := by
  induction h with
  | nil => rfl
  | cons h _ ih => simp [h.instructions, ih]

theorem block_current {v : Version} {s : Scope F} {rest : List (Scope F)} {u : Nat} {ss : List (Stmt F)} {errs : List Err} {b : Analyzer F}
    (h : visitBlock fo ⟨v, s :: rest, u⟩ ss = .ok (errs, b)) : ∃ s' u', b = ⟨v, s' :: rest, u'⟩ := by
  obtain ⟨x, -, he⟩ := visitBlock_effect fo ss ((s :: rest).map bare) u
  rw [he v s rest rfl] at h
  cases x with
  | ok x => cases h; exact ⟨_, _, rfl⟩
  | err e => exact e.elim
  | exn => cases h
  | ub => cases h

/-- The analyses return the same but for the identities, or end in the same way. -/
def SameEnd (f : Nat → Nat) : Res Empty (Analyzer F × Result (SProgram F)) → Res Empty (Analyzer F × Result (SProgram F)) → Prop
  | .ok x, .ok y => Twin f x.1 y.1 ∧ y.2 = moveResult f x.2
  | .exn c, .exn c' => c' = c
  | .ub, .ub => True
  | _, _ => False

theorem twin_analyze (hi : ∀ i j, f i = f j → i = j) {a a' : Analyzer F} (h : Twin f a a') (hne : a.scopes ≠ []) (p : ProgramAst F) :
    SameEnd f (analyze fo a p) (analyze fo a' p) := by
  obtain ⟨v, scs, u⟩ := a
  obtain ⟨v', scs', u'⟩ := a'
  obtain ⟨hv, hs, hn, hu⟩ := h
  simp only at hv hs hn hu
  subst hv
  cases hs with
  | nil => exact absurd rfl hne
  | @cons sc sc' rest rest' h1 h2 =>
    have hm : Moved f (fun _ => True) True sc.block.statements sc'.block.statements sc.variables sc'.variables
        ⟨v', sc :: rest, u⟩ ⟨v', sc' :: rest', u'⟩ :=
      ⟨⟨sc, rest, sc', rest', rfl, rfl, fun n _ => h1.find n, fun n _ => twin_resolve h2 n, ⟨[], by simp, by simp⟩,
        by rw [h1.block]; rfl, ⟨[], by simp, by simp⟩⟩,
        twin_functions (.cons h1 h2), twin_instructions (.cons h1 h2), hn, fun _ => hu⟩
    have hend := visitBlock_mov (fo := fo) p.block.statements hm (fun _ _ _ => trivial) fun _ _ _ _ => trivial
    cases q1 : visitBlock fo ⟨v', sc :: rest, u⟩ p.block.statements with
    | err e => exact e.elim
    | exn c =>
      cases q2 : visitBlock fo ⟨v', sc' :: rest', u'⟩ p.block.statements with
      | err e => exact e.elim
      | exn c' =>
        rw [q1, q2] at hend
        cases hend
        simp [analyze, visitProgram, q1, q2, SameEnd]
      | _ => rw [q1, q2] at hend; exact hend.elim
    | ub =>
      cases q2 : visitBlock fo ⟨v', sc' :: rest', u'⟩ p.block.statements with
      | err e => exact e.elim
      | ub => simp [analyze, visitProgram, q1, q2, SameEnd]
      | _ => rw [q1, q2] at hend; exact hend.elim
    | ok x =>
      cases q2 : visitBlock fo ⟨v', sc' :: rest', u'⟩ p.block.statements with
      | err e => exact e.elim
      | ok y =>
        rw [q1, q2] at hend
        obtain ⟨errs, a1⟩ := x
        obtain ⟨errs', a2⟩ := y
        obtain ⟨c0, u1, rfl⟩ := block_current q1
        obtain ⟨c0', u1', rfl⟩ := block_current q2
        obtain ⟨hB, ⟨c, w, c', w', j, j', hfind, -, ⟨T, t1, t2⟩, hl, ⟨W, w1, w2⟩⟩, hfn, hin, hnum, hfresh⟩ := hend
        simp only at hB j j' hfn hin hnum hfresh
        subst hB
        cases j
        cases j'
        have hblock : c0'.block = moveSBlock f c0.block := by
          have hst : sc'.block.statements = sc.block.statements.map (moveSStatement f) := by rw [h1.block]; rfl
          rw [hst, ← List.map_append, ← t1] at t2
          cases hc : c0'.block
          rw [hc] at t2 hl
          simp only at t2 hl
          rw [t2, hl]
          rfl
        have hvars : c0'.variables = c0.variables.map (moveSVariable f) := by
          rw [w1, w2, List.map_append, h1.variables]
        have e1 := analyze_block_eq (p := p) q1 rfl
        have e2 := analyze_block_eq (p := p) q2 rfl
        rw [show withStatements p p.block.statements = p from rfl] at e1 e2
        rw [e1, e2, hblock, hvars, wellFormed_mov hi]
        simp only [List.map_cons, List.cons.injEq] at hfn hin
        split
        · rfl
        · exact ⟨⟨rfl, .cons ⟨fun n => hfind n trivial, hblock, hvars, hfn.1, hin.1⟩ h2, hnum, hfresh trivial⟩, rfl⟩
      | _ => rw [q1, q2] at hend; exact hend.elim

theorem steady_value {v : Value F} (h : (∀ x, v.node ≠ .variableRef x) ∧ ∀ x is, v.node ≠ .indexRef x is) : moveValue f v = v := by
  obtain ⟨n, l⟩ := v
  cases n with
  | variableRef x => exact absurd rfl (h.1 x)
  | indexRef x is => exact absurd rfl (h.2 x is)
  | _ => rfl

/-- The calls end in the same way. -/
def SameCall (f : Nat → Nat) : Res Err (Analyzer F) → Res Err (Analyzer F) → Prop
  | .ok b, .ok b' => Twin f b b'
  | .err e, .err e' => e' = e
  | .exn c, .exn c' => c' = c
  | .ub, .ub => True
  | _, _ => False

theorem twin_call {a a' : Analyzer F} (h : Twin f a a') {c : Call F} (hc : Steady (.call c)) : SameCall f (c.on a) (c.on a') := by
  obtain ⟨v, scs, u⟩ := a
  obtain ⟨v', scs', u'⟩ := a'
  obtain ⟨hv, hs, hn, hu⟩ := h
  simp only at hv hs hn hu
  subst hv
  cases c with
  | push =>
    refine ⟨rfl, .cons ⟨fun n => rfl, rfl, rfl, rfl, rfl⟩ hs, fun s hm => ?_, hu⟩
    rcases List.mem_cons.1 hm with rfl | hm
    · exact fun e he => by simp [Scope.empty] at he
    · exact hn s hm
  | pop =>
    cases hs with
    | nil => trivial
    | cons h1 h2 => exact ⟨rfl, h2, fun s hm => hn s (List.mem_cons_of_mem _ hm), hu⟩
  | var n w =>
    cases hs with
    | nil => trivial
    | @cons sc sc' _ _ h1 h2 =>
      simp only [Call.on, registerVariable, modifyCurrent, VariableTable.add]
      have hf := h1.find n
      cases hfd : sc.variableTable.find n with
      | some y =>
        rw [hfd] at hf
        simp only [hf]
        rfl
      | none =>
        rw [hfd] at hf
        simp only [hf]
        refine ⟨rfl, .cons ⟨fun k => ?_, h1.block, h1.variables, h1.functions, h1.instructions⟩ h2, fun s hm => ?_, hu⟩
        · have := h1.find k
          simp only [VariableTable.find] at this ⊢
          split
          · simp [steady_value hc]
          · exact this
        · rcases List.mem_cons.1 hm with rfl | hm
          · exact hn sc List.mem_cons_self
          · exact hn s (List.mem_cons_of_mem _ hm)
  | instruction i =>
    cases hs with
    | nil => trivial
    | @cons sc sc' _ _ h1 h2 =>
      refine ⟨rfl, .cons ⟨h1.find, h1.block, h1.variables, h1.functions, by simp [h1.instructions]⟩ h2, fun s hm => ?_, hu⟩
      rcases List.mem_cons.1 hm with rfl | hm
      · exact hn sc List.mem_cons_self
      · exact hn s (List.mem_cons_of_mem _ hm)
  | function => exact hc.elim

theorem kept_ok {a b : Analyzer F} {c : Call F} {es : List (Event F)} (ha : a.scopes ≠ []) (hk : Kept a.scopes.length (.call c :: es))
    (h : c.on a = .ok b) : b.scopes ≠ [] ∧ Kept b.scopes.length es := by
  cases hreg : c.registers with
  | some k =>
    rcases registers_runs hreg ha with ⟨b', m1, m2⟩ | ⟨e, m1⟩
    · rw [h] at m1
      cases m1
      refine ⟨fun h0 => ha (by rw [h0] at m2; exact List.eq_nil_of_length_eq_zero m2.symm), ?_⟩
      rw [m2]
      cases c with
      | push => cases hreg
      | pop => cases hreg
      | _ => simpa only [Kept] using hk
    · rw [h] at m1; cases m1
  | none =>
    cases c with
    | push => cases h; exact ⟨by simp [pushScope], by simpa [Kept, pushScope] using hk⟩
    | pop =>
      simp only [Kept] at hk
      obtain ⟨v, ss, u⟩ := a
      cases ss with
      | nil => exact absurd rfl ha
      | cons s ss =>
        cases h
        refine ⟨?_, by simpa using hk.2⟩
        rintro h0
        have h0 : ss = [] := h0
        simp [h0] at hk
    | _ => cases hreg

theorem kept_err {a : Analyzer F} {c : Call F} {es : List (Event F)} {e : Err} (hk : Kept a.scopes.length (.call c :: es))
    (h : c.on a = .err e) : Kept a.scopes.length es := by
  cases c with
  | push => cases h
  | pop =>
    obtain ⟨v, ss, u⟩ := a
    cases ss <;> cases h
  | _ => simpa only [Kept] using hk

/-- The sessions have the same answers. -/
theorem twin_answers (hi : ∀ i j, f i = f j → i = j) {ds : List (Event F)} : ∀ {a a' : Analyzer F}, Twin f a a' → a.scopes ≠ [] →
    Kept a.scopes.length ds → (∀ d ∈ ds, Steady d) →
    (∀ rs c, Answers fo ds a rs c → ∃ c', Answers fo ds a' (rs.map (moveResult f)) c') ∧
    ∀ rs' c', Answers fo ds a' rs' c' → ∃ rs c, Answers fo ds a rs c ∧ rs' = rs.map (moveResult f) := by
  induction ds with
  | nil =>
    intro a a' _ _ _ _
    exact ⟨fun rs c h => by cases h; exact ⟨a', .nil⟩, fun rs' c' h => by cases h; exact ⟨[], a, .nil, rfl⟩⟩
  | cons d ds ih =>
    intro a a' ht hne hk hst
    have hst' : ∀ d ∈ ds, Steady d := fun d hd => hst d (List.mem_cons_of_mem _ hd)
    cases d with
    | analyze p =>
      have hs := twin_analyze (fo := fo) hi ht hne p
      have hk' : Kept a.scopes.length ds := by simpa only [Kept] using hk
      have next : ∀ {b r}, analyze fo a p = .ok (b, r) → b.scopes ≠ [] ∧ Kept b.scopes.length ds := fun h => by
        have hl := analyze_length hne h
        exact ⟨fun h0 => hne (by rw [h0] at hl; exact List.eq_nil_of_length_eq_zero hl.symm), by rw [hl]; exact hk'⟩
      constructor
      · intro rs c h
        cases h with
        | analyze h1 h2 =>
          rw [h1] at hs
          cases q : analyze fo a' p with
          | ok y =>
            rw [q] at hs
            obtain ⟨y1, y2⟩ := y
            obtain ⟨t1, rfl⟩ := hs
            obtain ⟨c', hc'⟩ := (ih t1 (next h1).1 (next h1).2 hst').1 _ _ h2
            exact ⟨c', .analyze q hc'⟩
          | _ => rw [q] at hs; exact hs.elim
      · intro rs' c' h
        cases h with
        | analyze h1 h2 =>
          rw [h1] at hs
          cases q : analyze fo a p with
          | ok y =>
            rw [q] at hs
            obtain ⟨y1, y2⟩ := y
            obtain ⟨t1, t2⟩ := hs
            obtain ⟨rs, c, hc, he⟩ := (ih t1 (next q).1 (next q).2 hst').2 _ _ h2
            exact ⟨_, c, .analyze q hc, by rw [List.map_cons, ← t2, he]⟩
          | err e => exact e.elim
          | _ => rw [q] at hs; exact hs.elim
    | call c =>
      have hs := twin_call ht (hst _ List.mem_cons_self)
      constructor
      · intro rs d h
        cases h with
        | ok h1 h2 =>
          rw [h1] at hs
          cases q : c.on a' with
          | ok y =>
            rw [q] at hs
            obtain ⟨d', hd'⟩ := (ih hs (kept_ok hne hk h1).1 (kept_ok hne hk h1).2 hst').1 _ _ h2
            exact ⟨d', .ok q hd'⟩
          | _ => rw [q] at hs; exact hs.elim
        | error h1 h2 =>
          rw [h1] at hs
          cases q : c.on a' with
          | err e =>
            obtain ⟨d', hd'⟩ := (ih ht hne (kept_err hk h1) hst').1 _ _ h2
            exact ⟨d', .error q hd'⟩
          | _ => rw [q] at hs; exact hs.elim
      · intro rs' d' h
        cases h with
        | ok h1 h2 =>
          rw [h1] at hs
          cases q : c.on a with
          | ok y =>
            rw [q] at hs
            obtain ⟨rs, d, hd, he⟩ := (ih hs (kept_ok hne hk q).1 (kept_ok hne hk q).2 hst').2 _ _ h2
            exact ⟨rs, d, .ok q hd, he⟩
          | _ => rw [q] at hs; exact hs.elim
        | error h1 h2 =>
          rw [h1] at hs
          cases q : c.on a with
          | err e =>
            obtain ⟨rs, d, hd, he⟩ := (ih ht hne (kept_err hk q) hst').2 _ _ h2
            exact ⟨rs, d, .error q hd, he⟩
          | _ => rw [q] at hs; exact hs.elim

end Insides

/-- C128. Whole sessions are not affected by what was done before in a scope of its own: programs, scopes, constants and instructions may
follow in any order, as long as a scope is left. The answers are those of the session without it, but for the identities of variables. -/
theorem C128_session {a b : Analyzer F} (hr : Reached fo a) {es ds : List (Event F)} (hi : Inside es) {rs : List (Result (SProgram F))}
    (h : Answers fo (.call .push :: es ++ [.call .pop]) a rs b) (hk : Kept a.scopes.length ds) (hs : ∀ d ∈ ds, Steady d) :
    ∃ f : Nat → Nat, (∀ i j, f i = f j → i = j) ∧ (∀ i, i < a.nextUid → f i = i) ∧
      ∀ qs', (∃ c', Answers fo ds b qs' c') ↔ ∃ qs c, Answers fo ds a qs c ∧ qs' = qs.map (moveResult f) := by
  have hfit := fit_reached hr
  have hne : a.scopes ≠ [] := by obtain ⟨_, _, h⟩ := hfit.shape; simp [h]
  obtain ⟨hb, hle⟩ := C128_scope hi hne h
  have hfix : Fixes (fun i => if i < a.nextUid then i else i + (b.nextUid - a.nextUid)) a.nextUid := fun i hi => if_pos hi
  have hinj : ∀ i j, (if i < a.nextUid then i else i + (b.nextUid - a.nextUid)) =
      (if j < a.nextUid then j else j + (b.nextUid - a.nextUid)) → i = j := by
    intro i j
    split <;> split <;> omega
  have ht : Insides.Twin (fun i => if i < a.nextUid then i else i + (b.nextUid - a.nextUid)) a b := by
    refine ⟨by rw [hb], ?_, hfit.numbers, fun i => by split <;> omega⟩
    rw [show b.scopes = a.scopes by rw [hb]]
    have hx := hfit.fixed _ hfix
    generalize a.scopes = ss at hx
    induction ss with
    | nil => exact .nil
    | cons s ss ih =>
      have hs := hx s List.mem_cons_self
      refine .cons ⟨hs.find, ?_, ?_, rfl, rfl⟩ (ih fun t ht => hx t (List.mem_cons_of_mem _ ht))
      · have : s.block.statements.map (moveSStatement _) = s.block.statements := (List.map_congr_left hs.statements).trans (List.map_id' _)
        simp only [moveSBlock, this]
      · exact ((List.map_congr_left hs.variables).trans (List.map_id' _)).symm
  have hans := Insides.twin_answers (fo := fo) hinj ht hne hk hs
  refine ⟨_, hinj, hfix, fun qs' => ⟨fun ⟨c', hc'⟩ => hans.2 _ _ hc', ?_⟩⟩
  rintro ⟨qs, c, hc, rfl⟩
  exact hans.1 _ _ hc

section Examples

open Sample

/-- C128: the assumptions about the later session can be met. -/
example : Kept analyzer.scopes.length [.call .push, .analyze (program [qubits c!"q" 3, gate c!"H" [] [name c!"q"]]), .call .pop,
      .call (.var c!"k" ⟨.constInt 1, none⟩), .analyze (program [qubits c!"q" 3, gate c!"H" [] [at_ c!"q" 1]])] ∧
    ∀ d ∈ [Event.call .push, .analyze (program [qubits c!"q" 3, gate c!"H" [] [name c!"q"]]), .call .pop,
      .call (.var c!"k" ⟨.constInt 1, none⟩), .analyze (program [qubits c!"q" 3, gate c!"H" [] [at_ c!"q" 1]])], Steady d := by
  refine ⟨by simp only [Kept]; decide +kernel, fun d hd => ?_⟩
  simp only [List.mem_cons, List.not_mem_nil, or_false] at hd
  rcases hd with rfl | rfl | rfl | rfl | rfl <;> simp [Steady]

end Examples

end Qasm
