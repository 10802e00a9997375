import Verif.Spec.Uniform
import Verif.Props.Independent
import Verif.Lemmas.Instr
import Verif.Props.Session
/-!
# Property C37, continued: what no registration makes usable
-/

namespace Qasm

open Spec Sem

variable {F : Type} {fo : FloatOps F}

attribute [local irreducible] defaultInstrs defaultFns defaultVars

theorem qubitsOf_iff (v : Value F) (n : Nat) : QubitsOf v n ↔ qubitCount v = n := by
  obtain ⟨nd, l⟩ := v
  constructor
  · intro h
    cases h <;> simp_all [qubitCount]
  · rintro rfl
    cases nd with
    | variableRef x =>
      by_cases h1 : x.typ.kind = .qubit
      · simp only [qubitCount, h1, if_true]; exact .qubit h1
      · by_cases h2 : x.typ.kind = .qubitArray
        · simp only [qubitCount, h2, if_true]; simpa [h2] using QubitsOf.array (l := l) h2
        · simp only [qubitCount, h1, h2, if_false]; exact .other h1 h2
    | indexRef x is =>
      by_cases h1 : x.typ.kind = .qubit ∨ x.typ.kind = .qubitArray
      · simp only [qubitCount, h1, if_true]; exact .index h1
      · simp only [qubitCount, h1, if_false]; exact .otherIndex (fun h => h1 (.inl h)) (fun h => h1 (.inr h))
    | constBool => exact .bool
    | constInt => exact .int
    | constFloat => exact .float

theorem check_uniform {ops : List (Value F)} (h : checkGateInstruction ops = .ok ()) : ∃ n, ∀ v ∈ ops, QubitsOf v n := by
  unfold checkGateInstruction at h
  split at h
  · cases h
  · rename_i hb
    have := (adjacentDiffer_iff _).1 (Bool.eq_false_iff.2 hb)
    cases ops with
    | nil => exact ⟨0, fun v hv => absurd hv List.not_mem_nil⟩
    | cons w ws => exact ⟨qubitCount w, fun v hv => (qubitsOf_iff v _).2
        (this _ (List.mem_map_of_mem hv) _ (List.mem_map_of_mem (List.mem_cons_self ..)))⟩

theorem ebind_ok_iff {α β : Type} {x : Res Err α} {f : α → Res Err β} {y : β} : x.bind f = .ok y ↔ ∃ a, x = .ok a ∧ f a = .ok y := by
  cases x <;> simp [Res.bind]

theorem instr_uniform {v : Version} {sc : Scope F} {rest : List (Scope F)} {u : Nat} {s : Stmt F} {es : List Err} {a' : Analyzer F}
    (hd : ¬ IsDecl s) (h : visitStatement fo ⟨v, sc :: rest, u⟩ s = .ok (es, a')) :
    ∃ o, a' = ⟨v, addOpt sc o :: rest, u⟩ ∧ ∀ t, o = some t → Uniform t := by
  cases s with
  | var => exact absurd trivial hd
  | gate l as g ops =>
    simp only [visitStatement, visitGateInstruction, bind_ok_iff] at h
    obtain ⟨r, -, h⟩ := h
    obtain ⟨es1, h⟩ := after_eq_ok h
    split at h
    · cases h; exact ⟨none, rfl, nofun⟩
    · split at h
      · cases h; exact ⟨none, rfl, nofun⟩
      · cases h
      · cases h
      · rename_i i hi
        obtain ⟨ovs, -, hi⟩ := ebind_ok_iff.1 hi
        obtain ⟨j, -, hi⟩ := ebind_ok_iff.1 hi
        obtain ⟨⟨⟩, hc, hi⟩ := ebind_ok_iff.1 hi
        cases hi
        obtain ⟨ra, -, h⟩ := bind_ok_iff.1 h
        obtain ⟨es2, h⟩ := after_eq_ok h
        rw [catch_add] at h
        cases h
        exact ⟨some _, rfl, fun t ht => by cases ht; exact check_uniform hc⟩
  | nonGate l as n ops ps =>
    simp only [visitStatement, visitNonGateInstruction] at h
    split at h
    · cases h; exact ⟨none, rfl, nofun⟩
    · cases h
    · cases h
    · obtain ⟨ra, -, h⟩ := bind_ok_iff.1 h
      obtain ⟨es2, h⟩ := after_eq_ok h
      rw [catch_add] at h
      cases h
      exact ⟨some _, rfl, fun t ht => by cases ht; trivial⟩
  | asm l as n c =>
    simp only [visitStatement, visitAsmDeclaration] at h
    obtain ⟨ra, -, h⟩ := bind_ok_iff.1 h
    obtain ⟨es2, h⟩ := after_eq_ok h
    rw [catch_add] at h
    cases h
    exact ⟨some _, rfl, fun t ht => by cases ht; trivial⟩

theorem decl_block {v : Version} {sc : Scope F} {rest : List (Scope F)} {u : Nat} {s : Stmt F} {es : List Err} {a' : Analyzer F}
    (hd : IsDecl s) (h : visitStatement fo ⟨v, sc :: rest, u⟩ s = .ok (es, a')) :
    ∃ sc' u', a' = ⟨v, sc' :: rest, u'⟩ ∧ sc'.block = sc.block := by
  cases s with
  | gate => exact hd.elim
  | nonGate => exact hd.elim
  | asm => exact hd.elim
  | var l as name typ =>
    simp only [visitStatement, visitVariable] at h
    split at h
    · cases h; exact ⟨_, _, rfl, rfl⟩
    · cases h
    · cases h
    · obtain ⟨r, -, h⟩ := bind_ok_iff.1 h
      obtain ⟨es1, h⟩ := after_eq_ok h
      simp only [Analyzer.addVariable, Analyzer.modifyCurrent, Res.bind_ok, Analyzer.registerVariable] at h
      rename_i t _ _ _
      cases ht : sc.variableTable.add name.name ⟨.variableRef (SVariable.link ⟨u, name.name, t, r.2, name.loc⟩), none⟩ with
      | ok tbl => rw [ht] at h; cases h; exact ⟨_, _, rfl, rfl⟩
      | err e => rw [ht] at h; cases h; exact ⟨_, _, rfl, rfl⟩
      | exn => rw [ht] at h; cases h
      | ub => rw [ht] at h; cases h

theorem block_uniform (ss : List (Stmt F)) : ∀ {v : Version} {sc : Scope F} {rest : List (Scope F)} {u : Nat} {es : List Err}
    {a' : Analyzer F}, visitBlock fo ⟨v, sc :: rest, u⟩ ss = .ok (es, a') → (∀ s ∈ sc.block.statements, Uniform s) →
    ∃ sc' u', a' = ⟨v, sc' :: rest, u'⟩ ∧ ∀ s ∈ sc'.block.statements, Uniform s := by
  induction ss with
  | nil => intro v sc rest u es a' h hs; cases h; exact ⟨_, _, rfl, hs⟩
  | cons s ss ih =>
    intro v sc rest u es a' h hs
    rw [visitBlock] at h
    obtain ⟨r, h1, h⟩ := bind_ok_iff.1 h
    obtain ⟨es1, h⟩ := after_eq_ok h
    obtain ⟨es0, a0⟩ := r
    by_cases hd : IsDecl s
    · obtain ⟨sc', u', rfl, hb⟩ := decl_block hd h1
      exact ih h (by rw [hb]; exact hs)
    · obtain ⟨o, rfl, ho⟩ := instr_uniform hd h1
      refine ih h fun t ht => ?_
      rw [addOpt_statements] at ht
      rcases List.mem_append.1 ht with ht | ht
      · exact hs t ht
      · exact ho t (by simpa using ht)

/-- C37. Whatever instructions are registered, the operands of a gate denote equally many qubits in every analysis result, where
constants denote none. -/
theorem C37_uniform {a a' : Analyzer F} {sc : Scope F} {rest : List (Scope F)} (ha : a.scopes = sc :: rest)
    (hold : ∀ s ∈ sc.block.statements, Uniform s) {p : ProgramAst F} {res : Result (SProgram F)} (h : analyze fo a p = .ok (a', res))
    {r : SProgram F} (hr : res.root = some r) : ∀ s ∈ r.block.statements, Uniform s := by
  obtain ⟨v, scs, u⟩ := a
  simp only at ha
  subst ha
  obtain ⟨es, sc1, rest1, g, k, -, m⟩ := analyze_ran (p := p) (ss := p.block.statements) h
  obtain ⟨sc', u', rfl, hs⟩ := block_uniform _ g hold
  cases k
  rw [m] at hr
  cases hr
  exact hs

/-- C37 is false also for the names of standard gates: an instruction registered with a qubit and a number as operands is never
usable. No result, of any analyser that starts without such a gate, has a gate with these operands. -/
theorem C37_mixed_refuted {a a' : Analyzer F} {sc : Scope F} {rest : List (Scope F)} (ha : a.scopes = sc :: rest)
    (hold : ∀ s ∈ sc.block.statements, Uniform s) {p : ProgramAst F} {res : Result (SProgram F)} (h : analyze fo a p = .ok (a', res))
    {r : SProgram F} (hr : res.root = some r) {i : Instruction} {g : SGate F} {ops : List (Value F)} {as : List (SAnnotation F)}
    {l : Option Loc} {x : VarLink} {lx lc : Option Loc} {c : Int64} (hx : x.typ.kind = .qubit) (h1 : ⟨.variableRef x, lx⟩ ∈ ops)
    (h2 : ⟨.constInt c, lc⟩ ∈ ops) : .gate i g ops as l ∉ r.block.statements := by
  intro hm
  obtain ⟨n, hn⟩ := C37_uniform ha hold h hr _ hm
  have e1 := (qubitsOf_iff _ _).1 (hn _ h1)
  have e2 := (qubitsOf_iff _ _).1 (hn _ h2)
  simp only [qubitCount, hx, if_true] at e1 e2
  omega

/-- C37, what holds, in any context. An instruction registered under the name of a standard gate is usable after any statements,
right or wrong, whose declarations are accepted: the gate applied to qubits of the registered kinds adds no error, and a statement
that refers to the registered instruction. -/
theorem C37_anywhere_partial {v : Version} {a a1 b1 : Analyzer F} (ha : Analyzer.default fo v = .ok a) {i : Instruction}
    (hreg : a.registerInstruction i = .ok a1) {p : ProgramAst F} {pre : List (Stmt F)}
    (hs : ShapedProgram (withStatements p (onlyDeclarations pre))) {r : SProgram F}
    (h : Accepts fo a (withStatements p (onlyDeclarations pre)) r) {r1 : Result (SProgram F)}
    (h1 : analyze fo a1 (withStatements p pre) = .ok (b1, r1)) {l l' : Option Loc} {n : Nat}
    {ks : List Kind} (hn : (i.name, n, ks) ∈ namedGates) {ps es : List (Expr F)} {pvs vs : List (Value F)}
    (hps : EvalParams fo (declared r) ps ks pvs) (hes : ∀ e ∈ es, ShapedExpr e) (hev : EvalAll fo (declared r) es vs)
    (hq : Forall2 (fun v t => IsQubits v.node t.kind) vs i.operandTypes)
    (hsame : ∀ v ∈ vs, ∀ w ∈ vs, elements v.node = elements w.node) :
    ∃ b2 r2 s1 s2, analyze fo a1 (withStatements p (pre ++ [.gate l [] (.mk l' [] i.name none ps) es])) = .ok (b2, r2) ∧
      r1.root = some s1 ∧ r2.root = some s2 ∧ r2.errors = r1.errors ∧ s2.variables = s1.variables ∧
      s2.block.statements = s1.block.statements ++ [.gate i (.mk i.name none pvs [] l') vs [] l] := by
  have hdecls : ∀ ss : List (Stmt F), ∀ s ∈ onlyDeclarations ss, IsDecl s := by
    intro ss
    induction ss with
    | nil => exact fun s hs => absurd hs List.not_mem_nil
    | cons s ss ih =>
      by_cases hd : IsDecl s
      · rw [onlyDeclarations_decl hd]
        intro t ht
        rcases List.mem_cons.1 ht with rfl | ht
        · exact hd
        · exact ih t ht
      · rw [onlyDeclarations_instr hd]; exact ih
  obtain ⟨r', ⟨b', hacc⟩, hst⟩ := C37_overload_partial (l := l) (l' := l') ha hreg hs (hdecls pre) h hn hps hes hev hq hsame
  have hst0 := default_state ha
  subst hst0
  obtain ⟨v1, scs, u1⟩ := a1
  have hscs : ∃ sc, scs = [sc] ∧ sc.block.statements = [] := by
    simp only [Analyzer.registerInstruction, Analyzer.modifyCurrent, stateOf, Res.bind_ok] at hreg
    cases hreg
    exact ⟨_, rfl, rfl⟩
  obtain ⟨sc, rfl, hempty⟩ := hscs
  obtain ⟨e1, c1, w1, j1, k1, l1, m1⟩ := analyze_ran h1
  obtain ⟨es', sc1, sc1', u2, rfl, hdecl, hb, hv⟩ := visitBlock_declarations pre (sc' := sc) rfl rfl j1
  cases k1
  obtain ⟨e2, c2, w2, j2, k2, l2, m2⟩ := analyze_ran (p := p) (ss := onlyDeclarations pre ++ [.gate l [] (.mk l' [] i.name none ps) es]) hacc
  have j2' := j2
  rw [visitBlock_append, hdecl, Res.bind_ok] at j2
  obtain ⟨q, hq1, hq2⟩ := visitBlock_effect fo [.gate l [] (.mk l' [] i.name none ps) es] ((c1 :: []).map bare) u2
  rw [hq2 v1 sc1' [] (by simp [hb])] at j2
  cases q with
  | ok x =>
    simp only [Res.bind_ok, Log.after] at j2
    cases j2
    cases k2
    simp only [Option.some.injEq] at m2
    have herr : es' ++ x.1 = [] := (List.append_eq_nil_iff.1 l2.symm).2
    have hx1 : x.1 = [] := (List.append_eq_nil_iff.1 herr).2
    have hvars : x.2.variables = [] := by
      obtain ⟨o, ho⟩ := instr_adds (fo := fo) (v := v1) (sc := sc1') (rest := []) (u := u2) (s := .gate l [] (.mk l' [] i.name none ps) es)
        (es := x.1) (a' := ⟨v1, [x.2.apply sc1'], x.2.nextUid⟩) id (by
          have := hq2 v1 sc1' [] (by simp [hb])
          rw [Res.bind_ok] at this
          rw [visitBlock] at this
          obtain ⟨y, hy, this⟩ := bind_ok_iff.1 this
          rw [visitBlock] at this
          simp only [Log.after, Res.bind_ok, List.append_nil] at this
          rw [hy]
          exact this)
      have := congrArg (fun a : Analyzer F => a.scopes.map Scope.variables) ho
      simp only [List.map_cons, List.map_nil, apply_variables, addOpt_variables, List.cons.injEq, and_true] at this
      exact List.append_right_eq_self.1 this
    have hstm : sc1'.block.statements ++ x.2.statements = [.gate i (.mk i.name none pvs [] l') vs [] l] := by
      rw [← hst, m2, ← apply_statements]
    have hnil : sc1'.block.statements = [] := by
      have : ∀ (ss : List (Stmt F)), (∀ s ∈ ss, IsDecl s) → ∀ {sc sc' : Scope F} {u u' : Nat} {es : List Err},
          visitBlock fo ⟨v1, [sc], u⟩ ss = .ok (es, ⟨v1, [sc'], u'⟩) → sc'.block = sc.block := by
        intro ss
        induction ss with
        | nil => intro _ sc sc' u u' es h; cases h; rfl
        | cons s ss ih =>
          intro hd sc sc' u u' es h
          rw [visitBlock] at h
          obtain ⟨⟨e0, a0⟩, h1, h⟩ := bind_ok_iff.1 h
          obtain ⟨e3, h⟩ := after_eq_ok h
          obtain ⟨sc2, u3, rfl, h4⟩ := decl_block (hd s (List.mem_cons_self ..)) h1
          rw [← h4]
          exact ih (fun s hs => hd s (List.mem_cons_of_mem _ hs)) h
      rw [this _ (hdecls pre) hdecl, hempty]
    rw [hnil, List.nil_append] at hstm
    have g2 : visitBlock fo ⟨v1, [sc], u1⟩ (pre ++ [.gate l [] (.mk l' [] i.name none ps) es]) =
        .ok (e1, ⟨v1, [x.2.apply c1], x.2.nextUid⟩) := by
      rw [visitBlock_append, j1, Res.bind_ok, hq2 v1 c1 [] rfl, Res.bind_ok]
      simp only [Log.after, Res.bind_ok, hx1, List.append_nil]
    have e3 := analyze_block_eq (p := p) g2 rfl
    have hva : (x.2.apply c1).variables = c1.variables := by rw [apply_variables, hvars, List.append_nil]
    have hsa : (x.2.apply c1).block.statements = c1.block.statements ++ [.gate i (.mk i.name none pvs [] l') vs [] l] := by
      rw [apply_statements, hstm]
    rw [if_neg] at e3
    · exact ⟨_, _, _, _, e3, m1, rfl, l1.symm ▸ rfl, hva, hsa⟩
    · intro hc
      simp only [Bool.and_eq_true, Bool.not_eq_true'] at hc
      have hw1 : SProgram.wellFormed (⟨v1, (visitVersion v1 p.version).2, c1.block, c1.variables⟩ : SProgram F) = true := by
        cases hh : SProgram.wellFormed (⟨v1, (visitVersion v1 p.version).2, c1.block, c1.variables⟩ : SProgram F) with
        | true => rfl
        | false =>
          rw [analyze_block_eq (p := p) j1 rfl, if_pos (by simp only [Bool.and_eq_true, Bool.not_eq_true']; exact ⟨hc.1, hh⟩)] at h1
          cases h1
      have hw2 : SProgram.wellFormed (⟨v1, (visitVersion v1 p.version).2, (x.2.apply sc1').block, (x.2.apply sc1').variables⟩ : SProgram F) =
          true := by
        cases hh : SProgram.wellFormed (⟨v1, (visitVersion v1 p.version).2, (x.2.apply sc1').block, (x.2.apply sc1').variables⟩ : SProgram F) with
        | true => rfl
        | false =>
          have hacc' : analyze fo ⟨v1, [sc], u1⟩ (withStatements p (onlyDeclarations pre ++ [.gate l [] (.mk l' [] i.name none ps) es])) = _ := hacc
          rw [analyze_block_eq (p := p) j2' rfl, if_pos (by
            simp only [Bool.and_eq_true, Bool.not_eq_true', List.isEmpty_iff]; exact ⟨l2.symm, hh⟩)] at hacc'
          cases hacc'
      have hvb : (x.2.apply sc1').variables = c1.variables := by rw [apply_variables, hvars, List.append_nil, hv]
      have hsb : (x.2.apply sc1').block.statements = [.gate i (.mk i.name none pvs [] l') vs [] l] := by
        rw [apply_statements, hstm, hnil, List.nil_append]
      simp only [SProgram.wellFormed, SProgram.values, hvb, hsb, List.flatMap_append, List.all_append, Bool.and_eq_true] at hw1 hw2
      have hc2 := hc.2
      simp only [SProgram.wellFormed, SProgram.values, hva, hsa, List.flatMap_append, List.all_append, hw1.1, hw1.2, hw2.1,
        Bool.and_self] at hc2
      cases hc2
  | _ => cases j2

namespace Sample

/-- The messages for a program, after `register_instruction("H", types)`. -/
def messagesWith (types : List Ty) (p : ProgramAst Int) : Option (List Str) :=
  match (Analyzer.default Sample.fo [3, 0]).bind fun a => a.registerInstruction ⟨c!"H", types⟩ with
  | .ok a =>
    match Sem.analyze Sample.fo a p with
    | .ok r => some (r.2.errors.map Err.message)
    | _ => none
  | _ => none

end Sample

open Sample in
/-- `H` with a qubit and a number: not resolved before it is registered, and rejected for its sizes afterwards. With two qubits
or two numbers, what is registered is usable. -/
example : messagesWith [⟨.qubit, 1⟩, ⟨.int, 1⟩] (program [.var none [] ⟨c!"q", none⟩ ⟨c!"qubit", none, none⟩, gate c!"H" [] [name c!"q", int 1]]) =
      some [c!"qubit operands indices have different sizes"] ∧
    (messages (program [.var none [] ⟨c!"q", none⟩ ⟨c!"qubit", none, none⟩, gate c!"H" [] [name c!"q", int 1]])).get! ≠
      [c!"qubit operands indices have different sizes"] ∧
    messagesWith [⟨.qubit, 1⟩, ⟨.qubit, 1⟩] (program [.var none [] ⟨c!"q", none⟩ ⟨c!"qubit", none, none⟩, gate c!"H" [] [name c!"q", name c!"q"]]) =
      some [] ∧
    messagesWith [⟨.int, 1⟩, ⟨.int, 1⟩] (program [gate c!"H" [] [int 1, int 2]]) = some [] := by
  decide +kernel

open Sample in
/-- The registered instruction is usable after a wrong instruction and a right one: the only error is that of the wrong one. -/
example : messagesWith [⟨.qubit, 1⟩, ⟨.qubit, 1⟩] (program [.var none [] ⟨c!"q", none⟩ ⟨c!"qubit", none, none⟩, gate c!"X" [] [name c!"x"],
      gate c!"X" [] [name c!"q"], gate c!"H" [] [name c!"q", name c!"q"]]) =
    messagesWith [⟨.qubit, 1⟩, ⟨.qubit, 1⟩] (program [.var none [] ⟨c!"q", none⟩ ⟨c!"qubit", none, none⟩, gate c!"X" [] [name c!"x"],
      gate c!"X" [] [name c!"q"]]) ∧
    (messagesWith [⟨.qubit, 1⟩, ⟨.qubit, 1⟩] (program [.var none [] ⟨c!"q", none⟩ ⟨c!"qubit", none, none⟩, gate c!"X" [] [name c!"x"],
      gate c!"X" [] [name c!"q"]])).get!.length = 1 := by
  decide +kernel

/-- A default analyser meets the hypotheses: its block is empty. -/
example {a : Analyzer F} {v : Version} (h : Analyzer.default fo v = .ok a) :
    ∃ sc rest, a.scopes = sc :: rest ∧ ∀ s ∈ sc.block.statements, Uniform s := by
  have := default_state h
  subst this
  exact ⟨_, _, rfl, fun s hs => absurd hs List.not_mem_nil⟩

end Qasm
