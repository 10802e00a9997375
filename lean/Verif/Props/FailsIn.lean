import Verif.Props.Annotated
import Verif.Props.Stops
/-!
# The exact errors of analysers with their own registrations (C116)

The rules `FailsIn` and `InstrFailsIn` say for expressions and instructions what is reported: the message and the position.
Together with those of C111 (what is accepted) and C114 (what ends the analysis) they leave nothing open.
-/

namespace Qasm

open Spec Sem Analyzer

variable {F : Type} {fo : FloatOps F} {v : Version} {ls : List (Level F)}

/-! ## Expressions -/

/-- C116. Whatever is registered, an expression has a value, or an error, or ends the analysis: exactly one of these, and in
exactly one way. -/
theorem C116_expression (fo : FloatOps F) (ls : List (Level F)) (e : Expr F) :
    (∃ x, EvalIn fo ls e x ∧ (∀ y, EvalIn fo ls e y → y = x) ∧ (¬∃ y, FailsIn fo ls e y) ∧ ¬∃ o, StopsIn fo ls e o) ∨
    (∃ x, FailsIn fo ls e x ∧ (∀ y, FailsIn fo ls e y → y = x) ∧ (¬∃ y, EvalIn fo ls e y) ∧ ¬∃ o, StopsIn fo ls e o) ∨
    (∃ o, StopsIn fo ls e o ∧ (∀ o', StopsIn fo ls e o' → o' = o) ∧ (¬∃ y, EvalIn fo ls e y) ∧ ¬∃ y, FailsIn fo ls e y) := by
  obtain ⟨ss, hs⟩ := some_scopes ls
  simp only [← visit_iff hs, ← visit_failsIn hs, ← visit_stop hs]
  rcases Stop.cases (visit fo ss e) with ⟨x, h⟩ | ⟨x, h⟩ | ⟨o, h⟩ <;> rw [h]
  · exact .inl ⟨x, rfl, fun y h => (Res.ok.inj h).symm, fun ⟨y, h⟩ => (by cases h), fun ⟨o, h⟩ => Stop.ne_ok h⟩
  · exact .inr (.inl ⟨x, rfl, fun y h => (Res.err.inj h).symm, fun ⟨y, h⟩ => (by cases h), fun ⟨o, h⟩ => Stop.ne_err h⟩)
  · exact .inr (.inr ⟨o, rfl, fun o' h => (Stop.inj h).symm, fun ⟨y, h⟩ => Stop.ne_ok h.symm, fun ⟨y, h⟩ => Stop.ne_err h.symm⟩)

private theorem eval_unique {e : Expr F} {x y : Value F} (h : EvalIn fo ls e x) (h' : EvalIn fo ls e y) : x = y := by
  obtain ⟨ss, hs⟩ := some_scopes ls
  rw [← visit_iff hs] at h h'
  exact Res.ok.inj (h.symm.trans h')

private theorem fails_unique {e : Expr F} {x y : Err} (h : FailsIn fo ls e x) (h' : FailsIn fo ls e y) : x = y := by
  obtain ⟨ss, hs⟩ := some_scopes ls
  rw [← visit_failsIn hs] at h h'
  exact Res.err.inj (h.symm.trans h')

/-! ## Instructions -/

/-- C116. Whatever is registered, an instruction (without annotations, as the parser makes it) is accepted, or rejected with
an error, or ends the analysis: exactly one of these, and in exactly one way. -/
theorem C116_instruction (fo : FloatOps F) (r : Level F) (ls : List (Level F)) {s : Stmt F} (hs : ShapedStmt s) (hp : PlainStmt s)
    (hd : ¬ IsDecl s) :
    (∃ t, InstrIn fo (r :: ls) s t ∧ (∀ t', InstrIn fo (r :: ls) s t' → t' = t) ∧ (¬∃ y, InstrFailsIn fo (r :: ls) s y) ∧
      ¬∃ o, InstrStops fo (r :: ls) s o) ∨
    (∃ x, InstrFailsIn fo (r :: ls) s x ∧ (∀ y, InstrFailsIn fo (r :: ls) s y → y = x) ∧ (¬∃ t, InstrIn fo (r :: ls) s t) ∧
      (¬∃ o, InstrStops fo (r :: ls) s o) ∧ (ReportedAt s x ∨ ThrownBy (r :: ls) x)) ∨
    (∃ o, InstrStops fo (r :: ls) s o ∧ (∀ o', InstrStops fo (r :: ls) s o' → o' = o) ∧ (¬∃ t, InstrIn fo (r :: ls) s t) ∧
      ¬∃ y, InstrFailsIn fo (r :: ls) s y) := by
  obtain ⟨sc, h1⟩ := some_scope r
  obtain ⟨ss, h2⟩ := some_scopes ls
  have hl : Forall2 HoldsLevel (sc :: ss) (r :: ls) := .cons h1 h2
  have key1 := fun a' => visitInstruction_iff (fo := fo) (a := ⟨[], sc :: ss, 0⟩) (a' := a') hl hs hd
  have key2 := fun x a' => visitInstruction_failsIn (fo := fo) (a := ⟨[], sc :: ss, 0⟩) (a' := a') (x := x) hl (by simp) hs hp hd
  have key3 := fun o => visitInstruction_stop (fo := fo) (a := ⟨[], sc :: ss, 0⟩) (o := o) hl (.inl (by simp)) hs hp hd
  have acc : ∀ t, InstrIn fo (r :: ls) s t →
      visitStatement fo ⟨[], sc :: ss, 0⟩ s = .ok ([], ⟨[], { sc with block := addTo sc.block t } :: ss, 0⟩) :=
    fun t ht => (key1 _).2 ⟨t, ht, rfl⟩
  rcases Stop.cases (visitStatement fo ⟨[], sc :: ss, 0⟩ s) with ⟨⟨es, a'⟩, h⟩ | ⟨x, h⟩ | ⟨o, h⟩
  · rcases visitInstruction_errs hl rfl hd hp h with rfl | ⟨rfl, x, rfl, hx⟩
    · obtain ⟨t, ht, _⟩ := (key1 _).1 h
      refine .inl ⟨t, ht, fun t' ht' => instr_unique hs ht' ht, ?_, ?_⟩
      · rintro ⟨y, hy⟩
        have := (key2 y _).2 ⟨hy, rfl⟩
        rw [h] at this
        simp at this
      · rintro ⟨o, ho⟩
        have := (key3 o).2 ho
        rw [h] at this
        exact Stop.ne_ok this
    · refine .inr (.inl ⟨x, ((key2 x _).1 h).1, fun y hy => instrFails_unique hs hp hd hy ((key2 x _).1 h).1, ?_, ?_, hx⟩)
      · rintro ⟨t, ht⟩
        have := acc t ht
        rw [h] at this
        simp at this
      · rintro ⟨o, ho⟩
        have := (key3 o).2 ho
        rw [h] at this
        exact Stop.ne_ok this
  · exact x.elim
  · refine .inr (.inr ⟨o, (key3 o).1 h, fun o' ho' => Stop.inj (((key3 o').2 ho').symm.trans h), ?_, ?_⟩)
    · rintro ⟨t, ht⟩
      have := acc t ht
      rw [h] at this
      exact Stop.ne_ok this.symm
    · rintro ⟨y, hy⟩
      have := (key2 y _).2 ⟨hy, rfl⟩
      rw [h] at this
      exact Stop.ne_ok this.symm

/-! ## The rules for programs with annotations are deterministic -/

private theorem operands_unique {l : Option Loc} {es : List (Expr F)} {vs vs' : List (Value F)} {errs errs' : List Err}
    (h : OperandsIn fo ls l es vs errs) (h' : OperandsIn fo ls l es vs' errs') : vs = vs' ∧ errs = errs' := by
  induction h generalizing vs' errs' with
  | nil => cases h'; exact ⟨rfl, rfl⟩
  | valid h1 _ ih =>
    cases h' with
    | valid h2 h3 =>
      cases eval_unique h1 h2
      obtain ⟨rfl, rfl⟩ := ih h3
      exact ⟨rfl, rfl⟩
    | invalid h2 _ _ => exact absurd ⟨_, h1⟩ h2
  | invalid h1 h1' _ ih =>
    cases h' with
    | valid h2 _ => exact absurd ⟨_, h2⟩ h1
    | invalid _ h2 h3 =>
      cases fails_unique h1'.1 h2.1
      obtain ⟨rfl, rfl⟩ := ih h3
      exact ⟨rfl, rfl⟩

private theorem notes_unique {as : List (AnnotationData F)} {sas sas' : List (SAnnotation F)} {errs errs' : List Err}
    (h : NotesIn fo ls as sas errs) (h' : NotesIn fo ls as sas' errs') : sas = sas' ∧ errs = errs' := by
  induction h generalizing sas' errs' with
  | nil => cases h'; exact ⟨rfl, rfl⟩
  | cons h1 _ ih =>
    cases h' with
    | cons h2 h3 =>
      obtain ⟨rfl, rfl⟩ := operands_unique h1 h2
      obtain ⟨rfl, rfl⟩ := ih h3
      exact ⟨rfl, rfl⟩

private theorem gateNoted_unique {g : Gate F} {s s' : SGate F} {errs errs' : List Err} (h : GateNoted fo ls g s errs)
    (h' : GateNoted fo ls g s' errs') (hb : bareGate s = bareGate s') : s = s' ∧ errs = errs' := by
  induction h generalizing s' errs' with
  | named h1 =>
    cases h' with
    | named h2 =>
      obtain ⟨rfl, rfl⟩ := notes_unique h1 h2
      simp only [bareGate, SGate.mk.injEq, true_and, and_true] at hb
      subst hb
      exact ⟨rfl, rfl⟩
  | modified _ h1 ih =>
    cases h' with
    | modified h2 h3 =>
      obtain ⟨rfl, rfl⟩ := notes_unique h1 h3
      simp only [bareGate, SGate.mk.injEq, true_and, and_true, Option.some.injEq] at hb
      obtain ⟨hb, rfl⟩ := hb
      obtain ⟨rfl, rfl⟩ := ih h2 hb
      exact ⟨rfl, rfl⟩

private theorem gateHere_unique {g : Gate F} (hg : ShapedGate g) {n n' : Nat} {s s' : SGate F} (h : GateHere fo ls g n s)
    (h' : GateHere fo ls g n' s') : s = s' := by
  obtain ⟨ss, hs⟩ := some_scopes ls
  have e1 := (visitGate_iff hs g hg s).2 ⟨n, h⟩
  have e2 := (visitGate_iff hs g hg s').2 ⟨n', h'⟩
  rw [e1] at e2
  simpa using e2

private theorem gateNotes_unique {g : Gate F} (hg : ShapedGate g) {errs errs' : List Err} (h : GateNotes fo ls g errs)
    (h' : GateNotes fo ls g errs') : errs = errs' := by
  induction h generalizing errs' with
  | valid h1 h2 =>
    cases h' with
    | valid h3 h4 => exact (gateNoted_unique h2 h4 (gateHere_unique (unnotedGate_shaped _ hg) h1 h3)).2
    | named h3 => exact absurd ⟨_, _, h1⟩ h3
    | modified h3 _ => exact absurd ⟨_, _, h1⟩ h3
  | named h1 =>
    cases h' with
    | valid h3 _ => exact absurd ⟨_, _, h3⟩ h1
    | named _ => rfl
  | modified h1 _ ih =>
    cases h' with
    | valid h3 _ => exact absurd ⟨_, _, h3⟩ h1
    | modified _ h3 => exact ih hg.2 h3

private theorem instrNoted_unique {r : Level F} {s : Stmt F} (hs : ShapedStmt s) {t t' : SStatement F} {errs errs' : List Err}
    (h : InstrNoted fo (r :: ls) s t errs) (h' : InstrNoted fo (r :: ls) s t' errs') : t = t' ∧ errs = errs' := by
  have hb := instr_unique (unnoted_shaped s hs) (instr_bare h) (instr_bare h')
  cases h with
  | gate _ h1 h2 =>
    cases h' with
    | gate _ h3 h4 =>
      simp only [bareInstr, SStatement.gate.injEq, and_true] at hb
      obtain ⟨rfl, hb, rfl⟩ := hb
      obtain ⟨rfl, rfl⟩ := gateNoted_unique h1 h3 hb
      obtain ⟨rfl, rfl⟩ := notes_unique h2 h4
      exact ⟨rfl, rfl⟩
  | nonGate _ h1 =>
    cases h' with
    | nonGate _ h3 =>
      simp only [bareInstr, SStatement.nonGate.injEq, and_true, true_and] at hb
      obtain ⟨rfl, rfl, rfl⟩ := hb
      obtain ⟨rfl, rfl⟩ := notes_unique h1 h3
      exact ⟨rfl, rfl⟩
  | asm h1 =>
    cases h' with
    | asm h3 =>
      obtain ⟨rfl, rfl⟩ := notes_unique h1 h3
      exact ⟨rfl, rfl⟩

private theorem ofInvalid_unique {s : Stmt F} (hs : ShapedStmt s) {errs errs' : List Err} (h : NotesOfInvalid fo ls s errs)
    (h' : NotesOfInvalid fo ls s errs') : errs = errs' := by
  cases s with
  | gate => exact gateNotes_unique hs.2.1 h h'
  | var => exact Eq.trans h (Eq.symm h')
  | nonGate => exact Eq.trans h (Eq.symm h')
  | asm => exact Eq.trans h (Eq.symm h')

/-- C116. The rules determine the variables, the instructions, the errors with their messages and positions, and what is
registered afterwards. -/
theorem C116_unique {r r1 r2 : Level F} {u : Nat} {ss : List (Stmt F)} (hs : ∀ s ∈ ss, ShapedStmt s) {vs1 vs2 : List (SVariable F)}
    {ts1 ts2 : List (SStatement F)} {errs1 errs2 : List Err} (h1 : NotedIn fo ls r u ss vs1 ts1 errs1 r1)
    (h2 : NotedIn fo ls r u ss vs2 ts2 errs2 r2) : vs1 = vs2 ∧ ts1 = ts2 ∧ errs1 = errs2 ∧ r1 = r2 := by
  induction h1 generalizing vs2 ts2 errs2 r2 with
  | nil => cases h2; exact ⟨rfl, rfl, rfl, rfl⟩
  | decl h3 h4 h4' _ ih =>
    have hs' := fun s h => hs s (List.mem_cons_of_mem _ h)
    cases h2 with
    | decl h5 h6 h6' h7 =>
      cases typeOk_det h3 h5
      obtain ⟨rfl, rfl⟩ := notes_unique h4' h6'
      obtain ⟨rfl, rfl, rfl, rfl⟩ := ih hs' h7
      exact ⟨rfl, rfl, rfl, rfl⟩
    | instr h5 _ => exact absurd trivial (instr_decl h5)
    | badType h5 _ _ => exact absurd ⟨_, h3⟩ h5
    | redeclared _ h5 _ _ => exact absurd h5 h4
    | badInstr h5 _ _ _ _ => exact absurd trivial h5
  | instr h3 _ ih =>
    have hs' := fun s h => hs s (List.mem_cons_of_mem _ h)
    have hd := instr_decl h3
    cases h2 with
    | decl => exact absurd trivial hd
    | instr h5 h6 =>
      obtain ⟨rfl, rfl⟩ := instrNoted_unique (hs _ (List.mem_cons_self ..)) h3 h5
      obtain ⟨rfl, rfl, rfl, rfl⟩ := ih hs' h6
      exact ⟨rfl, rfl, rfl, rfl⟩
    | badType => exact absurd trivial hd
    | redeclared => exact absurd trivial hd
    | badInstr _ h5 _ _ _ => exact absurd ⟨_, instr_bare h3⟩ h5
  | badType h3 h3' _ ih =>
    have hs' := fun s h => hs s (List.mem_cons_of_mem _ h)
    cases h2 with
    | decl h5 _ _ _ => exact absurd ⟨_, h5⟩ h3
    | instr h5 _ => exact absurd trivial (instr_decl h5)
    | badType _ h5 h6 =>
      cases typeFails_unique h3' h5
      obtain ⟨rfl, rfl, rfl, rfl⟩ := ih hs' h6
      exact ⟨rfl, rfl, rfl, rfl⟩
    | redeclared h5 _ _ _ => exact absurd ⟨_, h5⟩ h3
    | badInstr h5 _ _ _ _ => exact absurd trivial h5
  | redeclared h3 h4 h4' _ ih =>
    have hs' := fun s h => hs s (List.mem_cons_of_mem _ h)
    cases h2 with
    | decl _ h5 _ _ => exact absurd h4 h5
    | instr h5 _ => exact absurd trivial (instr_decl h5)
    | badType h5 _ _ => exact absurd ⟨_, h3⟩ h5
    | redeclared h5 _ h6 h7 =>
      cases typeOk_det h3 h5
      obtain ⟨rfl, rfl⟩ := notes_unique h4' h6
      obtain ⟨rfl, rfl, rfl, rfl⟩ := ih hs' h7
      exact ⟨rfl, rfl, rfl, rfl⟩
    | badInstr h5 _ _ _ _ => exact absurd trivial h5
  | @badInstr r u s ss es vs ts errs r' e h3 h4 h4' h4'' _ ih =>
    have hs' := fun s h => hs s (List.mem_cons_of_mem _ h)
    have hsh := hs _ (List.mem_cons_self ..)
    cases h2 with
    | decl => exact absurd trivial h3
    | instr h5 _ => exact absurd ⟨_, instr_bare h5⟩ h4
    | badType => exact absurd trivial h3
    | redeclared => exact absurd trivial h3
    | badInstr _ _ h5 h6 h7 =>
      cases ofInvalid_unique hsh h4' h5
      cases instrFails_unique (unnoted_shaped s hsh) (unnoted_plain s) (fun h => h3 ((unnoted_decl s).1 h)) h4''.1 h6.1
      obtain ⟨rfl, rfl, rfl, rfl⟩ := ih hs' h7
      exact ⟨rfl, rfl, rfl, rfl⟩

/-- C116. The rules determine what is kept after a session, and each answer, up to the location of the block: the errors, with
their messages and positions, and the tree, with its annotations. -/
theorem C116_determined {es : List (Event F)} (hp : ∀ p, .analyze p ∈ es → ShapedProgram p) {m m1 m2 : Memory F}
    {rs1 rs2 : List (Result (SProgram F))} (h1 : AnswersNoted fo v es m rs1 m1) (h2 : AnswersNoted fo v es m rs2 m2) :
    m1 = m2 ∧ Forall2 (fun r r' => r.errors = r'.errors ∧ ∃ t t', r.root = some t ∧ r'.root = some t' ∧
      t.apiVersion = t'.apiVersion ∧ t.version = t'.version ∧ t.variables = t'.variables ∧
      t.block.statements = t'.block.statements) rs1 rs2 := by
  induction h1 generalizing rs2 with
  | nil => cases h2; exact ⟨rfl, .nil⟩
  | call _ ih =>
    cases h2 with
    | call h2 => exact ih (fun p h => hp p (List.mem_cons_of_mem _ h)) h2
  | analyze h3 _ ih =>
    cases h2 with
    | analyze h4 h5 =>
      obtain ⟨f, fs, l, vs, ts, errs, verrs, e1, e2, rfl, e3, e4, ⟨root, e5, e5', e6, e7, _, e8⟩, _⟩ := h3
      obtain ⟨f', fs', l', vs', ts', errs', verrs', k1, k2, rfl, k3, k4, ⟨root', k5, k5', k6, k7, _, k8⟩, _⟩ := h4
      rw [e1] at k1
      cases k1
      obtain ⟨rfl, rfl, rfl, rfl⟩ := C116_unique (hp _ (List.mem_cons_self ..)) e2 k2
      obtain ⟨rfl, e9⟩ := ih (fun p h => hp p (List.mem_cons_of_mem _ h)) h5
      refine ⟨rfl, .cons ⟨?_, root, root', e5, k5, e5'.trans k5'.symm, versionNode_unique e8 k8, e6.trans k6.symm,
        e7.trans k7.symm⟩ e9⟩
      rw [e3, k3, ← (versionErrors_iff ..).1 e4, ← (versionErrors_iff ..).1 k4]

/-- C116. After any session, if the analysis of a program returns then its errors are those that the rules say, and no others:
with what is registered (`m`, which the session determines) the rules give exactly one list of errors. -/
theorem C116_errors {a b : Analyzer F} (ha : Analyzer.new v = some a) {es : List (Event F)} {rs : List (Result (SProgram F))}
    (h : Answers fo es a rs b) (hp : ∀ p, .analyze p ∈ es → ShapedProgram p) :
    ∃ m, AnswersNoted fo v es ⟨[⟨⟨[], [], []⟩, [], []⟩], 0⟩ rs m ∧ ∀ p, ShapedProgram p → ∀ b' r, analyze fo b p = .ok (b', r) →
      ∀ errs, ErrorsIn fo v m p errs ↔ errs = r.errors := by
  obtain ⟨m, h1, h2⟩ := answers_noted h hp (keeps_new ha)
  refine ⟨m, h1, fun p hp' b' r h3 errs => ?_⟩
  obtain ⟨m', ⟨f, fs, l, vs, ts, errs1, verrs, e1, e2, _, e3, e4, _⟩, _⟩ := keeps_noted h2 hp' h3
  constructor
  · rintro ⟨f', fs', l', vs', ts', errs', verrs', k1, k2, k3, rfl⟩
    rw [e1] at k1
    cases k1
    obtain ⟨rfl, rfl, rfl, rfl⟩ := C116_unique hp' e2 k2
    rw [e3, ← (versionErrors_iff ..).1 e4, ← (versionErrors_iff ..).1 k3]
  · rintro rfl
    exact ⟨f, fs, l, vs, ts, errs1, verrs, e1, e2, e4, e3⟩

/-! ## Examples -/

section Examples

open Sample

private def at1 (n : Nat) : Option Loc := some ⟨none, ⟨⟨n, 1⟩, ⟨n, 2⟩⟩⟩

/-- Throws with a position of its own for 0, without one for 1, returns nothing for 2, and else its argument. -/
private def moody : CoreFn Int
  | [⟨.constInt 0, _⟩] => .err ⟨c!"zero", at1 99⟩
  | [⟨.constInt 1, _⟩] => .err ⟨c!"one", none⟩
  | [⟨.constInt 2, _⟩] => .ok none
  | [⟨.constInt i, _⟩] => .ok (some ⟨.constInt i, none⟩)
  | _ => .ok none

/-- `f(i)` at line `n`. -/
private def call (n : Nat) (i : Int64) : Expr Int := .call (at1 n) c!"f" [int i]

/-- `X e` at line `n`. -/
private def flip (n : Nat) (e : Expr Int) : Stmt Int := .gate (at1 n) [] (.mk none [] c!"X" none []) [e]

private def rejected : List (Stmt Int) :=
  [qubits c!"q" 4,
   flip 10 (.index (at1 11) (name c!"q") [.item none (call 12 0)]),
   flip 20 (.index (at1 21) (name c!"q") [.item none (call 22 1)]),
   flip 30 (.index none (name c!"q") [.item none (call 32 2)]),
   flip 40 (.index (at1 41) (name c!"q") [.item none (.un (at1 42) .neg (call 43 1))]),
   flip 50 (.index (at1 51) (name c!"q") [.range (at1 52) (call 53 3) (call 54 4), .item none (int 7)]),
   flip 60 (.index (at1 61) (name c!"q") [.range (at1 62) (call 63 4) (call 64 3)]),
   flip 70 (.call (at1 71) c!"f" [name c!"q"]),
   flip 80 (call 81 3),
   flip 90 (.call (at1 91) c!"g" [name c!"q"]),
   flip 100 (.bin (at1 101) .add (call 102 3) (call 103 4))]

private def answers : Option (List (Str × Option Loc)) :=
  (Analyzer.new [3, 0]).bind fun a =>
    match registerInstruction a ⟨c!"X", [.bare .qubitArray]⟩ with
    | .ok a =>
      match registerFunction a c!"f" [.bare .int] moody with
      | .ok a =>
        match analyze Sample.fo a (program rejected) with
        | .ok (_, r) => some (r.errors.map fun e => (e.message, e.location))
        | _ => none
      | _ => none
    | _ => none

/-- C116: an error of a function keeps its position if it has one; else it gets that of the operand or index expression
around it. That nothing is returned is an error as well. -/
example : answers = some
    [(c!"zero", at1 99), (c!"one", at1 21), (c!"function implementation returned empty value", at1 30), (c!"one", at1 43),
     (c!"index 4 out of range (size 4)", at1 51), (c!"last index is lower than first index", at1 62),
     (c!"failed to resolve overload for 'f' with argument pack (qubit array)", at1 71),
     (c!"failed to resolve instruction 'X' with argument pack (int)", at1 80),
     (c!"failed to resolve 'g'", at1 91), (c!"failed to resolve 'operator+'", at1 101)] := by
  decide +kernel

/-- The programs of the example are as the theorems assume. -/
example : ShapedProgram (program rejected) := by
  intro s hs
  simp only [program, rejected, List.mem_cons, List.not_mem_nil, or_false] at hs
  rcases hs with rfl | rfl | rfl | rfl | rfl | rfl | rfl | rfl | rfl | rfl | rfl <;>
    simp [ShapedStmt, ShapedAnnotations, ShapedGate, ShapedGateAnnotations, ShapedExpr, ShapedExprs, ShapedEntries, flip, call, int, name, qubits, modifiers, nonGates]

/-- The rules for one of them: the function is chosen and throws without a position, and the index expression adds its own. -/
example : FailsIn Sample.fo [⟨[(c!"q", ⟨.variableRef ⟨0, c!"q", ⟨.qubitArray, 4⟩⟩, none⟩)], [(c!"f", moody, [.bare .int])], []⟩]
    (.index (at1 21) (name c!"q") [.item none (call 22 1)]) ⟨c!"one", at1 21⟩ := by
  refine .indices (y := ⟨0, c!"q", ⟨.qubitArray, 4⟩⟩) (ly := none) (.ident (.here (older := []) (newer := []) rfl (by simp))) (.inl rfl)
    (x := ⟨c!"one", none⟩) (.head (.item (.call (vs := [⟨.constInt 1, none⟩]) ?_ (.thrown rfl (f := moody)
      (args' := [⟨.constInt 1, none⟩]) ⟨[], [.bare .int], [], rfl, ?_, ?_⟩ rfl))))
  · exact .cons (.intLit ..) .nil
  · exact .cons (.same rfl) .nil
  · simp

end Examples

end Qasm
