import Verif.Lemmas.CustomProgram
import Verif.Lemmas.Accept
import Verif.Props.Failure
/-!
# Analysers with their own registrations (C111, C112)

The user makes an analyser in which nothing is registered, and registers constants, functions and instructions in any
order, in any scopes (`Calls cs a b`). `registered cs` is what is registered then. `C109_default`: a default analyser is
one of these, as is one to which a user has added registrations.
-/

namespace Qasm

open Spec Sem Analyzer

variable {F : Type} {fo : FloatOps F} {v : Version} {cs : List (Call F)} {a b : Analyzer F} {p : ProgramAst F}

/-! ## Analysers that have not analysed anything -/

private def Unused (v : Version) (a : Analyzer F) : Prop :=
  a.apiVersion = v ∧ a.nextUid = 0 ∧ ∀ s ∈ a.scopes, s.block = ⟨[], none⟩ ∧ s.variables = []

private theorem unused_last (f : Scope F → Scope F) (hf : ∀ s, (f s).block = s.block ∧ (f s).variables = s.variables)
    {ss ss' : List (Scope F)} (h : ∀ s ∈ ss, s.block = ⟨[], none⟩ ∧ s.variables = []) (hm : modifyLast f ss = .ok ss') :
    ∀ s ∈ ss', s.block = ⟨[], none⟩ ∧ s.variables = [] := by
  induction ss generalizing ss' with
  | nil => cases hm
  | cons s ss ih =>
    cases ss with
    | nil =>
      cases hm
      simp only [List.mem_singleton, forall_eq, hf] at h ⊢
      exact h
    | cons t ss =>
      obtain ⟨ss1, h1, h2⟩ := Res.bind_eq_ok.1 hm
      cases h2
      have := ih (fun s hs => h s (List.mem_cons_of_mem _ hs)) h1
      intro s' hs'
      rcases List.mem_cons.1 hs' with rfl | hs'
      · exact h _ (List.mem_cons_self ..)
      · exact this _ hs'

private theorem unused_current (f : Scope F → Res Err (Scope F))
    (hf : ∀ s s', f s = .ok s' → s'.block = s.block ∧ s'.variables = s.variables) (h : Unused v a)
    (hm : a.modifyCurrent f = .ok b) : Unused v b := by
  unfold modifyCurrent at hm
  split at hm
  · cases hm
  · next s rest hs =>
    obtain ⟨s', h1, h2⟩ := Res.bind_eq_ok.1 hm
    cases h2
    refine ⟨h.1, h.2.1, fun t ht => ?_⟩
    rcases List.mem_cons.1 ht with rfl | ht
    · rw [(hf _ _ h1).1, (hf _ _ h1).2]
      exact h.2.2 s (by rw [hs]; exact List.mem_cons_self ..)
    · exact h.2.2 t (by rw [hs]; exact List.mem_cons_of_mem _ ht)

private theorem unused_calls (h : Unused v a) (hc : Calls cs a b) : Unused v b := by
  induction hc with
  | nil => exact h
  | error _ _ ih => exact ih h
  | @ok c cs a b d h1 _ ih =>
    apply ih
    cases c with
    | push =>
      cases h1
      refine ⟨h.1, h.2.1, fun t ht => ?_⟩
      rcases List.mem_cons.1 ht with rfl | ht
      · exact ⟨rfl, rfl⟩
      · exact h.2.2 t ht
    | pop =>
      simp only [Call.on, popScope] at h1
      split at h1
      · cases h1
      · next s rest hs =>
        cases h1
        exact ⟨h.1, h.2.1, fun t ht => h.2.2 t (by rw [hs]; exact List.mem_cons_of_mem _ ht)⟩
    | var name value =>
      refine unused_current _ (fun s s' hs => ?_) h h1
      obtain ⟨_, _, h2⟩ := Res.bind_eq_ok.1 hs
      cases h2
      exact ⟨rfl, rfl⟩
    | instruction i =>
      refine unused_current _ (fun s s' hs => ?_) h h1
      cases hs
      exact ⟨rfl, rfl⟩
    | function name params f =>
      obtain ⟨ss, h2, h3⟩ := Res.bind_eq_ok.1 h1
      cases h3
      exact ⟨h.1, h.2.1, unused_last (fun s => { s with fnTable := FnTable.add s.fnTable name params f })
        (fun s => ⟨rfl, rfl⟩) h.2.2 h2⟩

private theorem unused_new (ha : Analyzer.new v = some a) : Unused v a := by
  unfold Analyzer.new at ha
  split at ha
  · cases ha
    exact ⟨rfl, rfl, fun s hs => by simp only [List.mem_singleton] at hs; subst hs; exact ⟨rfl, rfl⟩⟩
  · cases ha

/-- The state of such an analyser. -/
private theorem state (ha : Analyzer.new v = some a) (hc : Calls cs a b) :
    (registered cs = [] ∧ b = ⟨v, [], 0⟩) ∨
    ∃ r ls s ss, registered cs = r :: ls ∧ b = ⟨v, s :: ss, 0⟩ ∧ Forall2 HoldsLevel (s :: ss) (r :: ls) ∧ s.block = ⟨[], none⟩ ∧
      s.variables = [] := by
  have h1 := holds_registered ha hc
  obtain ⟨h2, h3, h4⟩ := unused_calls (unused_new ha) hc
  obtain ⟨w, sc, u⟩ := b
  simp only at h1 h2 h3 h4
  subst h2 h3
  generalize registered cs = l at h1
  cases h1 with
  | nil => exact .inl ⟨rfl, rfl⟩
  | cons h5 h6 =>
    have := h4 _ (List.mem_cons_self ..)
    exact .inr ⟨_, _, _, _, rfl, rfl, .cons h5 h6, this.1, this.2⟩

/-! ## C111 -/

/-- C111. What an analyser with its own registrations accepts follows the rules: the version statement denotes its version,
the statements are valid given what is registered, and no value refers to a variable that the program does not declare. The
result consists of what the rules determine. -/
theorem C111_accepted (ha : Analyzer.new v = some a) (hc : Calls cs a b) (hp : ShapedProgram p) {r : SProgram F}
    (h : Accepts fo b p r) :
    VersionOk v p.version.items ∧ r.apiVersion = v ∧ r.version = ⟨p.version.items, p.version.loc⟩ ∧
      ExecIn fo (registered cs) 0 p.block.statements r.variables r.block.statements ∧
      ClosedProgram r.variables r.block.statements := by
  obtain ⟨a', h⟩ := h
  rcases state ha hc with ⟨_, rfl⟩ | ⟨l, ls, s, ss, h1, rfl, h2, h3, h4⟩
  · exact absurd h (analyze_noScope v 0 hp a' _)
  · obtain ⟨hv, vs, ts, h5, h6, _, h7⟩ := (analyze_iff v 0 h2 hp a' _).1 h
    cases h7
    rw [h3, h4] at h6
    rw [h1, h3, h4]
    rw [blockAfter_statements]
    exact ⟨hv, rfl, rfl, h5, h6⟩

/-- C111. All programs that follow the rules are accepted, as long as the user has not popped all scopes. The block has no
location or the smallest one around its located instructions. -/
theorem C111_accepts (ha : Analyzer.new v = some a) (hc : Calls cs a b) (hp : ShapedProgram p) (hne : registered cs ≠ [])
    (hv : VersionOk v p.version.items) {vs : List (SVariable F)} {ts : List (SStatement F)}
    (h : ExecIn fo (registered cs) 0 p.block.statements vs ts) (hcl : ClosedProgram vs ts) :
    ∃ loc, Accepts fo b p ⟨v, ⟨p.version.items, p.version.loc⟩, ⟨ts, loc⟩, vs⟩ ∧
      ((∀ t ∈ ts, ∀ l, t.loc = some l → PosLe l.range.first l.range.last) →
        (loc = none ∧ ts.filterMap SStatement.loc = []) ∨ ∃ l, loc = some l ∧ IsHull (ts.filterMap SStatement.loc) l) := by
  rcases state ha hc with ⟨h1, _⟩ | ⟨l, ls, s, ss, h1, rfl, h2, h3, h4⟩
  · exact absurd h1 hne
  · rw [h1] at h
    refine ⟨_, ⟨_, (analyze_iff v 0 h2 hp _ _).2 ⟨hv, vs, ts, h, by rw [h3, h4]; exact hcl, rfl, ?_⟩⟩, blockAfter_loc ts⟩
    rw [h3, h4, List.nil_append, ← blockAfter_eq]

/-- C111. A program that follows the rules except that some value refers to a variable of the user, or to no element at
all, makes the analyser throw. -/
theorem C111_throws (ha : Analyzer.new v = some a) (hc : Calls cs a b) (hp : ShapedProgram p) (hne : registered cs ≠ [])
    (hv : VersionOk v p.version.items) {vs : List (SVariable F)} {ts : List (SStatement F)}
    (h : ExecIn fo (registered cs) 0 p.block.statements vs ts) (hcl : ¬ ClosedProgram vs ts) :
    analyze fo b p = .exn c!"std::runtime_error" := by
  rcases state ha hc with ⟨h1, _⟩ | ⟨l, ls, s, ss, h1, rfl, h2, h3, h4⟩
  · exact absurd h1 hne
  · rw [h1] at h
    exact analyze_open v 0 h2 hp hv h (by rw [h3, h4]; exact hcl)

/-- C111. The rules determine at most one result. -/
theorem C111_unique (hp : ShapedProgram p) (ha : Analyzer.new v = some a) (hc : Calls cs a b) (hne : registered cs ≠ [])
    {vs vs' : List (SVariable F)} {ts ts' : List (SStatement F)}
    (h : ExecIn fo (registered cs) 0 p.block.statements vs ts) (h' : ExecIn fo (registered cs) 0 p.block.statements vs' ts') :
    vs = vs' ∧ ts = ts' := by
  rcases state ha hc with ⟨h1, _⟩ | ⟨l, ls, s, ss, h1, rfl, h2, h3, h4⟩
  · exact absurd h1 hne
  · rw [h1] at h h'
    have e1 := (visitBlock_iff p.block.statements hp v 0 h2 _).2 ⟨vs, ts, h, rfl⟩
    have e2 := (visitBlock_iff p.block.statements hp v 0 h2 _).2 ⟨vs', ts', h', rfl⟩
    rw [e1] at e2
    simp only [Res.ok.injEq, Prod.mk.injEq, true_and, stateAfter, Analyzer.mk.injEq, List.cons.injEq, Scope.mk.injEq, h3, h4,
      List.nil_append] at e2
    refine ⟨e2.1.1.2.2, ?_⟩
    have := congrArg SBlock.statements e2.1.1.2.1
    simpa only [blockAfter_statements, List.nil_append] using this

/-- C111. The two sets of rules agree on the default registrations: what the language reference says (`Valid`) is what the
rules for any registrations say about those of a default analyser. -/
theorem C111_default (h : Analyzer.default fo v = .ok b) (hp : ShapedProgram p) :
    ∃ (a : Analyzer F) (cs : List (Call F)), Analyzer.new v = some a ∧ Calls cs a b ∧ ∀ vs ts,
      (Valid fo v p vs ts ↔
        VersionOk v p.version.items ∧ ExecIn fo (registered cs) 0 p.block.statements vs ts ∧ ClosedProgram vs ts) := by
  obtain ⟨a, cs, ha, hc⟩ := C109_default h
  refine ⟨a, cs, ha, hc, fun vs ts => ⟨fun hv => ?_, ?_⟩⟩
  · have h1 := C111_accepted ha hc hp (valid_accepts h hp hv)
    exact ⟨h1.1, h1.2.2.2⟩
  · rintro ⟨h1, h2, h3⟩
    have hne : registered cs ≠ [] := by
      intro h0
      rcases state ha hc with ⟨_, rfl⟩ | ⟨l, ls, s, ss, h1, _⟩
      · have := default_state h
        cases this
      · rw [h0] at h1; cases h1
    obtain ⟨loc, h4, _⟩ := C111_accepts ha hc hp hne h1 h2 h3
    have h5 := (accepts_valid h hp h4).1
    exact h5

/-! ## C112 -/

private theorem fixed_seen {ls : List (Level F)} (h : NumbersFixed ls) {name : Str} {w : Value F} (hs : Seen name w ls) :
    NumberFixed w := by
  induction hs with
  | @here l ls older newer h1 _ => exact (h l (List.mem_cons_self ..)).1 (name, w) (by rw [h1]; simp)
  | outer _ _ ih => exact ih fun l hl => h l (List.mem_cons_of_mem _ hl)

private theorem lastFitting_mem {T : Type} {regs : List (Registration T)} {name : Str} {vs ws : List (Value F)} {x : T}
    (h : LastFitting fo regs name vs x ws) : ∃ r ∈ regs, r.2.1 = x := by
  obtain ⟨older, ts, newer, h1, _⟩ := h
  exact ⟨(name, x, ts), by rw [h1]; simp, rfl⟩

private theorem fixed_returns {ls : List (Level F)} (h : NumbersFixed ls) {name : Str} {args : List (Value F)} {r : Value F}
    (hr : Returns fo ls name args r) : NumberFixed r := by
  obtain ⟨g, f, args', h1, h2, h3⟩ := hr
  obtain ⟨reg, h4, rfl⟩ := lastFitting_mem h2
  exact (h g (List.mem_of_getLast? h1)).2 reg h4 args' r h3

private theorem fixed_eval {ls : List (Level F)} (h : NumbersFixed ls) {e : Expr F} {w : Value F} (he : EvalIn fo ls e w) :
    NumberFixed w := by
  cases he with
  | boolLit l b => exact fun _ => ⟨.bool b, rfl⟩
  | intLit l i => exact fun _ => ⟨.int i, rfl⟩
  | floatLit l f => exact fun _ => ⟨.float f, rfl⟩
  | ident h1 => exact fixed_seen h h1
  | index h1 h2 _ _ => 
    intro hk
    have : ∀ x : VarLink, x.typ.kind = .qubitArray ∨ x.typ.kind = .bitArray → ∀ is, kindOf (F := F) (.indexRef x is) ≠ some .bool ∧
        kindOf (F := F) (.indexRef x is) ≠ some .int := by
      intro x hx is
      rcases is with _ | ⟨i, _ | ⟨j, is⟩⟩ <;> rcases hx with hx | hx <;> simp [kindOf, hx, elementKind]
    have := this _ h2
    exact absurd hk (not_or.2 (this _))
  | call _ h1 => exact fixed_returns h h1
  | un _ h1 => exact fixed_returns h h1
  | bin _ _ h1 => exact fixed_returns h h1
  | tern _ _ _ h1 => exact fixed_returns h h1

private theorem fixed_args {ls : List (Level F)} (h : NumbersFixed ls) : ∀ {es : List (Expr F)} {vs : List (Value F)},
    ArgsIn fo ls es vs → ∀ w ∈ vs, NumberFixed w
  | _, _, .nil => fun w hw => by cases hw
  | _, _, .cons h1 h2 => fun w hw => by
    rcases List.mem_cons.1 hw with rfl | hw
    · have := fixed_eval h h1
      exact this
    · exact fixed_args h h2 w hw

private theorem widens_const {c : Const F} {k : Kind} (h : Widens c.kind k) : ∃ c', Converts fo c k c' := by
  cases c with
  | bool b =>
    cases h with
    | same => exact ⟨_, .same (.bool b)⟩
    | boolInt => cases b
                 · exact ⟨_, .falseInt⟩
                 · exact ⟨_, .trueInt⟩
    | boolFloat => exact ⟨_, .boolFloat b⟩
  | int i =>
    cases h with
    | same => exact ⟨_, .same (.int i)⟩
    | intFloat => exact ⟨_, .intFloat i⟩
  | float f =>
    cases h with
    | same => exact ⟨_, .same (.float f)⟩

private theorem fixed_passed {w : Value F} {k : Kind} {ws : List (Value F)} (hw : NumberFixed w) (h : Passed fo w k ws) :
    ∃ u, ws = [u] ∧ kindOf u.node = some k := by
  cases h with
  | @passed u h1 =>
    refine ⟨u, rfl, ?_⟩
    cases h1 with
    | same h2 => exact h2
    | @const c c' _ l h2 => rw [kindOf_node, converts_kind h2]
    | @boolVar x l h2 =>
      obtain ⟨c, hc⟩ := hw (.inl (by simp [kindOf, h2]))
      cases c <;> cases hc
  | @lost k' h1 h2 h3 =>
    exfalso
    apply h3
    have key : ∀ (c : Const F), w.node = c.node → ∃ u, PromotesTo fo w k u := by
      intro c hc
      rw [hc, kindOf_node, Option.some.injEq] at h1
      subst h1
      obtain ⟨c', h4⟩ := widens_const (fo := fo) h2
      obtain ⟨n, l⟩ := w
      simp only at hc
      subst hc
      exact ⟨_, .const l h4⟩
    cases h2 with
    | same => exact ⟨w, .same h1⟩
    | boolInt => obtain ⟨c, hc⟩ := hw (.inl h1); exact key c hc
    | boolFloat => obtain ⟨c, hc⟩ := hw (.inl h1); exact key c hc
    | intFloat => obtain ⟨c, hc⟩ := hw (.inr h1); exact key c hc

private theorem fixed_params {vs ws : List (Value F)} {ks : List Kind} (h : ParamsIn fo vs ks ws) (hv : ∀ w ∈ vs, NumberFixed w) :
    Forall2 (fun (p : Value F) k => kindOf p.node = some k) ws ks := by
  induction h with
  | nil => exact .nil
  | cons h1 _ ih =>
    obtain ⟨u, rfl, hu⟩ := fixed_passed (hv _ (List.mem_cons_self ..)) h1
    exact .cons hu (ih fun w hw => hv w (List.mem_cons_of_mem _ hw))

private theorem fixed_gate {ls : List (Level F)} (h : NumbersFixed ls) {g : Gate F} {n : Nat} {s : SGate F}
    (hg : GateHere fo ls g n s) : Complete s := by
  induction hg with
  | named h1 h2 h3 _ => exact .named h1 (fixed_params h3 (fixed_args h h2))
  | modified h1 _ h2 h3 _ ih => exact .modified h1 ih (fixed_params h3 (fixed_args h h2))

private theorem fixed_exec {ls : List (Level F)} {u : Nat} {ss : List (Stmt F)} {vs : List (SVariable F)}
    {ts : List (SStatement F)} (he : ExecIn fo ls u ss vs ts) (h : NumbersFixed ls) :
    ∀ i g ops as l, SStatement.gate i g ops as l ∈ ts → Complete g := by
  induction he with
  | nil => intro _ _ _ _ _ hm; cases hm
  | @decl r ls u l as name typ ss t sas vs ts h1 h2 h3 _ ih =>
    refine ih fun l hl => ?_
    rcases List.mem_cons.1 hl with rfl | hl
    · have := h r (List.mem_cons_self ..)
      refine ⟨fun x hx => ?_, this.2⟩
      rcases List.mem_append.1 hx with hx | hx
      · exact this.1 x hx
      · simp only [List.mem_singleton] at hx
        subst hx
        intro hk
        cases h1 <;> simp [kindOf] at hk
    · exact h l (List.mem_cons_of_mem _ hl)
  | instr h1 _ ih =>
    intro i g ops as l hm
    rcases List.mem_cons.1 hm with he | hm
    · subst he
      cases h1 with
      | gate h2 _ _ _ _ => exact fixed_gate h h2
    · exact ih h i g ops as l hm

/-- C112, what holds: if the numbers and truth values among the registered variables are constants, and the registered
functions return no others, then every gate of a result has the parameters that the gate set demands, of the right kinds.
Missing: analysers in which a variable of type `int` or `bool` is registered (`C112_refuted`). -/
theorem C112_complete_partial (ha : Analyzer.new v = some a) (hc : Calls cs a b) (hp : ShapedProgram p)
    (hf : NumbersFixed (registered cs)) {r : SProgram F} (h : Accepts fo b p r) {i : Instruction} {g : SGate F}
    {ops : List (Value F)} {as : List (SAnnotation F)} {l : Option Loc} (hm : .gate i g ops as l ∈ r.block.statements) :
    Complete g :=
  fixed_exec (C111_accepted ha hc hp h).2.2.2.1 hf i g ops as l hm

private theorem complete_params {D : List VarLink} {es : List (Expr F)} {ks : List Kind} {vs : List (Value F)}
    (h : EvalParams fo D es ks vs) : Forall2 (fun (p : Value F) k => kindOf p.node = some k) vs ks := by
  induction h with
  | nil => exact .nil
  | cons _ h1 _ ih => exact .cons (by rw [kindOf_node, converts_kind h1]) ih

private theorem complete_gate {D : List VarLink} {g : Gate F} {n : Nat} {s : SGate F} (h : GateOk fo D g n s) : Complete s := by
  induction h with
  | named h1 h2 _ => exact .named h1 (complete_params h2)
  | inv _ _ ih => exact .modified (by simp [modifiers]) ih .nil
  | pow _ h1 _ ih => exact .modified (by simp [modifiers]) ih (complete_params h1)
  | ctrl _ _ ih => exact .modified (by simp [modifiers]) ih .nil

private theorem complete_exec {D : List VarLink} {ss : List (Stmt F)} {vs : List (SVariable F)} {ts : List (SStatement F)}
    (h : Exec fo D ss vs ts) : ∀ i g ops as l, SStatement.gate i g ops as l ∈ ts → Complete g := by
  induction h with
  | nil => intro _ _ _ _ _ hm; cases hm
  | decl _ _ _ _ ih => exact ih
  | instr h1 _ ih =>
    intro i g ops as l hm
    rcases List.mem_cons.1 hm with he | hm
    · subst he
      cases h1 with
      | gate h2 => exact complete_gate h2
    · exact ih i g ops as l hm

/-- C112, what holds: every gate of a result of a default analyser has the parameters that the gate set demands. -/
theorem C112_default_partial (h : Analyzer.default fo v = .ok b) (hp : ShapedProgram p) {r : SProgram F} (hr : Accepts fo b p r)
    {i : Instruction} {g : SGate F} {ops : List (Value F)} {as : List (SAnnotation F)} {l : Option Loc}
    (hm : .gate i g ops as l ∈ r.block.statements) : Complete g :=
  complete_exec (accepts_valid h hp hr).1.2 i g ops as l hm

/-- What the user of the next theorem registers: the gate `Rx` on a qubit, and a variable `n` of type `int`. -/
private def withVariable : List (Call F) :=
  [.instruction ⟨c!"Rx", [.bare .qubit]⟩, .var c!"n" ⟨.variableRef ⟨7, c!"n", .bare .int⟩, none⟩]

/-- `version 3.0; qubit q; Rx(n) q` -/
private def rxOf : ProgramAst F :=
  ⟨⟨[3, 0], none⟩, ⟨[.var none [] ⟨c!"q", none⟩ ⟨c!"qubit", none, none⟩,
    .gate none [] (.mk none [] c!"Rx" none [.ident none c!"n"]) [.ident none c!"q"]], none⟩, none⟩

/-- C112 is false: with a variable `n` of type `int` registered, `Rx(n) q` is accepted, and the gate in the result has no
parameter. -/
theorem C112_refuted (fo : FloatOps F) : ∃ (a b : Analyzer F) (cs : List (Call F)) (p : ProgramAst F) (r : SProgram F)
    (i : Instruction) (g : SGate F) (ops : List (Value F)), Analyzer.new [3, 0] = some a ∧ Calls cs a b ∧ ShapedProgram p ∧
    Accepts fo b p r ∧ .gate i g ops [] none ∈ r.block.statements ∧ ¬ Complete g := by
  refine ⟨_, _, withVariable, rxOf, ⟨[3, 0], ⟨[3, 0], none⟩, ⟨[.gate ⟨c!"Rx", [.bare .qubit]⟩ (.mk c!"Rx" none [] [] none)
    [⟨.variableRef ⟨0, c!"q", ⟨.qubit, 1⟩⟩, none⟩] [] none], none⟩, [⟨0, c!"q", ⟨.qubit, 1⟩, [], none⟩]⟩, ⟨c!"Rx", [.bare .qubit]⟩, .mk c!"Rx" none [] [] none,
    [⟨.variableRef ⟨0, c!"q", ⟨.qubit, 1⟩⟩, none⟩], rfl, .ok rfl (.ok rfl .nil), ?_, ⟨_, rfl⟩, ?_, ?_⟩
  · intro s hs
    simp only [rxOf, List.mem_cons, List.not_mem_nil, or_false] at hs
    rcases hs with rfl | rfl
    · intro x hx; cases hx
    · refine ⟨fun x hx => (by cases hx), ?_, ?_, ?_⟩
      · exact ⟨by decide, by decide⟩
      · intro x hx; cases hx
      · simp [ShapedExpr]
  · exact .head _
  · intro h
    cases h with
    | @named _ n ks _ _ _ h1 h2 =>
      cases h2
      revert h1
      simp [namedGates]

/-! ## Examples -/

section Examples

private def next : CoreFn Int
  | [⟨.constInt i, _⟩] => .ok (some ⟨.constInt (i + 1), none⟩)
  | _ => .ok none

/-- Registers a constant, a function, an overload of `X` for bits, and in an inner scope one for two qubits. -/
private def mine : List (Call Int) :=
  [.var c!"two" ⟨.constInt 2, none⟩, .function c!"next" [.bare .int] next,
   .instruction ⟨c!"X", [.bare .bitArray]⟩, .push, .instruction ⟨c!"X", [.bare .qubit, .bare .qubit]⟩]

/-- `bit[4] b; X b[two, next(two)]` -/
private def bitFlip : ProgramAst Int := Sample.program [Sample.bits c!"b" 4,
  Sample.gate c!"X" [] [.index none (Sample.name c!"b")
    [.item none (Sample.name c!"two"), .item none (.call none c!"next" [Sample.name c!"two"])]]]

/-- The analyser accepts the program, with the overload for bits. -/
example : ∃ a b : Analyzer Int, Analyzer.new [3, 0] = some a ∧ Calls mine a b ∧ (registered mine).length = 2 ∧
    ∃ r, Accepts Sample.fo b bitFlip r ∧ r.block.statements =
      [.gate ⟨c!"X", [.bare .bitArray]⟩ (.mk c!"X" none [] [] none)
        [⟨.indexRef ⟨0, c!"b", ⟨.bitArray, 4⟩⟩ [(2, none), (3, none)], none⟩] [] none] :=
  ⟨_, _, rfl, .ok rfl (.ok rfl (.ok rfl (.ok rfl (.ok rfl .nil)))), rfl, _, ⟨_, rfl⟩, rfl⟩

/-- `qubit[4] q; X q[0]` is not accepted: no registered overload fits. -/
example : ∃ a b : Analyzer Int, Analyzer.new [3, 0] = some a ∧ Calls mine a b ∧
    ∃ a' r e, analyze Sample.fo b (Sample.program [Sample.qubits c!"q" 4, Sample.gate c!"X" [] [Sample.at_ c!"q" 0]]) =
      .ok (a', ⟨r, [e]⟩) ∧ e.message = c!"failed to resolve instruction 'X' with argument pack (qubit)" :=
  ⟨_, _, rfl, .ok rfl (.ok rfl (.ok rfl (.ok rfl (.ok rfl .nil)))), _, _, _, rfl, rfl⟩

/-- The registrations of the first example satisfy the assumption of `C112_complete_partial`. -/
example : NumbersFixed (registered mine) := by
  intro l hl
  have h : registered mine = [⟨[], [], [(c!"X", ⟨c!"X", [.bare .qubit, .bare .qubit]⟩, [.bare .qubit, .bare .qubit])]⟩,
    ⟨[(c!"two", ⟨.constInt 2, none⟩)], [(c!"next", next, [.bare .int])],
      [(c!"X", ⟨c!"X", [.bare .bitArray]⟩, [.bare .bitArray])]⟩] := rfl
  simp only [h, List.mem_cons, List.not_mem_nil, or_false] at hl
  rcases hl with rfl | rfl
  · exact ⟨fun x hx => (by cases hx), fun f hf => (by cases hf)⟩
  · refine ⟨fun x hx => ?_, fun f hf args r hr => ?_⟩
    · simp at hx
      subst hx
      exact fun _ => ⟨.int 2, rfl⟩
    · simp at hf
      subst hf
      simp only at hr
      unfold next at hr
      split at hr
      · simp only [Res.ok.injEq, Option.some.injEq] at hr
        subst hr
        exact fun _ => ⟨.int _, rfl⟩
      · cases hr

/-- A variable of the user as a parameter of `wait` is passed on, and the analyser throws. -/
example : ∃ a b : Analyzer Int, Analyzer.new [3, 0] = some a ∧
    Calls [.instruction ⟨c!"wait", [.bare .qubitArray]⟩, .var c!"n" ⟨.variableRef ⟨7, c!"n", .bare .int⟩, none⟩] a b ∧
    analyze Sample.fo b (Sample.program [Sample.qubits c!"q" 4,
      .nonGate none [] c!"wait" [Sample.name c!"q"] [Sample.name c!"n"]]) = .exn c!"std::runtime_error" :=
  ⟨_, _, rfl, .ok rfl (.ok rfl .nil), rfl⟩

end Examples

end Qasm
