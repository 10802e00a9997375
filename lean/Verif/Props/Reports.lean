import Verif.Lemmas.FailsIn
import Verif.Props.Uses
import Verif.Props.Custom
/-!
# What analysers with their own registrations report, and what they keep (C113)

The user makes an analyser in which nothing is registered, and registers, opens and closes scopes and analyses programs in
any order (`Answers fo es a rs b`). The programs have no annotations, as those that the parser makes.
-/

namespace Qasm

open Spec Sem Analyzer

variable {F : Type} {fo : FloatOps F} {v : Version}

/-! ## One program -/

theorem block_in {ls : List (Level F)} (stmts : List (Stmt F)) (hst : ∀ s ∈ stmts, ShapedStmt s ∧ PlainStmt s) :
    ∀ {s : Scope F} {ss : List (Scope F)} {r : Level F} (u : Nat) (_ : Forall2 HoldsLevel (s :: ss) (r :: ls))
      {es : List Err} {a' : Analyzer F}, visitBlock fo ⟨v, s :: ss, u⟩ stmts = .ok (es, a') →
        ∃ s' vs ts bad r', a' = ⟨v, s' :: ss, u + vs.length⟩ ∧ HoldsLevel s' r' ∧ s'.variables = s.variables ++ vs ∧
          s'.block = blockAfter s.block ts ∧ es = bad.map (·.2) ∧ AnalysisIn fo ls r u stmts vs ts bad r' := by
  induction stmts with
  | nil =>
    intro s ss r u h es a' h0
    cases h0
    have hs : HoldsLevel s r := by cases h; assumption
    exact ⟨s, [], [], [], r, rfl, hs, by simp, rfl, rfl, .nil⟩
  | cons st stmts ih =>
    intro s ss r u h es a' h0
    replace ih := @ih fun s hs => hst s (List.mem_cons_of_mem _ hs)
    obtain ⟨hsh, hpl⟩ := hst st (List.mem_cons_self ..)
    have hs : HoldsLevel s r := by cases h; assumption
    have hss : Forall2 HoldsLevel ss ls := by cases h; assumption
    rw [visitBlock] at h0
    obtain ⟨⟨es1, a1⟩, h1, h2'⟩ := Res.bind_eq_ok.1 h0
    unfold Log.after at h2'
    obtain ⟨⟨es2, a2⟩, h2, h3⟩ := Res.bind_eq_ok.1 h2'
    simp only [Res.ok.injEq, Prod.mk.injEq] at h3
    obtain ⟨rfl, rfl⟩ := h3
    dsimp only at h2
    by_cases hd : IsDecl st
    · cases st with
      | gate => exact hd.elim
      | nonGate => exact hd.elim
      | asm => exact hd.elim
      | var l as name typ =>
        cases hpl
        rcases visitVariable_plain hs h1 with ⟨t, ht, hn, rfl, rfl⟩ | ⟨ht, rfl, e, he, rfl⟩ | ⟨t, ht, hn, rfl, rfl⟩
        · obtain ⟨s', vs, ts, bad, r', h4, h5, h6, h7, h8, h9⟩ :=
            ih (u + 1) (.cons (holds_declared hs ⟨u, name.name, t, [], name.loc⟩ hn) hss) h2
          refine ⟨s', _ :: vs, ts, bad, r', ?_, h5, ?_, h7, h8, .decl ht hn h9⟩
          · rw [h4]; simp; omega
          · rw [h6]; simp [declareIn]
        · obtain ⟨s', vs, ts, bad, r', h4, h5, h6, h7, h8, h9⟩ := ih u h h2
          exact ⟨s', vs, ts, _, r', h4, h5, h6, h7, by rw [h8]; rfl, .badType ht he h9⟩
        · obtain ⟨s', vs, ts, bad, r', h4, h5, h6, h7, h8, h9⟩ :=
            ih (u + 1) (.cons (a := redeclareIn s ⟨u, name.name, t, [], name.loc⟩) hs hss) h2
          refine ⟨s', _ :: vs, ts, _, r', ?_, h5, ?_, h7, by rw [h8]; rfl, .redeclared ht hn h9⟩
          · rw [h4]; simp; omega
          · rw [h6]; simp [redeclareIn]
    · have hi := fun a1 => visitInstruction_iff (fo := fo) (a := ⟨v, s :: ss, u⟩) (a' := a1) h hsh hd
      have accepted : es1 = [] → ∃ s' vs ts bad r', a2 = ⟨v, s' :: ss, u + vs.length⟩ ∧ HoldsLevel s' r' ∧
          s'.variables = s.variables ++ vs ∧ s'.block = blockAfter s.block ts ∧ es1 ++ es2 = bad.map (·.2) ∧
          AnalysisIn fo ls r u (st :: stmts) vs ts bad r' := by
        rintro rfl
        obtain ⟨t, h3, h4⟩ := (hi a1).1 h1
        cases h4
        obtain ⟨s', vs, ts, bad, r', h4, h5, h6, h7, h8, h9⟩ := ih u (.cons (a := { s with block := addTo s.block t }) hs hss) h2
        exact ⟨s', vs, t :: ts, bad, r', h4, h5, h6, by rw [h7]; rfl, h8, .instr h3 h9⟩
      rcases visitInstruction_errs h rfl hd hpl h1 with he | ⟨rfl, e, rfl, he⟩
      · exact accepted he
      · obtain ⟨s', vs, ts, bad, r', h4, h5, h6, h7, h8, h9⟩ := ih u h h2
        refine ⟨s', vs, ts, _, r', h4, h5, h6, h7, by rw [h8]; rfl, .badInstr hd ?_ ⟨?_, he⟩ h9⟩
        · rintro ⟨t, ht⟩
          have := (hi _).2 ⟨t, ht, rfl⟩
          rw [h1] at this
          simp at this
        · exact ((visitInstruction_failsIn h (by simp) hsh hpl hd).1 h1).1

theorem block_noScope (stmts : List (Stmt F)) (hst : ∀ s ∈ stmts, ShapedStmt s ∧ PlainStmt s) {u : Nat}
    {es : List Err} {a' : Analyzer F} (h : visitBlock fo ⟨v, [], u⟩ stmts = .ok (es, a')) : a'.scopes = [] := by
  induction stmts generalizing es with
  | nil => cases h; rfl
  | cons st stmts ih =>
    replace ih := @ih fun s hs => hst s (List.mem_cons_of_mem _ hs)
    obtain ⟨hsh, hpl⟩ := hst st (List.mem_cons_self ..)
    rw [visitBlock] at h
    obtain ⟨⟨es1, a1⟩, h1, h2'⟩ := Res.bind_eq_ok.1 h
    unfold Log.after at h2'
    obtain ⟨⟨es2, a2⟩, h2, h3⟩ := Res.bind_eq_ok.1 h2'
    simp only [Res.ok.injEq, Prod.mk.injEq] at h3
    obtain ⟨rfl, rfl⟩ := h3
    dsimp only at h2
    have same : a1 = ⟨v, [], u⟩ := by
      by_cases hd : IsDecl st
      · cases st with
        | gate => exact hd.elim
        | nonGate => exact hd.elim
        | asm => exact hd.elim
        | var l as name typ =>
          cases hpl
          simp only [visitStatement, visitVariable] at h1
          split at h1
          · cases h1; rfl
          · cases h1
          · cases h1
          · cases h1
      · rcases visitInstruction_errs (ls := []) .nil rfl hd hpl h1 with rfl | ⟨h3, _⟩
        · obtain ⟨t, _, h4⟩ := (visitInstruction_iff (ls := []) .nil hsh hd).1 h1
          cases h4
        · exact h3
    rw [same] at h2
    exact ih h2

/-! ## What is kept -/

/-- The analyser keeps `m`. -/
def Keeps (v : Version) (a : Analyzer F) (m : Memory F) : Prop :=
  a.apiVersion = v ∧ a.nextUid = m.count ∧
    Forall2 (fun s f => HoldsLevel s f.level ∧ s.variables = f.variables ∧ s.block = blockAfter ⟨[], none⟩ f.statements) a.scopes m.frames

theorem keeps_levels {a : Analyzer F} {m : Memory F} (h : Keeps v a m) : Forall2 HoldsLevel a.scopes m.levels := by
  obtain ⟨_, _, h⟩ := h
  unfold Memory.levels
  generalize a.scopes = ss at h
  generalize m.frames = fs at h
  induction h with
  | nil => exact .nil
  | cons h1 _ ih => exact .cons h1.1 ih

/-- The second list of scopes has the same variables and instructions. -/
private abbrev Alike (ss ts : List (Scope F)) : Prop := Forall2 (fun s t => t.variables = s.variables ∧ t.block = s.block) ss ts

private theorem alike_refl (ss : List (Scope F)) : Alike ss ss := by
  induction ss with
  | nil => exact .nil
  | cons s ss ih => exact .cons ⟨rfl, rfl⟩ ih

private theorem alike_last (f : Scope F → Scope F) (hf : ∀ s, (f s).variables = s.variables ∧ (f s).block = s.block)
    {ss ss' : List (Scope F)} (hm : modifyLast f ss = .ok ss') : Alike ss ss' := by
  induction ss generalizing ss' with
  | nil => cases hm
  | cons s ss ih =>
    cases ss with
    | nil => cases hm; exact .cons (hf s) .nil
    | cons t ss =>
      obtain ⟨ss1, h1, h2⟩ := Res.bind_eq_ok.1 hm
      cases h2
      exact .cons ⟨rfl, rfl⟩ (ih h1)

private theorem alike_keeps {a b : Analyzer F} {m : Memory F} {ls : List (Level F)} (h : Keeps v a m)
    (hb : b.apiVersion = a.apiVersion ∧ b.nextUid = a.nextUid) (hs : Alike a.scopes b.scopes) (hl : Forall2 HoldsLevel b.scopes ls) :
    Keeps v b ⟨List.zipWith (fun f l => ⟨l, f.variables, f.statements⟩) m.frames ls, m.count⟩ := by
  obtain ⟨h1, h2, h3⟩ := h
  refine ⟨hb.1.trans h1, hb.2.trans h2, ?_⟩
  generalize a.scopes = ss at hs h3
  generalize b.scopes = ts at hs hl
  generalize m.frames = fs at h3
  dsimp only
  induction hs generalizing ls fs with
  | nil => cases h3; cases hl; exact .nil
  | cons h4 _ ih =>
    cases hl with
    | cons h5 h6 =>
      cases h3 with
      | cons h7 h8 => exact .cons ⟨h5, h4.1.trans h7.2.1, by rw [h4.2]; exact h7.2.2⟩ (ih h6 _ h8)

private theorem current_alike (f : Scope F → Res Err (Scope F))
    (hf : ∀ s s', f s = .ok s' → s'.variables = s.variables ∧ s'.block = s.block) {a b : Analyzer F} (hm : a.modifyCurrent f = .ok b) :
    (b.apiVersion = a.apiVersion ∧ b.nextUid = a.nextUid) ∧ Alike a.scopes b.scopes := by
  unfold modifyCurrent at hm
  split at hm
  · cases hm
  · next s rest hs =>
    obtain ⟨s', h1, h2⟩ := Res.bind_eq_ok.1 hm
    cases h2
    refine ⟨⟨rfl, rfl⟩, ?_⟩
    rw [hs]
    exact .cons (hf _ _ h1) (alike_refl _)

theorem keeps_call {c : Call F} {a b : Analyzer F} {m : Memory F} (h : Keeps v a m)
    (hc : c.on a = .ok b ∨ (∃ e, c.on a = .err e) ∧ b = a) : Keeps v b (c.keep m) := by
  have hl := holds_see (keeps_levels h) hc
  cases c with
  | push =>
    rcases hc with hc | ⟨⟨e, hc⟩, _⟩ <;> cases hc
    exact ⟨h.1, h.2.1, .cons ⟨⟨fun _ => rfl, rfl, rfl⟩, rfl, rfl⟩ h.2.2⟩
  | pop =>
    obtain ⟨w, sc, u⟩ := a
    obtain ⟨h1, h2, h3⟩ := h
    simp only [Call.on, popScope] at hc
    dsimp only at h3
    simp only [Call.keep]
    generalize m.frames = fs at h3 ⊢
    cases h3 with
    | nil => simp at hc
    | cons h4 h5 =>
      rcases hc with hc | ⟨⟨e, hc⟩, _⟩ <;> cases hc
      exact ⟨h1, h2, h5⟩
  | var name value =>
    rcases hc with hc | ⟨_, rfl⟩
    · obtain ⟨h1, h2⟩ := current_alike _ (fun s s' hs => by
        obtain ⟨_, _, h2⟩ := Res.bind_eq_ok.1 hs
        cases h2
        exact ⟨rfl, rfl⟩) hc
      exact alike_keeps h h1 h2 hl
    · exact alike_keeps h ⟨rfl, rfl⟩ (alike_refl _) hl
  | instruction i =>
    rcases hc with hc | ⟨_, rfl⟩
    · obtain ⟨h1, h2⟩ := current_alike _ (fun s s' hs => by cases hs; exact ⟨rfl, rfl⟩) hc
      exact alike_keeps h h1 h2 hl
    · exact alike_keeps h ⟨rfl, rfl⟩ (alike_refl _) hl
  | function name params f =>
    rcases hc with hc | ⟨_, rfl⟩
    · obtain ⟨ss, h2, h3⟩ := Res.bind_eq_ok.1 hc
      cases h3
      exact alike_keeps h ⟨rfl, rfl⟩ (alike_last (fun s => { s with fnTable := FnTable.add s.fnTable name params f })
        (fun s => ⟨rfl, rfl⟩) h2) hl
    · exact alike_keeps h ⟨rfl, rfl⟩ (alike_refl _) hl

theorem blockAfter_append (b : SBlock F) (ts us : List (SStatement F)) :
    blockAfter b (ts ++ us) = blockAfter (blockAfter b ts) us := List.foldl_append

theorem versionNode_of (w : Version) (node : VersionAst) : VersionNode w node (visitVersion w node).2 := by
  by_cases h : VersionOk w node.items
  · rw [visitVersion_of_ok h]
    exact ⟨rfl, fun _ => rfl, fun h' => absurd h h'⟩
  · obtain ⟨e, _, h2, _⟩ := visitVersion_of_bad h
    rw [h2]
    exact ⟨rfl, fun h' => absurd h' h, fun _ => rfl⟩

theorem keeps_analyze {a b : Analyzer F} {m : Memory F} (h : Keeps v a m) {p : ProgramAst F} (hp : ShapedProgram p)
    (hpl : PlainProgram p) {r : Result (SProgram F)} (h0 : analyze fo a p = .ok (b, r)) :
    ∃ m', AnalysedIn fo v m p r m' ∧ Keeps v b m' := by
  have hst : ∀ s ∈ p.block.statements, ShapedStmt s ∧ PlainStmt s := fun s hs => ⟨hp s hs, hpl s hs⟩
  obtain ⟨w, sc, u⟩ := a
  obtain ⟨fs, n⟩ := m
  obtain ⟨h1, h2, h3⟩ := h
  dsimp only at h1 h2 h3
  subst h1 h2
  rw [analyze, Res.bind_eq_ok] at h0
  obtain ⟨⟨a1, r1⟩, h4, h5⟩ := h0
  rw [visitProgram, Res.bind_eq_ok] at h4
  obtain ⟨⟨errs, a2⟩, h6, h7⟩ := h4
  dsimp only at h7
  cases h3 with
  | nil =>
    rw [block_noScope _ hst h6] at h7
    cases h7
  | @cons s f ss fs h8 h9 =>
    have hls : Forall2 HoldsLevel (s :: ss) (f.level :: fs.map (·.level)) := by
      refine .cons h8.1 ?_
      clear h6
      induction h9 with
      | nil => exact .nil
      | cons h1 _ ih => exact .cons h1.1 ih
    obtain ⟨s', vs, ts, bad, r', rfl, h11, h12, h13, rfl, h15⟩ := block_in _ hst u hls h6
    dsimp only at h7
    cases h7
    have hr : b = ⟨w, s' :: ss, u + vs.length⟩ ∧
        r = ⟨some ⟨w, (visitVersion w p.version).2, s'.block, s'.variables⟩, (visitVersion w p.version).1 ++ bad.map (·.2)⟩ ∧
        (r.errors = [] → ClosedProgram s'.variables s'.block.statements) := by
      split at h5
      · cases h5
      · next hc =>
        simp only [Res.ok.injEq, Prod.mk.injEq] at h5
        obtain ⟨rfl, rfl⟩ := h5
        refine ⟨rfl, rfl, fun he => ?_⟩
        dsimp only at he
        rw [he] at hc
        refine (closed_iff w (visitVersion w p.version).2 s'.block s'.variables).1 ?_
        simpa using hc
    obtain ⟨rfl, rfl, hcl⟩ := hr
    have hb : s'.block = blockAfter ⟨[], none⟩ (f.statements ++ ts) := by rw [h13, h8.2.2, blockAfter_append]
    have hbs : s'.block.statements = f.statements ++ ts := by rw [hb, blockAfter_statements]; rfl
    rw [h12, hbs, h8.2.1] at hcl
    refine ⟨_, ⟨f, fs, r', vs, ts, bad, (visitVersion w p.version).1, rfl, h15, rfl, rfl, (versionErrors_iff ..).2 rfl,
      ⟨_, rfl, rfl, by rw [h12, h8.2.1], hbs, fun hr => by dsimp only; rw [hb]; exact blockAfter_loc _ hr, versionNode_of w p.version⟩,
      hcl⟩, rfl, rfl, .cons ⟨h11, by rw [h12, h8.2.1], hb⟩ h9⟩

theorem keeps_answers {es : List (Event F)} {a b : Analyzer F} {rs : List (Result (SProgram F))} (h : Answers fo es a rs b)
    (hp : ∀ p, .analyze p ∈ es → ShapedProgram p ∧ PlainProgram p) {m : Memory F} (hk : Keeps v a m) :
    ∃ m', AnswersIn fo v es m rs m' ∧ Keeps v b m' := by
  induction h generalizing m with
  | nil => exact ⟨m, .nil, hk⟩
  | ok h1 _ ih =>
    obtain ⟨m', h2, h3⟩ := ih (fun p h => hp p (List.mem_cons_of_mem _ h)) (keeps_call hk (.inl h1))
    exact ⟨m', .call h2, h3⟩
  | error h1 _ ih =>
    obtain ⟨m', h2, h3⟩ := ih (fun p h => hp p (List.mem_cons_of_mem _ h)) (keeps_call hk (.inr ⟨⟨_, h1⟩, rfl⟩))
    exact ⟨m', .call h2, h3⟩
  | analyze h1 _ ih =>
    obtain ⟨h4, h5⟩ := hp _ (List.mem_cons_self ..)
    obtain ⟨m1, h6, h7⟩ := keeps_analyze hk h4 h5 h1
    obtain ⟨m', h2, h3⟩ := ih (fun p h => hp p (List.mem_cons_of_mem _ h)) h7
    exact ⟨m', .analyze h6 h2, h3⟩

theorem keeps_new {a : Analyzer F} (ha : Analyzer.new v = some a) : Keeps v a ⟨[⟨⟨[], [], []⟩, [], []⟩], 0⟩ := by
  unfold Analyzer.new at ha
  split at ha
  · cases ha
    exact ⟨rfl, rfl, .cons ⟨⟨fun _ => rfl, rfl, rfl⟩, rfl, rfl⟩ .nil⟩
  · cases ha

/-! ## C113 -/

/-- C113. Over a whole session, whatever is registered and analysed in whatever order and scopes, every analysis answers as
the rules say: for every rejected statement there is exactly one error, in the order of the program, with the message and the
position that the rules give for what is wrong with it, at a node of that statement unless a function of the user threw it with
its own location; the tree has the variables and instructions of
the programs that were analysed before in the same scope and of this one; and rejected statements leave nothing behind,
except for the variables of redeclarations. What the analyser accepts next also follows the rules. -/
theorem C113_session {a b : Analyzer F} (ha : Analyzer.new v = some a) {es : List (Event F)} {rs : List (Result (SProgram F))}
    (h : Answers fo es a rs b) (hp : ∀ p, .analyze p ∈ es → ShapedProgram p ∧ PlainProgram p) :
    ∃ m, AnswersIn fo v es ⟨[⟨⟨[], [], []⟩, [], []⟩], 0⟩ rs m ∧ ∀ p, ShapedProgram p → ∀ vs ts,
      (∃ r, Accepts fo b p r ∧ r.variables = vs ∧ r.block.statements = ts) ↔
        ∃ f fs vs' ts', m.frames = f :: fs ∧ VersionOk v p.version.items ∧
          ExecIn fo m.levels m.count p.block.statements vs' ts' ∧ vs = f.variables ++ vs' ∧ ts = f.statements ++ ts' ∧
          ClosedProgram vs ts := by
  obtain ⟨m, h1, h2⟩ := keeps_answers h hp (keeps_new ha)
  refine ⟨m, h1, fun p hp' vs ts => ?_⟩
  have hl := keeps_levels h2
  obtain ⟨w, sc, u⟩ := b
  obtain ⟨fs, n⟩ := m
  obtain ⟨h3, h4, h5⟩ := h2
  dsimp only at h3 h4 h5
  subst h3 h4
  unfold Memory.levels at hl ⊢
  dsimp only at hl ⊢
  cases h5 with
  | nil =>
    constructor
    · rintro ⟨r, ⟨a', hr⟩, _⟩
      exact absurd hr (analyze_noScope w u hp' a' _)
    · rintro ⟨f, fs, _, _, h6, _⟩
      cases h6
  | @cons s f ss fs h6 h7 =>
    have hb : s.block.statements = f.statements := by rw [h6.2.2, blockAfter_statements]; rfl
    constructor
    · rintro ⟨r, ⟨a', hr⟩, rfl, rfl⟩
      obtain ⟨hv, vs, ts, h8, h9, _, h10⟩ := (analyze_iff w u hl hp' a' _).1 hr
      cases h10
      refine ⟨f, fs, vs, ts, rfl, hv, h8, by rw [h6.2.1], by rw [blockAfter_statements, hb], ?_⟩
      rw [blockAfter_statements]
      exact h9
    · rintro ⟨f', fs', vs', ts', h8, hv, h9, rfl, rfl, h10⟩
      cases h8
      refine ⟨_, ⟨_, (analyze_iff w u hl hp' _ _).2 ⟨hv, vs', ts', h9, by rw [h6.2.1, hb]; exact h10, rfl, rfl⟩⟩,
        by rw [h6.2.1], by rw [blockAfter_statements, hb]⟩

/-- C113. The rejected statements are statements of the program, in its order, and the errors of the statements are as many. -/
theorem C113_rejected {ls : List (Level F)} {r r' : Level F} {u : Nat} {ss : List (Stmt F)} {vs : List (SVariable F)}
    {ts : List (SStatement F)} {bad : List (Stmt F × Err)} (h : AnalysisIn fo ls r u ss vs ts bad r') :
    (bad.map (·.1)).Sublist ss := by
  induction h with
  | nil => exact .slnil
  | decl _ _ _ ih => exact ih.cons _
  | instr _ _ ih => exact ih.cons _
  | badType _ _ _ ih => exact ih.cons_cons _
  | redeclared _ _ _ ih => exact ih.cons_cons _
  | badInstr _ _ _ _ ih => exact ih.cons_cons _

/-- C113. No statement is rejected exactly if the statements are valid. -/
theorem C113_valid {ls : List (Level F)} {r : Level F} {u : Nat} {ss : List (Stmt F)} (hp : ∀ s ∈ ss, PlainStmt s)
    {vs : List (SVariable F)} {ts : List (SStatement F)} :
    (∃ r', AnalysisIn fo ls r u ss vs ts [] r') ↔ ExecIn fo (r :: ls) u ss vs ts := by
  constructor
  · rintro ⟨r', h⟩
    generalize hb : ([] : List (Stmt F × Err)) = bad at h
    induction h with
    | nil => exact .nil
    | @decl r u l as name typ ss t vs ts bad r' h1 h2 _ ih =>
      have := hp _ (List.mem_cons_self ..)
      cases this
      exact .decl h1 h2 .nil (ih (fun s hs => hp s (List.mem_cons_of_mem _ hs)) hb)
    | instr h1 _ ih => exact .instr h1 (ih (fun s hs => hp s (List.mem_cons_of_mem _ hs)) hb)
    | badType => cases hb
    | redeclared => cases hb
    | badInstr => cases hb
  · intro h
    generalize hl : r :: ls = ll at h
    induction h generalizing r with
    | nil => exact ⟨r, .nil⟩
    | @decl r' ls' u l as name typ ss t sas vs ts h1 h2 h3 _ ih =>
      cases hl
      have := hp _ (List.mem_cons_self ..)
      cases this
      cases h3
      obtain ⟨r', h4⟩ := ih (fun s hs => hp s (List.mem_cons_of_mem _ hs)) rfl
      exact ⟨r', .decl h1 h2 h4⟩
    | instr h1 _ ih =>
      obtain ⟨r', h4⟩ := ih (fun s hs => hp s (List.mem_cons_of_mem _ hs)) hl
      exact ⟨r', .instr (hl ▸ h1) h4⟩

/-! ## The rules are deterministic -/

theorem some_scope (l : Level F) : ∃ s : Scope F, HoldsLevel s l :=
  ⟨⟨l.vars, tableOf l.functions, tableOf l.instructions, ⟨[], none⟩, []⟩, fun name => by
    dsimp only
    induction l.vars with
    | nil => rfl
    | cons x xs ih => by_cases h : x.1 = name <;> simp [VariableTable.find, h, ih], rfl, rfl⟩

theorem some_scopes (ls : List (Level F)) : ∃ ss : List (Scope F), Forall2 HoldsLevel ss ls := by
  induction ls with
  | nil => exact ⟨[], .nil⟩
  | cons l ls ih =>
    obtain ⟨s, hs⟩ := some_scope l
    obtain ⟨ss, hss⟩ := ih
    exact ⟨s :: ss, .cons hs hss⟩

theorem instr_notDecl {ls : List (Level F)} {s : Stmt F} {t : SStatement F} (h : InstrIn fo ls s t) : ¬ IsDecl s := by
  cases h <;> exact fun h => h

theorem instr_unique {r : Level F} {ls : List (Level F)} {s : Stmt F} (hs : ShapedStmt s) {t t' : SStatement F}
    (h : InstrIn fo (r :: ls) s t) (h' : InstrIn fo (r :: ls) s t') : t = t' := by
  obtain ⟨sc, h1⟩ := some_scope r
  obtain ⟨ss, h2⟩ := some_scopes ls
  have hd := instr_notDecl h
  have e1 := (visitInstruction_iff (fo := fo) (a := ⟨[], sc :: ss, 0⟩) (.cons h1 h2) hs hd).2 ⟨t, h, rfl⟩
  have e2 := (visitInstruction_iff (fo := fo) (a := ⟨[], sc :: ss, 0⟩) (.cons h1 h2) hs hd).2 ⟨t', h', rfl⟩
  rw [e1] at e2
  simp only [Res.ok.injEq, Prod.mk.injEq, true_and, Analyzer.mk.injEq, List.cons.injEq, Scope.mk.injEq, SBlock.mk.injEq,
    List.append_cancel_left_eq, and_true] at e2
  exact e2.1

theorem instrFails_unique {r : Level F} {ls : List (Level F)} {s : Stmt F} (hs : ShapedStmt s) (hp : PlainStmt s)
    (hd : ¬ IsDecl s) {x x' : Err} (h : InstrFailsIn fo (r :: ls) s x) (h' : InstrFailsIn fo (r :: ls) s x') : x = x' := by
  obtain ⟨sc, h1⟩ := some_scope r
  obtain ⟨ss, h2⟩ := some_scopes ls
  have e1 := (visitInstruction_failsIn (fo := fo) (a := ⟨[], sc :: ss, 0⟩) (.cons h1 h2) (by simp) hs hp hd).2 ⟨h, rfl⟩
  have e2 := (visitInstruction_failsIn (fo := fo) (a := ⟨[], sc :: ss, 0⟩) (.cons h1 h2) (by simp) hs hp hd).2 ⟨h', rfl⟩
  rw [e1] at e2
  simpa using e2

theorem typeFails_unique {t : TypeAst} {m m' : Str} (h : TypeFails t m) (h' : TypeFails t m') : m = m' := by
  have e1 := (buildSemanticType_failsIn t _).2 ⟨m, h, rfl⟩
  have e2 := (buildSemanticType_failsIn t _).2 ⟨m', h', rfl⟩
  rw [e1] at e2
  simpa using e2

/-- C113. The rules determine the variables, the instructions, the rejected statements with the error for each of them, and
what is registered afterwards. -/
theorem C113_unique {ls : List (Level F)} {r r1 r2 : Level F} {u : Nat} {ss : List (Stmt F)}
    (hs : ∀ s ∈ ss, ShapedStmt s) (hp : ∀ s ∈ ss, PlainStmt s) {vs1 vs2 : List (SVariable F)} {ts1 ts2 : List (SStatement F)} {bad1 bad2 : List (Stmt F × Err)}
    (h1 : AnalysisIn fo ls r u ss vs1 ts1 bad1 r1) (h2 : AnalysisIn fo ls r u ss vs2 ts2 bad2 r2) :
    vs1 = vs2 ∧ ts1 = ts2 ∧ bad1 = bad2 ∧ r1 = r2 := by
  induction h1 generalizing vs2 ts2 bad2 r2 with
  | nil => cases h2; exact ⟨rfl, rfl, rfl, rfl⟩
  | decl h3 h4 _ ih =>
    have hs' := fun s h => hs s (List.mem_cons_of_mem _ h)
    have hp' := fun s h => hp s (List.mem_cons_of_mem _ h)
    cases h2 with
    | decl h5 h6 h7 =>
      cases typeOk_det h3 h5
      obtain ⟨rfl, rfl, rfl, rfl⟩ := ih hs' hp' h7
      exact ⟨rfl, rfl, rfl, rfl⟩
    | instr h5 => exact absurd trivial (instr_notDecl h5)
    | badType h5 => exact absurd ⟨_, h3⟩ h5
    | redeclared _ h5 => exact absurd h5 h4
    | badInstr h5 => exact absurd trivial h5
  | instr h3 _ ih =>
    have hs0 := hs _ (List.mem_cons_self ..)
    have hs' := fun s h => hs s (List.mem_cons_of_mem _ h)
    have hp' := fun s h => hp s (List.mem_cons_of_mem _ h)
    cases h2 with
    | decl => exact absurd trivial (instr_notDecl h3)
    | instr h5 h6 =>
      cases instr_unique hs0 h3 h5
      obtain ⟨rfl, rfl, rfl, rfl⟩ := ih hs' hp' h6
      exact ⟨rfl, rfl, rfl, rfl⟩
    | badType => exact absurd trivial (instr_notDecl h3)
    | redeclared => exact absurd trivial (instr_notDecl h3)
    | badInstr _ h5 => exact absurd ⟨_, h3⟩ h5
  | badType h3 h3' _ ih =>
    have hs' := fun s h => hs s (List.mem_cons_of_mem _ h)
    have hp' := fun s h => hp s (List.mem_cons_of_mem _ h)
    cases h2 with
    | decl h5 => exact absurd ⟨_, h5⟩ h3
    | instr h5 => exact absurd trivial (instr_notDecl h5)
    | badType _ h5 h6 =>
      cases typeFails_unique h3' h5
      obtain ⟨rfl, rfl, rfl, rfl⟩ := ih hs' hp' h6
      exact ⟨rfl, rfl, rfl, rfl⟩
    | redeclared h5 => exact absurd ⟨_, h5⟩ h3
    | badInstr h5 => exact absurd trivial h5
  | redeclared h3 h4 _ ih =>
    have hs' := fun s h => hs s (List.mem_cons_of_mem _ h)
    have hp' := fun s h => hp s (List.mem_cons_of_mem _ h)
    cases h2 with
    | decl _ h5 => exact absurd h4 h5
    | instr h5 => exact absurd trivial (instr_notDecl h5)
    | badType h5 => exact absurd ⟨_, h3⟩ h5
    | redeclared h5 _ h6 =>
      cases typeOk_det h3 h5
      obtain ⟨rfl, rfl, rfl, rfl⟩ := ih hs' hp' h6
      exact ⟨rfl, rfl, rfl, rfl⟩
    | badInstr h5 => exact absurd trivial h5
  | badInstr h3 h4 h4' _ ih =>
    have hs' := fun s h => hs s (List.mem_cons_of_mem _ h)
    have hp' := fun s h => hp s (List.mem_cons_of_mem _ h)
    cases h2 with
    | decl => exact absurd trivial h3
    | instr h5 => exact absurd ⟨_, h5⟩ h4
    | badType => exact absurd trivial h3
    | redeclared => exact absurd trivial h3
    | badInstr _ _ h5 h6 =>
      cases instrFails_unique (hs _ (List.mem_cons_self ..)) (hp _ (List.mem_cons_self ..)) h3 h4'.1 h5.1
      obtain ⟨rfl, rfl, rfl, rfl⟩ := ih hs' hp' h6
      exact ⟨rfl, rfl, rfl, rfl⟩

theorem versionNode_unique {w : Version} {node : VersionAst} {x y : SVersion} (h : VersionNode w node x) (h' : VersionNode w node y) :
    x = y := by
  obtain ⟨i, l⟩ := x
  obtain ⟨i', l'⟩ := y
  obtain ⟨rfl, h1, h2⟩ := h
  obtain ⟨rfl, h3, h4⟩ := h'
  by_cases h : VersionOk w node.items
  · exact congrArg (SVersion.mk · _) ((h1 h).trans (h3 h).symm)
  · exact congrArg (SVersion.mk · _) ((h2 h).trans (h4 h).symm)

/-- C113. The rules determine what is kept after a session, and each answer, up to the location of the block: the errors, with
their messages and positions, and the tree. -/
theorem C113_determined {es : List (Event F)} (hp : ∀ p, .analyze p ∈ es → ShapedProgram p ∧ PlainProgram p) {m m1 m2 : Memory F}
    {rs1 rs2 : List (Result (SProgram F))} (h1 : AnswersIn fo v es m rs1 m1) (h2 : AnswersIn fo v es m rs2 m2) :
    m1 = m2 ∧ Forall2 (fun r r' => r.errors = r'.errors ∧ ∃ t t', r.root = some t ∧ r'.root = some t' ∧
      t.apiVersion = t'.apiVersion ∧ t.version = t'.version ∧ t.variables = t'.variables ∧
      t.block.statements = t'.block.statements) rs1 rs2 := by
  induction h1 generalizing rs2 with
  | nil => cases h2; exact ⟨rfl, .nil⟩
  | call _ ih =>
    cases h2 with
    | call h2 => exact ih (fun p h => hp p (List.mem_cons_of_mem _ h)) h2
  | analyze h3 _ ih =>
    cases h2 with
    | analyze h4 h5 =>
      obtain ⟨f, fs, l, vs, ts, bad, verrs, e1, e2, rfl, e3, e4, ⟨root, e5, e5', e6, e7, _, e8⟩, _⟩ := h3
      obtain ⟨f', fs', l', vs', ts', bad', verrs', k1, k2, rfl, k3, k4, ⟨root', k5, k5', k6, k7, _, k8⟩, _⟩ := h4
      rw [e1] at k1
      cases k1
      obtain ⟨hp1, hp2⟩ := hp _ (List.mem_cons_self ..)
      obtain ⟨rfl, rfl, rfl, rfl⟩ := C113_unique hp1 hp2 e2 k2
      obtain ⟨rfl, e9⟩ := ih (fun p h => hp p (List.mem_cons_of_mem _ h)) h5
      refine ⟨rfl, .cons ⟨?_, root, root', e5, k5, e5'.trans k5'.symm, versionNode_unique e8 k8, e6.trans k6.symm,
        e7.trans k7.symm⟩ e9⟩
      rw [e3, k3, ← (versionErrors_iff ..).1 e4, ← (versionErrors_iff ..).1 k4]

/-! ## Examples -/

section Examples

open Sample

private def here : Loc := ⟨none, ⟨⟨4, 1⟩, ⟨4, 7⟩⟩⟩
private def there : Loc := ⟨some c!"mine", ⟨⟨1, 1⟩, ⟨1, 1⟩⟩⟩

/-- A function that throws an error with a location of its own, and one without. -/
private def angry : CoreFn Int
  | [⟨.constInt 0, _⟩] => .err ⟨c!"zero", some there⟩
  | [⟨.constInt 1, _⟩] => .err ⟨c!"one", none⟩
  | [⟨.constInt i, _⟩] => .ok (some ⟨.constInt i, none⟩)
  | _ => .ok none

/-- `X q[f(i)]`, at a location. -/
private def flip (i : Int64) : Stmt Int :=
  .gate (some here) [] (.mk none [] c!"X" none []) [.index none (name c!"q") [.item none (.call none c!"f" [int i])]]

/-- Registers `X` and `f`; analyses a program, in an inner scope one more, and after that scope a third. -/
private def session : List (Event Int) :=
  [.call (.instruction ⟨c!"X", [.bare .qubit]⟩), .call (.function c!"f" [.bare .int] angry),
   .analyze (program [qubits c!"q" 4, flip 0, flip 1, qubits c!"q" 2, flip 3]), .call .push,
   .analyze (program [qubits c!"q" 3, flip 3, flip 2]), .call .pop, .analyze (program [flip 2])]

/-- What the session gives: the messages, their locations, and the sizes of the trees. -/
private def observed : Option (List (List (Str × Option Loc) × Nat × Nat)) :=
  let rec go : List (Event Int) → Analyzer Int → Option (List (List (Str × Option Loc) × Nat × Nat))
    | [], _ => some []
    | .call c :: es, a => match c.on a with | .ok b => go es b | .err _ => go es a | _ => none
    | .analyze p :: es, a =>
      match analyze Sample.fo a p with
      | .ok (b, r) => (go es b).map ((r.errors.map fun e => (e.message, e.location),
          (r.root.map fun t => t.variables.length).getD 0, (r.root.map fun t => t.block.statements.length).getD 0) :: ·)
      | _ => none
  (Analyzer.new [3, 0]).bind (go session)

/-- C113: the error that the function throws with its own location keeps it, the other one is at the statement; the variable
of the redeclaration is kept; in the inner scope the tree begins anew; and after it the tree of the first program is
continued. -/
example : observed = some
    [([(c!"zero", some there), (c!"one", some here), (c!"trying to redeclare variable 'q'", none)], 2, 1),
     ([(c!"index 3 out of range (size 3)", some here)], 1, 1), ([], 2, 2)] := by
  decide +kernel

/-- The programs of the session are as the theorems assume. -/
example : ∀ p, Event.analyze p ∈ session → PlainProgram p := by
  intro p hp
  simp only [session, List.mem_cons, reduceCtorEq, List.not_mem_nil, Event.analyze.injEq, false_or, or_false] at hp
  rcases hp with rfl | rfl | rfl <;> intro s hs <;>
    simp only [program, List.mem_cons, List.not_mem_nil, or_false] at hs
  · rcases hs with rfl | rfl | rfl | rfl | rfl <;> simp [PlainStmt, PlainGate, qubits, flip]
  · rcases hs with rfl | rfl | rfl <;> simp [PlainStmt, PlainGate, qubits, flip]
  · subst hs; simp [PlainStmt, PlainGate, flip]

/-- There is an error as `ThrownBy` says. -/
example : ThrownBy [⟨[], [(c!"f", angry, [.bare .int])], []⟩] ⟨c!"zero", some there⟩ :=
  ⟨rfl, _, rfl, _, List.mem_singleton.2 rfl, [⟨.constInt 0, none⟩], rfl⟩

end Examples

end Qasm
