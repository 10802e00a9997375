import Verif.Spec.World
import Verif.Lemmas.FrameScopes
import Verif.Props.Session
/-!
# Copies of an analyser (C77), results kept over any history of calls (C57)
-/

namespace Qasm

open Spec Sem World

variable {F : Type} {fo : FloatOps F}

attribute [local irreducible] defaultInstrs defaultFns defaultVars

/-! ## Lemmas about single calls -/

/-- The blocks of all scopes are as they were. -/
def SameBlocks (a a' : Analyzer F) : Prop := a'.scopes.map Scope.block = a.scopes.map Scope.block

theorem modifyCurrent_blocks {a a' : Analyzer F} {f : Scope F → Res Err (Scope F)}
    (hf : ∀ s s', f s = .ok s' → s'.block = s.block) (h : a.modifyCurrent f = .ok a') : SameBlocks a a' := by
  obtain ⟨v, scs, u⟩ := a
  cases scs with
  | nil => cases h
  | cons s rest =>
    simp only [Analyzer.modifyCurrent] at h
    cases hs : f s with
    | ok s' => rw [hs] at h; cases h; simp [SameBlocks, hf s s' hs]
    | _ => rw [hs] at h; cases h

theorem registerVariable_blocks {a a' : Analyzer F} {n : Str} {v : Value F} (h : a.registerVariable n v = .ok a') :
    SameBlocks a a' := by
  refine modifyCurrent_blocks (fun s s' hs => ?_) h
  cases ht : s.variableTable.add n v with
  | ok t => rw [ht] at hs; cases hs; rfl
  | _ => rw [ht] at hs; cases hs

theorem modifyLast_blocks {f : Scope F → Scope F} (hf : ∀ s, (f s).block = s.block) : ∀ {scs scs' : List (Scope F)},
    Analyzer.modifyLast f scs = .ok scs' → scs'.map Scope.block = scs.map Scope.block
  | [], _, h => by cases h
  | [s], _, h => by cases h; simp [hf]
  | s :: t :: rest, scs', h => by
    rw [Analyzer.modifyLast] at h
    cases hr : Analyzer.modifyLast f (t :: rest) with
    | ok ss => rw [hr] at h; cases h; simpa using modifyLast_blocks hf hr
    | _ => rw [hr] at h; cases h

theorem registerFunction_blocks {a a' : Analyzer F} {n : Str} {ts : List Ty} {f : CoreFn F}
    (h : a.registerFunction n ts f = .ok a') : SameBlocks a a' := by
  unfold Analyzer.registerFunction at h
  cases hr : Analyzer.modifyLast (fun s => { s with fnTable := FnTable.add s.fnTable n ts f }) a.scopes with
  | ok ss => rw [hr] at h; cases h; exact modifyLast_blocks (f := fun s => { s with fnTable := FnTable.add s.fnTable n ts f }) (fun _ => rfl) hr
  | _ => rw [hr] at h; cases h

theorem registerInstruction_blocks {a a' : Analyzer F} {i : Instruction} (h : a.registerInstruction i = .ok a') :
    SameBlocks a a' := modifyCurrent_blocks (fun s s' hs => by cases hs; rfl) h

theorem foldl_bind_blocks {β : Type} {g : Analyzer F → β → Res Err (Analyzer F)}
    (hg : ∀ a b a', g a b = .ok a' → SameBlocks a a') : ∀ (bs : List β) {r : Res Err (Analyzer F)} {a' : Analyzer F},
    bs.foldl (fun r e => r.bind fun a => g a e) r = .ok a' → ∃ a, r = .ok a ∧ SameBlocks a a'
  | [], r, a', h => ⟨a', h, rfl⟩
  | b :: bs, r, a', h => by
    rw [List.foldl_cons] at h
    obtain ⟨a1, h1, h2⟩ := foldl_bind_blocks hg bs h
    cases r with
    | ok a => exact ⟨a, rfl, h2.trans (hg a b a1 h1)⟩
    | _ => cases h1

theorem registerDefaultConstants_blocks {a a' : Analyzer F} (h : a.registerDefaultConstants fo = .ok a') : SameBlocks a a' := by
  unfold Analyzer.registerDefaultConstants at h
  obtain ⟨a1, h1, h⟩ := Res.bind_eq_ok.mp h
  obtain ⟨a2, h2, h⟩ := Res.bind_eq_ok.mp h
  obtain ⟨a3, h3, h⟩ := Res.bind_eq_ok.mp h
  obtain ⟨a4, h4, h⟩ := Res.bind_eq_ok.mp h
  exact (registerVariable_blocks h).trans <| (registerVariable_blocks h4).trans <| (registerVariable_blocks h3).trans <|
    (registerVariable_blocks h2).trans (registerVariable_blocks h1)

theorem registerDefaultFunctions_blocks {a a' : Analyzer F} (h : a.registerDefaultFunctions fo = .ok a') : SameBlocks a a' := by
  unfold Analyzer.registerDefaultFunctions at h
  generalize ConstEval.registrations fo = rs at h
  obtain ⟨a1, h1, h2⟩ := foldl_bind_blocks (β := Str × Str × CoreFn F) (g := fun a e => a.registerFunctionSpec e.1 e.2.1 e.2.2)
    (fun a b a' h => by
      dsimp only [Analyzer.registerFunctionSpec] at h
      split at h
      · cases h
      · exact registerFunction_blocks h) rs h
  cases h1
  exact h2

theorem registerDefaultInstructions_blocks {a a' : Analyzer F} (h : a.registerDefaultInstructions = .ok a') : SameBlocks a a' := by
  unfold Analyzer.registerDefaultInstructions at h
  generalize InstructionSet.registrations = rs at h
  obtain ⟨a1, h1, h2⟩ := foldl_bind_blocks (β := Str × Str) (g := fun a e => a.registerInstructionSpec e.1 (some e.2))
    (fun a b a' h => by
      dsimp only [Analyzer.registerInstructionSpec] at h
      split at h
      · cases h
      · exact registerInstruction_blocks h) rs h
  cases h1
  exact h2

/-- What visiting a program does. -/
theorem program_effect (fo : FloatOps F) (scs0 : List (Scope F)) (u : Nat) (p : ProgramAst F) :
    ∃ r : Res Empty (List Err × Effect F), (∀ x, r = .ok x → x.2.Fresh u) ∧
      ∀ (v : Version) (sc : Scope F) (rest : List (Scope F)), (sc :: rest).map bare = scs0 →
      visitProgram fo ⟨v, sc :: rest, u⟩ p = r.bind fun x =>
        let s := x.2.apply sc
        .ok (⟨v, s :: rest, x.2.nextUid⟩, ⟨some ⟨v, (visitVersion v p.version).2, s.block, s.variables⟩,
          (visitVersion v p.version).1 ++ x.1⟩) := by
  obtain ⟨r, f, h⟩ := visitBlock_effect fo p.block.statements scs0 u
  refine ⟨r, f, fun v sc rest hb => ?_⟩
  rw [visitProgram, h v sc rest hb]
  cases r with
  | err e => exact e.elim
  | ok x => rfl
  | _ => rfl

/-- What an analysis does. -/
theorem analyze_effect (fo : FloatOps F) (scs0 : List (Scope F)) (u : Nat) (p : ProgramAst F) :
    ∃ r : Res Empty (List Err × Effect F), (∀ x, r = .ok x → x.2.Fresh u) ∧
      ∀ (v : Version) (sc : Scope F) (rest : List (Scope F)), (sc :: rest).map bare = scs0 →
      analyze fo ⟨v, sc :: rest, u⟩ p = r.bind fun x =>
        let s := x.2.apply sc
        let res : Result (SProgram F) := ⟨some ⟨v, (visitVersion v p.version).2, s.block, s.variables⟩,
          (visitVersion v p.version).1 ++ x.1⟩
        if res.errors.isEmpty && !((res.root.map SProgram.wellFormed).getD false) then .exn c!"std::runtime_error"
        else .ok (⟨v, s :: rest, x.2.nextUid⟩, res) := by
  obtain ⟨r, f, h⟩ := program_effect fo scs0 u p
  refine ⟨r, f, fun v sc rest hb => ?_⟩
  rw [analyze, h v sc rest hb]
  cases r with
  | err e => exact e.elim
  | ok x => rfl
  | _ => rfl

theorem set_getD (bs : List (SBlock F)) (n : Nat) : bs.set n (bs[n]?.getD ⟨[], none⟩) = bs := by
  apply List.ext_getElem?
  intro m
  rw [List.getElem?_set]
  split
  · rename_i h
    subst h
    split
    · rename_i h; simp [h]
    · rename_i h; simp at h; simp [h]
  · rfl

/-- A call that leaves the blocks as they are, leaves the heap as it is. -/
theorem blocksAfter_same {w : World F} {os : List (ScopeObj F)} {ss : List (Scope F)}
    (h : ss.map Scope.block = (os.map w.readScope).map Scope.block) : World.blocksAfter w.blocks os ss = w.blocks := by
  cases os with
  | nil => rfl
  | cons o os =>
    cases ss with
    | nil => rfl
    | cons s ss =>
      simp only [List.map_cons, List.cons.injEq] at h
      rw [World.blocksAfter, h.1]
      exact set_getD _ _


theorem change_parts {w w' : World F} {i : Nat} {f : Analyzer F → Res Err (Analyzer F)} (h : w.change i f = .ok w') :
    ∃ o a, w.analyzers[i]? = some o ∧ f (w.readAnalyzer o w.nextUid) = .ok a ∧ w' = w.write i o a := by
  unfold World.change at h
  split at h
  · cases h
  · rename_i o ho
    obtain ⟨a, h1, h2⟩ := Res.bind_eq_ok.mp h
    cases h2
    exact ⟨o, a, ho, h1, rfl⟩

/-- A call that leaves the blocks as they are. -/
theorem change_same {w w' : World F} {i : Nat} {f : Analyzer F → Res Err (Analyzer F)}
    (hf : ∀ a a', f a = .ok a' → SameBlocks a a') (h : w.change i f = .ok w') : w'.blocks = w.blocks := by
  obtain ⟨o, a, _, h1, rfl⟩ := change_parts h
  exact blocksAfter_same (hf _ _ h1)

theorem analyze_step {w w' : World F} {i u : Nat} {p : ProgramAst F} (h : World.step fo w (.analyze i p u) = .ok w') :
    ∃ o s rest a r, w.analyzers[i]? = some o ∧ o.scopes = s :: rest ∧ w.nextUid ≤ u ∧
      Sem.analyze fo (w.readAnalyzer o u) p = .ok (a, r) ∧
      w' = { w.write i o a with
        results := w.results ++ [⟨r.root.map fun x => ⟨x.apiVersion, x.version, s.block, x.variables⟩, r.errors⟩] } := by
  simp only [World.step] at h
  split at h
  · cases h
  · rename_i o ho
    split at h
    · cases h
    · rename_i hu
      split at h
      · cases h
      · rename_i s rest hs
        split at h
        · rename_i e he; exact e.elim
        · cases h
        · cases h
        · rename_i a r ha
          cases h
          exact ⟨o, s, rest, a, r, ho, hs, by omega, ha, rfl⟩

theorem blockAfter_prefix (b : SBlock F) (ts : List (SStatement F)) :
    (blockAfter b ts).statements = b.statements ++ ts := blockAfter_statements b ts

/-- What an analysis leaves in the heap and returns. -/
theorem analyze_obj {w : World F} {o : AnalyzerObj F} {s : ScopeObj F} {rest : List (ScopeObj F)} (hs : o.scopes = s :: rest)
    {u : Nat} {p : ProgramAst F} {a : Analyzer F} {r : Result (SProgram F)}
    (h : Sem.analyze fo (w.readAnalyzer o u) p = .ok (a, r)) :
    ∃ x : Effect F, x.Fresh u ∧ a.scopes = x.apply (w.readScope s) :: rest.map w.readScope ∧ a.nextUid = x.nextUid ∧
      a.apiVersion = o.apiVersion := by
  obtain ⟨r0, f, hr⟩ := analyze_effect fo ((w.readScope s :: rest.map w.readScope).map bare) u p
  have h' : Sem.analyze fo ⟨o.apiVersion, w.readScope s :: rest.map w.readScope, u⟩ p = .ok (a, r) := by
    rw [← h, World.readAnalyzer, hs]; rfl
  rw [hr _ _ _ rfl] at h'
  obtain ⟨x, hx, h2⟩ := Res.bind_eq_ok.mp h'
  dsimp only at h2
  split at h2
  · cases h2
  · cases h2
    exact ⟨x.2, f x hx, rfl, rfl, rfl⟩

theorem throwing_step {w w' : World F} {i u : Nat} {p : ProgramAst F} (h : World.step fo w (.throwing i p u) = .ok w') :
    ∃ o s rest a r, w.analyzers[i]? = some o ∧ o.scopes = s :: rest ∧ w.nextUid ≤ u ∧
      Sem.visitProgram fo (w.readAnalyzer o u) p = .ok (a, r) ∧ r.errors = [] ∧ w' = w.write i o a := by
  simp only [World.step] at h
  split at h
  · cases h
  · rename_i o ho
    split at h
    · cases h
    · rename_i hu
      split at h
      · cases h
      · rename_i s rest hs
        split at h
        · rename_i e he; exact e.elim
        · cases h
        · cases h
        · rename_i a r ha
          split at h
          · rename_i hc
            cases h
            simp only [Bool.and_eq_true, List.isEmpty_iff] at hc
            exact ⟨o, s, rest, a, r, ho, hs, by omega, ha, hc.1, rfl⟩
          · cases h

/-- What visiting a program leaves in the heap. -/
theorem program_obj {w : World F} {o : AnalyzerObj F} {s : ScopeObj F} {rest : List (ScopeObj F)} (hs : o.scopes = s :: rest)
    {u : Nat} {p : ProgramAst F} {a : Analyzer F} {r : Result (SProgram F)}
    (h : Sem.visitProgram fo (w.readAnalyzer o u) p = .ok (a, r)) :
    ∃ x : Effect F, x.Fresh u ∧ a.scopes = x.apply (w.readScope s) :: rest.map w.readScope ∧ a.nextUid = x.nextUid ∧
      a.apiVersion = o.apiVersion := by
  obtain ⟨r0, f, hr⟩ := program_effect fo ((w.readScope s :: rest.map w.readScope).map bare) u p
  have h' : Sem.visitProgram fo ⟨o.apiVersion, w.readScope s :: rest.map w.readScope, u⟩ p = .ok (a, r) := by
    rw [← h, World.readAnalyzer, hs]; rfl
  rw [hr _ _ _ rfl] at h'
  obtain ⟨x, hx, h2⟩ := Res.bind_eq_ok.mp h'
  cases h2
  exact ⟨x.2, f x hx, rfl, rfl, rfl⟩

theorem assign_step {w w' : World F} {i j : Nat} (h : World.step fo w (.assign i j) = .ok w') :
    ∃ o, i < w.analyzers.length ∧ w.analyzers[j]? = some o ∧ w' = { w with analyzers := w.analyzers.set i o } := by
  simp only [World.step] at h
  split at h
  · rename_i o1 o h1 h2
    cases h
    exact ⟨o, (List.getElem?_eq_some_iff.mp h1).1, h2, rfl⟩
  · cases h

theorem blockAt_set (w : World F) (b c : Nat) (x : SBlock F) : ({ w with blocks := w.blocks.set c x } : World F).blockAt b =
    if c = b ∧ b < w.blocks.length then x else w.blockAt b := by
  simp only [World.blockAt, List.getElem?_set]
  split
  · rename_i h
    subst h
    split
    · simp_all
    · rename_i h
      simp [h]
  · simp_all

theorem blockAt_congr {w w' : World F} (h : w'.blocks = w.blocks) (b : Nat) : w'.blockAt b = w.blockAt b := by
  simp [World.blockAt, h]

theorem blockAt_append {w w' : World F} (h : w'.blocks = w.blocks ++ [⟨[], none⟩]) (b : Nat) : w'.blockAt b = w.blockAt b := by
  simp only [World.blockAt, h, List.getElem?_append]
  split
  · rfl
  · rename_i hb
    cases hk : b - w.blocks.length with
    | zero => simp [List.getElem?_eq_none (Nat.le_of_not_lt hb)]
    | succ n => simp [List.getElem?_eq_none (Nat.le_of_not_lt hb)]

/-- A call only adds to a block, and only a call that writes it does. -/
theorem step_block {w w' : World F} {op : World.Op F} (h : World.step fo w op = .ok w') (b : Nat) :
    (∃ ts, (w'.blockAt b).statements = (w.blockAt b).statements ++ ts) ∧ (¬ World.Writes w b op → w'.blockAt b = w.blockAt b) := by
  have same (h : w'.blockAt b = w.blockAt b) :
      (∃ ts, (w'.blockAt b).statements = (w.blockAt b).statements ++ ts) ∧ (¬ World.Writes w b op → w'.blockAt b = w.blockAt b) :=
    ⟨⟨[], by rw [h]; simp⟩, fun _ => h⟩
  cases op with
  | create v =>
    apply same
    simp only [World.step, World.create] at h
    split at h
    · cases h
    · cases h; exact blockAt_append rfl b
  | copy i =>
    apply same
    simp only [World.step] at h
    split at h
    · cases h
    · cases h; rfl
  | assign i j =>
    obtain ⟨o, -, -, rfl⟩ := assign_step h
    exact same rfl
  | push i =>
    apply same
    simp only [World.step] at h
    split at h
    · cases h
    · cases h; exact blockAt_append rfl b
  | pop i =>
    apply same
    simp only [World.step] at h
    split at h
    · cases h
    · split at h
      · cases h
      · cases h; rfl
  | constants i => exact same (blockAt_congr (change_same (fun _ _ => registerDefaultConstants_blocks) h) b)
  | functions i => exact same (blockAt_congr (change_same (fun _ _ => registerDefaultFunctions_blocks) h) b)
  | instructions i => exact same (blockAt_congr (change_same (fun _ _ => registerDefaultInstructions_blocks) h) b)
  | addName i n v => exact same (blockAt_congr (change_same (fun _ _ => registerVariable_blocks) h) b)
  | addFunction i n ts f => exact same (blockAt_congr (change_same (fun _ _ => registerFunction_blocks) h) b)
  | addInstruction i x => exact same (blockAt_congr (change_same (fun _ _ => registerInstruction_blocks) h) b)
  | addVariable i x =>
    obtain ⟨w1, h1, h2⟩ := Res.bind_eq_ok.mp h
    have := blockAt_congr (change_same (fun a a' h => modifyCurrent_blocks (fun s s' hs => by cases hs; rfl) h) h1) b
    cases h2
    exact same this
  | addStatement i st =>
    obtain ⟨o, a, ho, h1, rfl⟩ := change_parts (f := (·.addStatement st)) h
    cases hs : o.scopes with
    | nil => simp [World.readAnalyzer, hs, Analyzer.addStatement, Analyzer.modifyCurrent] at h1
    | cons s rest =>
      simp only [World.readAnalyzer, hs, List.map_cons, Analyzer.addStatement, Analyzer.modifyCurrent, Res.bind_ok] at h1
      cases h1
      have hb : (w.write i o ⟨o.apiVersion, { w.readScope s with
          block := ⟨(w.readScope s).block.statements ++ [st], Analyzer.blockLoc (w.readScope s).block.loc st.loc⟩ } ::
          rest.map w.readScope, w.nextUid⟩).blockAt b = if s.block = b ∧ b < w.blocks.length then
          ⟨(w.readScope s).block.statements ++ [st], Analyzer.blockLoc (w.readScope s).block.loc st.loc⟩ else w.blockAt b := by
        rw [← blockAt_set]
        exact blockAt_congr (by simp [World.write, hs, World.blocksAfter]) b
      rw [hb]
      split
      · rename_i hc
        refine ⟨⟨[st], ?_⟩, fun hn => absurd (.statement ?_) hn⟩
        · rw [← hc.1]; rfl
        · obtain ⟨v, scs⟩ := o
          subst hs
          rw [World.current, ho, ← hc.1]
      · exact ⟨⟨[], by simp⟩, fun _ => rfl⟩
  | analyze i p u =>
    obtain ⟨o, s, rest, a, r, ho, hs, hu, ha, rfl⟩ := analyze_step h
    obtain ⟨x, -, hx, -, -⟩ := analyze_obj hs ha
    have hb : ({ w.write i o a with results := w.results ++ [⟨r.root.map fun x => ⟨x.apiVersion, x.version, s.block, x.variables⟩, r.errors⟩] } :
        World F).blockAt b = if s.block = b ∧ b < w.blocks.length then blockAfter (w.blockAt s.block) x.statements else w.blockAt b := by
      rw [← blockAt_set]
      exact blockAt_congr (by simp only [World.write, hs, hx, World.blocksAfter]; rfl) b
    rw [hb]
    split
    · rename_i hc
      refine ⟨⟨x.statements, ?_⟩, fun hn => absurd (.analyze ?_) hn⟩
      · rw [blockAfter_prefix, hc.1]
      · obtain ⟨v, scs⟩ := o
        subst hs
        rw [World.current, ho, ← hc.1]
    · exact ⟨⟨[], by simp⟩, fun _ => rfl⟩
  | throwing i p u =>
    obtain ⟨o, s, rest, a, r, ho, hs, hu, ha, -, rfl⟩ := throwing_step h
    obtain ⟨x, -, hx, -, -⟩ := program_obj hs ha
    have hb : (w.write i o a).blockAt b =
        if s.block = b ∧ b < w.blocks.length then blockAfter (w.blockAt s.block) x.statements else w.blockAt b := by
      rw [← blockAt_set]
      exact blockAt_congr (by simp only [World.write, hs, hx, World.blocksAfter]; rfl) b
    rw [hb]
    split
    · rename_i hc
      refine ⟨⟨x.statements, ?_⟩, fun hn => absurd (.throwing ?_) hn⟩
      · rw [blockAfter_prefix, hc.1]
      · obtain ⟨v, scs⟩ := o
        subst hs
        rw [World.current, ho, ← hc.1]
    · exact ⟨⟨[], by simp⟩, fun _ => rfl⟩

theorem change_other {w w' : World F} {i j : Nat} {f : Analyzer F → Res Err (Analyzer F)} (h : w.change i f = .ok w') :
    w'.results = w.results ∧ (i ≠ j → w'.analyzers[j]? = w.analyzers[j]?) := by
  obtain ⟨o, a, _, _, rfl⟩ := change_parts h
  exact ⟨rfl, fun hj => List.getElem?_set_ne hj⟩

/-- A call keeps the results, and the analysers it is not made on. -/
theorem step_other {w w' : World F} {op : World.Op F} (h : World.step fo w op = .ok w') :
    (∃ rs, w'.results = w.results ++ rs) ∧
    ∀ j, j < w.analyzers.length → op.on ≠ some j → w'.analyzers[j]? = w.analyzers[j]? := by
  have chg {i : Nat} {f : Analyzer F → Res Err (Analyzer F)} {w' : World F} (h : w.change i f = .ok w') :
      (∃ rs, w'.results = w.results ++ rs) ∧ ∀ j, j < w.analyzers.length → some i ≠ some j → w'.analyzers[j]? = w.analyzers[j]? :=
    ⟨⟨[], by rw [(change_other (j := 0) h).1]; simp⟩, fun j _ hj => (change_other h).2 fun e => hj (by rw [e])⟩
  cases op with
  | create v =>
    simp only [World.step, World.create] at h
    split at h
    · cases h
    · cases h; exact ⟨⟨[], by simp⟩, fun j hj _ => by simp [List.getElem?_append, hj]⟩
  | copy i =>
    simp only [World.step] at h
    split at h
    · cases h
    · cases h; exact ⟨⟨[], by simp⟩, fun j hj _ => by simp [List.getElem?_append, hj]⟩
  | assign i k =>
    obtain ⟨o, -, -, rfl⟩ := assign_step h
    exact ⟨⟨[], by simp⟩, fun j hj hn => List.getElem?_set_ne fun e => hn (by rw [World.Op.on, e])⟩
  | push i =>
    simp only [World.step] at h
    split at h
    · cases h
    · cases h; exact ⟨⟨[], by simp⟩, fun j hj hn => List.getElem?_set_ne fun e => hn (by rw [World.Op.on, e])⟩
  | pop i =>
    simp only [World.step] at h
    split at h
    · cases h
    · split at h
      · cases h
      · cases h; exact ⟨⟨[], by simp⟩, fun j hj hn => List.getElem?_set_ne fun e => hn (by rw [World.Op.on, e])⟩
  | constants i => exact chg h
  | functions i => exact chg h
  | instructions i => exact chg h
  | addName i n v => exact chg (f := (·.registerVariable n v)) h
  | addFunction i n ts f => exact chg (f := (·.registerFunction n ts f)) h
  | addInstruction i x => exact chg (f := (·.registerInstruction x)) h
  | addStatement i x => exact chg (f := (·.addStatement x)) h
  | addVariable i x =>
    obtain ⟨w1, h1, h2⟩ := Res.bind_eq_ok.mp h
    have := chg (f := (·.addVariable x)) h1
    cases h2
    exact this
  | analyze i p u =>
    obtain ⟨o, s, rest, a, r, ho, hs, hu, ha, rfl⟩ := analyze_step h
    exact ⟨⟨_, rfl⟩, fun j hj hn => List.getElem?_set_ne fun e => hn (by rw [World.Op.on, e])⟩
  | throwing i p u =>
    obtain ⟨o, s, rest, a, r, ho, hs, hu, ha, -, rfl⟩ := throwing_step h
    exact ⟨⟨[], by simp [World.write]⟩, fun j hj hn => List.getElem?_set_ne fun e => hn (by rw [World.Op.on, e])⟩

theorem steps_block {w w' : World F} {ops : List (World.Op F)} (h : World.Steps fo w ops w') (b : Nat) :
    ∃ ts, (w'.blockAt b).statements = (w.blockAt b).statements ++ ts := by
  induction h with
  | nil => exact ⟨[], by simp⟩
  | cons h1 _ ih =>
    obtain ⟨ts, h2⟩ := (step_block h1 b).1
    obtain ⟨ts', h3⟩ := ih
    exact ⟨ts ++ ts', by rw [h3, h2, List.append_assoc]⟩

theorem steps_results {w w' : World F} {ops : List (World.Op F)} (h : World.Steps fo w ops w') : ∃ rs, w'.results = w.results ++ rs := by
  induction h with
  | nil => exact ⟨[], by simp⟩
  | cons h1 h2 ih =>
    obtain ⟨rs, h3⟩ := (step_other h1).1
    obtain ⟨rs', h4⟩ := ih
    exact ⟨rs ++ rs', by rw [h4, h3, List.append_assoc]⟩

/-! ## Addresses -/

/-- Every scope of an analyser has its block in the heap. -/
def AddrOk (w : World F) : Prop := ∀ o ∈ w.analyzers, ∀ s ∈ o.scopes, s.block < w.blocks.length

theorem blocksAfter_length (bs : List (SBlock F)) (os : List (ScopeObj F)) (ss : List (Scope F)) :
    (World.blocksAfter bs os ss).length = bs.length := by
  cases os <;> cases ss <;> simp [World.blocksAfter]

theorem scopesAfter_blocks : ∀ (os : List (ScopeObj F)) (ss : List (Scope F)), ∀ s ∈ World.scopesAfter os ss, ∃ o ∈ os, s.block = o.block
  | [], _, s, h => by simp [World.scopesAfter] at h
  | o :: os, [], s, h => by simp [World.scopesAfter] at h
  | o :: os, t :: ss, s, h => by
    rw [World.scopesAfter, List.mem_cons] at h
    rcases h with rfl | h
    · exact ⟨o, by simp, rfl⟩
    · obtain ⟨o', h1, h2⟩ := scopesAfter_blocks os ss s h
      exact ⟨o', by simp [h1], h2⟩

theorem write_addrOk {w : World F} {i : Nat} {o : AnalyzerObj F} {a : Analyzer F} (hw : AddrOk w) (ho : w.analyzers[i]? = some o) :
    AddrOk (w.write i o a) := by
  intro o' ho' s hs
  rw [World.write, blocksAfter_length]
  rcases List.mem_or_eq_of_mem_set ho' with h | rfl
  · exact hw _ h _ hs
  · obtain ⟨t, h1, h2⟩ := scopesAfter_blocks _ _ s hs
    rw [h2]
    exact hw o (List.mem_of_getElem? ho) t h1

theorem step_addrOk {w w' : World F} {op : World.Op F} (hw : AddrOk w) (h : World.step fo w op = .ok w') : AddrOk w' := by
  have chg {i : Nat} {f : Analyzer F → Res Err (Analyzer F)} {w' : World F} (h : w.change i f = .ok w') : AddrOk w' := by
    obtain ⟨o, a, ho, _, rfl⟩ := change_parts h
    exact write_addrOk hw ho
  cases op with
  | create v =>
    simp only [World.step, World.create] at h
    split at h
    · cases h
    · cases h
      intro o ho s hs
      simp only [List.mem_append, List.mem_singleton, List.length_append, List.length_singleton] at ho ⊢
      rcases ho with ho | rfl
      · exact Nat.lt_succ_of_lt (hw o ho s hs)
      · simp at hs; subst hs; simp
  | copy i =>
    simp only [World.step] at h
    split at h
    · cases h
    · rename_i o0 ho0
      cases h
      intro o ho s hs
      simp only [List.mem_append, List.mem_singleton] at ho
      rcases ho with ho | rfl
      · exact hw o ho s hs
      · exact hw o (List.mem_of_getElem? ho0) s hs
  | assign i j =>
    obtain ⟨o0, -, ho0, rfl⟩ := assign_step h
    intro o ho s hs
    rcases List.mem_or_eq_of_mem_set ho with ho | rfl
    · exact hw o ho s hs
    · exact hw o (List.mem_of_getElem? ho0) s hs
  | push i =>
    simp only [World.step] at h
    split at h
    · cases h
    · rename_i o0 ho0
      cases h
      intro o ho s hs
      simp only [List.length_append, List.length_singleton]
      rcases List.mem_or_eq_of_mem_set ho with ho | rfl
      · exact Nat.lt_succ_of_lt (hw o ho s hs)
      · simp only [List.mem_cons] at hs
        rcases hs with rfl | hs
        · simp
        · exact Nat.lt_succ_of_lt (hw o0 (List.mem_of_getElem? ho0) s hs)
  | pop i =>
    simp only [World.step] at h
    split at h
    · cases h
    · rename_i o0 ho0
      split at h
      · cases h
      · rename_i s0 rest hsc
        cases h
        intro o ho s hs
        rcases List.mem_or_eq_of_mem_set ho with ho | rfl
        · exact hw o ho s hs
        · exact hw o0 (List.mem_of_getElem? ho0) s (by rw [hsc]; exact List.mem_cons_of_mem _ hs)
  | constants i => exact chg h
  | functions i => exact chg h
  | instructions i => exact chg h
  | addName i n v => exact chg (f := (·.registerVariable n v)) h
  | addFunction i n ts f => exact chg (f := (·.registerFunction n ts f)) h
  | addInstruction i x => exact chg (f := (·.registerInstruction x)) h
  | addStatement i x => exact chg (f := (·.addStatement x)) h
  | addVariable i x =>
    obtain ⟨w1, h1, h2⟩ := Res.bind_eq_ok.mp h
    have := chg (f := (·.addVariable x)) h1
    cases h2
    exact this
  | analyze i p u =>
    obtain ⟨o, s, rest, a, r, ho, hs, hu, ha, rfl⟩ := analyze_step h
    exact write_addrOk hw ho
  | throwing i p u =>
    obtain ⟨o, s, rest, a, r, ho, hs, hu, ha, -, rfl⟩ := throwing_step h
    exact write_addrOk hw ho

theorem steps_addrOk {w w' : World F} {ops : List (World.Op F)} (hw : AddrOk w) (h : World.Steps fo w ops w') : AddrOk w' := by
  induction h with
  | nil => exact hw
  | cons h1 _ ih => exact ih (step_addrOk hw h1)

theorem reachable_addrOk {w : World F} (h : World.Reachable fo w) : AddrOk w := by
  obtain ⟨ops, h⟩ := h
  exact steps_addrOk (by intro o ho; simp [World.empty] at ho) h

/-- What the user gets is what the analyser returns. -/
theorem answer_eq {w : World F} (hw : AddrOk w) {i u : Nat} {o : AnalyzerObj F} (ho : w.analyzers[i]? = some o) (hs : o.scopes ≠ [])
    (hu : w.nextUid ≤ u) (p : ProgramAst F) : World.answer fo w i p u =
      match Sem.analyze fo (w.readAnalyzer o u) p with
      | .ok x => .ok x.2
      | .exn c => .exn c
      | .ub => .ub := by
  have hlt : ¬ u < w.nextUid := Nat.not_lt.mpr hu
  cases hsc : o.scopes with
  | nil => exact absurd hsc hs
  | cons s rest =>
  unfold World.answer
  cases ha : Sem.analyze fo (w.readAnalyzer o u) p with
  | err e => exact e.elim
  | exn c => simp only [World.step, ho, hlt, if_false, hsc, ha]; rfl
  | ub => simp only [World.step, ho, hlt, if_false, hsc, ha]; rfl
  | ok x =>
    obtain ⟨a, r⟩ := x
    simp only [World.step, ho, hlt, if_false, hsc, ha, Res.bind_ok, List.getLast?_append, List.getLast?_singleton, Option.or_some,
      Option.some_or, Res.ok.injEq]
    obtain ⟨errs, sc, rest', h1, h2, rfl⟩ := analyze_parts ha
    simp only [World.readResult, Option.map_some, World.readProgram, Result.mk.injEq, Option.some.injEq, and_true]
    have hb : World.blockAt { w.write i o a with results := w.results ++ [⟨some ⟨(w.readAnalyzer o u).apiVersion,
        (visitVersion (w.readAnalyzer o u).apiVersion p.version).2, s.block, sc.variables⟩,
        (visitVersion (w.readAnalyzer o u).apiVersion p.version).1 ++ errs⟩] } s.block = sc.block := by
      have hl : s.block < w.blocks.length := hw o (List.mem_of_getElem? ho) s (by rw [hsc]; simp)
      simp [World.blockAt, World.write, hsc, h2, World.blocksAfter, List.getElem?_set, hl]
    simp only [World.write] at hb ⊢
    rw [hb]

/-! ## C57 -/

/-- C57, over any history of calls on any number of analysers, scopes and copies: a result once returned is kept, its errors, versions
and variables stay the same, and its statements are only added to. -/
theorem C57_history_partial {w w' : World F} {ops : List (World.Op F)} (h : World.Steps fo w ops w') :
    (∃ rs, w'.results = w.results ++ rs) ∧
    ∀ r : Result (ProgramObj F), (w'.readResult r).errors = (w.readResult r).errors ∧
      ∀ x, (w.readResult r).root = some x → ∃ y, (w'.readResult r).root = some y ∧ y.apiVersion = x.apiVersion ∧
        y.version = x.version ∧ y.variables = x.variables ∧ ∃ ts, y.block.statements = x.block.statements ++ ts := by
  refine ⟨steps_results h, fun r => ⟨rfl, fun x hx => ?_⟩⟩
  obtain ⟨root, errs⟩ := r
  cases root with
  | none => simp [World.readResult] at hx
  | some p =>
    simp only [World.readResult, Option.map_some, Option.some.injEq] at hx ⊢
    subst hx
    exact ⟨_, rfl, rfl, rfl, rfl, steps_block h p.block⟩

/-- C57, when a result does stay the same: as long as no program is analysed, and no statement added, with an analyser whose current
scope is the one the result came from. -/
theorem C57_quiet_partial {w w' : World F} {ops : List (World.Op F)} {r : Result (ProgramObj F)} {p : ProgramObj F}
    (hr : r.root = some p) (h : World.Quiet fo p.block w ops w') : w'.readResult r = w.readResult r := by
  have : w'.blockAt p.block = w.blockAt p.block := by
    generalize p.block = b at h
    induction h with
    | nil => rfl
    | cons h1 h2 _ ih => rw [ih, (step_block h2 _).2 h1]
  simp [World.readResult, hr, World.readProgram, this]

/-! ## C77 -/

/-- C77. A copy starts out as the original: until either of them is used, both answer alike. -/
theorem C77_copy {w w' : World F} (hw : World.Reachable fo w) {i : Nat} (h : World.step fo w (.copy i) = .ok w') :
    w'.analyzers.length = w.analyzers.length + 1 ∧
    ∀ p u, World.answer fo w' w.analyzers.length p u = World.answer fo w' i p u ∧ World.answer fo w' i p u = World.answer fo w i p u := by
  have hw' := step_addrOk (reachable_addrOk hw) h
  simp only [World.step] at h
  split at h
  · cases h
  · rename_i o ho
    cases h
    have hi : i < w.analyzers.length := (List.getElem?_eq_some_iff.mp ho).1
    refine ⟨by simp, fun p u => ?_⟩
    have h1 : (w.analyzers ++ [o])[w.analyzers.length]? = some o := by simp
    have h2 : (w.analyzers ++ [o])[i]? = some o := by rw [List.getElem?_append_left hi, ho]
    by_cases hu : w.nextUid ≤ u
    · by_cases hs : o.scopes = []
      · simp [World.answer, World.step, h1, h2, ho, hs, Nat.not_lt.mpr hu]
      · rw [answer_eq hw' h1 hs hu, answer_eq hw' h2 hs hu, answer_eq (reachable_addrOk hw) ho hs hu]
        exact ⟨rfl, rfl⟩
    · simp [World.answer, World.step, h1, h2, ho, Nat.lt_of_not_le hu]

/-- C77. So does an analyser that another one is assigned to. -/
theorem C77_assign {w w' : World F} (hw : World.Reachable fo w) {i j : Nat} (h : World.step fo w (.assign i j) = .ok w') :
    w'.analyzers.length = w.analyzers.length ∧
    ∀ p u, World.answer fo w' i p u = World.answer fo w' j p u ∧ World.answer fo w' j p u = World.answer fo w j p u := by
  have hw' := step_addrOk (reachable_addrOk hw) h
  obtain ⟨o, hi, ho, rfl⟩ := assign_step h
  refine ⟨by simp, fun p u => ?_⟩
  have h1 : (w.analyzers.set i o)[i]? = some o := by simp [hi]
  have h2 : (w.analyzers.set i o)[j]? = some o := by
    by_cases e : i = j
    · rw [← e, h1]
    · rw [List.getElem?_set_ne e, ho]
  by_cases hu : w.nextUid ≤ u
  · by_cases hs : o.scopes = []
    · simp [World.answer, World.step, h1, h2, ho, hs, Nat.not_lt.mpr hu]
    · rw [answer_eq hw' h1 hs hu, answer_eq hw' h2 hs hu, answer_eq (reachable_addrOk hw) ho hs hu]
      exact ⟨rfl, rfl⟩
  · simp [World.answer, World.step, h1, h2, ho, Nat.lt_of_not_le hu]

theorem steps_other {w w' : World F} {ops : List (World.Op F)} (h : World.Steps fo w ops w') {j : Nat} (hj : j < w.analyzers.length)
    (hops : ∀ op ∈ ops, op.on ≠ some j) : w'.analyzers[j]? = w.analyzers[j]? := by
  induction h with
  | nil => rfl
  | cons h1 _ ih =>
    have h2 := (step_other h1).2 j hj (hops _ (by simp))
    rw [ih _ fun op ho => hops op (by simp [ho]), h2]
    have := h2
    rw [List.getElem?_eq_getElem hj] at this
    exact (List.getElem?_eq_some_iff.mp this).1

/-- Reading an analyser in two memories that differ in blocks only. -/
theorem map_bare_readScope (w w' : World F) (ss : List (ScopeObj F)) :
    (ss.map w.readScope).map bare = (ss.map w'.readScope).map bare := by
  simp [List.map_map, Function.comp_def, World.readScope, bare]

/-- C77, what holds. Whatever is done with other analysers, copies of this one included, it gives the same errors, the same versions
and the same variables, and adds the same statements to those in its block. (If both answers are results: the other analysers can also
make it throw, see `C77_refuted`.) -/
theorem C77_independent_partial {w w' : World F} (hw : World.Reachable fo w) {ops : List (World.Op F)} (h : World.Steps fo w ops w') {j : Nat}
    (hops : ∀ op ∈ ops, op.on ≠ some j) {p : ProgramAst F} {u : Nat} {r r' : Result (SProgram F)}
    (h1 : World.answer fo w j p u = .ok r) (h2 : World.answer fo w' j p u = .ok r') :
    r'.errors = r.errors ∧ ∃ b x x' ts, w.current j = some b ∧ r.root = some x ∧ r'.root = some x' ∧ x'.apiVersion = x.apiVersion ∧
      x'.version = x.version ∧ x'.variables = x.variables ∧ x.block.statements = (w.blockAt b).statements ++ ts ∧
      x'.block.statements = (w'.blockAt b).statements ++ ts := by
  have hw1 := reachable_addrOk hw
  have hw2 := steps_addrOk hw1 h
  obtain ⟨w1, hs1, -⟩ := Res.bind_eq_ok.mp h1
  obtain ⟨w2, hs2, -⟩ := Res.bind_eq_ok.mp h2
  obtain ⟨o, s, rest, a, q, ho, hs, hu, ha, -⟩ := analyze_step hs1
  obtain ⟨o', s', rest', a', q', ho', hs', hu', ha', -⟩ := analyze_step hs2
  have hj : j < w.analyzers.length := (List.getElem?_eq_some_iff.mp ho).1
  have := steps_other h hj hops
  rw [ho, ho'] at this
  cases this
  have hne : o.scopes ≠ [] := by rw [hs]; simp
  rw [answer_eq hw1 ho hne hu, ha] at h1
  rw [answer_eq hw2 ho' hne hu', ha'] at h2
  cases h1
  cases h2
  obtain ⟨r0, -, hr⟩ := analyze_effect fo ((o.scopes.map w.readScope).map bare) u p
  rw [World.readAnalyzer, hs, List.map_cons, hr _ _ _ (by rw [hs]; rfl)] at ha
  rw [World.readAnalyzer, hs, List.map_cons, hr _ _ _ (by rw [map_bare_readScope w w', hs]; rfl)] at ha'
  obtain ⟨x, hx, ha⟩ := Res.bind_eq_ok.mp ha
  obtain ⟨y, hy, ha'⟩ := Res.bind_eq_ok.mp ha'
  rw [hx] at hy
  cases hy
  dsimp only at ha ha'
  split at ha
  · cases ha
  · split at ha'
    · cases ha'
    · cases ha
      cases ha'
      refine ⟨rfl, s.block, _, _, x.2.statements, ?_, rfl, rfl, rfl, rfl, rfl, ?_, ?_⟩
      · obtain ⟨v, scs⟩ := o
        subst hs
        rw [World.current, ho]
      · exact blockAfter_prefix _ _
      · exact blockAfter_prefix _ _

/-- C77 is false. Let an analyser and its copy be used in turn: as soon as the original has accepted a program in which a statement
refers to a variable, the copy throws `std::runtime_error` for every program it would have accepted. -/
theorem C77_refuted {w w1 w2 : World F} (hw : World.Reachable fo w) {i : Nat} {v : Version} {s : ScopeObj F}
    (hi : w.analyzers[i]? = some ⟨v, [s]⟩) (hvars : s.variables = []) (hcopy : World.step fo w (.copy i) = .ok w1) {p : ProgramAst F} {u : Nat}
    (hp : World.step fo w1 (.analyze i p u) = .ok w2) {r : SProgram F} (hr : World.answer fo w1 i p u = .ok ⟨some r, []⟩)
    (href : ∃ t ∈ r.block.statements, ∃ y ∈ SProgram.statementValues t, (∃ x, y.node = .variableRef x) ∨ ∃ x is, y.node = .indexRef x is)
    {q : ProgramAst F} {u' : Nat} (hu' : w2.nextUid ≤ u') {rq : SProgram F}
    (hq : World.answer fo w1 w.analyzers.length q u' = .ok ⟨some rq, []⟩) :
    World.answer fo w2 w.analyzers.length q u' = .exn c!"std::runtime_error" := by
  have hw1 := step_addrOk (reachable_addrOk hw) hcopy
  have hw2 := step_addrOk hw1 hp
  simp only [World.step, hi] at hcopy
  cases hcopy
  have hlt : i < w.analyzers.length := (List.getElem?_eq_some_iff.mp hi).1
  have g1 : (w.analyzers ++ [⟨v, [s]⟩])[w.analyzers.length]? = some ⟨v, [s]⟩ := by simp
  have g2 : (w.analyzers ++ [⟨v, [s]⟩])[i]? = some ⟨v, [s]⟩ := by rw [List.getElem?_append_left hlt, hi]
  obtain ⟨o, s1, rest, a, res, ho, hs, hu, ha, hw2e⟩ := analyze_step hp
  rw [g2] at ho
  cases ho
  cases hs
  rw [answer_eq hw1 g2 (by simp) hu, ha] at hr
  cases hr
  -- the original
  obtain ⟨ep, fp, hep⟩ := analyze_effect fo ([World.readScope { w with analyzers := w.analyzers ++ [⟨v, [s]⟩] } s].map bare) u p
  have ha0 := ha
  rw [World.readAnalyzer, List.map_cons, List.map_nil, hep _ _ _ rfl] at ha
  obtain ⟨x, hx, ha⟩ := Res.bind_eq_ok.mp ha
  dsimp only at ha
  split at ha
  · cases ha
  rename_i hwf
  have hrr : r = _ := (Option.some.inj (congrArg Result.root (congrArg Prod.snd (Res.ok.inj ha)))).symm
  have haa := congrArg Prod.fst (Res.ok.inj ha)
  have hre : ((visitVersion v p.version).1 ++ x.1) = [] := congrArg Result.errors (congrArg Prod.snd (Res.ok.inj ha))
  rw [hre] at hwf
  simp only [List.isEmpty_nil, Bool.true_and, Option.map_some, Option.getD_some, Bool.not_eq_true, Bool.not_eq_false'] at hwf
  simp only at haa
  -- the copy
  obtain ⟨eq, fq, heq⟩ := analyze_effect fo ([World.readScope { w with analyzers := w.analyzers ++ [⟨v, [s]⟩] } s].map bare) u' q
  have hn2 : w.nextUid ≤ u' := by
    rw [hw2e] at hu'
    simp only [World.write] at hu'
    omega
  have hxu : x.2.nextUid ≤ u' := by
    rw [hw2e] at hu'
    simp only [World.write, ← haa] at hu'
    omega
  rw [answer_eq hw1 g1 (by simp) hn2, World.readAnalyzer, List.map_cons, List.map_nil, heq _ _ _ rfl] at hq
  cases eq with
  | err e => exact e.elim
  | exn c => cases hq
  | ub => cases hq
  | ok y =>
  rw [Res.bind_ok] at hq
  dsimp only at hq
  have hqe : (visitVersion v q.version).1 ++ y.1 = [] := by
    split at hq
    · rename_i hc
      split at hc
      · cases hc
      · cases hc
        exact congrArg Result.errors (Res.ok.inj hq)
    · cases hq
    · cases hq
  -- now
  have g3 : w2.analyzers[w.analyzers.length]? = some ⟨v, [s]⟩ := by
    rw [hw2e]
    show ((w.analyzers ++ [(⟨v, [s]⟩ : AnalyzerObj F)]).set i _)[w.analyzers.length]? = _
    rw [List.getElem?_set_ne (by omega), g1]
  have hblk : w2.blockAt s.block = r.block := by
    have hl : s.block < w.blocks.length := hw1 ⟨v, [s]⟩ (List.mem_of_getElem? g2) s (by simp)
    rw [hw2e, ← haa, hrr]
    simp [World.blockAt, World.write, World.blocksAfter, List.getElem?_set, hl]
  rw [answer_eq hw2 g3 (by simp) hu', World.readAnalyzer, List.map_cons, List.map_nil,
    heq _ _ _ (by simp [World.readScope, bare]), Res.bind_ok]
  dsimp only
  rw [hqe]
  obtain ⟨t, ht, val, hval, hlink⟩ := href
  have hnot : SProgram.wellFormed ⟨v, (visitVersion v q.version).2, (y.2.apply (w2.readScope s)).block,
      (y.2.apply (w2.readScope s)).variables⟩ = false := by
    rw [← Bool.not_eq_true]
    intro hc
    simp only [SProgram.wellFormed, List.all_eq_true] at hc hwf
    have hin : val ∈ SProgram.values ⟨v, (visitVersion v q.version).2, (y.2.apply (w2.readScope s)).block,
        (y.2.apply (w2.readScope s)).variables⟩ := by
      refine List.mem_append_left _ (List.mem_flatMap.mpr ⟨t, ?_, hval⟩)
      show t ∈ (blockAfter (w2.blockAt s.block) y.2.statements).statements
      rw [blockAfter_prefix, hblk]
      exact List.mem_append_left _ ht
    have hin' : val ∈ SProgram.values r := List.mem_append_left _ (List.mem_flatMap.mpr ⟨t, ht, hval⟩)
    have k1 := hc val hin
    rw [hrr] at hin'
    have k2 := hwf val hin'
    have hv1 : (y.2.apply (w2.readScope s)).variables = y.2.variables := by simp [Effect.apply, World.readScope, hvars]
    have hv2 : (x.2.apply (World.readScope { w with analyzers := w.analyzers ++ [⟨v, [s]⟩] } s)).variables = x.2.variables := by
      simp [Effect.apply, World.readScope, hvars]
    have clash (l : VarLink) (c1 : (y.2.variables.map (·.uid)).contains l.uid = true)
        (c2 : (x.2.variables.map (·.uid)).contains l.uid = true) : False := by
      simp only [List.contains_iff_mem, List.mem_map] at c1 c2
      obtain ⟨z, hz, e1⟩ := c1
      obtain ⟨z', hz', e2⟩ := c2
      have := (fq y rfl).2 z hz
      have := (fp x hx).2 z' hz'
      omega
    rcases hlink with ⟨l, hl⟩ | ⟨l, is, hl⟩
    · simp only [SProgram.valueOk, hl, hv1, hv2] at k1 k2
      exact clash l k1 k2
    · simp only [SProgram.valueOk, hl, hv1, hv2, Bool.and_eq_true] at k1 k2
      exact clash l k1.1 k2.1
  simp [hnot]

/-- Addresses an analyser has before and after a call. -/
theorem step_scopes {w w' : World F} {op : World.Op F} (h : World.step fo w op = .ok w') (hw : AddrOk w) {j : Nat} {o' : AnalyzerObj F}
    (ho' : w'.analyzers[j]? = some o') : ∀ s' ∈ o'.scopes, w.blocks.length ≤ s'.block ∨
      (∃ o, w.analyzers[j]? = some o ∧ ∃ s ∈ o.scopes, s.block = s'.block) ∨
      ∃ i o, (op = .copy i ∧ w.analyzers.length ≤ j ∨ op = .assign j i) ∧ w.analyzers[i]? = some o ∧
        ∃ s ∈ o.scopes, s.block = s'.block := by
  have wr {i : Nat} {o : AnalyzerObj F} {a : Analyzer F} (ho : w.analyzers[i]? = some o)
      (h : (w.analyzers.set i ⟨a.apiVersion, World.scopesAfter o.scopes a.scopes⟩)[j]? = some o') : ∀ s' ∈ o'.scopes,
      ∃ o, w.analyzers[j]? = some o ∧ ∃ s ∈ o.scopes, s.block = s'.block := by
    intro s' hs'
    rw [List.getElem?_set] at h
    split at h
    · rename_i hij
      subst hij
      split at h
      · cases h
        obtain ⟨s, h1, h2⟩ := scopesAfter_blocks _ _ s' hs'
        exact ⟨o, ho, s, h1, h2.symm⟩
      · cases h
    · exact ⟨o', h, s', hs', rfl⟩
  have chg {i : Nat} {f : Analyzer F → Res Err (Analyzer F)} {w' : World F} (h : w.change i f = .ok w')
      (ho' : w'.analyzers[j]? = some o') : ∀ s' ∈ o'.scopes, ∃ o, w.analyzers[j]? = some o ∧ ∃ s ∈ o.scopes, s.block = s'.block := by
    obtain ⟨o, a, ho, _, rfl⟩ := change_parts h
    exact wr ho ho'
  cases op with
  | create v =>
    simp only [World.step, World.create] at h
    split at h
    · cases h
    · cases h
      intro s' hs'
      simp only [List.getElem?_append] at ho'
      split at ho'
      · exact .inr (.inl ⟨o', ho', s', hs', rfl⟩)
      · cases hk : j - w.analyzers.length with
        | zero => rw [hk] at ho'; cases ho'; simp at hs'; subst hs'; exact .inl (Nat.le_refl _)
        | succ n => rw [hk] at ho'; cases ho'
  | copy i =>
    simp only [World.step] at h
    split at h
    · cases h
    · rename_i o0 ho0
      cases h
      intro s' hs'
      simp only [List.getElem?_append] at ho'
      split at ho'
      · exact .inr (.inl ⟨o', ho', s', hs', rfl⟩)
      · rename_i hl
        cases hk : j - w.analyzers.length with
        | zero => rw [hk] at ho'; cases ho'; exact .inr (.inr ⟨i, o', .inl ⟨rfl, Nat.le_of_not_lt hl⟩, ho0, s', hs', rfl⟩)
        | succ n => rw [hk] at ho'; cases ho'
  | assign i k =>
    obtain ⟨o, hi, ho, rfl⟩ := assign_step h
    intro s' hs'
    simp only [List.getElem?_set, hi, if_true] at ho'
    split at ho'
    · rename_i hij
      subst hij
      obtain rfl := Option.some.inj ho'
      exact .inr (.inr ⟨k, o, .inr rfl, ho, s', hs', rfl⟩)
    · exact .inr (.inl ⟨o', ho', s', hs', rfl⟩)
  | push i =>
    simp only [World.step] at h
    split at h
    · cases h
    · rename_i o0 ho0
      cases h
      intro s' hs'
      simp only [List.getElem?_set] at ho'
      split at ho'
      · rename_i hij
        subst hij
        split at ho'
        · cases ho'
          simp only [List.mem_cons] at hs'
          rcases hs' with rfl | hs'
          · exact .inl (Nat.le_refl _)
          · exact .inr (.inl ⟨o0, ho0, s', hs', rfl⟩)
        · cases ho'
      · exact .inr (.inl ⟨o', ho', s', hs', rfl⟩)
  | pop i =>
    simp only [World.step] at h
    split at h
    · cases h
    · rename_i o0 ho0
      split at h
      · cases h
      · rename_i s0 rest hsc
        cases h
        intro s' hs'
        simp only [List.getElem?_set] at ho'
        split at ho'
        · rename_i hij
          subst hij
          split at ho'
          · cases ho'
            exact .inr (.inl ⟨o0, ho0, s', by rw [hsc]; exact List.mem_cons_of_mem _ hs', rfl⟩)
          · cases ho'
        · exact .inr (.inl ⟨o', ho', s', hs', rfl⟩)
  | constants i => exact fun s' hs' => .inr (.inl (chg h ho' s' hs'))
  | functions i => exact fun s' hs' => .inr (.inl (chg h ho' s' hs'))
  | instructions i => exact fun s' hs' => .inr (.inl (chg h ho' s' hs'))
  | addName i n v => exact fun s' hs' => .inr (.inl (chg (f := (·.registerVariable n v)) h ho' s' hs'))
  | addFunction i n ts f => exact fun s' hs' => .inr (.inl (chg (f := (·.registerFunction n ts f)) h ho' s' hs'))
  | addInstruction i x => exact fun s' hs' => .inr (.inl (chg (f := (·.registerInstruction x)) h ho' s' hs'))
  | addStatement i x => exact fun s' hs' => .inr (.inl (chg (f := (·.addStatement x)) h ho' s' hs'))
  | addVariable i x =>
    obtain ⟨w1, h1, h2⟩ := Res.bind_eq_ok.mp h
    cases h2
    exact fun s' hs' => .inr (.inl (chg (f := (·.addVariable x)) h1 ho' s' hs'))
  | analyze i p u =>
    obtain ⟨o, s, rest, a, r, ho, hs, hu, ha, rfl⟩ := analyze_step h
    exact fun s' hs' => .inr (.inl (wr ho ho' s' hs'))
  | throwing i p u =>
    obtain ⟨o, s, rest, a, r, ho, hs, hu, ha, -, rfl⟩ := throwing_step h
    exact fun s' hs' => .inr (.inl (wr ho ho' s' hs'))

/-- C77. A newly constructed analyser shares its block with no other, -/
theorem C77_created_alone {w w' : World F} (hw : World.Reachable fo w) {v : Version} (h : World.step fo w (.create v) = .ok w') :
    World.Alone w' w.analyzers.length := by
  have hw1 := reachable_addrOk hw
  simp only [World.step, World.create] at h
  split at h
  · cases h
  · cases h
    intro o ho j hj o' ho' s hs s' hs'
    simp at ho
    subst ho
    simp at hs
    subst hs
    simp only [List.getElem?_append] at ho'
    split at ho'
    · exact Nat.ne_of_gt (hw1 o' (List.mem_of_getElem? ho') s' hs')
    · cases hk : j - w.analyzers.length with
      | zero => omega
      | succ n => rw [hk] at ho'; cases ho'

/-- The length of the heap and of the list of analysers. -/
theorem step_lengths {w w' : World F} {op : World.Op F} (h : World.step fo w op = .ok w') :
    w.blocks.length ≤ w'.blocks.length ∧ w.analyzers.length ≤ w'.analyzers.length := by
  have chg {i : Nat} {f : Analyzer F → Res Err (Analyzer F)} {w' : World F} (h : w.change i f = .ok w') :
      w.blocks.length ≤ w'.blocks.length ∧ w.analyzers.length ≤ w'.analyzers.length := by
    obtain ⟨o, a, ho, _, rfl⟩ := change_parts h
    simp [World.write, blocksAfter_length]
  cases op with
  | create v =>
    simp only [World.step, World.create] at h
    split at h
    · cases h
    · cases h; simp
  | copy i =>
    simp only [World.step] at h
    split at h
    · cases h
    · cases h; simp
  | assign i j =>
    obtain ⟨o, -, -, rfl⟩ := assign_step h
    simp
  | push i =>
    simp only [World.step] at h
    split at h
    · cases h
    · cases h; simp
  | pop i =>
    simp only [World.step] at h
    split at h
    · cases h
    · split at h
      · cases h
      · cases h; simp
  | constants i => exact chg h
  | functions i => exact chg h
  | instructions i => exact chg h
  | addName i n v => exact chg (f := (·.registerVariable n v)) h
  | addFunction i n ts f => exact chg (f := (·.registerFunction n ts f)) h
  | addInstruction i x => exact chg (f := (·.registerInstruction x)) h
  | addStatement i x => exact chg (f := (·.addStatement x)) h
  | addVariable i x =>
    obtain ⟨w1, h1, h2⟩ := Res.bind_eq_ok.mp h
    have := chg (f := (·.addVariable x)) h1
    cases h2
    exact this
  | analyze i p u =>
    obtain ⟨o, s, rest, a, r, ho, hs, hu, ha, rfl⟩ := analyze_step h
    simp [World.write, blocksAfter_length]
  | throwing i p u =>
    obtain ⟨o, s, rest, a, r, ho, hs, hu, ha, -, rfl⟩ := throwing_step h
    simp [World.write, blocksAfter_length]

/-- Only constructing and copying make an analyser. -/
theorem step_made {w w' : World F} {op : World.Op F} (h : World.step fo w op = .ok w') {i : Nat} (hi : op.on = some i) :
    w'.analyzers.length = w.analyzers.length := by
  have chg {i : Nat} {f : Analyzer F → Res Err (Analyzer F)} {w' : World F} (h : w.change i f = .ok w') :
      w'.analyzers.length = w.analyzers.length := by
    obtain ⟨o, a, ho, _, rfl⟩ := change_parts h
    simp [World.write]
  cases op with
  | create v => cases hi
  | copy i => cases hi
  | assign i j =>
    obtain ⟨o, -, -, rfl⟩ := assign_step h
    simp
  | push i =>
    simp only [World.step] at h
    split at h
    · cases h
    · cases h; simp
  | pop i =>
    simp only [World.step] at h
    split at h
    · cases h
    · split at h
      · cases h
      · cases h; simp
  | constants i => exact chg h
  | functions i => exact chg h
  | instructions i => exact chg h
  | addName i n v => exact chg (f := (·.registerVariable n v)) h
  | addFunction i n ts f => exact chg (f := (·.registerFunction n ts f)) h
  | addInstruction i x => exact chg (f := (·.registerInstruction x)) h
  | addStatement i x => exact chg (f := (·.addStatement x)) h
  | addVariable i x =>
    obtain ⟨w1, h1, h2⟩ := Res.bind_eq_ok.mp h
    have := chg (f := (·.addVariable x)) h1
    cases h2
    exact this
  | analyze i p u =>
    obtain ⟨o, s, rest, a, r, ho, hs, hu, ha, rfl⟩ := analyze_step h
    simp [World.write]
  | throwing i p u =>
    obtain ⟨o, s, rest, a, r, ho, hs, hu, ha, -, rfl⟩ := throwing_step h
    simp [World.write]

theorem step_alone {w w' : World F} (hw : AddrOk w) {op : World.Op F} (h : World.step fo w op = .ok w') {i : Nat}
    (hi : i < w.analyzers.length) (ha : World.Alone w i) (hc : ¬ op.Copies i) : World.Alone w' i := by
  intro o ho j hj o' ho' s hs s' hs' he
  have k1 := step_scopes h hw ho s hs
  have k2 := step_scopes h hw ho' s' hs'
  -- the address is new in at most one of the two
  have old {k : Nat} {o : AnalyzerObj F} {t : ScopeObj F} (hk : w.analyzers[k]? = some o) (ht : t ∈ o.scopes) :
      t.block < w.blocks.length := hw o (List.mem_of_getElem? hk) t ht
  by_cases hon : op.on = some j
  · -- then analyser i is as before
    have hio : w.analyzers[i]? = some o := by
      rw [← (step_other h).2 i hi (by rw [hon]; intro e; exact hj (Option.some.inj e)), ho]
    have hlt := old hio hs
    rcases k2 with k2 | ⟨o2, ho2, s2, hs2, e2⟩ | ⟨k, o2, k3, ho2, s2, hs2, e2⟩
    · omega
    · exact ha o hio j hj o2 ho2 s hs s2 hs2 (he.trans e2.symm)
    · rcases k3 with ⟨rfl, -⟩ | rfl
      · simp [World.Op.on] at hon
      · exact ha o hio k (fun e => hc (e ▸ .source)) o2 ho2 s hs s2 hs2 (he.trans e2.symm)
  · by_cases hlj : j < w.analyzers.length
    · have hjo : w.analyzers[j]? = some o' := by rw [← (step_other h).2 j hlj hon, ho']
      have hlt := old hjo hs'
      rcases k1 with k1 | ⟨o1, ho1, s1, hs1, e1⟩ | ⟨k, o1, k3, ho1, s1, hs1, e1⟩
      · omega
      · exact ha o1 ho1 j hj o' hjo s1 hs1 s' hs' (e1.trans he)
      · rcases k3 with ⟨rfl, hl⟩ | rfl
        · omega
        · exact hc .target
    · -- analyser j is new
      have hjn : w.analyzers[j]? = none := List.getElem?_eq_none (Nat.le_of_not_lt hlj)
      have hoi : op.on ≠ some i := by
        intro e
        have := step_made h e
        have := (List.getElem?_eq_some_iff.mp ho').1
        omega
      have hio : w.analyzers[i]? = some o := by rw [← (step_other h).2 i hi hoi, ho]
      have hlt := old hio hs
      rcases k2 with k2 | ⟨o2, ho2, s2, hs2, e2⟩ | ⟨k, o2, k3, ho2, s2, hs2, e2⟩
      · omega
      · rw [hjn] at ho2; cases ho2
      · rcases k3 with ⟨rfl, -⟩ | rfl
        · exact ha o hio k (fun e => hc (e ▸ .copy)) o2 ho2 s hs s2 hs2 (he.trans e2.symm)
        · exact absurd rfl hon

/-- C77. and stays alone until it is copied or assigned to. -/
theorem C77_stays_alone {w w' : World F} (hw : World.Reachable fo w) {ops : List (World.Op F)} (h : World.Steps fo w ops w') {i : Nat}
    (hi : i < w.analyzers.length) (ha : World.Alone w i) (hc : ∀ op ∈ ops, ¬ op.Copies i) : World.Alone w' i := by
  have hw1 := reachable_addrOk hw
  clear hw
  induction h with
  | nil => exact ha
  | cons h1 _ ih =>
    exact ih (Nat.lt_of_lt_of_le hi (step_lengths h1).2) (step_alone hw1 h1 hi ha (hc _ (by simp))) (fun op ho => hc op (by simp [ho]))
      (step_addrOk hw1 h1)

theorem step_current {w : World F} {op : World.Op F} {b : Nat} (h : World.Writes w b op) : ∃ i, op.on = some i ∧ w.current i = some b := by
  cases h with
  | analyze h => exact ⟨_, rfl, h⟩
  | throwing h => exact ⟨_, rfl, h⟩
  | statement h => exact ⟨_, rfl, h⟩

/-- C77. What is done with other analysers makes no difference to an analyser that has not been copied: not even a copy made of
another one can change what it answers. -/
theorem C77_uncopied {w w' : World F} (hw : World.Reachable fo w) {ops : List (World.Op F)} (h : World.Steps fo w ops w') {j : Nat}
    (hj : j < w.analyzers.length) (ha : World.Alone w j) (hops : ∀ op ∈ ops, op.on ≠ some j ∧ ¬ op.Copies j) {p : ProgramAst F} {u : Nat}
    (hu : w.nextUid ≤ u) (hu' : w'.nextUid ≤ u) : World.answer fo w' j p u = World.answer fo w j p u := by
  have hw1 := reachable_addrOk hw
  have hw2 := steps_addrOk hw1 h
  have ho := List.getElem?_eq_getElem hj
  generalize w.analyzers[j] = o at ho
  have ho' : w'.analyzers[j]? = some o := by rw [steps_other h hj fun op h => (hops op h).1, ho]
  by_cases hs : o.scopes = []
  · simp [World.answer, World.step, ho, ho', hs, Nat.not_lt.mpr hu, Nat.not_lt.mpr hu']
  · rw [answer_eq hw1 ho hs hu, answer_eq hw2 ho' hs hu']
    have hb : ∀ s ∈ o.scopes, w'.blockAt s.block = w.blockAt s.block := by
      clear hw hu hu' ho' hw2
      induction h with
      | nil => exact fun _ _ => rfl
      | @cons w w1 w2 op ops h1 _ ih =>
        intro s hs'
        have hop := hops _ (List.mem_cons_self ..)
        have ho1 : w1.analyzers[j]? = some o := by rw [(step_other h1).2 j hj hop.1, ho]
        rw [ih (Nat.lt_of_lt_of_le hj (step_lengths h1).2) (step_alone hw1 h1 hj ha hop.2) (fun op h => hops op (by simp [h]))
          (step_addrOk hw1 h1) ho1 s hs']
        refine (step_block h1 _).2 fun hwr => ?_
        obtain ⟨i, hi, hc⟩ := step_current hwr
        have hij : i ≠ j := fun e => hop.1 (by rw [hi, e])
        unfold World.current at hc
        split at hc
        · rename_i v t rest hoi
          exact ha o ho i hij _ hoi s hs' t (by simp) (Option.some.inj hc).symm
        · cases hc
    have hr : w'.readAnalyzer o u = w.readAnalyzer o u := by
      have : o.scopes.map w'.readScope = o.scopes.map w.readScope :=
        List.map_congr_left fun s hs => by simp [World.readScope, hb s hs]
      simp [World.readAnalyzer, this]
    rw [hr]

/-! ## An analyser that has thrown -/

theorem step_nextUid {w w' : World F} {op : World.Op F} (h : World.step fo w op = .ok w') : w.nextUid ≤ w'.nextUid := by
  have chg {i : Nat} {f : Analyzer F → Res Err (Analyzer F)} {w' : World F} (h : w.change i f = .ok w') : w.nextUid ≤ w'.nextUid := by
    obtain ⟨o, a, ho, _, rfl⟩ := change_parts h
    exact Nat.le_max_left _ _
  cases op with
  | create v =>
    simp only [World.step, World.create] at h
    split at h
    · cases h
    · cases h; exact Nat.le_refl _
  | copy i =>
    simp only [World.step] at h
    split at h
    · cases h
    · cases h; exact Nat.le_refl _
  | assign i j =>
    obtain ⟨o, -, -, rfl⟩ := assign_step h
    exact Nat.le_refl _
  | push i =>
    simp only [World.step] at h
    split at h
    · cases h
    · cases h; exact Nat.le_refl _
  | pop i =>
    simp only [World.step] at h
    split at h
    · cases h
    · split at h
      · cases h
      · cases h; exact Nat.le_refl _
  | constants i => exact chg h
  | functions i => exact chg h
  | instructions i => exact chg h
  | addName i n v => exact chg (f := (·.registerVariable n v)) h
  | addFunction i n ts f => exact chg (f := (·.registerFunction n ts f)) h
  | addInstruction i x => exact chg (f := (·.registerInstruction x)) h
  | addStatement i x => exact chg (f := (·.addStatement x)) h
  | addVariable i x =>
    obtain ⟨w1, h1, h2⟩ := Res.bind_eq_ok.mp h
    have := chg (f := (·.addVariable x)) h1
    cases h2
    exact Nat.le_trans this (Nat.le_max_left _ _)
  | analyze i p u =>
    obtain ⟨o, s, rest, a, r, ho, hs, hu, ha, rfl⟩ := analyze_step h
    exact Nat.le_max_left _ _
  | throwing i p u =>
    obtain ⟨o, s, rest, a, r, ho, hs, hu, ha, -, rfl⟩ := throwing_step h
    exact Nat.le_max_left _ _

theorem stale_effect {w w' : World F} {i : Nat} {o : AnalyzerObj F} {s : ScopeObj F} {rest : List (ScopeObj F)} {a : Analyzer F} {u : Nat}
    (ho : w.analyzers[i]? = some o) (hs : o.scopes = s :: rest) (hu : w.nextUid ≤ u) {x : Effect F} (hf : x.Fresh u)
    (hx : a.scopes = x.apply (w.readScope s) :: rest.map w.readScope) (hst : World.Stale w i)
    (hb : ∃ ts, (w'.blockAt s.block).statements = (w.blockAt s.block).statements ++ ts) (hn : w.nextUid ≤ w'.nextUid)
    (hw' : w'.analyzers = (w.write i o a).analyzers) : World.Stale w' i := by
  obtain ⟨o1, s1, rest1, ho1, hs1, t, ht, y, hy, l, hl, hlt, hno⟩ := hst
  rw [ho] at ho1
  cases ho1
  rw [hs] at hs1
  cases hs1
  have hi : i < w.analyzers.length := (List.getElem?_eq_some_iff.mp ho).1
  refine ⟨⟨a.apiVersion, World.scopesAfter o.scopes a.scopes⟩, _, _, by rw [hw']; simp [World.write, hi], by simp only [hs, hx, World.scopesAfter]; rfl, t, ?_, y,
    hy, l, hl, by omega, ?_⟩
  · obtain ⟨ts, hts⟩ := hb
    rw [hts]
    exact List.mem_append_left _ ht
  · intro z hz
    simp only [Effect.apply, World.readScope, List.mem_append] at hz
    rcases hz with hz | hz
    · exact hno z hz
    · have := hf.2 z hz
      omega

theorem step_stale {w w' : World F} {op : World.Op F} (h : World.step fo w op = .ok w') {i : Nat}
    (hc : op.on = some i → ∃ p u, op = .analyze i p u ∨ op = .throwing i p u) (hst : World.Stale w i) : World.Stale w' i := by
  by_cases hon : op.on = some i
  · obtain ⟨p, u, rfl | rfl⟩ := hc hon
    · have hb := fun b => (step_block h b).1
      have hn := step_nextUid h
      obtain ⟨o, s, rest, a, r, ho, hs, hu, ha, hw'⟩ := analyze_step h
      obtain ⟨x, hf, hx, -, -⟩ := analyze_obj hs ha
      exact stale_effect ho hs hu hf hx hst (hb _) hn (by rw [hw'])
    · have hb := fun b => (step_block h b).1
      have hn := step_nextUid h
      obtain ⟨o, s, rest, a, r, ho, hs, hu, ha, -, hw'⟩ := throwing_step h
      obtain ⟨x, hf, hx, -, -⟩ := program_obj hs ha
      exact stale_effect ho hs hu hf hx hst (hb _) hn (by rw [hw'])
  · obtain ⟨o, s, rest, ho, hs, t, ht, y, hy, l, hl, hlt, hno⟩ := hst
    have hi : i < w.analyzers.length := (List.getElem?_eq_some_iff.mp ho).1
    obtain ⟨ts, hts⟩ := (step_block h s.block).1
    have := step_nextUid h
    exact ⟨o, s, rest, by rw [(step_other h).2 i hi hon, ho], hs, t, by rw [hts]; exact List.mem_append_left _ ht, y, hy, l, hl,
      by omega, hno⟩

theorem stale_answer {w : World F} (hw : AddrOk w) {i : Nat} (hst : World.Stale w i) {p : ProgramAst F} {u : Nat}
    {r : Result (SProgram F)} (h : World.answer fo w i p u = .ok r) : r.errors ≠ [] := by
  intro he
  obtain ⟨w1, h1, -⟩ := Res.bind_eq_ok.mp h
  have hu : w.nextUid ≤ u := by
    obtain ⟨o, s, rest, a, r, ho, hs, hu, ha, hw'⟩ := analyze_step h1
    exact hu
  obtain ⟨o, s, rest, ho, hs, t, ht, y, hy, l, hl, hlt, hno⟩ := hst
  rw [answer_eq hw ho (by rw [hs]; simp) hu] at h
  obtain ⟨e, f, hr⟩ := analyze_effect fo ((o.scopes.map w.readScope).map bare) u p
  rw [World.readAnalyzer, hs, List.map_cons, hr _ _ _ (by rw [hs]; rfl)] at h
  cases e with
  | err e => exact e.elim
  | exn c => cases h
  | ub => cases h
  | ok x =>
    rw [Res.bind_ok] at h
    dsimp only at h
    split at h
    · rename_i hc
      split at hc
      · cases hc
      · rename_i hwf
        cases hc
        cases h
        simp only at he
        rw [he] at hwf
        simp only [List.isEmpty_nil, Bool.true_and, Option.map_some, Option.getD_some, Bool.not_eq_true, Bool.not_eq_false',
          SProgram.wellFormed, List.all_eq_true] at hwf
        have k := hwf y (by
          refine List.mem_append_left _ (List.mem_flatMap.mpr ⟨t, ?_, hy⟩)
          show t ∈ (blockAfter (w.blockAt s.block) x.2.statements).statements
          rw [blockAfter_prefix]
          exact List.mem_append_left _ ht)
        have hin : ((x.2.apply (w.readScope s)).variables.map (·.uid)).contains l.uid = true := by
          rcases hl with hl | ⟨is, hl⟩
          · simpa only [SProgram.valueOk, hl] using k
          · simp only [SProgram.valueOk, hl, Bool.and_eq_true] at k
            exact k.1
        simp only [List.contains_iff_mem, List.mem_map] at hin
        obtain ⟨z, hz, e⟩ := hin
        simp only [Effect.apply, World.readScope, List.mem_append] at hz
        rcases hz with hz | hz
        · exact hno z hz e
        · have := (f x rfl).2 z hz
          omega
    · cases h
    · cases h

/-- C77. An analyser whose block has a statement that refers to a variable it does not have never accepts a program again, however often
it is used and whatever is done with other analysers: it reports errors, or throws. -/
theorem C77_stale {w w' : World F} (hw : World.Reachable fo w) {ops : List (World.Op F)} (h : World.Steps fo w ops w') {i : Nat}
    (hst : World.Stale w i) (hops : ∀ op ∈ ops, op.on = some i → ∃ p u, op = .analyze i p u ∨ op = .throwing i p u)
    {p : ProgramAst F} {u : Nat} {r : Result (SProgram F)} (ha : World.answer fo w' i p u = .ok r) : r.errors ≠ [] := by
  have hw1 := steps_addrOk (reachable_addrOk hw) h
  refine stale_answer hw1 ?_ ha
  clear ha hw1 hw
  induction h with
  | nil => exact hst
  | cons h1 _ ih => exact ih (step_stale h1 (hops _ (by simp)) hst) fun op ho => hops op (by simp [ho])

/-- C77. So it is with the copy of `C77_refuted`: it never accepts a program again. -/
theorem C77_copy_stale {w w1 w2 : World F} (hw : World.Reachable fo w) {i : Nat} {v : Version} {s : ScopeObj F}
    (hi : w.analyzers[i]? = some ⟨v, [s]⟩) (hvars : s.variables = []) (hcopy : World.step fo w (.copy i) = .ok w1) {p : ProgramAst F} {u : Nat}
    (hp : World.step fo w1 (.analyze i p u) = .ok w2) {r : SProgram F} (hr : World.answer fo w1 i p u = .ok ⟨some r, []⟩)
    (href : ∃ t ∈ r.block.statements, ∃ y ∈ SProgram.statementValues t, (∃ x, y.node = .variableRef x) ∨ ∃ x is, y.node = .indexRef x is) :
    World.Stale w2 w.analyzers.length := by
  have hw1 := step_addrOk (reachable_addrOk hw) hcopy
  have hlt : i < w.analyzers.length := (List.getElem?_eq_some_iff.mp hi).1
  simp only [World.step, hi] at hcopy
  cases hcopy
  have g1 : (w.analyzers ++ [⟨v, [s]⟩])[w.analyzers.length]? = some ⟨v, [s]⟩ := by simp
  have g2 : (w.analyzers ++ [⟨v, [s]⟩])[i]? = some ⟨v, [s]⟩ := by rw [List.getElem?_append_left hlt, hi]
  have g3 : w2.analyzers[w.analyzers.length]? = some ⟨v, [s]⟩ := by
    rw [(step_other hp).2 _ (by simp) (by simp only [World.Op.on]; intro e; have := Option.some.inj e; omega), g1]
  obtain ⟨o, s1, rest, a, res, ho, hs, hu, ha, hw2e⟩ := analyze_step hp
  rw [g2] at ho
  cases ho
  cases hs
  rw [answer_eq hw1 g2 (by simp) hu, ha] at hr
  cases hr
  obtain ⟨ep, fp, hep⟩ := analyze_effect fo ([World.readScope { w with analyzers := w.analyzers ++ [⟨v, [s]⟩] } s].map bare) u p
  rw [World.readAnalyzer, List.map_cons, List.map_nil, hep _ _ _ rfl] at ha
  obtain ⟨x, hx, ha⟩ := Res.bind_eq_ok.mp ha
  dsimp only at ha
  split at ha
  · cases ha
  rename_i hwf
  have hrr : r = _ := (Option.some.inj (congrArg Result.root (congrArg Prod.snd (Res.ok.inj ha)))).symm
  have haa := congrArg Prod.fst (Res.ok.inj ha)
  simp only at haa
  have hre : ((visitVersion v p.version).1 ++ x.1) = [] := congrArg Result.errors (congrArg Prod.snd (Res.ok.inj ha))
  rw [hre] at hwf
  simp only [List.isEmpty_nil, Bool.true_and, Option.map_some, Option.getD_some, Bool.not_eq_true, Bool.not_eq_false',
    SProgram.wellFormed, List.all_eq_true] at hwf
  have hblk : w2.blockAt s.block = r.block := by
    have hl : s.block < w.blocks.length := hw1 ⟨v, [s]⟩ (List.mem_of_getElem? g2) s (by simp)
    rw [hw2e, ← haa, hrr]
    simp [World.blockAt, World.write, World.blocksAfter, hl]
  obtain ⟨t, ht, y, hy, hlink⟩ := href
  have hin' : y ∈ SProgram.values r := List.mem_append_left _ (List.mem_flatMap.mpr ⟨t, ht, hy⟩)
  rw [hrr] at hin'
  have k := hwf y hin'
  have hv : (x.2.apply (World.readScope { w with analyzers := w.analyzers ++ [⟨v, [s]⟩] } s)).variables = x.2.variables := by
    simp [Effect.apply, World.readScope, hvars]
  have hn : x.2.nextUid ≤ w2.nextUid := by
    rw [hw2e]
    simp only [World.write, ← haa]
    exact Nat.le_max_right _ _
  have below (l : VarLink) (c : (x.2.variables.map (·.uid)).contains l.uid = true) : l.uid < w2.nextUid := by
    simp only [List.contains_iff_mem, List.mem_map] at c
    obtain ⟨z, hz, e⟩ := c
    have := (fp x hx).2 z hz
    omega
  refine ⟨_, s, [], g3, rfl, t, by rw [hblk]; exact ht, y, hy, ?_⟩
  rw [hvars]
  rcases hlink with ⟨l, hl⟩ | ⟨l, is, hl⟩
  · simp only [SProgram.valueOk, hl, hv] at k
    exact ⟨l, .inl hl, below l k, by simp⟩
  · simp only [SProgram.valueOk, hl, hv, Bool.and_eq_true] at k
    exact ⟨l, .inr ⟨is, hl⟩, below l k.1, by simp⟩

/-! ## An analyser in memory does what the analyser of `Model/Analyzer` does -/

/-- The scopes of an analyser have different blocks. -/
def Distinct (w : World F) : Prop := ∀ o ∈ w.analyzers, (o.scopes.map ScopeObj.block).Nodup

theorem scopesAfter_sublist : ∀ (os : List (ScopeObj F)) (ss : List (Scope F)),
    ((World.scopesAfter os ss).map ScopeObj.block).Sublist (os.map ScopeObj.block)
  | [], _ => by simp [World.scopesAfter]
  | _ :: _, [] => by simp [World.scopesAfter]
  | o :: os, s :: ss => by
    rw [World.scopesAfter, List.map_cons, List.map_cons]
    exact (scopesAfter_sublist os ss).cons_cons _

theorem write_distinct {w : World F} {i : Nat} {o : AnalyzerObj F} {a : Analyzer F} (hw : Distinct w) (ho : w.analyzers[i]? = some o) :
    Distinct (w.write i o a) := by
  intro o' ho'
  rcases List.mem_or_eq_of_mem_set ho' with h | rfl
  · exact hw _ h
  · exact (hw o (List.mem_of_getElem? ho)).sublist (scopesAfter_sublist _ _)

theorem step_distinct {w w' : World F} {op : World.Op F} (hw : AddrOk w) (hd : Distinct w) (h : World.step fo w op = .ok w') :
    Distinct w' := by
  have chg {i : Nat} {f : Analyzer F → Res Err (Analyzer F)} {w' : World F} (h : w.change i f = .ok w') : Distinct w' := by
    obtain ⟨o, a, ho, _, rfl⟩ := change_parts h
    exact write_distinct hd ho
  cases op with
  | create v =>
    simp only [World.step, World.create] at h
    split at h
    · cases h
    · cases h
      intro o ho
      simp only [List.mem_append, List.mem_singleton] at ho
      rcases ho with ho | rfl
      · exact hd o ho
      · simp
  | copy i =>
    simp only [World.step] at h
    split at h
    · cases h
    · rename_i o0 ho0
      cases h
      intro o ho
      simp only [List.mem_append, List.mem_singleton] at ho
      rcases ho with ho | rfl
      · exact hd o ho
      · exact hd o (List.mem_of_getElem? ho0)
  | assign i j =>
    obtain ⟨o0, -, ho0, rfl⟩ := assign_step h
    intro o ho
    rcases List.mem_or_eq_of_mem_set ho with ho | rfl
    · exact hd o ho
    · exact hd o (List.mem_of_getElem? ho0)
  | push i =>
    simp only [World.step] at h
    split at h
    · cases h
    · rename_i o0 ho0
      cases h
      intro o ho
      rcases List.mem_or_eq_of_mem_set ho with ho | rfl
      · exact hd o ho
      · simp only [List.map_cons, List.nodup_cons]
        refine ⟨fun hc => ?_, hd o0 (List.mem_of_getElem? ho0)⟩
        obtain ⟨s, hs, he⟩ := List.mem_map.mp hc
        exact absurd he (Nat.ne_of_lt (hw o0 (List.mem_of_getElem? ho0) s hs))
  | pop i =>
    simp only [World.step] at h
    split at h
    · cases h
    · rename_i o0 ho0
      split at h
      · cases h
      · rename_i s0 rest hsc
        cases h
        intro o ho
        rcases List.mem_or_eq_of_mem_set ho with ho | rfl
        · exact hd o ho
        · have := hd o0 (List.mem_of_getElem? ho0)
          rw [hsc, List.map_cons, List.nodup_cons] at this
          exact this.2
  | constants i => exact chg h
  | functions i => exact chg h
  | instructions i => exact chg h
  | addName i n v => exact chg (f := (·.registerVariable n v)) h
  | addFunction i n ts f => exact chg (f := (·.registerFunction n ts f)) h
  | addInstruction i x => exact chg (f := (·.registerInstruction x)) h
  | addStatement i x => exact chg (f := (·.addStatement x)) h
  | addVariable i x =>
    obtain ⟨w1, h1, h2⟩ := Res.bind_eq_ok.mp h
    have := chg (f := (·.addVariable x)) h1
    cases h2
    exact this
  | analyze i p u =>
    obtain ⟨o, s, rest, a, r, ho, hs, hu, ha, rfl⟩ := analyze_step h
    exact write_distinct hd ho
  | throwing i p u =>
    obtain ⟨o, s, rest, a, r, ho, hs, hu, ha, -, rfl⟩ := throwing_step h
    exact write_distinct hd ho

theorem steps_distinct {w w' : World F} {ops : List (World.Op F)} (h : World.Steps fo w ops w') :
    AddrOk w → Distinct w → Distinct w' := by
  induction h with
  | nil => exact fun _ h => h
  | cons h1 _ ih => exact fun ha hd => ih (step_addrOk ha h1) (step_distinct ha hd h1)

theorem reachable_distinct {w : World F} (h : World.Reachable fo w) : Distinct w := by
  obtain ⟨ops, h⟩ := h
  exact steps_distinct h (by intro o ho; simp [World.empty] at ho) (by intro o ho; simp [World.empty] at ho)

theorem readScopes_after {w w' : World F} : ∀ {os : List (ScopeObj F)} {ss : List (Scope F)},
    (∀ s ∈ os, w'.blockAt s.block = w.blockAt s.block) → ss.map Scope.block = (os.map w.readScope).map Scope.block →
    (World.scopesAfter os ss).map w'.readScope = ss
  | [], [], _, _ => rfl
  | [], _ :: _, _, h => by simp at h
  | _ :: _, [], _, h => by simp at h
  | o :: os, s :: ss, hb, h => by
    simp only [List.map_cons, List.cons.injEq] at h
    rw [World.scopesAfter, List.map_cons, readScopes_after (fun s hs => hb s (by simp [hs])) h.2]
    obtain ⟨vt, ft, it, b, vs⟩ := s
    simp only [World.readScope, hb o (by simp)]
    have h1 := h.1
    simp only [World.readScope] at h1
    rw [h1]

/-- Only the block of the current scope may have changed. -/
def TailBlocks (a a' : Analyzer F) : Prop :=
  a'.scopes.length = a.scopes.length ∧ (a'.scopes.map Scope.block).drop 1 = (a.scopes.map Scope.block).drop 1

theorem SameBlocks.tail {a a' : Analyzer F} (h : SameBlocks a a') : TailBlocks a a' :=
  ⟨by simpa using congrArg List.length h, by rw [h]⟩

theorem write_read {w w' : World F} {i : Nat} {o : AnalyzerObj F} {a : Analyzer F} {u : Nat} (hw : AddrOk w) (hd : Distinct w)
    (ho : w.analyzers[i]? = some o) (ha : TailBlocks (w.readAnalyzer o u) a) (hb : w'.blocks = (w.write i o a).blocks)
    (hc : w'.analyzers = (w.write i o a).analyzers) :
    ∃ o', w'.analyzers[i]? = some o' ∧ ∀ v, w'.readAnalyzer o' v = { a with nextUid := v } := by
  have hi : i < w.analyzers.length := (List.getElem?_eq_some_iff.mp ho).1
  refine ⟨⟨a.apiVersion, World.scopesAfter o.scopes a.scopes⟩, by rw [hc]; simp [World.write, hi], fun v => ?_⟩
  obtain ⟨ver, scs, nu⟩ := a
  obtain ⟨h1, h2⟩ := ha
  simp only [World.readAnalyzer, Analyzer.mk.injEq, true_and, and_true, List.length_map] at h1 h2 ⊢
  have hadr := hw o (List.mem_of_getElem? ho)
  have hdis := hd o (List.mem_of_getElem? ho)
  cases hs : o.scopes with
  | nil => rw [hs] at h1; cases scs with
    | nil => rfl
    | cons _ _ => simp at h1
  | cons s rest =>
    rw [hs] at h1 h2 hadr hdis
    cases scs with
    | nil => simp at h1
    | cons t ts =>
      have hblk : ∀ b, w'.blockAt b = if s.block = b ∧ b < w.blocks.length then t.block else w.blockAt b := by
        intro b
        rw [← blockAt_set]
        exact blockAt_congr (by rw [hb]; simp [World.write, hs, World.blocksAfter]) b
      simp only [List.map_cons, List.drop_succ_cons, List.drop_zero, List.nodup_cons, List.mem_map, not_exists, not_and] at h2 hdis
      rw [World.scopesAfter, List.map_cons, readScopes_after (w := w) (fun s' hs' => ?_) h2]
      · obtain ⟨vt, ft, it, b, vs⟩ := t
        simp [World.readScope, hblk, hadr s (by simp)]
      · rw [hblk, if_neg fun hc => hdis.1 s' hs' hc.1.symm]

/-- C77. In memory an analyser does, call by call, what the analyser of `Model/Analyzer` does that is used alone: its state, read with
the content of its blocks, changes in the same way. `u` is the identity the next variable node would get. -/
theorem C77_refines {w w' : World F} (hw : World.Reachable fo w) {op : World.Op F} {i : Nat} (hi : op.on = some i)
    (hn : ¬ op.Copies i) (h : World.step fo w op = .ok w') :
    ∃ o o' a, w.analyzers[i]? = some o ∧ op.alone fo (w.readAnalyzer o w.nextUid) = .ok a ∧ w'.analyzers[i]? = some o' ∧
      ∀ u, w'.readAnalyzer o' u = { a with nextUid := u } := by
  have h1 := reachable_addrOk hw
  have h2 := reachable_distinct hw
  have chg {i : Nat} {f : Analyzer F → Res Err (Analyzer F)} {w' : World F} (hf : ∀ a a', f a = .ok a' → TailBlocks a a')
      (h : w.change i f = .ok w') : ∃ o o' a, w.analyzers[i]? = some o ∧ f (w.readAnalyzer o w.nextUid) = .ok a ∧
        w'.analyzers[i]? = some o' ∧ ∀ u, w'.readAnalyzer o' u = { a with nextUid := u } := by
    obtain ⟨o, a, ho, ha, rfl⟩ := change_parts h
    obtain ⟨o', h3, h4⟩ := write_read h1 h2 ho (hf _ _ ha) rfl rfl
    exact ⟨o, o', a, ho, ha, h3, h4⟩
  cases op with
  | create v => cases hi
  | copy j => cases hi
  | assign j k => cases hi; exact absurd .target hn
  | push j =>
    cases hi
    simp only [World.step] at h
    split at h
    · cases h
    · rename_i o ho
      cases h
      have hj : i < w.analyzers.length := (List.getElem?_eq_some_iff.mp ho).1
      refine ⟨o, _, _, ho, rfl, by simp [hj]; rfl, fun u => ?_⟩
      have hb : ∀ (as : List (AnalyzerObj F)) (b : Nat),
          World.blockAt { w with blocks := w.blocks ++ [⟨[], none⟩], analyzers := as } b = w.blockAt b := fun as => blockAt_append rfl
      simp only [World.readAnalyzer, Analyzer.pushScope, Analyzer.mk.injEq, true_and, and_true, List.map_cons, List.cons.injEq]
      refine ⟨?_, ?_⟩
      · simp [World.readScope, Scope.empty, World.blockAt]
      · refine List.map_congr_left fun s _ => ?_
        simp only [World.readScope]
        rw [hb]
  | pop j =>
    cases hi
    simp only [World.step] at h
    split at h
    · cases h
    · rename_i o ho
      split at h
      · cases h
      · rename_i s rest hs
        cases h
        have hj : i < w.analyzers.length := (List.getElem?_eq_some_iff.mp ho).1
        refine ⟨o, ⟨o.apiVersion, rest⟩, ⟨o.apiVersion, rest.map w.readScope, w.nextUid⟩, ho, ?_, by simp [hj], fun u => rfl⟩
        simp [World.Op.alone, Analyzer.popScope, World.readAnalyzer, hs]
  | constants j => cases hi; exact chg (f := Analyzer.registerDefaultConstants fo) (fun _ _ h => (registerDefaultConstants_blocks h).tail) h
  | functions j => cases hi; exact chg (f := Analyzer.registerDefaultFunctions fo) (fun _ _ h => (registerDefaultFunctions_blocks h).tail) h
  | instructions j => cases hi; exact chg (f := Analyzer.registerDefaultInstructions) (fun _ _ h => (registerDefaultInstructions_blocks h).tail) h
  | addName j n v => cases hi; exact chg (f := (·.registerVariable n v)) (fun _ _ h => (registerVariable_blocks h).tail) h
  | addFunction j n ts f => cases hi; exact chg (f := (·.registerFunction n ts f)) (fun _ _ h => (registerFunction_blocks h).tail) h
  | addInstruction j x => cases hi; exact chg (f := (·.registerInstruction x)) (fun _ _ h => (registerInstruction_blocks h).tail) h
  | addStatement j x =>
    cases hi
    refine chg (f := (·.addStatement x)) (fun a a' h => ?_) h
    obtain ⟨v, scs, u⟩ := a
    cases scs with
    | nil => cases h
    | cons s rest => cases h; exact ⟨rfl, rfl⟩
  | addVariable j x =>
    cases hi
    obtain ⟨w1, h3, h4⟩ := Res.bind_eq_ok.mp h
    have := chg (f := (·.addVariable x)) (fun a a' h => (modifyCurrent_blocks (fun s s' hs => by cases hs; rfl) h : SameBlocks a a').tail) h3
    cases h4
    exact this
  | analyze j p u =>
    cases hi
    obtain ⟨o, s, rest, a, r, ho, hs, hu, ha, rfl⟩ := analyze_step h
    obtain ⟨x, -, hx, -, -⟩ := analyze_obj hs ha
    obtain ⟨o', h3, h4⟩ := write_read (u := u) (w' := { w.write i o a with
      results := w.results ++ [⟨r.root.map fun x => ⟨x.apiVersion, x.version, s.block, x.variables⟩, r.errors⟩] }) h1 h2 ho (a := a) ⟨by simp [hx, World.readAnalyzer, hs], by simp [hx, World.readAnalyzer, hs]⟩ rfl rfl
    refine ⟨o, o', a, ho, ?_, h3, h4⟩
    have e : ({ w.readAnalyzer o w.nextUid with nextUid := u } : Analyzer F) = w.readAnalyzer o u := rfl
    simp only [World.Op.alone]
    rw [e, ha]
  | throwing j p u =>
    cases hi
    obtain ⟨o, s, rest, a, r, ho, hs, hu, ha, -, rfl⟩ := throwing_step h
    obtain ⟨x, -, hx, -, -⟩ := program_obj hs ha
    obtain ⟨o', h3, h4⟩ := write_read (u := u) (w' := w.write i o a) h1 h2 ho (a := a)
      ⟨by simp [hx, World.readAnalyzer, hs], by simp [hx, World.readAnalyzer, hs]⟩ rfl rfl
    refine ⟨o, o', a, ho, ?_, h3, h4⟩
    have e : ({ w.readAnalyzer o w.nextUid with nextUid := u } : Analyzer F) = w.readAnalyzer o u := rfl
    simp only [World.Op.alone]
    rw [e, ha]

/-- C77. A new analyser is the one of `Analyzer.new`, and constructing one fails as that does. -/
theorem C77_create {w : World F} (v : Version) :
    match (Analyzer.new v : Option (Analyzer F)) with
    | none => World.step fo w (.create v) = .exn c!"std::invalid_argument"
    | some a => ∃ w' o, World.step fo w (.create v) = .ok w' ∧ w'.analyzers = w.analyzers ++ [o] ∧ w'.results = w.results ∧
        ∀ u, w'.readAnalyzer o u = { a with nextUid := u } := by
  simp only [World.step, World.create]
  cases ha : (Analyzer.new v : Option (Analyzer F)) with
  | none => rfl
  | some a =>
    refine ⟨_, _, rfl, rfl, rfl, fun u => ?_⟩
    unfold Analyzer.new at ha
    split at ha
    · cases ha
      simp [World.readAnalyzer, World.readScope, World.blockAt, Scope.empty]
    · cases ha

/-- C77. What a user gets from an analyser in memory is what the analyser of `Model/Analyzer` gives. -/
theorem C77_answer {w : World F} (hw : World.Reachable fo w) {i u : Nat} {o : AnalyzerObj F} (ho : w.analyzers[i]? = some o)
    (hs : o.scopes ≠ []) (hu : w.nextUid ≤ u) (p : ProgramAst F) : World.answer fo w i p u =
      match Sem.analyze fo (w.readAnalyzer o u) p with
      | .ok x => .ok x.2
      | .exn c => .exn c
      | .ub => .ub := answer_eq (reachable_addrOk hw) ho hs hu p

theorem run_steps {ops : List (World.Op F)} : ∀ {w w' : World F}, World.run fo w ops = .ok w' ↔ World.Steps fo w ops w' := by
  induction ops with
  | nil => exact fun {w w'} => ⟨fun h => by cases h; exact .nil, fun h => by cases h; rfl⟩
  | cons op ops ih =>
    intro w w'
    rw [World.run, Res.bind_eq_ok]
    exact ⟨fun ⟨w1, h1, h2⟩ => .cons h1 (ih.mp h2), fun h => by cases h with | cons h1 h2 => exact ⟨_, h1, ih.mpr h2⟩⟩

section Examples
open Sample

/-- Constructing an analyser with the default tables. -/
private def start : List (World.Op Int) := [.create [3, 0], .constants 0, .functions 0, .instructions 0]

/-- Two programs. -/
private def prog1 : ProgramAst Int := program [qubits c!"q" 2, gate c!"X" [] [name c!"q"]]
private def prog2 : ProgramAst Int := program [qubits c!"r" 1, gate c!"Y" [] [at_ c!"r" 0]]

/-- How analysing ends, after a history. -/
private def ends (ops : List (World.Op Int)) (i : Nat) (p : ProgramAst Int) (u : Nat) : Option (List Str × Nat) ⊕ Str :=
  match (World.run Sample.fo World.empty ops).bind fun w => World.answer Sample.fo w i p u with
  | .ok r => .inl (some (r.errors.map Err.message, (r.root.map fun x => x.block.statements.length).getD 0))
  | .exn c => .inr c
  | _ => .inl none

/-- The original and its copy accept the programs when they are used first ... -/
example : ends (start ++ [.copy 0]) 0 prog1 0 = .inl (some ([], 1)) ∧ ends (start ++ [.copy 0]) 1 prog2 7 = .inl (some ([], 1)) := by
  decide +kernel
/-- ... but the copy throws after the original has been used (C77_refuted). -/
example : ends (start ++ [.copy 0, .analyze 0 prog1 0]) 1 prog2 7 = .inr c!"std::runtime_error" := by decide +kernel
/-- Nor does it ever accept a program after that (C77_stale, C77_copy_stale); and so it is with an assigned analyser. -/
example : ends (start ++ [.copy 0, .analyze 0 prog1 0, .throwing 1 prog2 7, .analyze 0 prog1 9]) 1 (program []) 20 = .inr c!"std::runtime_error" ∧
    ends (start ++ [.create [3, 0], .assign 1 0, .analyze 0 prog1 0]) 1 prog2 7 = .inr c!"std::runtime_error" := by decide +kernel
/-- It does not if it is given a scope of its own first, or if both were constructed (C77_uncopied). -/
example : ends (start ++ [.copy 0, .push 1, .analyze 0 prog1 0]) 1 prog2 7 = .inl (some ([], 1)) ∧
    ends (start ++ [.create [3, 0], .constants 1, .functions 1, .instructions 1, .analyze 0 prog1 0]) 1 prog2 7 = .inl (some ([], 1)) := by
  decide +kernel
/-- The analysers constructed first, and those made later, are alone (C77_created_alone). -/
example : ∃ w w', World.Reachable Sample.fo w ∧ World.step Sample.fo w (.create [3, 0]) = .ok w' ∧ w.analyzers.length = 1 := by
  have h : (match (World.run Sample.fo World.empty start).bind fun w => World.step Sample.fo w (.create [3, 0]) with | .ok _ => true | _ => false) = true := by decide +kernel
  have hl : (match World.run Sample.fo World.empty start with | .ok w => w.analyzers.length | _ => 0) = 1 := by decide +kernel
  cases hr : World.run Sample.fo World.empty start with
  | ok w =>
    rw [hr, Res.bind_ok] at h
    rw [hr] at hl
    cases hs : World.step Sample.fo w (.create [3, 0]) with
    | ok w' => exact ⟨w, w', ⟨_, run_steps.mp hr⟩, hs, hl⟩
    | _ => rw [hs] at h; cases h
  | _ => rw [hr] at h; cases h
end Examples

end Qasm
