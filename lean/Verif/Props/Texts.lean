import Verif.Lemmas.Texts
import Verif.Props.Stops
/-!
# Texts given to analysers with their own registrations (C118)

The user makes an analyser in which nothing is registered, and registers, opens and closes scopes and analyses texts in
any order (`TextAnswers fo an es a rs b`).
-/

namespace Qasm

open Spec Sem Syn

attribute [local irreducible] defaultInstrs defaultFns defaultVars

variable {F : Type} {fo : FloatOps F} {v : Version} {an : Antlr F}

theorem text_outcome (a : Analyzer F) (t : Str) (file : Option Str) :
    (∃ p, HasAst an file t p ∧ ShapedProgram p ∧ PlainProgram p ∧
        Syn.analyzeString fo an a t file = (analyze fo a p).mapErr Empty.elim) ∨
      (¬∃ p, HasAst an file t p) ∧ ∃ e, parseString an t file = .ok ⟨none, [e]⟩ ∧
        Syn.analyzeString fo an a t file = .ok (a, ⟨none, [e]⟩) := by
  rcases C48_outcome an t file with ⟨p, h⟩ | ⟨e, h⟩
  · obtain ⟨h1, h2⟩ := C48_shaped an t file p h
    refine .inl ⟨p, hasAst_iff.2 h, h1, h2, ?_⟩
    simp [Syn.analyzeString, h, Res.bind, analyzeParse]
  · refine .inr ⟨fun ⟨p, hp⟩ => ?_, e, h, ?_⟩
    · have := hasAst_iff.1 hp
      rw [h] at this
      simp at this
    · simp [Syn.analyzeString, h, Res.bind, analyzeParse, Res.mapErr]

private theorem mapErr_ok {α : Type} {x : Res Empty α} {y : α} : x.mapErr (Empty.elim : Empty → Err) = .ok y ↔ x = .ok y := by
  rcases x with _ | e | _ | _ <;> simp [Res.mapErr]

private theorem mapErr_stop {α : Type} {x : Res Empty α} {o : Stop} : x.mapErr (Empty.elim : Empty → Err) = o.as ↔ x = o.as := by
  rcases x with _ | e | _ | _ <;> cases o <;> simp [Res.mapErr, Stop.as]
  all_goals exact e.elim

theorem keeps_texts {es : List (TextEvent F)} {a b : Analyzer F} {rs : List (Result (SProgram F))}
    (h : TextAnswers fo an es a rs b) {m : Memory F} (hk : Keeps v a m) : ∃ m', AnswersTexts fo an v es m rs m' ∧ Keeps v b m' := by
  induction h generalizing m with
  | nil => exact ⟨m, .nil, hk⟩
  | ok h _ ih =>
    obtain ⟨m', h1, h2⟩ := ih (keeps_call hk (.inl h))
    exact ⟨m', .call h1, h2⟩
  | error h _ ih =>
    obtain ⟨m', h1, h2⟩ := ih (keeps_call hk (.inr ⟨⟨_, h⟩, rfl⟩))
    exact ⟨m', .call h1, h2⟩
  | @text t file es a b r rs d h _ ih =>
    rcases text_outcome (fo := fo) (an := an) a t file with ⟨p, hp, h1, h2, h3⟩ | ⟨hn, e, h1, h2⟩
    · rw [h3] at h
      obtain ⟨m1, h4, h5⟩ := keeps_analyze hk h1 h2 (mapErr_ok.1 h)
      obtain ⟨m', h6, h7⟩ := ih h5
      exact ⟨m', .program hp h4 h6, h7⟩
    · rw [h2] at h
      cases h
      obtain ⟨m', h6, h7⟩ := ih hk
      exact ⟨m', .wrong hn h1 h6, h7⟩

theorem text_stop {b : Analyzer F} {m : Memory F} (h2 : Keeps v b m) {t : Str} {file : Option Str} {o : Stop} :
    Syn.analyzeString fo an b t file = o.as ↔ ∃ p, HasAst an file t p ∧ ProgramStops fo v m p o := by
  rcases text_outcome (fo := fo) (an := an) b t file with ⟨p, hp, h3, h4, h5⟩ | ⟨hn, e, _, h3⟩
  · rw [h5, mapErr_stop, analyze_stop h2 h3 h4]
    refine ⟨fun h => ⟨p, hp, h⟩, fun ⟨p', hp', h⟩ => ?_⟩
    cases hasAst_unique hp hp'
    exact h
  · rw [h3]
    exact ⟨fun h => absurd h Stop.ne_ok, fun ⟨p, hp, _⟩ => absurd ⟨p, hp⟩ hn⟩

/-- C118. Over a whole session with texts, whatever is registered and analysed in whatever order and scopes, the answers are
those of the rules. A text that is not a program gives one error and no tree, and the analyser is as before; a text that is one
is answered as `AnalysedIn` says. After the session, the analysis of a text does not return exactly if the text is a program
and the rules for its statements say so. -/
theorem C118_session {a b : Analyzer F} (ha : Analyzer.new v = some a) {es : List (TextEvent F)} {rs : List (Result (SProgram F))}
    (h : TextAnswers fo an es a rs b) :
    ∃ m, AnswersTexts fo an v es ⟨[⟨⟨[], [], []⟩, [], []⟩], 0⟩ rs m ∧ ∀ t file o,
      Syn.analyzeString fo an b t file = o.as ↔ ∃ p, HasAst an file t p ∧ ProgramStops fo v m p o := by
  obtain ⟨m, h1, h2⟩ := keeps_texts h (keeps_new ha)
  exact ⟨m, h1, fun t file o => text_stop h2⟩

/-- C118. Otherwise the analysis of the text returns a result. In particular, that of a text that is no program always does. -/
theorem C118_returns {a b : Analyzer F} (ha : Analyzer.new v = some a) {es : List (TextEvent F)} {rs : List (Result (SProgram F))}
    (h : TextAnswers fo an es a rs b) :
    ∃ m, AnswersTexts fo an v es ⟨[⟨⟨[], [], []⟩, [], []⟩], 0⟩ rs m ∧ ∀ t file,
      (∃ b' r, Syn.analyzeString fo an b t file = .ok (b', r)) ↔ ¬∃ o p, HasAst an file t p ∧ ProgramStops fo v m p o := by
  obtain ⟨m, h1, h2⟩ := C118_session ha h
  refine ⟨m, h1, fun t file => ?_⟩
  rcases Stop.cases (Syn.analyzeString fo an b t file) with ⟨⟨b', r⟩, h3⟩ | ⟨e, h3⟩ | ⟨o, h3⟩
  · refine ⟨fun _ ⟨o, ho⟩ => ?_, fun _ => ⟨b', r, h3⟩⟩
    have := (h2 t file o).2 ho
    rw [h3] at this
    exact Stop.ne_ok this
  · exfalso
    rcases text_outcome (fo := fo) (an := an) b t file with ⟨p, _, _, _, h5⟩ | ⟨_, e, _, h4⟩
    · rw [h5] at h3
      cases h : analyze fo b p with
      | err e => exact e.elim
      | _ => simp [h, Res.mapErr] at h3
    · rw [h4] at h3; cases h3
  · refine ⟨fun ⟨b', r, h4⟩ => ?_, fun hn => absurd ⟨o, (h2 t file o).1 h3⟩ hn⟩
    rw [h3] at h4
    exact absurd h4.symm Stop.ne_ok

/-- C118. The rules for a program of a text: the message of each error is not empty and is plain text, or it is the message of
an error that a function registered in the outermost scope throws. -/
theorem C118_messages {m m' : Memory F} {t : Str} {file : Option Str} {p : ProgramAst F} {r : Result (SProgram F)}
    (hp : HasAst an file t p) (h : AnalysedIn fo v m p r m') :
    ∀ e ∈ r.errors, (PlainAscii e.message ∧ e.message ≠ []) ∨ ThrowsMessage m.levels e.message := by
  obtain ⟨f, fs, l, vs, ts, bad, verrs, h1, h2, _, h3, h4, _⟩ := h
  have w := PlainText.writable hp
  intro e he
  rw [h3] at he
  rcases List.mem_append.1 he with he | he
  · exact .inl (PlainText.versionErrors h4 e he)
  · obtain ⟨b, hb, rfl⟩ := List.mem_map.1 he
    have := PlainText.analysisIn h2 w.2.2 b hb
    simpa [PlainText.Fair, Memory.levels, h1] using this

theorem bad_at {ls : List (Level F)} {r r' : Level F} {u : Nat} {ss : List (Stmt F)} {vs : List (SVariable F)}
    {ts : List (SStatement F)} {bad : List (Stmt F × Err)} (h : AnalysisIn fo ls r u ss vs ts bad r') :
    ∀ b ∈ bad, (∀ l as name code, b.1 ≠ .asm l as name code) ∧ b.1 ∈ ss ∧ (ReportedAt b.1 b.2 ∨ ThrownBy (r :: ls) b.2) := by
  have decl : ∀ {r : Level F} {vars : List (Str × Value F)} {e : Err}, ThrownBy ({ r with vars := vars } :: ls) e → ThrownBy (r :: ls) e := by
    rintro r vars e ⟨h0, g, h1, h2⟩
    refine ⟨h0, ?_⟩
    cases ls with
    | nil => cases h1; exact ⟨r, rfl, h2⟩
    | cons l ls => exact ⟨g, by simpa [List.getLast?_cons_cons] using h1, h2⟩
  induction h with
  | nil => simp
  | decl _ _ _ ih =>
    intro b hb
    obtain ⟨h1, h2, h3⟩ := ih b hb
    exact ⟨h1, List.mem_cons_of_mem _ h2, h3.imp id decl⟩
  | instr _ _ ih =>
    intro b hb
    obtain ⟨h1, h2, h3⟩ := ih b hb
    exact ⟨h1, List.mem_cons_of_mem _ h2, h3⟩
  | badType _ _ _ ih =>
    intro b hb
    rcases List.mem_cons.1 hb with rfl | hb
    · exact ⟨fun _ _ _ _ => nofun, List.mem_cons_self .., .inl ⟨by simp [stmtLocs], id⟩⟩
    · obtain ⟨h1, h2, h3⟩ := ih b hb
      exact ⟨h1, List.mem_cons_of_mem _ h2, h3⟩
  | redeclared _ _ _ ih =>
    intro b hb
    rcases List.mem_cons.1 hb with rfl | hb
    · exact ⟨fun _ _ _ _ => nofun, List.mem_cons_self .., .inl ⟨by simp [stmtLocs], id⟩⟩
    · obtain ⟨h1, h2, h3⟩ := ih b hb
      exact ⟨h1, List.mem_cons_of_mem _ h2, h3⟩
  | badInstr _ _ h _ ih =>
    intro b hb
    rcases List.mem_cons.1 hb with rfl | hb
    · refine ⟨?_, List.mem_cons_self .., h.2⟩
      rintro l as name code rfl
      cases h.1
    · obtain ⟨h1, h2, h3⟩ := ih b hb
      exact ⟨h1, List.mem_cons_of_mem _ h2, h3⟩

/-- C118. Each error points to a word of the text, unless a registered function threw it with a location of its own. -/
theorem C118_places {m m' : Memory F} {t : Str} {file : Option Str} {p : ProgramAst F} {r : Result (SProgram F)}
    (hp : HasAst an file t p) (h : AnalysedIn fo v m p r m') :
    ∀ e ∈ r.errors, (∃ w, WordAt t file w e.location) ∨ ThrownBy m.levels e := by
  obtain ⟨f, fs, l, vs, ts, bad, verrs, h1, h2, _, h3, h4, _⟩ := h
  have hloc := C85_tree (hasAst_iff.1 hp)
  intro e he
  rw [h3] at he
  rcases List.mem_append.1 he with he | he
  · obtain ⟨⟨w, hw, -⟩, -⟩ := hloc
    cases h4 with
    | supported => cases he
    | negative => cases List.mem_singleton.1 he; exact .inl ⟨w, hw⟩
    | unsupported => cases List.mem_singleton.1 he; exact .inl ⟨w, hw⟩
  · obtain ⟨b, hb, rfl⟩ := List.mem_map.1 he
    obtain ⟨h5, h6, h7⟩ := bad_at h2 b hb
    rcases h7 with h7 | h7
    · refine .inl ?_
      have hl := hloc.2.2.2 b.1 h6
      rcases locatedStmt_locs hl _ h7.1 with hn | hw
      · rcases locatedStmt_loc hl with h8 | ⟨l, as, name, code, h8⟩
        · have := h7.2 h8; rw [hn] at this; cases this
        · exact absurd h8 (h5 l as name code)
      · exact hw
    · exact .inr (by simpa [Memory.levels, h1] using h7)

/-- C118. The rules determine what is kept after a session, and each answer, up to the location of the block: a text that is no
program has the same answer whatever is registered, and one that is a program has the errors and the tree that the rules give. -/
theorem C118_determined {es : List (TextEvent F)} {m m1 m2 : Memory F} {rs1 rs2 : List (Result (SProgram F))}
    (h1 : AnswersTexts fo an v es m rs1 m1) (h2 : AnswersTexts fo an v es m rs2 m2) :
    m1 = m2 ∧ Forall2 (fun r r' => r.errors = r'.errors ∧ (r.root = none ↔ r'.root = none) ∧
      ∀ t t', r.root = some t → r'.root = some t' → t.apiVersion = t'.apiVersion ∧ t.version = t'.version ∧
        t.variables = t'.variables ∧ t.block.statements = t'.block.statements) rs1 rs2 := by
  induction h1 generalizing rs2 with
  | nil => cases h2; exact ⟨rfl, .nil⟩
  | call _ ih => cases h2 with | call h2 => exact ih h2
  | wrong hn he _ ih =>
    cases h2 with
    | wrong _ he' h2 =>
      obtain ⟨rfl, h3⟩ := ih h2
      rw [he] at he'
      simp only [Res.ok.injEq, Result.mk.injEq, List.cons.injEq, and_true, true_and] at he'
      cases he'
      exact ⟨rfl, .cons ⟨rfl, Iff.rfl, nofun⟩ h3⟩
    | program hp => exact absurd ⟨_, hp⟩ hn
  | program hp h3 _ ih =>
    cases h2 with
    | wrong hn => exact absurd ⟨_, hp⟩ hn
    | program hp' h4 h5 =>
      cases hasAst_unique hp hp'
      obtain ⟨hs, hpl⟩ := C48_shaped _ _ _ _ (hasAst_iff.1 hp)
      obtain ⟨h6, h7⟩ := C113_determined (es := [.analyze _]) (fun p h => by cases List.mem_singleton.1 h; exact ⟨hs, hpl⟩)
        (.analyze h3 .nil) (.analyze h4 .nil)
      cases h6
      obtain ⟨rfl, h8⟩ := ih h5
      cases h7 with
      | cons h7 _ =>
        obtain ⟨h9, t, t', e1, e2, h10⟩ := h7
        refine ⟨rfl, .cons ⟨h9, by simp [e1, e2], fun u u' hu hu' => ?_⟩ h8⟩
        rw [e1] at hu; rw [e2] at hu'
        cases hu; cases hu'
        exact h10

/-! ## Examples -/

section Examples

private def mine : Loc := ⟨some c!"mine", ⟨⟨1, 1⟩, ⟨1, 1⟩⟩⟩

/-- A function that throws an error with a location of its own, one without, and something that is not an analysis error. -/
private def moody : CoreFn Int
  | [⟨.constInt 0, _⟩] => .err ⟨c!"zero\n", some mine⟩
  | [⟨.constInt 1, _⟩] => .err ⟨c!"one\t", none⟩
  | [⟨.constInt 2, _⟩] => .exn c!"std::bad_alloc"
  | [⟨.constInt i, _⟩] => .ok (some ⟨.constInt i, none⟩)
  | _ => .ok none

/-- Registers `X` and `f`, and analyses two texts: the first one is not a program. -/
private def session : List (TextEvent Int) :=
  [.call (.instruction ⟨c!"X", [.bare .qubit]⟩), .call (.function c!"f" [.bare .int] moody),
   .text c!"version 3; qubit[3 q" (some c!"t"),
   .text c!"version 3; qubit[4] q; X q[f(0)]; X q[f(1)]; X q[f(3)]; X q[4]" none]

/-- Of each answer, the messages with the first columns, and the number of variables and instructions. -/
private def observed : Option (List (List (Str × Option Nat) × Option (Nat × Nat))) :=
  let rec go : List (TextEvent Int) → Analyzer Int → Option (List (List (Str × Option Nat) × Option (Nat × Nat)))
    | [], _ => some []
    | .call c :: es, a => match c.on a with | .ok b => go es b | .err _ => go es a | _ => none
    | .text t file :: es, a =>
      match Syn.analyzeString Sample.fo Sample.antlr a t file with
      | .ok (b, r) => (go es b).map ((r.errors.map fun e => (e.message, e.location.map (·.range.first.column)),
          r.root.map fun t => (t.variables.length, t.block.statements.length)) :: ·)
      | _ => none
  (Analyzer.new [3, 0]).bind (go session)

/-- C118: the text that is no program has one error and no tree; the errors that the function throws keep their messages, and
one its location; the other error is plain text. -/
example : observed.map (fun x => x.map (·.2)) = some [none, some (1, 1)] := by
  decide +kernel

example : observed.bind (fun x => x[1]?.map (·.1)) =
    some [(c!"zero\n", some 1), (c!"one\t", some 37), (c!"index 4 out of range (size 4)", some 59)] := by
  decide +kernel

/-- Two calls and the analysis of a text. -/
private def after (t : Str) : Option (Res Err (Analyzer Int × Result (SProgram Int))) :=
  (Analyzer.new [3, 0]).bind fun a => match Call.on a (.instruction ⟨c!"X", [.bare .qubit]⟩) with
    | .ok b => match Call.on b (.function c!"f" [.bare .int] moody) with
      | .ok d => some (Syn.analyzeString Sample.fo Sample.antlr d t none)
      | _ => none
    | _ => none

/-- C118: a text for which the function throws something else has no answer, but one that is no program has one. -/
example : (after c!"version 3; qubit[4] q; X q[f(2)]").bind (fun r => match r with | .exn c => some c | _ => none) =
    some c!"std::bad_alloc" := by
  decide +kernel

example : (after c!"version 3; qubit[4] q; X q[f(2)").bind (fun r => match r with | .ok r => some r.2.errors.length | _ => none) =
    some 1 := by
  decide +kernel

/-- The message of the function is as `ThrowsMessage` says, and it is not plain text. -/
example : ThrowsMessage [⟨[], [(c!"f", moody, [.bare .int])], []⟩] c!"zero\n" ∧ ¬ PlainAscii c!"zero\n" :=
  ⟨⟨_, rfl, _, List.mem_singleton.2 rfl, [⟨.constInt 0, none⟩], _, rfl, rfl⟩, by decide⟩

end Examples

end Qasm
