import Verif.Lemmas.StripProgram
import Verif.Props.Session
import Verif.Props.Api
import Verif.Props.Layout
import Verif.Spec.Sample
/-!
# Positions and layout do not influence what a program means (C67)
-/

namespace Qasm

open Spec Sem Syn Parser TokKind

variable {F : Type} {fo : FloatOps F}

attribute [local irreducible] defaultInstrs defaultFns defaultVars

theorem visitBlock_strip {v : Version} (ss : List (Stmt F)) : ∀ {sc : Scope F} {u : Nat}, BlindTable sc.fnTable →
    visitBlock fo (stripAnalyzer ⟨v, [sc], u⟩) (ss.map stripStmt)
      = (visitBlock fo ⟨v, [sc], u⟩ ss).mapE (stripLog stripAnalyzer) := by
  induction ss with
  | nil => intro sc u _; rfl
  | cons s ss ih =>
    intro sc u hb
    have hbs : BlindScopes [sc] := by intro s hs; simp at hs; rw [hs]; exact hb
    rw [List.map_cons, visitBlock, visitBlock]
    refine mapE_bind (visitStatement_strip (a := ⟨v, [sc], u⟩) hbs s) fun r hr => ?_
    obtain ⟨es, a1⟩ := r
    obtain ⟨sc1, u1, rfl, k1, -⟩ := visitStatement_keeps hr
    exact after_strip (ih (by rw [k1]; exact hb))

/-- The result of an analysis without positions. -/
def stripResult (x : Analyzer F × Result (SProgram F)) : Analyzer F × Result (SProgram F) :=
  (stripAnalyzer x.1, ⟨x.2.root.map stripSProgram, x.2.errors.map stripErr⟩)

theorem analyze_strip {v : Version} {sc : Scope F} {u : Nat} (hb : BlindTable sc.fnTable) (p : ProgramAst F) :
    analyze fo (stripAnalyzer ⟨v, [sc], u⟩) (stripProgram p) = (analyze fo ⟨v, [sc], u⟩ p).mapE stripResult := by
  unfold analyze
  refine mapE_bind (f := stripResult) ?_ fun r _ => ?_
  · unfold visitProgram
    refine mapE_bind (visitBlock_strip _ hb) fun r _ => ?_
    obtain ⟨es, a⟩ := r
    obtain ⟨v', scs, u'⟩ := a
    cases scs with
    | nil => rfl
    | cons s ss =>
      have hv := visitVersion_strip v p.version
      simp only [stripLog, stripAnalyzer, stripProgram, List.map_cons, hv, Res.mapE, stripResult, Option.map_some, List.map_append]
      rfl
  · obtain ⟨a, root, errs⟩ := r
    have : (Option.map SProgram.wellFormed (Option.map stripSProgram root)).getD false
        = (Option.map SProgram.wellFormed root).getD false := by
      cases root <;> simp [wellFormed_strip]
    simp only [stripResult, List.isEmpty_map, this]
    split <;> rfl

theorem stripAnalyzer_default (v : Version) : stripAnalyzer (⟨v, [defaultScope fo], 0⟩ : Analyzer F) = ⟨v, [defaultScope fo], 0⟩ := by
  have : (defaultVars fo).map (fun e => (e.1, stripValue e.2)) = defaultVars fo := by
    unfold defaultVars; rfl
  simp only [stripAnalyzer, List.map_cons, List.map_nil, stripScope, defaultScope, this]

theorem sameOutcome_of {x y : Res Empty (Analyzer F × Result (SProgram F))} (h : x.mapE stripResult = y.mapE stripResult) :
    SameOutcome x y := by
  have hm (es : List Err) : es.map Err.message = (es.map stripErr).map Err.message := by simp [stripErr, Function.comp_def]
  cases x with
  | ok x =>
    cases y with
    | ok y =>
      simp only [Res.mapE, Res.ok.injEq, stripResult, Prod.mk.injEq, Result.mk.injEq] at h
      refine ⟨?_, h.2.1⟩
      rw [hm x.2.errors, hm y.2.errors, h.2.2]
    | _ => simp [Res.mapE] at h
  | err e => cases e
  | exn c => cases y <;> simp_all [Res.mapE, SameOutcome]
  | ub => cases y <;> simp_all [Res.mapE, SameOutcome]

theorem reached_strip {a : Analyzer F} (ha : Reached fo a) (p : ProgramAst F) :
    analyze fo (stripAnalyzer a) (stripProgram p) = (analyze fo a p).mapE stripResult := by
  obtain ⟨D, henv⟩ := reached_env ha
  obtain ⟨sc, hsc, h1, -, -⟩ := henv.scope
  obtain ⟨v, scs, u⟩ := a
  cases hsc
  exact analyze_strip (h1 ▸ defaultFns_blind fo) p

/-- C67. Syntax trees that differ in source positions only are analysed alike by a default analyser, whatever it has been used for
before: the same outcome, the same error messages in the same order and, up to positions, the same program. -/
theorem C67_positions {a : Analyzer F} (ha : Reached fo a) {p q : ProgramAst F} (h : stripProgram p = stripProgram q) :
    SameOutcome (analyze fo a p) (analyze fo a q) := by
  refine sameOutcome_of ?_
  rw [← reached_strip ha, ← reached_strip ha, h]

theorem sameOutcome_mapErr {x y : Res Empty (Analyzer F × Result (SProgram F))} (h : SameOutcome x y) :
    SameOutcome (x.mapErr (Empty.elim : Empty → Err)) (y.mapErr Empty.elim) := by
  cases x <;> cases y <;> exact h

theorem sameVerdict_of {a : Analyzer F} (ha : Reached fo a) (an : Antlr F) {text text' : Str}
    {file file' : Option Str}
    (h : (∀ p, parseString an text file = .ok ⟨some p, []⟩ →
        ∃ p', parseString an text' file' = .ok ⟨some p', []⟩ ∧ stripProgram p' = stripProgram p) ∧
      (∀ p', parseString an text' file' = .ok ⟨some p', []⟩ →
        ∃ p, parseString an text file = .ok ⟨some p, []⟩ ∧ stripProgram p = stripProgram p')) :
    SameVerdict (analyzeString fo an a text file) (analyzeString fo an a text' file') := by
  unfold analyzeString
  rcases C48_outcome an text file with ⟨p, hp⟩ | ⟨e, he⟩
  · obtain ⟨p', hp', hs⟩ := h.1 p hp
    rw [hp, hp']
    exact .inr (sameOutcome_mapErr (C67_positions ha hs.symm))
  · rcases C48_outcome an text' file' with ⟨p', hp'⟩ | ⟨e', he'⟩
    · obtain ⟨p, hp, -⟩ := h.2 p' hp'
      simp [hp] at he
    · rw [he, he']
      exact .inl ⟨_, _, _, _, rfl, rfl⟩

/-- C67. Texts with the same tokens in each statement are analysed alike: neither white space, comments, line breaks and the choice of
separators nor the file name matter. -/
theorem C67_layout {a : Analyzer F} (ha : Reached fo a) (an : Antlr F) {text text' : Str}
    (file file' : Option Str) {us us' : List (TokKind × Str)} (h : seen text = some us) (h' : seen text' = some us')
    (hs : statementsSeen us = statementsSeen us') :
    SameVerdict (analyzeString fo an a text file) (analyzeString fo an a text' file') :=
  sameVerdict_of ha an (C47_same_statements an text text' file file' h h' hs)

/-- The messages a default analyser reports for a text. -/
def Sample.report (text : Str) : Option (List Str) :=
  match Analyzer.default Sample.fo [3, 0] with
  | .ok a =>
    match Syn.analyzeString Sample.fo Sample.antlr a text none with
    | .ok (_, r) => some (r.errors.map Err.message)
    | _ => none
  | _ => none

/-- Two texts that differ in layout only, with one valid and one invalid statement. -/
example : (∃ us us', seen c!"version 3.0;qubit q;X q;Y r" = some us ∧
      seen c!"// a program\nversion 3.0\n\n  qubit /* one */ q\nX q\nY   r\n" = some us' ∧ statementsSeen us = statementsSeen us' ∧ us ≠ us') ∧
    Sample.report c!"version 3.0;qubit q;X q;Y r" = some [c!"failed to resolve variable 'r'"] ∧
    Sample.report c!"// a program\nversion 3.0\n\n  qubit /* one */ q\nX q\nY   r\n" = some [c!"failed to resolve variable 'r'"] :=
  ⟨⟨[(version, c!"version"), (versionNumber, c!"3.0"), (semicolon, c!";"), (qubitType, c!"qubit"), (identifier, c!"q"),
      (semicolon, c!";"), (identifier, c!"X"), (identifier, c!"q"), (semicolon, c!";"), (identifier, c!"Y"), (identifier, c!"r"),
      (eof, c!"<EOF>")],
    [(newLine, c!"\n"), (version, c!"version"), (versionNumber, c!"3.0"), (newLine, c!"\n"), (newLine, c!"\n"),
      (qubitType, c!"qubit"), (identifier, c!"q"), (newLine, c!"\n"), (identifier, c!"X"), (identifier, c!"q"), (newLine, c!"\n"),
      (identifier, c!"Y"), (identifier, c!"r"), (newLine, c!"\n"), (eof, c!"<EOF>")],
    by decide +kernel, by decide +kernel, by decide +kernel, by decide +kernel⟩, by decide +kernel, by decide +kernel⟩

/-- C67. White space or comments put between two tokens make no difference. -/
theorem C67_trivia {a : Analyzer F} (ha : Reached fo a) (an : Antlr F) (file file' : Option Str)
    {x y t : Str} {segs : List (TokKind × Str)} (hcut : Cut .default (x ++ ' ' :: y) segs .default (' ' :: y)) (hclosed : Closed segs)
    (ht : Trivia t y) :
    SameVerdict (analyzeString fo an a (x ++ ' ' :: y) file) (analyzeString fo an a (x ++ ' ' :: (t ++ y)) file') :=
  sameVerdict_of ha an ⟨fun p => (C41_ast an file file' hcut hclosed ht p).1, fun p => (C41_ast an file file' hcut hclosed ht p).2⟩

/-- C67. Redundant parentheses and prefix `+` make no difference. -/
theorem C67_parentheses {a : Analyzer F} (ha : Reached fo a) (an : Antlr F) (text text' : Str)
    (file file' : Option Str) {ts ts' : List Token} {pr pr' : PProgram} (hl : Lexer.lex text = .ok ts) (hl' : Lexer.lex text' = .ok ts')
    (h : parse ts = some pr) (hd : DressedProgram pr pr') (h' : Program DerivesStmt ts' pr') (hn : ∀ s ∈ pr'.statements, ¬ Doubtful s) :
    SameVerdict (analyzeString fo an a text file) (analyzeString fo an a text' file') :=
  sameVerdict_of ha an (C46_text an text text' file file' hl hl' h hd h' hn)

end Qasm
