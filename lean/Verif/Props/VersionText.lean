import Verif.Props.Positions
import Verif.Props.Redeclare
import Verif.Props.Located
import Verif.Lemmas.WrittenProgram
/-!
# The version statement of a text (C107)
-/

namespace Qasm

open Spec Sem Syn TokKind

variable {F : Type} {fo : FloatOps F}

attribute [local irreducible] defaultInstrs defaultFns defaultVars

/-- The text with the given version number, a blank and the rest. -/
def Spec.versioned (w s : Str) : Str := c!"version" ++ ' ' :: (w ++ ' ' :: s)

namespace VersionText

theorem lexed {w s : Str} (hw : Text .versionNumber w) {ts : List Token} (h : Lexer.lex (versioned w s) = .ok ts) :
    ∃ v n us, ts = v :: n :: us ∧ v.kind = TokKind.version ∧ n.kind = versionNumber ∧ n.text = w ∧
      seen s = some (us.map fun t => (t.kind, t.text)) := by
  have h1 : seen (versioned w s) = some (ts.map fun t => (t.kind, t.text)) := by simp only [seen, h]
  rw [versioned, seen_version hw] at h1
  obtain ⟨us, hs, hm⟩ := Option.map_eq_some_iff.1 h1
  obtain ⟨v, ts, rfl, hv, -, hm⟩ := map_first hm.symm
  obtain ⟨n, ts, rfl, hn, hnt, hm⟩ := map_first hm
  exact ⟨v, n, ts, rfl, hv, hn, hnt, hs.trans (congrArg some hm.symm)⟩

theorem seen_ends {s : Str} {us : List (TokKind × Str)} (h : seen s = some us) :
    ∃ xs x, us = xs ++ [(eof, x)] := by
  obtain ⟨ts, hl, rfl⟩ := lex_of_seen h
  obtain ⟨us, e, rfl, he, -⟩ := lex_ends hl
  exact ⟨us.map kt, e.text, by simp [kt, he]⟩

theorem blocks_same {us us' : List Token} {s : Str} (hs : seen s = some (us.map kt)) (hm : us'.map kt = us.map kt) {v n : Token}
    (hv : v.kind = TokKind.version) (hn : n.kind = versionNumber) {ss : List PStmt} (h : Block Chosen us ss) :
    ∃ ss', Block Chosen us' ss' ∧ Forall2 DressedStmt ss ss' := by
  obtain ⟨xs, x, hx⟩ := seen_ends hs
  rw [hx] at hm
  obtain ⟨u, t, rfl, hu, ht⟩ := map_split hx
  obtain ⟨u', t', rfl, hu', ht'⟩ := map_split hm
  obtain ⟨e, _, rfl, -, -, h0⟩ := map_first ht
  cases List.map_eq_nil_iff.1 h0
  obtain ⟨e', _, rfl, he', -, h0⟩ := map_first ht'
  cases List.map_eq_nil_iff.1 h0
  have hp : Program Chosen ((v :: n :: u) ++ [e]) ⟨n, ss⟩ := .mk (seps := []) (by simp [Separators]) hv hn h
  obtain ⟨pr', h1, h2⟩ := program_same_pieces (us' := v :: n :: u') he' (by
    rw [← pieces_map (p := isSep) (q := fun p => separatorKinds.contains p.1) (f := fun t : Token => (t.kind, t.text)) (fun a => rfl),
      ← pieces_map (p := isSep) (q := fun p => separatorKinds.contains p.1) (f := fun t : Token => (t.kind, t.text)) (fun a => rfl)]
    have : u.map (fun t : Token => (t.kind, t.text)) = u'.map (fun t : Token => (t.kind, t.text)) := hu.trans hu'.symm
    simp only [List.map_cons, this]) hp
  generalize hg : (v :: n :: u') ++ [e'] = z at h1
  cases h1 with
  | mk k1 k2 k3 k4 =>
    rename_i seps us1 v1 n1 ss1
    cases seps with
    | nil =>
      simp only [List.cons_append, List.nil_append, List.cons.injEq] at hg
      obtain ⟨-, -, rfl⟩ := hg
      exact ⟨_, k4, h2.2⟩
    | cons a seps =>
      simp only [List.cons_append, List.cons.injEq] at hg
      have := k1 a (by simp)
      rw [← hg.1, hv] at this
      simp [separatorKinds] at this

end VersionText

open VersionText

/-- C107. Parsing performs no version check: if a text with one version number is accepted, so is the text with any other version
number whose components are representable; the tree has the components of the number, and the same statements. -/
theorem C107_parse_partial (an : Antlr F) {w w' : Str} (hw : Text .versionNumber w) (hw' : Text .versionNumber w') {ns : List Int64}
    (hn : Forall2 IntOf (components w') ns) (s : Str) (file file' : Option Str) {p : ProgramAst F}
    (h : parseString an (versioned w s) file = .ok ⟨some p, []⟩) :
    ∃ p', parseString an (versioned w' s) file' = .ok ⟨some p', []⟩ ∧ p'.version.items = ns ∧
      p'.block.statements.map stripStmt = p.block.statements.map stripStmt := by
  obtain ⟨ts, pr, hl, hc, ht⟩ := (C48_ast an _ file p).1 h
  obtain ⟨v, n, us, rfl, hv, hk, hnt, hs⟩ := lexed hw hl
  have hl' : ∃ ts', Lexer.lex (versioned w' s) = .ok ts' := by
    obtain ⟨x, hx⟩ : ∃ x, seen (versioned w' s) = some x := ⟨_, by rw [versioned, seen_version hw', hs, Option.map_some]⟩
    obtain ⟨ts', hl', -⟩ := lex_of_seen hx
    exact ⟨ts', hl'⟩
  obtain ⟨ts', hl'⟩ := hl'
  obtain ⟨v', n', us', rfl, hv', hk', hnt', hs'⟩ := lexed hw' hl'
  have hm : us'.map kt = us.map kt := by
    rw [hs] at hs'
    exact (Option.some.inj hs').symm
  generalize hg : v :: n :: us = z at hc
  cases hc with
  | mk k1 k2 k3 k4 =>
    rename_i seps us1 v1 n1 ss1
    cases seps with
    | cons a seps =>
      simp only [List.cons_append, List.cons.injEq] at hg
      have := k1 a (by simp)
      rw [← hg.1, hv] at this
      simp [separatorKinds] at this
    | nil =>
      simp only [List.nil_append, List.cons.injEq] at hg
      obtain ⟨rfl, rfl, rfl⟩ := hg
      obtain ⟨ss', b1, b2⟩ := blocks_same hs hm hv hk k4
      cases ht with
      | mk t1 t2 t3 =>
        obtain ⟨vs', g1, g2⟩ := (outcomes_stmts (stod := an.stod) (f := file) (f' := file') b2).1 _ t3
        obtain ⟨l, hl2⟩ := at_exists file' n'
        exact ⟨⟨⟨ns, l⟩, ⟨vs', none⟩, none⟩, (C48_ast an _ file' _).2 ⟨_, ⟨n', ss'⟩, hl',
          .mk (seps := []) (by simp [Separators]) hv' hk' b1, .mk (by rw [hnt']; exact hn) hl2 g1⟩, rfl, g2⟩

/-- C107. Analysis does: a version that is not 3.0 adds one error, before all others, and nothing else changes. -/
theorem C107_analysis_partial {v : Version} {a a1 : Analyzer F} (ha : Analyzer.default fo v = .ok a) (an : Antlr F) {w : Str}
    (hw : Text .versionNumber w) {ns : List Int64} (hn : Forall2 IntOf (components w) ns) (s : Str) (file file' : Option Str)
    {r : SProgram F} {es : List Err} (h : analyzeString fo an a (versioned c!"3.0" s) file = .ok (a1, ⟨some r, es⟩)) :
    ∃ a2 r' es', analyzeString fo an a (versioned w s) file' = .ok (a2, ⟨some r', es'⟩) ∧
      r'.variables.map stripSVariable = r.variables.map stripSVariable ∧
      r'.block.statements.map stripSStatement = r.block.statements.map stripSStatement ∧
      (VersionSame ns [3, 0] → es'.map Err.message = es.map Err.message ∧ r'.version.items = ns) ∧
      (¬ VersionSame ns [3, 0] → es'.map Err.message =
        (c!"the only cQASM version supported is " ++ Version.print v ++ c!", but the cQASM file is version " ++ Version.print ns)
          :: es.map Err.message ∧ r'.version.items = v) := by
  unfold analyzeString at h
  rcases C48_outcome an (versioned c!"3.0" s) file with ⟨p, hp⟩ | ⟨e, he⟩
  rotate_left
  · rw [he] at h; cases h
  rw [hp] at h
  have h30 : Text .versionNumber c!"3.0" := .inr ⟨c!"3", c!"0", rfl, ⟨by simp, by simp [Digit]⟩, ⟨by simp, by simp [Digit]⟩⟩
  obtain ⟨p', hp', hi, hs⟩ := C107_parse_partial an h30 hw hn s file file' hp
  obtain ⟨p0, hp0, hi0, hs0⟩ := C107_parse_partial an h30 h30 (ns := [3, 0])
    (.cons (by unfold IntOf; decide) (.cons (by unfold IntOf; decide) .nil)) s file file hp
  rw [hp] at hp0
  cases hp0
  have hpos : ∀ c ∈ ns, 0 ≤ c.toInt := by
    intro c hc
    obtain ⟨x, -, hx⟩ := forall2_mem_right hn c hc
    rw [IntOf] at hx
    omega
  have h : analyze fo a { { p with version := ⟨ns, p.version.loc⟩ } with version := ⟨[3, 0], p.version.loc⟩ } = .ok (a1, ⟨some r, es⟩) := by
    have e : { { p with version := ⟨ns, p.version.loc⟩ } with version := ⟨[3, 0], p.version.loc⟩ } = p := by
      rw [← hi0]
    rw [e]
    simp only [Res.bind_ok, analyzeParse, List.isEmpty_nil, Bool.not_true, Bool.false_eq_true, if_false] at h
    revert h
    cases analyze fo a p <;> simp [Res.mapErr]
  have hsame : stripProgram p' = stripProgram { p with version := ⟨ns, p.version.loc⟩ } := by
    simp [stripProgram, hi, hs]
  have key := C67_positions (.fresh ha) hsame
  have key2 : ∀ {a2 r2 es2}, analyze fo a { p with version := ⟨ns, p.version.loc⟩ } = .ok (a2, ⟨some r2, es2⟩) →
      ∃ a3 r' es', analyzeString fo an a (versioned w s) file' = .ok (a3, ⟨some r', es'⟩) ∧ es'.map Err.message = es2.map Err.message ∧
        stripSProgram r' = stripSProgram r2 := by
    intro a2 r2 es2 h2
    rw [h2] at key
    unfold analyzeString
    rw [hp']
    simp only [Res.bind_ok, analyzeParse, List.isEmpty_nil, Bool.not_true, Bool.false_eq_true, if_false]
    revert key
    cases analyze fo a p' with
    | ok x =>
      obtain ⟨a3, root, es'⟩ := x
      intro key
      obtain ⟨k1, k2⟩ := key
      cases root with
      | none => simp at k2
      | some r' => exact ⟨a3, r', es', rfl, k1, by simpa using k2⟩
    | err x => exact x.elim
    | exn c => intro key; exact key.elim
    | ub => intro key; exact key.elim
  have parts : ∀ {x y : SProgram F}, stripSProgram x = stripSProgram y → x.version.items = y.version.items ∧
      x.variables.map stripSVariable = y.variables.map stripSVariable ∧
      x.block.statements.map stripSStatement = y.block.statements.map stripSStatement := by
    intro x y e
    have e1 := congrArg SProgram.version e
    have e2 := congrArg SProgram.variables e
    have e3 := congrArg (fun z => z.block.statements) e
    exact ⟨by simpa [stripSProgram] using e1, e2, e3⟩
  by_cases hv : VersionSame ns [3, 0]
  · obtain ⟨a3, r', es', g1, g2, g3⟩ := key2 (C07_accepted fo v a ha { p with version := ⟨ns, p.version.loc⟩ } hpos hv a1 r es h)
    obtain ⟨g4, g5, g6⟩ := parts g3
    exact ⟨a3, r', es', g1, g5, g6, fun _ => ⟨g2, g4⟩, fun hc => absurd hv hc⟩
  · obtain ⟨e, -, hm, h2⟩ := C07_rejected fo v a ha { p with version := ⟨ns, p.version.loc⟩ } (fun hc => hv hc.2) a1 r es h
    obtain ⟨a3, r', es', g1, g2, g3⟩ := key2 h2
    obtain ⟨g4, g5, g6⟩ := parts g3
    refine ⟨a3, r', es', g1, g5, g6, fun hc => absurd hc hv, fun _ => ⟨?_, g4⟩⟩
    rcases hm with ⟨⟨c, hc, hneg⟩, -⟩ | ⟨-, hm⟩
    · have := hpos c hc
      omega
    · rw [g2, List.map_cons, hm]

/-- C107. So the analysing methods do check the version. -/
theorem C107_refuted : ∃ (fo : FloatOps Int) (an : Antlr Int) (a : Analyzer Int), Analyzer.default fo [3, 0] = .ok a ∧
    (∃ a' r, analyzeString fo an a (versioned c!"3.0" []) none = .ok (a', r) ∧ r.errors = []) ∧
    ∃ a' r, analyzeString fo an a (versioned c!"3.1" []) none = .ok (a', r) ∧ r.errors ≠ [] := by
  have h0 : Sample.report (versioned c!"3.0" []) = some [] := by decide +kernel
  have h1 : Sample.report (versioned c!"3.1" []) =
    some [c!"the only cQASM version supported is 3.0, but the cQASM file is version 3.1"] := by decide +kernel
  refine ⟨Sample.fo, Sample.antlr, _, default_eq Sample.fo [3, 0] (by decide), ?_, ?_⟩
  · unfold Sample.report at h0
    rw [default_eq Sample.fo [3, 0] (by decide)] at h0
    simp only at h0
    split at h0
    · rename_i a' r e
      exact ⟨a', r, e, by simpa using h0⟩
    · cases h0
  · unfold Sample.report at h1
    rw [default_eq Sample.fo [3, 0] (by decide)] at h1
    simp only at h1
    split at h1
    · rename_i a' r e
      exact ⟨a', r, e, by rintro hr; rw [hr] at h1; simp at h1⟩
    · cases h1

/-- Three version numbers, of which the first two denote 3.0 and the third does not. -/
example : Sample.report (versioned c!"3" c!";qubit q;Y r") = some [c!"failed to resolve variable 'r'"] ∧
    Sample.report (versioned c!"03.00" c!";qubit q;Y r") = some [c!"failed to resolve variable 'r'"] ∧
    Sample.report (versioned c!"1.5" c!";qubit q;Y r") =
      some [c!"the only cQASM version supported is 3.0, but the cQASM file is version 1.5", c!"failed to resolve variable 'r'"] := by
  decide +kernel

end Qasm
