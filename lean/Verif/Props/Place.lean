import Verif.Lemmas.PlaceSyntax
import Verif.Props.Positions
/-!
# Positions move with the text (C92)
-/

namespace Qasm

open Spec Sem Syn

variable {F : Type} {fo : FloatOps F}

attribute [local irreducible] defaultInstrs defaultFns defaultVars

namespace Place

theorem visitBlock_place {m : Loc → Loc} (hj : Joins m) {v : Version} (ss : List (Stmt F)) :
    ∀ {sc : Scope F} {u : Nat}, CarriesTable m sc.fnTable →
    visitBlock fo (placeAnalyzer m ⟨v, [sc], u⟩) (ss.map (placeStmt m))
      = (visitBlock fo ⟨v, [sc], u⟩ ss).mapE (placeLog m (placeAnalyzer m)) := by
  induction ss with
  | nil => intro sc u _; rfl
  | cons s ss ih =>
    intro sc u hb
    have hbs : CarriesScopes m [sc] := by intro s hs; simp at hs; rw [hs]; exact hb
    rw [List.map_cons, visitBlock, visitBlock]
    refine mapE_bind (visitStatement_place hj (a := ⟨v, [sc], u⟩) hbs s) fun r hr => ?_
    obtain ⟨es, a1⟩ := r
    obtain ⟨sc1, u1, rfl, k1, -⟩ := visitStatement_keeps hr
    exact after_place (ih (by rw [k1]; exact hb))

/-- The result of an analysis elsewhere. -/
def both (m : Loc → Loc) (x : Analyzer F × Result (SProgram F)) : Analyzer F × Result (SProgram F) :=
  (placeAnalyzer m x.1, placeResult m (placeSProgram m) x.2)

theorem analyze_place {m : Loc → Loc} (hj : Joins m) {v : Version} {sc : Scope F} {u : Nat} (hb : CarriesTable m sc.fnTable)
    (p : ProgramAst F) :
    analyze fo (placeAnalyzer m ⟨v, [sc], u⟩) (placeProgram m p) = (analyze fo ⟨v, [sc], u⟩ p).mapE (both m) := by
  unfold analyze
  refine mapE_bind (f := both m) ?_ fun r _ => ?_
  · unfold visitProgram
    refine mapE_bind (visitBlock_place hj _ hb) fun r _ => ?_
    obtain ⟨es, a⟩ := r
    obtain ⟨v', scs, u'⟩ := a
    cases scs with
    | nil => rfl
    | cons s ss =>
      have hv := visitVersion_place (m := m) v p.version
      simp only [placeLog, placeAnalyzer, placeProgram, List.map_cons, hv, Res.mapE, both, placeResult, Option.map_some,
        List.map_append]
      rfl
  · obtain ⟨a, root, errs⟩ := r
    have : (Option.map SProgram.wellFormed (Option.map (placeSProgram m) root)).getD false
        = (Option.map SProgram.wellFormed root).getD false := by
      cases root <;> simp [wellFormed_place]
    simp only [both, placeResult, List.isEmpty_map, this]
    split <;> rfl

theorem placeAnalyzer_default (m : Loc → Loc) (v : Version) :
    placeAnalyzer m (⟨v, [defaultScope fo], 0⟩ : Analyzer F) = ⟨v, [defaultScope fo], 0⟩ := by
  have : (defaultVars fo).map (fun e => (e.1, placeValue m e.2)) = defaultVars fo := by
    unfold defaultVars; rfl
  simp only [placeAnalyzer, List.map_cons, List.map_nil, placeScope, defaultScope, this]
  rfl

end Place

/-- C92. A default analyser carries positions along: if the lines of the positions in a syntax tree are rearranged without changing
their order, and the file is given another name, then the positions in the result and in the errors are rearranged in the same
way, and nothing else changes. -/
theorem C92_analysis {v : Version} {a : Analyzer F} (ha : Analyzer.default fo v = .ok a) {s : Shift} (hs : s.InOrder)
    (file : Option Str) (p : ProgramAst F) :
    (analyze fo a (placeProgram (s.loc file) p)).bind (fun x => .ok x.2)
      = (analyze fo a p).bind fun x => .ok (placeResult (s.loc file) (placeSProgram (s.loc file)) x.2) := by
  cases hv : Version.eq v [3, 0] with
  | false => rw [default_none fo v hv] at ha; simp at ha
  | true =>
    rw [default_eq fo v hv] at ha
    cases ha
    have h := Place.analyze_place (fo := fo) (v := v) (u := 0) (sc := defaultScope fo) (Place.joins (f := file) hs)
      (Place.defaultFns_carries fo) p
    rw [Place.placeAnalyzer_default] at h
    rw [h]
    cases analyze fo (⟨v, [defaultScope fo], 0⟩ : Analyzer F) p <;> rfl

theorem Place.fileNameOf_ne (file : Option Str) : fileNameOf file ≠ some [] := by
  intro h
  unfold fileNameOf at h
  split at h
  · simp at h
  · exact absurd h (by assumption)

/-- C92. Blank lines, comments and indentation put in front of a line of a text do not change whether it is accepted by the lexer and
the parser. -/
theorem C92_parses {a w b : Str} (ha : StartsLine a b) (hw : Blank w b) : Parses (a ++ (w ++ b)) ↔ Parses (a ++ b) := by
  rcases Place.parse_inserted ha hw with ⟨l, l', h, h'⟩ | ⟨ts, ts', h, h', hp⟩
  · simp [Parses, h, h']
  · constructor
    · rintro ⟨us, q, hu, hq⟩
      rw [h'] at hu
      cases hu
      rw [hp, Option.map_eq_some_iff] at hq
      obtain ⟨p, hq, -⟩ := hq
      exact ⟨ts, p, h, hq⟩
    · rintro ⟨us, q, hu, hq⟩
      rw [h] at hu
      cases hu
      exact ⟨ts', _, h', by rw [hp, hq]; rfl⟩

/-- C92. They move the positions in the syntax tree, and those in reports of literals that are out of range, down and to the right by
as much as was inserted; nothing else changes. -/
theorem C92_parse (an : Antlr F) {a w b : Str} (ha : StartsLine a b) (hw : Blank w b) (hp : Parses (a ++ b)) (file file' : Option Str) :
    parseString an (a ++ (w ++ b)) file' = (parseString an (a ++ b) file).bind fun r =>
      .ok (placeResult ((Shift.inserted a w).loc (fileNameOf file')) (placeProgram ((Shift.inserted a w).loc (fileNameOf file'))) r) := by
  obtain ⟨ts0, pr, hl, hpr⟩ := hp
  rcases Place.parse_inserted ha hw with ⟨l, l', h, h'⟩ | ⟨ts, ts', h, h', hp⟩
  · rw [h] at hl; simp at hl
  · rw [h] at hl
    cases hl
    have e : scan an file (a ++ b) = Syn.program an (fileNameOf file) pr := by simp only [scan, h, hpr]
    have e' : scan an file' (a ++ (w ++ b)) = (scan an file (a ++ b)).place ((Shift.inserted a w).loc (fileNameOf file'))
        (placeProgram ((Shift.inserted a w).loc (fileNameOf file'))) := by
      rw [e, ← Place.program_place (Place.fileNameOf_ne file') (Place.inserted_order a w)]
      simp only [scan, h', hp, hpr, Option.map_some]
    have o := C48_outcome an (a ++ b) file
    have o' := C48_outcome an (a ++ (w ++ b)) file'
    unfold parseString at o o' ⊢
    rw [e'] at o' ⊢
    cases hs : scan an file (a ++ b) with
    | ok p =>
      rw [hs] at o o'
      simp only [Res.place] at o' ⊢
      have hw : wellFormed p = true := by
        cases hw : wellFormed p with
        | true => rfl
        | false => simp [hw] at o
      have hw' : wellFormed (placeProgram ((Shift.inserted a w).loc (fileNameOf file')) p) = true := by
        cases hw : wellFormed (placeProgram ((Shift.inserted a w).loc (fileNameOf file')) p) with
        | true => rfl
        | false => simp [hw] at o'
      simp [hw, hw', placeResult]
    | err x => simp [Res.place, placeResult]
    | exn c => rw [hs] at o; simp at o
    | ub => rw [hs] at o; simp at o

/-- C92. And the same holds for the result of the analysis by a default analyser, including its errors. -/
theorem C92_text {v : Version} {an : Analyzer F} (han : Analyzer.default fo v = .ok an) (antlr : Antlr F) {a w b : Str}
    (ha : StartsLine a b) (hw : Blank w b) (hp : Parses (a ++ b)) (file file' : Option Str) :
    (analyzeString fo antlr an (a ++ (w ++ b)) file').bind (fun x => .ok x.2)
      = (analyzeString fo antlr an (a ++ b) file).bind fun x => .ok (placeResult ((Shift.inserted a w).loc (fileNameOf file'))
          (placeSProgram ((Shift.inserted a w).loc (fileNameOf file'))) x.2) := by
  unfold analyzeString
  rw [C92_parse antlr ha hw hp file file']
  rcases C48_outcome antlr (a ++ b) file with ⟨p, h⟩ | ⟨e, h⟩
  · have := C92_analysis han (Place.inserted_order a w) (fileNameOf file') p
    rw [h]
    simp only [Res.bind_ok, placeResult, Option.map_some, List.map_nil, analyzeParse] at this ⊢
    revert this
    cases analyze fo an p <;> cases analyze fo an (placeProgram ((Shift.inserted a w).loc (fileNameOf file')) p) <;>
      simp [Res.mapErr]
    rename_i x _
    exact x.elim
  · rw [h]
    rfl

/-- C92. The first line of a text starts a line, and so does what follows a text that parses and a new line. -/
theorem C92_lines {t : Str} (ht : Parses t) (b : Str) : StartsLine [] b ∧ StartsLine (t ++ c!"\n") b := by
  refine ⟨⟨[], .nil _ _, trivial, .inl rfl⟩, ?_⟩
  obtain ⟨ts, pr, hl, hp⟩ := ht
  obtain ⟨segs, e, hc, hcl, hcov, -, -⟩ := program_cut hl (C45_derivation ts pr hp)
  have h := Lexer.cut_append (Lexer.cut_feed hc hcl rfl b) (.cons (w := c!"\n") (Lexer.newline_winner b) (.nil _ _))
  refine ⟨segs ++ [(.newLine, c!"\n")], by simpa [modeAfter] using h, ?_, .inr ⟨segs, _, rfl⟩⟩
  clear h hc hcov
  induction segs with
  | nil => exact ⟨by simp, by simp, trivial⟩
  | cons x segs ih =>
    refine ⟨hcl.1, fun hk p hp => ?_, ih hcl.2.2⟩
    cases segs with
    | nil => simp at hp; rw [← hp]; simp
    | cons y segs => exact hcl.2.1 hk p (by simpa using hp)

/-- C92. The name of the file changes nothing but the name of the file in positions. -/
theorem C92_file {v : Version} {an : Analyzer F} (han : Analyzer.default fo v = .ok an) (antlr : Antlr F) {text : Str}
    (hp : Parses text) (file file' : Option Str) :
    (analyzeString fo antlr an text file').bind (fun x => .ok x.2)
      = (analyzeString fo antlr an text file).bind fun x =>
        .ok (placeResult (fun l => ⟨fileNameOf file', l.range⟩) (placeSProgram fun l => ⟨fileNameOf file', l.range⟩) x.2) := by
  have h := C92_text (a := []) (w := []) (b := text) han antlr (C92_lines hp text).1 (.last (.nil _)) hp file file'
  have e : (Shift.inserted [] []).loc (fileNameOf file') = fun l => ⟨fileNameOf file', l.range⟩ := by
    have hi : ∀ i : Index, (Shift.inserted [] []).index i = i := by
      intro ⟨l, c⟩
      simp [Shift.inserted, Shift.index, columnAfter, lastLine]
    funext l
    simp only [Shift.loc, hi]
  rw [e] at h
  exact h

/-! ## A text to which lines are added -/

/-- The errors a default analyser reports for a text. -/
def Sample.located (text : Str) (file : Option Str) : Option (List Err) :=
  match Analyzer.default Sample.fo [3, 0] with
  | .ok a =>
    match Syn.analyzeString Sample.fo Sample.antlr a text file with
    | .ok (_, r) => some r.errors
    | _ => none
  | _ => none

/-- A program that parses, and a text that is blank before the line that follows it. -/
theorem Sample.lines : Parses c!"version 3.0\nqubit q" ∧ StartsLine (c!"version 3.0\nqubit q" ++ c!"\n") c!"X q; Y r\nZ s" ∧
    Blank c!" /* a */\n// b\n  " c!"X q; Y r\nZ s" ∧
    Parses (c!"version 3.0\nqubit q" ++ c!"\n" ++ c!"X q; Y r\nZ s") := by
  have hp : ∀ text, ((match Lexer.lex text with | .ok ts => Parser.parse ts | .error _ => none).isSome = true) → Parses text := by
    intro text h
    cases hl : Lexer.lex text with
    | error e => rw [hl] at h; simp at h
    | ok ts =>
      rw [hl] at h
      obtain ⟨pr, hpr⟩ := Option.isSome_iff_exists.1 h
      exact ⟨ts, pr, hl, hpr⟩
  have h := hp c!"version 3.0\nqubit q" (by decide +kernel)
  refine ⟨h, (C92_lines h _).2, ?_, hp _ (by decide +kernel)⟩
  refine .line (t := c!" /* a */") (n := c!"\n") (w := c!"// b\n  ") (.inl rfl) ?_ ?_
  · exact .blank (.inl rfl) (.block (u := c!" a ") (t := []) (by decide) (.nil _))
  · exact .line (t := c!"// b") (n := c!"\n") (w := c!"  ") (.inl rfl) (.line (u := c!" b") (by decide) (by simp))
      (.last (.blank (.inl rfl) (.blank (.inl rfl) (.nil _))))

/-- Two errors, one on the line in front of which something is inserted and one on the line after it. -/
example : Sample.located c!"version 3.0\nqubit q\nX q; Y r\nZ s" none =
      some [⟨c!"failed to resolve variable 'r'", some ⟨none, ⟨⟨3, 8⟩, ⟨3, 9⟩⟩⟩⟩, ⟨c!"failed to resolve variable 's'", some ⟨none, ⟨⟨4, 3⟩, ⟨4, 4⟩⟩⟩⟩] ∧
    Sample.located c!"version 3.0\nqubit q\n /* a */\n// b\n  X q; Y r\nZ s" (some c!"f") =
      some [⟨c!"failed to resolve variable 'r'", some ⟨some c!"f", ⟨⟨5, 10⟩, ⟨5, 11⟩⟩⟩⟩,
        ⟨c!"failed to resolve variable 's'", some ⟨some c!"f", ⟨⟨6, 3⟩, ⟨6, 4⟩⟩⟩⟩] := by
  decide +kernel

end Qasm
