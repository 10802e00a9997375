import Verif.Lemmas.ViableMoved
import Verif.Props.Diagnose
import Verif.Props.Place
import Verif.Props.Lines
import Verif.Props.Lsp
/-!
# The places of syntax errors (C85, C92, C94, C105)
-/

namespace Qasm

open Spec Syn

variable {F : Type}

theorem parses_iff {text : Str} : Parses text ↔ InLanguage text := by
  constructor
  · rintro ⟨ts, pr, hl, hp⟩
    exact ⟨ts, pr, hl, C45_derivation ts pr hp⟩
  · rintro ⟨ts, pr, hl, hp⟩
    obtain ⟨p, h⟩ := (C45_accepts ts).2 ⟨pr, hp⟩
    exact ⟨ts, p, hl, h⟩

/-- C85. A syntax error is located in the text, at a word (whose size is counted in bytes) or, if the text ends too early or what
follows is no token, at an empty one. -/
theorem C85_syntax (an : Antlr F) {text : Str} (h : ¬ InLanguage text) (file : Option Str) :
    ∃ e before w after, parseString an text file = .ok ⟨none, [e]⟩ ∧ text = before ++ w ++ after ∧
      SyntaxErrorAt file (lineAfter before) (columnAfter before) (utf8 w).length e := by
  obtain ⟨segs, m, rest, hc, hr⟩ := Lexer.cut_exists .default text
  rcases hr with rfl | ⟨hne, hst⟩
  · obtain ⟨e, u, b, w, v, h1, hg, h2⟩ := C108_text an (Lexer.lex_of_cut hc) h file
    exact ⟨e, u ++ b, w, v, h1, hg.1, h2⟩
  · obtain ⟨e, u, b, w, v, h1, hg, h2⟩ := C108_text_recognition an hc hne hst file
    have hcov := Lexer.cut_covered hc
    rcases h2 with ⟨h2, -, h3⟩ | ⟨-, h3 | h3⟩
    · exact ⟨e, u ++ b, [], rest, h1, by rw [h2, hcov]; simp, h3⟩
    · exact ⟨e, u ++ b, w, v, h1, hg.1, h3⟩
    · exact ⟨e, covered segs, [], rest, h1, by rw [hcov]; simp, h3⟩

theorem utf8_size (w : Str) : (utf8 w).length ≤ 4 * w.length := by
  induction w with
  | nil => simp [utf8]
  | cons c w ih =>
    have : utf8 (c :: w) = String.utf8EncodeChar c ++ utf8 w := by simp [utf8]
    rw [this, List.length_append, List.length_cons]
    have : (String.utf8EncodeChar c).length ≤ 4 := by rw [String.length_utf8EncodeChar]; exact Char.utf8Size_le_four c
    omega

/-- C85. The positions of a syntax error do not exceed the size of the text in bytes. -/
theorem C85_syntax_fits (an : Antlr F) {text : Str} (h : ¬ InLanguage text) (file : Option Str) :
    ∃ e loc, parseString an text file = .ok ⟨none, [e]⟩ ∧ e.location = some loc ∧
      1 ≤ loc.range.first.line ∧ loc.range.last.line = loc.range.first.line ∧ loc.range.first.line ≤ text.length + 1 ∧
      1 ≤ loc.range.first.column ∧ loc.range.first.column ≤ text.length + 1 ∧
      loc.range.first.column ≤ loc.range.last.column ∧ loc.range.last.column ≤ 4 * text.length + 1 := by
  obtain ⟨e, before, w, after, h1, rfl, loc, h2, -, h3, h4⟩ := C85_syntax an h file
  refine ⟨e, loc, h1, h2, ?_⟩
  have hc : columnAfter before ≤ before.length := by
    have : (before.reverse.takeWhile (· ≠ '\n')).length ≤ before.reverse.length := (List.takeWhile_prefix _).length_le
    simpa [columnAfter, lastLine] using this
  have hl : before.count '\n' ≤ before.length := List.count_le_length ..
  have hs := utf8_size w
  rw [h3, h4]
  simp only [lineAfter, List.length_append]
  refine ⟨?_, trivial, ?_, ?_, ?_, ?_, ?_⟩ <;> omega

/-- C92. Blank lines, comments and indentation put in front of a line of a text with a syntax error move the error as they move
everything else. (If the text has a place that is no token, it must for both texts be met before an earlier wrong token or for none.) -/
theorem C92_syntax (an : Antlr F) {a w b : Str} (ha : StartsLine a b) (hw : Blank w b) (hp : ¬ Parses (a ++ b))
    (hah : (∃ ts, Lexer.lex (a ++ b) = .ok ts) ∨ an.ahead (a ++ b) = an.ahead (a ++ (w ++ b))) (file file' : Option Str) :
    ∃ e e' loc, parseString an (a ++ b) file = .ok ⟨none, [e]⟩ ∧ parseString an (a ++ (w ++ b)) file' = .ok ⟨none, [e']⟩ ∧
      e.location = some loc ∧ e'.location = some ((Shift.inserted a w).loc (if file' = some [] then none else file') loc) := by
  have hn : ¬ InLanguage (a ++ b) := fun h => hp (parses_iff.2 h)
  have hn' : ¬ InLanguage (a ++ (w ++ b)) := fun h => hp ((C92_parses ha hw).1 (parses_iff.2 h))
  have hoff := offending_inserted ha hw hn hah
  have place : ∀ {line column size : Nat} {e e' : Err}, SyntaxErrorAt file line column size e →
      SyntaxErrorAt file' ((Shift.inserted a w).line line) (column + (Shift.inserted a w).right line) size e' →
      ∃ loc, e.location = some loc ∧ e'.location = some ((Shift.inserted a w).loc (if file' = some [] then none else file') loc) := by
    rintro line column size e e' ⟨loc, h1, -, h2, h3⟩ ⟨loc', h1', h4, h2', h3'⟩
    refine ⟨loc, h1, ?_⟩
    rw [h1']
    obtain ⟨f', ⟨i', j'⟩⟩ := loc'
    simp only at h4 h2' h3'
    subst h4 h2' h3'
    simp only [Shift.loc, Shift.index, h2, h3]
    congr 4 <;> omega
  have key : ∃ loc, (listenerError (fileNameOf file) (an.diagnosis (a ++ b))).location = some loc ∧
      (listenerError (fileNameOf file') (an.diagnosis (a ++ (w ++ b)))).location =
        some ((Shift.inserted a w).loc (if file' = some [] then none else file') loc) := by
    cases ho : offending (an.ahead (a ++ b)) (a ++ b) with
    | ok t =>
      rw [ho] at hoff
      exact place (syntaxErrorAt_token ho file) (syntaxErrorAt_token hoff file')
    | error p =>
      rw [ho] at hoff
      exact place (syntaxErrorAt_place ho file) (syntaxErrorAt_place hoff file')
  obtain ⟨loc, h1, h2⟩ := key
  exact ⟨_, _, loc, not_inLanguage hn an file, not_inLanguage hn' an file', h1, h2⟩

/-- C94. Texts that differ only in line ends have their syntax error at the same place. (If they have a place that is no token, it must
for both texts be met before an earlier wrong token or for none.) Its end is the same, too, unless the wrong token is a new line or
a raw string, whose sizes differ. -/
theorem C94_syntax (an : Antlr F) {s t : Str} (h : unix s = unix t) (hp : ¬ Parses s)
    (hah : (∃ ts, Lexer.lex s = .ok ts) ∨ an.ahead s = an.ahead t) (file : Option Str) :
    ∃ e e' line column w w', parseString an s file = .ok ⟨none, [e]⟩ ∧ parseString an t file = .ok ⟨none, [e']⟩ ∧
      SyntaxErrorAt file line column (utf8 w).length e ∧ SyntaxErrorAt file line column (utf8 w').length e' ∧ unix w = unix w' ∧
      ('\n' ∉ w → w = w') := by
  have hn : ¬ InLanguage s := fun h => hp (parses_iff.2 h)
  have hn' : ¬ InLanguage t := fun ht => hp ((C94_parses h).2 (parses_iff.2 ht))
  have hoff := offending_lines h hn hah
  refine ⟨listenerError (fileNameOf file) (an.diagnosis s), listenerError (fileNameOf file) (an.diagnosis t), ?_⟩
  revert hoff
  cases ho : offending (an.ahead s) s with
  | ok x =>
    cases ho' : offending (an.ahead t) t with
    | ok y =>
      intro hoff
      obtain ⟨h1, h2, h3, h4, h5⟩ := hoff
      have e1 := syntaxErrorAt_token ho file
      have e2 := syntaxErrorAt_token ho' file
      rw [← h2, ← h3] at e2
      by_cases hk : x.kind = .eof
      · rw [tokenSize, if_pos hk] at e1
        rw [tokenSize, if_pos (h1 ▸ hk)] at e2
        exact ⟨_, _, [], [], not_inLanguage hn an file, not_inLanguage hn' an file, e1, e2, rfl, fun _ => rfl⟩
      · rw [tokenSize, if_neg hk] at e1
        rw [tokenSize, if_neg (h1 ▸ hk)] at e2
        exact ⟨_, _, x.text, y.text, not_inLanguage hn an file, not_inLanguage hn' an file, e1, e2, h4, Lines.same_plain h4⟩
    | error q => intro hoff; exact hoff.elim
  | error p =>
    cases ho' : offending (an.ahead t) t with
    | ok y => intro hoff; exact hoff.elim
    | error q =>
      intro hoff
      cases hoff
      exact ⟨_, _, [], [], not_inLanguage hn an file, not_inLanguage hn' an file, syntaxErrorAt_place ho file, syntaxErrorAt_place ho' file, rfl, fun _ => rfl⟩

/-- C105. The place and the range in the JSON of a syntax error: against the positions of the protocol the line and the offset of the
start are one too large. Moreover carriage returns that stand alone are no line ends, so the line is too small by their number and the
offset too large by what comes before the last of them in the line (`over`), and the offset is too small by the number of
supplementary characters before it in its line. The end is as many bytes further as the word has. -/
theorem C105_syntax_partial (an : Antlr F) {text : Str} (h : ¬ InLanguage text) (file : Option Str) :
    ∃ e before w after range raw related over, parseString an text file = .ok ⟨none, [e]⟩ ∧ text = before ++ w ++ after ∧
      e.toJson = (jsonDiagnostic range raw related).render ∧
      range.last = ⟨range.first.line, range.first.column + (utf8 w).length⟩ ∧
      range.first.line + loneReturns before = lspLine before + 1 ∧ lastLine before = over ++ lspLastLine before ∧
      range.first.column + supplementary (lspLastLine before) = lspCharacter before + over.length + 1 := by
  obtain ⟨e, before, w, after, h1, rfl, loc, h2, -, h3, h4⟩ := C85_syntax an h file
  obtain ⟨over, ho, hc⟩ := Lsp.character_eq before
  refine ⟨e, before, w, after, loc.range, _, _, over, h1, rfl, by rw [C54_to_json, h2], by rw [h3, h4], ?_, ho, ?_⟩
  · rw [h3, Lsp.line_eq]; simp only [lineAfter]; omega
  · rw [h3]; simp only; omega

/-! ## Examples -/

/-- A wrong text and the same with two lines before its second line, and with other line ends. -/
example : Sample.wrongAt Sample.antlr c!"version 3.0\nH q[0 ;\n" = [((2, 7), (2, 8))] ∧
    Sample.wrongAt Sample.antlr c!"version 3.0\n// more\n\n  H q[0 ;\n" = [((4, 9), (4, 10))] ∧
    Sample.wrongAt Sample.antlr c!"version 3.0\r\nH q[0 ;\n" = [((2, 7), (2, 8))] ∧
    Sample.wrongAt Sample.antlr c!"version 3.0\nH q[0 \n" = [((2, 7), (2, 8))] ∧
    Sample.wrongAt Sample.antlr c!"version 3.0\nH q[0 \r\n" = [((2, 7), (2, 9))] := by decide +kernel

end Qasm
