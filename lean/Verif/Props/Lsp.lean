import Verif.Spec.Lsp
import Verif.Props.Located
import Verif.Props.FileName
/-!
# Diagnostics and positions of the Language Server Protocol (C105)
-/

namespace Qasm

open Spec Sem Syn

variable {F : Type} {fo : FloatOps F}

attribute [local irreducible] defaultInstrs defaultFns defaultVars

namespace Lsp

theorem line_eq (s : Str) : lspLine s = s.count '\n' + loneReturns s := by
  fun_induction lspLine s with
  | case1 => rfl
  | case2 s ih => rw [ih, loneReturns]; simp; omega
  | case3 s hs ih =>
    rw [ih, List.count_cons_of_ne (by decide)]
    rw [loneReturns.eq_3 s hs]
    omega
  | case4 s ih =>
    rw [ih, loneReturns.eq_4 _ _ (by intro t h; cases h) (by intro h; cases h)]
    simp
    omega
  | case5 c s h1 h2 h3 ih => rw [ih, List.count_cons_of_ne h3, loneReturns.eq_4 _ _ h1 h2]

/-- The last line of the protocol is the end of the last line. -/
theorem lastLine_eq (s : Str) : ∃ over, lastLine s = over ++ lspLastLine s := by
  unfold lastLine lspLastLine
  generalize s.reverse = r
  induction r with
  | nil => exact ⟨[], rfl⟩
  | cons c r ih =>
    obtain ⟨over, h⟩ := ih
    by_cases h1 : c = '\n'
    · exact ⟨[], by simp [h1]⟩
    · by_cases h2 : c = '\r'
      · exact ⟨((c :: r).takeWhile (· ≠ '\n')).reverse, by simp [h2]⟩
      · refine ⟨over, ?_⟩
        rw [List.takeWhile_cons_of_pos (by simpa using h1), List.takeWhile_cons_of_pos (by simpa using ⟨h1, h2⟩),
          List.reverse_cons, List.reverse_cons, h, List.append_assoc]

theorem units_sum (s : Str) : (s.map utf16Units).sum = s.length + supplementary s := by
  induction s with
  | nil => rfl
  | cons c s ih =>
    simp only [List.map_cons, List.sum_cons, List.length_cons, supplementary, List.countP_cons, utf16Units] at ih ⊢
    rw [ih]
    by_cases hc : c.toNat < 0x10000
    · rw [if_pos hc, if_neg (by simpa using hc)]; omega
    · rw [if_neg hc, if_pos (by simpa using hc)]; omega

theorem character_eq (s : Str) : ∃ over, lastLine s = over ++ lspLastLine s ∧
    columnAfter s + supplementary (lspLastLine s) = lspCharacter s + over.length := by
  obtain ⟨over, h⟩ := lastLine_eq s
  refine ⟨over, h, ?_⟩
  rw [lspCharacter, units_sum, columnAfter, h, List.length_append]
  omega

end Lsp

open Lsp

/-- C105. The place in the text and the range in the JSON of an error of the analysis: the four numbers are those of the location, and
against the positions of the protocol the line and the offset of the start are one too large. Moreover carriage returns that stand
alone are no line ends, so the line is too small by their number and the offset too large by what comes before the last of them in
the line (`over`), and the offset is too small by the number of supplementary characters before it in its line. The end is as many
characters further as the word has. -/
theorem C105_diagnostics_partial {v : Version} {a a' : Analyzer F} (ha : Analyzer.default fo v = .ok a) {an : Antlr F}
    {text : Str} {file : Option Str} {p : ProgramAst F} (h : parseString an text file = .ok ⟨some p, []⟩)
    {r : Result (SProgram F)} (hr : analyze fo a p = .ok (a', r)) (err : Err) (he : err ∈ r.errors) :
    ∃ before w after range raw related over, text = before ++ w ++ after ∧ w ≠ [] ∧
      err.toJson = (jsonDiagnostic range raw related).render ∧
      range.last = ⟨range.first.line, range.first.column + w.length⟩ ∧
      range.first.line + loneReturns before = lspLine before + 1 ∧ lastLine before = over ++ lspLastLine before ∧
      range.first.column + supplementary (lspLastLine before) = lspCharacter before + over.length + 1 := by
  obtain ⟨w, hw, before, after, loc, htext, hl, -, h1, h2⟩ := C85_errors ha h hr err he
  obtain ⟨over, ho, hc⟩ := character_eq before
  refine ⟨before, w, after, loc.range, _, _, over, htext, hw, by rw [C54_to_json, hl], by rw [h1, h2], ?_, ho, ?_⟩
  · rw [h1, line_eq]; simp only [lineAfter]; omega
  · rw [h1]; simp only; omega

/-- C105. The same for the report of a literal without a representable value, whose range is empty. -/
theorem C105_literal_partial {an : Antlr F} {text : Str} {file : Option Str} {e : Err}
    (h : parseString an text file = .ok ⟨none, [e]⟩) (hg : ∃ ts pr, Lexer.lex text = .ok ts ∧ Program DerivesStmt ts pr) :
    ∃ before w after range raw related over, text = before ++ w ++ after ∧ w ≠ [] ∧
      e.toJson = (jsonDiagnostic range raw related).render ∧ range.last = range.first ∧
      range.first.line + loneReturns before = lspLine before + 1 ∧ lastLine before = over ++ lspLastLine before ∧
      range.first.column + supplementary (lspLastLine before) = lspCharacter before + over.length + 1 := by
  obtain ⟨before, w, after, typ, loc, ht, hw, -, rfl, -, h1, h2⟩ := C85_literal h hg
  obtain ⟨over, ho, hc⟩ := character_eq before
  refine ⟨before, w, after, loc.range, _, _, over, ht, hw, by rw [C54_to_json], h2, ?_, ho, ?_⟩
  · rw [h1, line_eq]; simp only [lineAfter]; omega
  · rw [h1]; simp only; omega

/-- C105. False of the code: an error of the analysis of a text of one line, which is line 0 of the protocol, is reported in a line
that the text does not have. -/
theorem C105_refuted {v : Version} {a a' : Analyzer F} (ha : Analyzer.default fo v = .ok a) {an : Antlr F}
    {text : Str} {file : Option Str} {p : ProgramAst F} (h : parseString an text file = .ok ⟨some p, []⟩)
    {r : Result (SProgram F)} (hr : analyze fo a p = .ok (a', r)) (err : Err) (he : err ∈ r.errors) (hc : '\r' ∉ text) (hc' : '\n' ∉ text) :
    ∃ range raw related, err.toJson = (jsonDiagnostic range raw related).render ∧ lspLine text < range.first.line := by
  obtain ⟨before, w, after, range, raw, related, over, ht, hw, hj, -, hp, -, -⟩ := C105_diagnostics_partial ha h hr err he
  refine ⟨range, raw, related, hj, ?_⟩
  have lone : ∀ {s : Str}, '\r' ∉ s → loneReturns s = 0 := by
    intro s hs
    induction s with
    | nil => rfl
    | cons c s ih =>
      rw [loneReturns.eq_4 _ _ (fun t hc _ => hs (by simp [hc])) (fun hc => hs (by simp [hc]))]
      exact ih fun h => hs (List.mem_cons_of_mem _ h)
  have hb : '\r' ∉ before := fun hx => hc (by rw [ht]; simp [hx])
  rw [lone hb] at hp
  rw [line_eq, lone hc, List.count_eq_zero_of_not_mem hc']
  omega

/-- The JSON a default analyser gives for the errors of a text. -/
def Sample.diagnostics (text : Str) : List Bytes :=
  match Analyzer.default Sample.fo [3, 0] with
  | .ok a =>
    match Syn.analyzeString Sample.fo Sample.antlr a text none with
    | .ok (_, r) => r.errors.map Err.toJson
    | _ => []
  | _ => []

/-- The unknown variable stands in the first line of the protocol, which is line 0, at offset 22, but is reported in line 1 at 23; behind
a comment with a supplementary character, whose two units are counted as one, at offset 28 and reported at 28. -/
example : Sample.diagnostics c!"version 3.0;qubit q;Y r" =
      [utf8 c!"{\"range\":{\"start\":{\"line\":1,\"character\":23},\"end\":{\"line\":1,\"character\":24}},\"message\":\"failed to resolve variable 'r'\",\"severity\":1}"] ∧
    lspLine c!"version 3.0;qubit q;Y " = 0 ∧ lspCharacter c!"version 3.0;qubit q;Y " = 22 ∧
    Sample.diagnostics c!"version 3.0;qubit q;Y/*𝄞*/ r" =
      [utf8 c!"{\"range\":{\"start\":{\"line\":1,\"character\":28},\"end\":{\"line\":1,\"character\":29}},\"message\":\"failed to resolve variable 'r'\",\"severity\":1}"] ∧
    lspCharacter c!"version 3.0;qubit q;Y/*𝄞*/ " = 28 := by
  decide +kernel

/-- A carriage return of its own ends a line in the protocol: the unknown variable is in line 1 at offset 4. -/
example : Sample.diagnostics c!"version 3.0;qubit q;/*\r*/Y r" =
      [utf8 c!"{\"range\":{\"start\":{\"line\":1,\"character\":28},\"end\":{\"line\":1,\"character\":29}},\"message\":\"failed to resolve variable 'r'\",\"severity\":1}"] ∧
    lspLine c!"version 3.0;qubit q;/*\r*/Y " = 1 ∧ lspCharacter c!"version 3.0;qubit q;/*\r*/Y " = 4 ∧
    loneReturns c!"version 3.0;qubit q;/*\r*/Y " = 1 ∧ loneReturns c!"a\r\nb\r\r\n" = 1 ∧
    lastLine c!"version 3.0;qubit q;/*\r*/Y " = c!"version 3.0;qubit q;/*\r" ++ lspLastLine c!"version 3.0;qubit q;/*\r*/Y " := by
  decide +kernel

end Qasm
