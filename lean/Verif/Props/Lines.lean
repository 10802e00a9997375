import Verif.Lemmas.Code
import Verif.Spec.Place
import Verif.Props.Syntactic
import Verif.Props.Parser
/-!
# Property C94: line ends
-/

namespace Qasm

open Spec Sem Syn

attribute [local irreducible] defaultInstrs defaultFns defaultVars

variable {F : Type} {fo : FloatOps F}

/-- C94. Texts that differ only in line ends have the same tokens at the same places; only new lines and raw strings differ, and only
in line ends. If one cannot be cut into tokens the other cannot either, and the place is the same. -/
theorem C94_tokens {s t : Str} (h : unix s = unix t) :
    (∃ l, Lexer.lex s = .error l ∧ Lexer.lex t = .error l) ∨
      ∃ ts us, Lexer.lex s = .ok ts ∧ Lexer.lex t = .ok us ∧ Forall2 AlikeToken ts us := Lines.lex_lift h

namespace Lines

theorem map_tidy {ts us : List Token} (h : Forall2 AlikeToken ts us) : ts.map (tidy true) = us.map (tidy true) := by
  induction h with
  | nil => rfl
  | cons h _ ih => rw [List.map_cons, List.map_cons, ih, alike_tidy h]

theorem map_tidy_false {ts us : List Token} (h : Forall2 AlikeToken ts us) (hl : ∀ t ∈ ts, t.kind = .rawTextString → '\n' ∉ t.text) :
    ts.map (tidy false) = us.map (tidy false) := by
  induction h with
  | nil => rfl
  | cons h _ ih => rw [List.map_cons, List.map_cons, ih fun t ht => hl t (by simp [ht]), alike_tidy_false h (hl _ (by simp))]

theorem program_quoted {s : Str} {ts : List Token} {p : PProgram} (hl : Lexer.lex s = .ok ts) (h : Program DerivesStmt ts p) :
    ∀ x ∈ p.statements, Quoted x := by
  have hq := tokens_quoted hl
  cases h with
  | mk _ _ _ hb => exact block_quoted hb fun t ht => hq t (by simp [ht])

/-- What line ends do to what the parser makes of a text. -/
theorem parse_lines {s t : Str} (h : unix s = unix t) :
    ¬ Parses s ∧ ¬ Parses t ∨ ∃ ts us p q, Lexer.lex s = .ok ts ∧ Lexer.lex t = .ok us ∧ Parser.parse ts = some p ∧ Parser.parse us = some q ∧
      (∀ x ∈ p.statements, Quoted x) ∧ (∀ x ∈ q.statements, Quoted x) ∧ p.version = q.version ∧
      p.statements.map (tidyS true) = q.statements.map (tidyS true) ∧ (NoLongString s → p = q) := by
  rcases lex_lift h with ⟨l, h1, h2⟩ | ⟨ts, us, h1, h2, h3⟩
  · left
    constructor
    · rintro ⟨ts, p, h, -⟩; rw [h1] at h; cases h
    · rintro ⟨ts, p, h, -⟩; rw [h2] at h; cases h
  · have e1 := Qasm.parse_map (f := tidy true) (tidy_kind true) ts
    have e2 := Qasm.parse_map (f := tidy true) (tidy_kind true) us
    rw [map_tidy h3, e2] at e1
    cases hp : Parser.parse ts with
    | none =>
      left
      rw [hp] at e1
      have hq : Parser.parse us = none := by simpa using e1
      constructor
      · rintro ⟨ts', p, h, h'⟩; rw [h1] at h; cases h; rw [hp] at h'; cases h'
      · rintro ⟨ts', p, h, h'⟩; rw [h2] at h; cases h; rw [hq] at h'; cases h'
    | some p =>
      right
      rw [hp, Option.map_some, Option.map_eq_some_iff] at e1
      obtain ⟨q, hq, e⟩ := e1
      have d1 := C45_derivation ts p hp
      have d2 := C45_derivation us q hq
      rw [program_same d1, program_same d2, PProgram.mk.injEq] at e
      refine ⟨ts, us, p, q, h1, h2, hp, hq, program_quoted h1 d1, program_quoted h2 d2, e.1.symm, e.2.symm, fun hl => ?_⟩
      have f1 := Qasm.parse_map (f := tidy false) (tidy_kind false) ts
      have f2 := Qasm.parse_map (f := tidy false) (tidy_kind false) us
      rw [map_tidy_false h3 (hl ts h1), f2, hp, hq, Option.map_some, Option.map_some, Option.some.injEq, program_same d1, program_same d2,
        PProgram.mk.injEq] at f1
      have same : ∀ ss : List PStmt, (∀ x ∈ ss, Quoted x) → ss.map (tidyS false) = ss := by
        intro ss hs
        have : ∀ x ∈ ss, tidyS false x = x := fun x hx => tidyS_false x fun n t ht => by rw [(hs x hx n t ht).1]; simp
        induction ss with
        | nil => rfl
        | cons x ss ih => rw [List.map_cons, this x (by simp), ih (fun y hy => hs y (by simp [hy])) fun y hy => this y (by simp [hy])]
      obtain ⟨v, ss⟩ := p
      obtain ⟨v', ss'⟩ := q
      simp only [same ss (program_quoted h1 d1), same ss' (program_quoted h2 d2)] at f1
      rw [f1.1, f1.2]

theorem onTree_some {α : Type} (g : α → α) (r : α) (es : List Err) : onTree g ⟨some r, es⟩ = ⟨some (g r), es⟩ := rfl

end Lines

/-- C94. Line ends do not change whether a text is accepted by the lexer and the parser. -/
theorem C94_parses {s t : Str} (h : unix s = unix t) : Parses s ↔ Parses t := by
  rcases Lines.parse_lines h with ⟨h1, h2⟩ | ⟨ts, us, p, q, h1, h2, h3, h4, -⟩
  · exact ⟨fun h => absurd h h1, fun h => absurd h h2⟩
  · exact ⟨fun _ => ⟨us, q, h2, h4⟩, fun _ => ⟨ts, p, h1, h3⟩⟩

/-- C94. They change nothing in the syntax tree, positions included, but line ends within assembly declarations. The errors for
literals that are out of range are the same. -/
theorem C94_parse (an : Antlr F) {s t : Str} (h : unix s = unix t) (hp : Parses s) (file : Option Str) :
    ((parseString an s file).bind fun r => .ok (onTree (codeProgram unix) r))
      = ((parseString an t file).bind fun r => .ok (onTree (codeProgram unix) r)) := by
  rcases Lines.parse_lines h with ⟨h1, -⟩ | ⟨ts, us, p, q, h1, h2, h3, h4, h5, h6, h7, h8, -⟩
  · exact absurd hp h1
  · have e1 := Lines.program_code an (fileNameOf file) p h5
    have e2 := Lines.program_code an (fileNameOf file) q h6
    rw [h7, h8, e2] at e1
    have g1 : scan an file s = program an (fileNameOf file) p := by simp only [scan, h1, h3]
    have g2 : scan an file t = program an (fileNameOf file) q := by simp only [scan, h2, h4]
    unfold parseString
    rw [g1, g2]
    revert e1
    have wf := Lines.wellFormed_code (F := F) unix
    cases hx : program an (fileNameOf file) p <;> cases hy : program an (fileNameOf file) q <;>
      simp only [Lines.onRes, Res.bind_ok, Res.bind_err, Res.bind_exn, Res.bind_ub, Res.ok.injEq, reduceCtorEq, false_imp_iff, Res.err.injEq, Res.exn.injEq]
    · rename_i x y
      intro e
      have : wellFormed x = wellFormed y := by rw [← wf x, ← wf y, e]
      rw [this]
      split
      · simp only [Res.bind_ok, onTree, Option.map_some, e]
      · rfl
    · intro e; rw [e]
    · intro e; rw [e]
    · exact fun _ => trivial

/-- C94. And they change nothing in the result and in the errors of an analysis but line ends within assembly declarations. This holds
for any analyser. -/
theorem C94_analysis (an : Antlr F) {s t : Str} (h : unix s = unix t) (hp : Parses s) (file : Option Str) (a : Analyzer F)
    (ha : a.scopes ≠ []) :
    ((analyzeString fo an a s file).bind fun x => .ok (onTree (codeSProgram unix) x.2))
      = ((analyzeString fo an a t file).bind fun x => .ok (onTree (codeSProgram unix) x.2)) := by
  have key : ∀ p q : ProgramAst F, codeProgram unix p = codeProgram unix q →
      ((analyze fo a p).bind fun x => .ok (onTree (codeSProgram unix) x.2)) = (analyze fo a q).bind fun x => .ok (onTree (codeSProgram unix) x.2) := by
    intro p q e
    obtain ⟨v, scs, u⟩ := a
    cases scs with
    | nil => exact absurd rfl ha
    | cons sc rest =>
      have h1 := Lines.analyze_code (fo := fo) unix v sc rest u p
      have h2 := Lines.analyze_code (fo := fo) unix v sc rest u q
      rw [e, h2] at h1
      have h3 := congrArg (fun x => x.bind fun y => Res.ok (ε := Empty) y.2) h1
      revert h3
      cases analyze fo ⟨v, sc :: rest, u⟩ p <;> cases analyze fo ⟨v, sc :: rest, u⟩ q <;> intro h3 <;> first | exact h3.symm | cases h3; rfl
  have e := C94_parse an h hp file
  unfold analyzeString
  rcases C48_outcome an s file with ⟨p, hs⟩ | ⟨x, hs⟩ <;> rcases C48_outcome an t file with ⟨q, ht⟩ | ⟨y, ht⟩ <;>
    rw [hs, ht] at e <;> rw [hs, ht] <;>
    simp only [Res.bind_ok, onTree, Option.map_some, Option.map_none, Res.ok.injEq, Result.mk.injEq, reduceCtorEq, false_and,
      Option.some.injEq, List.cons.injEq, and_true, true_and] at e
  · have := key p q e
    simp only [Res.bind_ok, analyzeParse, List.isEmpty_nil, Bool.not_true, Bool.false_eq_true, if_false]
    revert this
    cases analyze fo a p <;> cases analyze fo a q <;> simp [Res.mapErr]
    rename_i x _
    exact x.elim
  · rw [e]

/-- C94. If no raw string goes over the end of a line they change nothing at all. -/
theorem C94_same (an : Antlr F) {s t : Str} (h : unix s = unix t) (hp : Parses s) (hl : NoLongString s) (file : Option Str) (a : Analyzer F) :
    parseString an s file = parseString an t file ∧ analyzeString fo an a s file = analyzeString fo an a t file := by
  have : parseString an s file = parseString an t file := by
    rcases Lines.parse_lines h with ⟨h1, -⟩ | ⟨ts, us, p, q, h1, h2, h3, h4, -, -, -, -, h9⟩
    · exact absurd hp h1
    · have := h9 hl
      subst this
      simp only [parseString, scan, h1, h2, h3, h4]
  exact ⟨this, by simp only [analyzeString, this]⟩

/-! ## A text with mixed line ends -/

namespace Sample

/-- A text with both kinds of line ends, one of them in a comment. The last statement has an error. -/
def mixedLines : Str := c!"version 3.0\r\nqubit q // a\r\n/* b\r\n*/ X q\nY r"

/-- The same with one kind. -/
def unixLines : Str := c!"version 3.0\nqubit q // a\n/* b\n*/ X q\nY r"

/-- An assembly declaration over two lines. -/
def longString (e : Str) : Str := c!"version 3.0" ++ e ++ c!"asm(b) '''x" ++ e ++ c!"y'''"

/-- The assembly code of the statements of a result, and the errors. -/
def asmCodes (text : Str) : Option (List Str × List Err) :=
  match Analyzer.default Sample.fo [3, 0] with
  | .ok a =>
    match Syn.analyzeString Sample.fo Sample.antlr a text none with
    | .ok (_, r) => some (((r.root.map (·.block.statements)).getD []).filterMap fun | .asm _ c _ _ => some c | _ => none, r.errors)
    | _ => none
  | _ => none

theorem mixed_parses : Parses mixedLines := by
  have h : (match Lexer.lex mixedLines with | .ok ts => Parser.parse ts | .error _ => none).isSome = true := by decide +kernel
  cases hl : Lexer.lex mixedLines with
  | error e => rw [hl] at h; simp at h
  | ok ts =>
    rw [hl] at h
    obtain ⟨pr, hpr⟩ := Option.isSome_iff_exists.1 h
    exact ⟨ts, pr, hl, hpr⟩

theorem mixed_short : NoLongString mixedLines := by
  intro ts h t ht hk
  have : (match Lexer.lex mixedLines with | .ok ts => ts.any fun t => t.kind = .rawTextString | .error _ => false) = false := by decide +kernel
  rw [h] at this
  have := List.any_eq_false.1 this t ht
  exact absurd (by simp [hk]) this

end Sample

/-- Nothing changes, and the error is in the same place. -/
example : unix Sample.mixedLines = unix Sample.unixLines ∧ Sample.mixedLines ≠ Sample.unixLines ∧
    Sample.asmCodes Sample.mixedLines = some ([], [⟨c!"failed to resolve variable 'r'", some ⟨none, ⟨⟨5, 3⟩, ⟨5, 4⟩⟩⟩⟩]) ∧
    Sample.asmCodes Sample.unixLines = Sample.asmCodes Sample.mixedLines := by decide +kernel

/-- Line ends within assembly declarations are kept: that there are none is needed for the results to be the same. -/
example : unix (Sample.longString c!"\r\n") = unix (Sample.longString c!"\n") ∧
    Sample.asmCodes (Sample.longString c!"\r\n") = some ([c!"x\r\ny"], []) ∧
    Sample.asmCodes (Sample.longString c!"\n") = some ([c!"x\ny"], []) := by decide +kernel

/-- A lone carriage return is no line end. -/
example : unix c!"\r\r\n" = c!"\r\n" ∧ unix c!"\r\n" = c!"\n" ∧ unix c!"\ra" = c!"\ra" := by decide +kernel

end Qasm
