import Verif.Lemmas.ViableText
import Verif.Props.Written
/-!
# C108: a syntax error is reported where the text goes wrong
-/

namespace Qasm

open Spec TokKind Syn

variable {F : Type}

theorem syntaxErrorAt_listener (file : Option Str) (d : Diagnosis) :
    SyntaxErrorAt file d.line d.column ((d.offending.map fun w => (utf8 w).length).getD 0) (listenerError (fileNameOf file) d) := by
  refine ⟨_, rfl, fileName_same file, rfl, ?_⟩
  cases hd : d.offending <;> simp [listenerError, Loc.mk', Range.mk', hd, Index.max, Index.lt]; intro h; omega

theorem not_inLanguage {text : Str} (h : ¬ InLanguage text) (an : Antlr F) (file : Option Str) :
    parseString an text file = .ok ⟨none, [listenerError (fileNameOf file) (an.diagnosis text)]⟩ := by
  rcases parseString_cases an text file with ⟨h', -⟩ | ⟨ts, pr, hl, hp, -⟩
  · exact h'
  · exact absurd ⟨ts, pr, hl, program_derives hp⟩ h

theorem syntaxErrorAt_token {an : Antlr F} {text : Str} {t : Token} (h : offending (an.ahead text) text = .ok t) (file : Option Str) :
    SyntaxErrorAt file t.line t.column (tokenSize t) (listenerError (fileNameOf file) (an.diagnosis text)) := by
  have := syntaxErrorAt_listener file (an.diagnosis text)
  simp only [Antlr.diagnosis, h] at this ⊢
  unfold tokenSize
  split <;> simpa [*] using this

theorem syntaxErrorAt_place {an : Antlr F} {text : Str} {p : Nat × Nat} (h : offending (an.ahead text) text = .error p) (file : Option Str) :
    SyntaxErrorAt file p.1 p.2 0 (listenerError (fileNameOf file) (an.diagnosis text)) := by
  have := syntaxErrorAt_listener file (an.diagnosis text)
  simp only [Antlr.diagnosis, h] at this ⊢
  exact this

/-! ## In terms of tokens -/

/-- C108. A text that is cut into tokens and is not in the language: the one error is at the first token that cannot continue
what comes before it. There is exactly one such token. -/
theorem C108_token (an : Antlr F) {text : Str} {ts : List Token} (hl : Lexer.lex text = .ok ts)
    (h : ∀ pr, ¬ Program DerivesStmt ts pr) (file : Option Str) :
    ∃ t e, FirstBad ts t ∧ (∀ t', FirstBad ts t' → t' = t) ∧ parseString an text file = .ok ⟨none, [e]⟩ ∧
      SyntaxErrorAt file t.line t.column (tokenSize t) e := by
  obtain ⟨segs, m', rest, hc, hr⟩ := Lexer.cut_exists .default text
  rcases hr with rfl | ⟨hne, hst⟩
  · rw [Lexer.lex_of_cut hc] at hl
    cases hl
    obtain ⟨pre, t, post, h1, h2, ⟨f, pr, -, h3⟩, h4⟩ := offending_token (ahead := an.ahead text) hc h
    have hb : FirstBad (tokensOf [] segs ++ [Lexer.eofAfter text]) t := ⟨pre, post, h1, ⟨f, pr, h3⟩, h4⟩
    refine ⟨t, _, hb, fun t' h' => Parser.firstBad_unique h' hb, not_inLanguage ?_ an file, syntaxErrorAt_token h2 file⟩
    rintro ⟨ts, pr, hl, hp⟩
    rw [Lexer.lex_of_cut hc] at hl
    cases hl
    exact h pr hp
  · rw [Lexer.lex_of_stuck hc hne hst] at hl
    cases hl

/-- C108. A text with a place where no token is recognised: if the tokens before the place start a program, the one error is at
the place. Otherwise it is there or at the first token that cannot continue. -/
theorem C108_recognition (an : Antlr F) {text rest : Str} {segs : List (TokKind × Str)} {m : Lexer.Mode}
    (hc : Cut .default text segs m rest) (hne : rest ≠ []) (hst : Stuck m rest) (file : Option Str) :
    ∃ e, parseString an text file = .ok ⟨none, [e]⟩ ∧
      ((SyntaxErrorAt file (lineAfter (covered segs)) (columnAfter (covered segs)) 0 e) ∨
        ∃ t, FirstBad (tokensOf [] segs) t ∧ SyntaxErrorAt file t.line t.column (tokenSize t) e) ∧
      (Starts (tokensOf [] segs) → SyntaxErrorAt file (lineAfter (covered segs)) (columnAfter (covered segs)) 0 e) := by
  refine ⟨_, not_inLanguage ?_ an file, ?_⟩
  · rintro ⟨ts, pr, hl, -⟩
    rw [Lexer.lex_of_stuck hc hne hst] at hl
    cases hl
  · rcases offending_recognition (ahead := an.ahead text) hc hne hst with ⟨h1, -⟩ | ⟨pre, t, post, h1, h2, ⟨f, pr, -, h3⟩, h4⟩
    · have := syntaxErrorAt_place h1 file
      exact ⟨.inl this, fun _ => this⟩
    · refine ⟨?_, fun hs => ?_⟩
      · cases ha : an.ahead text with
        | true =>
          rw [if_pos ha] at h2
          exact .inl (syntaxErrorAt_place h2 file)
        | false =>
          rw [if_neg (by simp [ha])] at h2
          exact .inr ⟨t, ⟨pre, post, h1, ⟨f, pr, h3⟩, h4⟩, syntaxErrorAt_token h2 file⟩
      · rw [h1] at hs
        exact absurd (Parser.starts_prefix (us := pre ++ [t]) (vs := post) (by simpa using hs)) h4

/-! ## In terms of texts -/

/-- C108. A text that is cut into tokens and is not in the language goes wrong where the one error is reported. -/
theorem C108_text (an : Antlr F) {text : Str} {ts : List Token} (hl : Lexer.lex text = .ok ts) (h : ¬ InLanguage text)
    (file : Option Str) :
    ∃ e u b w v, parseString an text file = .ok ⟨none, [e]⟩ ∧ GoesWrong text u b w v ∧
      SyntaxErrorAt file (lineAfter (u ++ b)) (columnAfter (u ++ b)) (utf8 w).length e := by
  obtain ⟨segs, m', rest, hc, hr⟩ := Lexer.cut_exists .default text
  rcases hr with rfl | ⟨hne, hst⟩
  · rw [Lexer.lex_of_cut hc] at hl
    cases hl
    obtain ⟨pre, t, post, h1, h2, ⟨f, pr, hf, h3⟩, h4⟩ := offending_token (ahead := an.ahead text) hc
      (fun pr hp => h ⟨_, pr, Lexer.lex_of_cut hc, hp⟩)
    have he := syntaxErrorAt_token h2 file
    rcases List.eq_nil_or_concat post with rfl | ⟨post, x, rfl⟩
    · obtain ⟨hpre, ht⟩ := List.append_inj' h1 rfl
      obtain rfl := (List.cons.inj ht).1
      rw [← hpre] at h3
      obtain ⟨u, b, hg⟩ := wrong_end hc hf h3
      refine ⟨_, u, b, [], [], not_inLanguage h an file, hg, ?_⟩
      have hub : text = u ++ b := by simpa using hg.1
      rw [hub] at he
      simpa [tokenSize, Lexer.eofAfter, utf8, hub] using he
    · have h1' : tokensOf [] segs = pre ++ t :: post := by
        have : tokensOf [] segs ++ [Lexer.eofAfter text] = (pre ++ t :: post) ++ [x] := by simpa using h1
        exact (List.append_inj' this rfl).1
      obtain ⟨u, b, w, v, hg, hw, ht, hline, hcol, -⟩ := wrong_token hc h1' hf h3 h4
      refine ⟨_, u, b, w, v, not_inLanguage h an file, hg, ?_⟩
      have hk : t.kind ≠ eof := (token_not_eof (segs := segs) hc t (by rw [h1']; simp))
      rw [hline, hcol, tokenSize, if_neg hk, ht] at he
      exact he
  · rw [Lexer.lex_of_stuck hc hne hst] at hl
    cases hl

/-- C108. A text with a place where no token is recognised goes wrong there or, if the tokens before it do not start a program, at a
token before it. The one error is at the place where the text goes wrong or where no token is recognised. -/
theorem C108_text_recognition (an : Antlr F) {text rest : Str} {segs : List (TokKind × Str)} {m : Lexer.Mode}
    (hc : Cut .default text segs m rest) (hne : rest ≠ []) (hst : Stuck m rest) (file : Option Str) :
    ∃ e u b w v, parseString an text file = .ok ⟨none, [e]⟩ ∧ GoesWrong text u b w v ∧
      ((u ++ b = covered segs ∧ w = rest.take 1 ∧ SyntaxErrorAt file (lineAfter (u ++ b)) (columnAfter (u ++ b)) 0 e) ∨
        (∃ x, covered segs = u ++ b ++ w ++ x) ∧
          (SyntaxErrorAt file (lineAfter (u ++ b)) (columnAfter (u ++ b)) (utf8 w).length e ∨
            SyntaxErrorAt file (lineAfter (covered segs)) (columnAfter (covered segs)) 0 e)) := by
  have hno : ¬ InLanguage text := by
    rintro ⟨ts, pr, hl, -⟩
    rw [Lexer.lex_of_stuck hc hne hst] at hl
    cases hl
  obtain ⟨c, r, rfl⟩ := List.exists_cons_of_ne_nil hne
  rcases offending_recognition (ahead := an.ahead text) hc hne hst with ⟨h1, f, pr, hf, h2⟩ | ⟨pre, t, post, h1, h2, ⟨f, pr, hf, h3⟩, h4⟩
  · obtain ⟨u, b, hg, hub⟩ := wrong_stuck hc hst hf h2
    refine ⟨_, u, b, [c], r, not_inLanguage hno an file, hg, .inl ⟨hub, rfl, ?_⟩⟩
    rw [hub]
    exact syntaxErrorAt_place h1 file
  · obtain ⟨u, b, w, v, hg, hw, ht, hline, hcol, x, hx⟩ := wrong_token hc h1 hf h3 h4
    refine ⟨_, u, b, w, v, not_inLanguage hno an file, hg, .inr ⟨⟨x, hx⟩, ?_⟩⟩
    have hk : t.kind ≠ eof := (token_not_eof (segs := segs) hc t (by rw [h1]; simp))
    cases ha : an.ahead text with
    | true =>
      rw [if_pos ha] at h2
      exact .inr (syntaxErrorAt_place h2 file)
    | false =>
      rw [if_neg (by simp [ha])] at h2
      have he := syntaxErrorAt_token h2 file
      rw [hline, hcol, tokenSize, if_neg hk, ht] at he
      exact .inl he

/-! ## Examples -/

/-- The wrongAt of the errors of a text. -/
def Sample.wrongAt (an : Antlr Int) (text : Str) : List ((Nat × Nat) × (Nat × Nat)) :=
  match parseString an text none with
  | .ok r => r.errors.filterMap fun e => e.location.map fun l =>
      ((l.range.first.line, l.range.first.column), (l.range.last.line, l.range.last.column))
  | _ => []

/-- The line feed after an index that is not closed. -/
example : Sample.wrongAt Sample.antlr c!"version 3.0\nqubit[2] q\nH q[0 // first\nX q[1]" = [((3, 15), (3, 16))] := by decide +kernel

/-- A word where a separator is missing; a text that ends too early, which has no size; a character that starts no token. -/
example : Sample.wrongAt Sample.antlr c!"version 3;qubit q H q" = [((1, 19), (1, 20))] ∧
    Sample.wrongAt Sample.antlr c!"version 3;qubit " = [((1, 17), (1, 17))] ∧
    Sample.wrongAt Sample.antlr c!"version 3;qubit q;H @q" = [((1, 21), (1, 21))] ∧
    Sample.wrongAt Sample.antlr c!"version 3;qubit q;barrier \n" = [((1, 27), (1, 28))] := by decide +kernel

/-- A character that starts no token, after a token that cannot continue: it depends on how far ANTLR looks ahead. -/
example : Sample.wrongAt Sample.antlr c!"version 3;qubit q H @" = [((1, 19), (1, 20))] ∧
    Sample.wrongAt { Sample.antlr with ahead := fun _ => true } c!"version 3;qubit q H @" = [((1, 21), (1, 21))] := by decide +kernel

/-- The hypotheses of `C108_text` can be met: this text goes wrong at the line feed, which is reported. -/
example : ∃ e u b w v, parseString Sample.antlr c!"version 3;H q[0 // first\n]" none = .ok ⟨none, [e]⟩ ∧
    GoesWrong c!"version 3;H q[0 // first\n]" u b w v ∧ lineAfter (u ++ b) = 1 ∧ columnAfter (u ++ b) = 24 := by
  have hl : ∃ ts, Lexer.lex c!"version 3;H q[0 // first\n]" = .ok ts := by
    have : (match Lexer.lex c!"version 3;H q[0 // first\n]" with | .ok _ => true | .error _ => false) = true := by decide +kernel
    cases h : Lexer.lex c!"version 3;H q[0 // first\n]" with
    | ok ts => exact ⟨ts, rfl⟩
    | error p => rw [h] at this; cases this
  have hn : ¬ InLanguage c!"version 3;H q[0 // first\n]" := by
    rintro ⟨ts, pr, h, hp⟩
    obtain ⟨pr', h'⟩ := (C45_accepts _).2 ⟨pr, hp⟩
    have : (match Lexer.lex c!"version 3;H q[0 // first\n]" with | .ok ts => (Parser.parse ts).isSome | .error _ => true) = false := by
      decide +kernel
    simp [h, h'] at this
  obtain ⟨ts, hl⟩ := hl
  obtain ⟨e, u, b, w, v, h1, h2, loc, h3, -, h4, -⟩ := C108_text Sample.antlr hl hn none
  have hp : Sample.wrongAt Sample.antlr c!"version 3;H q[0 // first\n]" = [((1, 25), (1, 26))] := by decide +kernel
  simp only [Sample.wrongAt, h1, List.filterMap_cons, h3, Option.map_some, List.filterMap_nil, h4, List.cons.injEq, and_true,
    Prod.mk.injEq] at hp
  exact ⟨e, u, b, w, v, h1, h2, by omega, by omega⟩

end Qasm
