import Verif.Lemmas.Trivia
/-!
# Properties C39 to C42: the lexer

The description of tokens these theorems refer to is in `Spec/Lexer`.
-/

namespace Qasm

open Spec Lexer

/-! ## C39: the lexer is lossless and takes the longest match -/

/-- The tokens are those of the one way to cut the text into winning segments: the segments cover the text
in order, each is the longest candidate at its place (the first type on ties, the shortest text for block
comments and raw strings), and every segment that is not a blank or comment is delivered, followed by the
end of file. -/
theorem C39_tokens (s : Str) (ts : List Token) :
    lex s = .ok ts ↔ ∃ segs m, Cut .default s segs m [] ∧ covered segs = s
      ∧ ts = tokensOf [] segs ++ [⟨.eof, c!"<EOF>", lineAfter s, columnAfter s⟩] := by
  constructor
  · intro h
    obtain ⟨segs, m, rest, hc, hr⟩ := cut_exists .default s
    rcases hr with rfl | ⟨hne, hst⟩
    · refine ⟨segs, m, hc, by simpa using (cut_covered hc).symm, ?_⟩
      rw [lex_of_cut hc] at h
      cases h; rfl
    · rw [lex_of_stuck hc hne hst] at h; cases h
  · rintro ⟨segs, m, hc, _, rfl⟩
    exact lex_of_cut hc

/-- Lexing fails exactly when the cutting reaches a place where no token type of the mode has a text; the
error is at that place. -/
theorem C39_fails (s : Str) (p : Nat × Nat) :
    lex s = .error p ↔ ∃ segs m rest, Cut .default s segs m rest ∧ rest ≠ [] ∧ Stuck m rest
      ∧ s = covered segs ++ rest ∧ p = (lineAfter (covered segs), columnAfter (covered segs)) := by
  constructor
  · intro h
    obtain ⟨segs, m, rest, hc, hr⟩ := cut_exists .default s
    rcases hr with rfl | ⟨hne, hst⟩
    · rw [lex_of_cut hc] at h; cases h
    · rw [lex_of_stuck hc hne hst] at h
      cases h
      exact ⟨segs, m, rest, hc, hne, hst, cut_covered hc, rfl⟩
  · rintro ⟨segs, m, rest, hc, hne, hst, _, rfl⟩
    exact lex_of_stuck hc hne hst

/-- There is only one way to cut a text. -/
theorem C39_unique {m m₁ m₂ : Mode} {s : Str} {segs₁ segs₂ : List (TokKind × Str)}
    (h₁ : Cut m s segs₁ m₁ []) (h₂ : Cut m s segs₂ m₂ []) : segs₁ = segs₂ := (cut_unique h₁ h₂).1

/-- The winner at a place is unique, and there is one unless no token type has a text there. -/
theorem C39_winner (m : Mode) (s : Str) :
    (Stuck m s ∧ ¬ ∃ k w, Winner m s k w) ∨ ∃ k w, Winner m s k w ∧ ∀ k' w', Winner m s k' w' → k' = k ∧ w' = w := by
  cases hb : best (rules m) s with
  | none =>
    have hst := best_stuck.1 hb
    exact .inl ⟨hst, fun ⟨k, w, hw⟩ => hst k (winner_mem hw) w (winner_text hw) (winner_prefix hw)⟩
  | some p =>
    have hw := (best_winner hb).2.2.2
    exact .inr ⟨_, _, hw, fun k' w' hw' => winner_unique hw' hw⟩

/-- `<<=` is `<<` and `=`; `a` and `1` of `a1` are not split; `1.` and `.5e3` are floats; the shortest
comment is taken, and an unclosed one is two operators. -/
example : seen c!"<<= a1 1. .5e3 /* x */ y */ 3.e" = some
    [(.shl, c!"<<"), (.equals, c!"="), (.identifier, c!"a1"), (.floatLiteral, c!"1."),
     (.floatLiteral, c!".5e3"), (.identifier, c!"y"), (.product, c!"*"), (.division, c!"/"),
     (.floatLiteral, c!"3."), (.identifier, c!"e"), (.eof, c!"<EOF>")] := by decide +kernel

/-- A stray character is an error at its position. -/
example : lex c!"version 3\n  @" = .error (2, 2) := by rfl
/-- A carriage return alone is no separator, and the version mode knows no newlines. -/
example : lex c!"x\ry" = .error (1, 1) ∧ lex c!"version\n3" = .error (1, 7) := ⟨by rfl, by rfl⟩

/-! ## C40: keywords and identifiers are whole words -/

/-- A word that is not followed by a letter or digit is cut off as a whole, as the keyword it equals, as a
boolean if it is `true` or `false`, and otherwise as an identifier. -/
theorem C40_words {w s : Str} (hw : Word w) (hs : ∀ c, s.head? = some c → ¬ Letter c ∧ ¬ Digit c)
    (k : TokKind) (v : Str) : Winner .default (w ++ s) k v ↔ k = wordKind w ∧ v = w :=
  ⟨fun h => winner_unique h (word_winner hw hs), by rintro ⟨rfl, rfl⟩; exact word_winner hw hs⟩

/-- What `wordKind` says: the twelve keywords, the two booleans and identifiers; comparison is by equality
of the texts, hence case-sensitive. -/
theorem C40_kinds (w : Str) :
    ((w, wordKind w) ∈ keywords) ∨ ((∀ k, (w, k) ∉ keywords) ∧ (w = c!"true" ∨ w = c!"false")
      ∧ wordKind w = .booleanLiteral)
    ∨ ((∀ k, (w, k) ∉ keywords) ∧ w ≠ c!"true" ∧ w ≠ c!"false" ∧ wordKind w = .identifier) := by
  by_cases h : ∃ k, (w, k) ∈ keywords
  · obtain ⟨k, hk⟩ := h
    exact .inl (by rw [wordKind_mem hk]; exact hk)
  · have h' : ∀ k, (w, k) ∉ keywords := fun k hk => h ⟨k, hk⟩
    by_cases hb : w = c!"true" ∨ w = c!"false"
    · exact .inr (.inl ⟨h', hb, by rw [wordKind_not_mem h', if_pos hb]⟩)
    · exact .inr (.inr ⟨h', fun e => hb (.inl e), fun e => hb (.inr e),
        by rw [wordKind_not_mem h', if_neg hb]⟩)

theorem takeWhile_all {p : Char → Bool} {l : Str} (h : ∀ c ∈ l, p c = true) : l.takeWhile p = l := by
  induction l with
  | nil => rfl
  | cons c l ih =>
    rw [List.takeWhile_cons, if_pos (h c (by simp)), ih fun d hd => h d (by simp [hd])]

/-- A word on its own is one token with exactly its text. -/
theorem C40_alone {w : Str} (hw : Word w) :
    lex w = .ok [⟨wordKind w, w, 1, 0⟩, ⟨.eof, c!"<EOF>", 1, w.length⟩] := by
  have hwin := word_winner (s := []) hw (by simp)
  rw [List.append_nil] at hwin
  have hcut : Cut .default (w ++ []) [(wordKind w, w)] (modeAfter .default (wordKind w)) [] :=
    cut_one (by rw [List.append_nil]; exact hwin)
  rw [List.append_nil] at hcut
  have hnl : ∀ c ∈ w, c ≠ '\n' := by
    rintro c hc rfl
    rcases word_all hw _ hc with h | h
    · revert h; simp [Letter]
    · revert h; simp [Digit]
  have hsk : Skipped (wordKind w) = false := by
    rcases C40_kinds w with h | ⟨_, _, h⟩ | ⟨_, _, _, h⟩
    · have : ∀ p ∈ keywords, Skipped p.2 = false := by decide
      exact this _ h
    · rw [h]; rfl
    · rw [h]; rfl
  have hl : lineAfter w = 1 := by
    rw [lineAfter, List.count_eq_zero.2 (fun h => hnl _ h rfl)]
  have hcol : columnAfter w = w.length := by
    rw [columnAfter, lastLine, List.length_reverse]
    rw [takeWhile_all fun c hc => by simpa using hnl c (List.mem_reverse.1 hc), List.length_reverse]
  rw [lex_of_cut hcut]
  have h0 : lineAfter [] = 1 ∧ columnAfter [] = 0 := ⟨rfl, rfl⟩
  simp [tokensOf, hsk, eofAfter, hl, hcol, h0]

example : Word c!"Version_2" ∧ wordKind c!"Version_2" = .identifier ∧ wordKind c!"version" = .version
    ∧ wordKind c!"True" = .identifier ∧ wordKind c!"true" = .booleanLiteral := by
  refine ⟨⟨'V', c!"ersion_2", rfl, .inl (by decide), ?_⟩, by decide, by decide, by decide, by decide⟩
  have : ∀ d ∈ c!"ersion_2", isLetter d = true ∨ isDigit d = true := by decide
  intro d hd
  exact (this d hd).imp (isLetter_iff d).1 (isDigit_iff d).1

/-! ## C41: white space and comments between tokens do not matter -/

/-- Blanks, tabs and comments put after a blank between two tokens, or taken away from there, do not change
what the parser sees, as long as the text before has no unclosed `/*` or `'''`. -/
theorem C41_trivia {a b t : Str} {segs : List (TokKind × Str)}
    (hcut : Cut .default (a ++ ' ' :: b) segs .default (' ' :: b)) (hclosed : Closed segs) (ht : Trivia t b) :
    seen (a ++ ' ' :: (t ++ b)) = seen (a ++ ' ' :: b) := by
  have ha : a = covered segs := by
    have := cut_covered hcut
    exact List.append_cancel_right this
  obtain ⟨sb, m', rest, hb, hf⟩ := cut_exists .default b
  obtain ⟨sb', hb', hv'⟩ := cut_trivia ht hb hf
  obtain ⟨s1, h1, hv1⟩ := cut_blank (.inl rfl) hb hf
  obtain ⟨s2, h2, hv2⟩ := cut_blank (.inl rfl) hb' hf
  have hs := cut_stable hcut hclosed rfl (t ++ b)
  rw [← ha] at hs
  rw [seen_of_cut (cut_append hcut h1) hf, seen_of_cut (cut_append hs h2) hf]
  rw [visible_append, visible_append, hv1, hv2, hv']

/-- The same at the start of the text, where no blank is needed. -/
theorem C41_start {b t : Str} (ht : Trivia t b) : seen (t ++ b) = seen b := by
  obtain ⟨sb, m', rest, hb, hf⟩ := cut_exists .default b
  obtain ⟨sb', hb', hv'⟩ := cut_trivia ht hb hf
  rw [seen_of_cut hb' hf, seen_of_cut hb hf, hv']

/-- Without the condition on the text before, the claim is false: in `/*x y` the `/*` is two operators, and
a comment added after the blank closes it. -/
theorem C41_unclosed_refuted : ¬ ∀ (a b t : Str) (segs : List (TokKind × Str)),
    Cut .default (a ++ ' ' :: b) segs .default (' ' :: b) → Trivia t b →
    seen (a ++ ' ' :: (t ++ b)) = seen (a ++ ' ' :: b) := by
  intro h
  have w (m : Mode) (u s : Str) (r : Rule) (hb : best (rules m) (u ++ s) = some (r, u.length)) :
      Winner m (u ++ s) r.kind u := by
    have := (best_winner hb).2.2.2
    simpa using this
  have hcut : Cut .default (c!"/*x" ++ ' ' :: c!"y") [(.division, c!"/"), (.product, c!"*"), (.identifier, c!"x")]
      .default (' ' :: c!"y") :=
    .cons (w := c!"/") (w .default c!"/" c!"*x y" _ rfl) (.cons (w := c!"*") (w .default c!"*" c!"x y" _ rfl)
      (.cons (w := c!"x") (w .default c!"x" c!" y" _ rfl) (.nil _ _)))
  have ht : Trivia c!"/**/" c!"y" := by
    refine Trivia.block (u := []) ?_ (.nil _)
    intro hi
    have := hi.length_le
    simp at this
  have := h _ _ _ _ hcut ht
  revert this
  decide +kernel

/-- The hypotheses are met: a comment and a tab between two tokens. -/
example : seen (c!"H" ++ ' ' :: (c!"/* a * b / c */\t" ++ c!"q")) = seen (c!"H" ++ ' ' :: c!"q") := by
  refine C41_trivia (segs := [(.identifier, c!"H")]) ?_ (by simp [Closed]) ?_
  · exact .cons (w := c!"H") (word_winner (w := c!"H") (s := c!" q")
      ⟨'H', [], rfl, .inl (by decide), by simp⟩ (by simp [Letter, Digit])) (.nil _ _)
  · refine Trivia.block (u := c!" a * b / c ") ?_ (.blank (.inr rfl) (.nil _))
    decide

/-! ## C42: token positions are the positions in the text -/

theorem tokensOf_pos {before : Str} {segs : List (TokKind × Str)} {t : Token} (h : t ∈ tokensOf before segs) :
    ∃ x after, before ++ covered segs = before ++ x ++ t.text ++ after ∧ t.line = lineAfter (before ++ x)
      ∧ t.column = columnAfter (before ++ x) := by
  induction segs generalizing before with
  | nil => cases h
  | cons p segs ih =>
    obtain ⟨k, w⟩ := p
    have step : t ∈ tokensOf (before ++ w) segs → ∃ x after,
        before ++ covered ((k, w) :: segs) = before ++ x ++ t.text ++ after ∧ t.line = lineAfter (before ++ x)
          ∧ t.column = columnAfter (before ++ x) := by
      intro h
      obtain ⟨x, after, he, hl, hc⟩ := ih h
      refine ⟨w ++ x, after, ?_, by rw [hl]; simp, by rw [hc]; simp⟩
      have : before ++ covered ((k, w) :: segs) = before ++ w ++ covered segs := by simp [covered]
      rw [this, he]; simp
    rw [tokensOf] at h
    split at h
    · exact step h
    · rcases List.mem_cons.1 h with rfl | h
      · exact ⟨[], covered segs, by simp [covered], by simp, by simp⟩
      · exact step h

/-- The recorded line is one more than the number of newlines before the token, and the recorded
(zero-based) column is the number of characters between the last of them and the token. -/
theorem C42_positions {s : Str} {ts : List Token} (h : lex s = .ok ts) :
    ∀ t ∈ ts, ∃ before after, s = before ++ (if t.kind = .eof then [] else t.text) ++ after
      ∧ t.line = before.count '\n' + 1
      ∧ ∃ start, before = start ++ before.drop start.length ∧ (start = [] ∨ start.getLast? = some '\n')
        ∧ '\n' ∉ before.drop start.length ∧ t.column = (before.drop start.length).length := by
  have col : ∀ b : Str, ∃ start, b = start ++ b.drop start.length ∧ (start = [] ∨ start.getLast? = some '\n')
      ∧ '\n' ∉ b.drop start.length ∧ columnAfter b = (b.drop start.length).length := by
    intro b
    refine ⟨(b.reverse.dropWhile (· ≠ '\n')).reverse, ?_⟩
    have hb : b = (b.reverse.dropWhile (· ≠ '\n')).reverse ++ lastLine b := by
      rw [lastLine, ← List.reverse_append, List.takeWhile_append_dropWhile, List.reverse_reverse]
    have hd : b.drop (b.reverse.dropWhile (· ≠ '\n')).reverse.length = lastLine b := by
      conv => lhs; arg 2; rw [hb]
      rw [List.drop_left]
    rw [hd]
    refine ⟨hb, ?_, ?_, rfl⟩
    · by_cases hn : b.reverse.dropWhile (· ≠ '\n') = []
      · left; rw [hn]; rfl
      · right
        rw [List.getLast?_reverse]
        have := List.head?_dropWhile_not (fun x => decide (x ≠ '\n')) b.reverse
        cases hh : (b.reverse.dropWhile (· ≠ '\n')).head? with
        | none => exact absurd (List.head?_eq_none_iff.1 hh) hn
        | some c =>
          rw [hh] at this
          simp at this
          rw [this]
    · intro hm
      rw [lastLine, List.mem_reverse] at hm
      have := List.all_takeWhile (l := b.reverse) (p := fun x => decide (x ≠ '\n'))
      rw [List.all_eq_true] at this
      simpa using this _ hm
  obtain ⟨segs, m, hc, hcov, rfl⟩ := (C39_tokens s ts).1 h
  intro t ht
  rcases List.mem_append.1 ht with ht | ht
  · obtain ⟨x, after, he, hl, hcol⟩ := tokensOf_pos ht
    simp only [List.nil_append] at he hl hcol
    refine ⟨x, (if t.kind = .eof then t.text else []) ++ after, ?_, hl, ?_⟩
    · rw [← hcov, he]; split <;> simp
    · rw [hcol]; exact col x
  · rw [List.mem_singleton] at ht
    subst ht
    exact ⟨s, [], by simp, rfl, col s⟩

/-- The second line starts after the newline of the comment. -/
example : lex c!"x /*\n*/ y" = .ok [⟨.identifier, c!"x", 1, 0⟩, ⟨.identifier, c!"y", 2, 3⟩, ⟨.eof, c!"<EOF>", 2, 4⟩] := by
  rfl

end Qasm
