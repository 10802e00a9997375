import Verif.Lemmas.Place
import Verif.Lemmas.AppendText
import Verif.Lemmas.RenameParser
/-!
# Helper lemmas: tokens and syntax trees elsewhere
-/

namespace Qasm
namespace Place

open Spec TokKind

/-! ## Cutting around a new line -/

section
open Lexer (Mode)

theorem winner_shorter {m : Mode} {k : TokKind} {w x r : Str} (h : Winner m (w ++ (x ++ r)) k w) : Winner m (w ++ x) k w := by
  obtain ⟨pre, post, ho, hc, hlt, hle⟩ := h
  have longer {v : Str} (hp : v <+: w ++ x) : v <+: w ++ (x ++ r) := by
    rw [← List.append_assoc]; exact hp.trans (List.prefix_append _ _)
  have cand {k' : TokKind} {v : Str} (h : Candidate k' (w ++ x) v) : Candidate k' (w ++ (x ++ r)) v := by
    refine ⟨h.1, longer h.2.1, fun he v' hv' hp' => ?_⟩
    by_cases hl : v'.length ≤ (w ++ x).length
    · exact h.2.2 he v' hv' (List.prefix_of_prefix_length_le (l₃ := w ++ (x ++ r)) hp' ⟨r, by simp⟩ hl)
    · have := h.2.1.length_le
      omega
  exact ⟨pre, post, ho, ⟨hc.1, List.prefix_append _ _, fun he v hv hp => hc.2.2 he v hv (longer hp)⟩,
    fun k' hk' v hv => hlt k' hk' v (cand hv), fun k' hk' v hv => hle k' hk' v (cand hv)⟩

theorem cut_follow {m m' : Mode} {s rest : Str} {segs : List (TokKind × Str)} (h : Cut m s segs m' rest) (hcl : Closed segs) {n b : Str}
    (hn : n = c!"\n" ∨ n = c!"\r\n") (hr : rest = n ++ b) (b' : Str) : Cut m (covered segs ++ (n ++ b')) segs m' (n ++ b') := by
  induction h with
  | nil => exact .nil _ _
  | @cons m m' k w s rest segs hw hcut ih =>
    obtain ⟨hq, hd, hcl⟩ := hcl
    have hs := Lexer.cut_covered hcut
    have e : covered ((k, w) :: segs) ++ (n ++ b') = w ++ (covered segs ++ (n ++ b')) := by simp [covered]
    rw [e]
    refine .cons ?_ (ih hcl hr)
    have hd' : k = .division → (covered segs).head? ≠ some '*' := by
      intro hk
      cases segs with
      | nil => simp [covered]
      | cons p segs =>
        have := hd hk p (by simp)
        obtain ⟨k', w'⟩ := p
        cases w' with
        | nil =>
          exfalso
          cases hcut with
          | cons hw' _ => exact Lexer.winner_ne_nil hw' rfl
        | cons d w' => simpa [covered] using this
    rw [hs, hr] at hw
    rcases hn with rfl | rfl
    · exact Lexer.winner_feed b' (winner_shorter hw) hq hd'
    · have h1 : Winner m (w ++ ((covered segs ++ ['\r']) ++ '\n' :: b)) k w := by simpa using hw
      have h2 := Lexer.winner_feed b' (winner_shorter h1) hq (by
        intro hk
        have := hd' hk
        cases hc : covered segs with
        | nil => simp
        | cons c cs => rw [hc] at this; simpa using this)
      simpa using h2

theorem newline_cut {n : Str} (hn : n = c!"\n" ∨ n = c!"\r\n") (s : Str) : Winner .default (n ++ s) .newLine n := by
  rcases hn with rfl | rfl
  · exact Lexer.newline_winner s
  · exact Lexer.crlf_winner s

theorem cut_blank {c : Char} (hc : c = ' ' ∨ c = '\t') {m' : Mode} {s rest : Str}
    {segs : List (TokKind × Str)} (h : Cut .default s segs m' rest) (hf : Lexer.Final m' rest) :
    ∃ segs', Cut .default (c :: s) segs' m' rest ∧ ∀ before, tokensOf before segs' = tokensOf (before ++ [c]) segs := by
  obtain ⟨w, s', rfl, hw, hs'⟩ := Lexer.blank_split s
  cases w with
  | nil =>
    refine ⟨(.whiteSpace, [c]) :: segs, ?_, fun _ => rfl⟩
    exact .cons (w := [c]) (Lexer.blank_winner (w := []) hc (by simp) hs') h
  | cons d w =>
    have hw1 := Lexer.blank_winner (w := w) (s := s') (hw d (by simp)) (fun e he => hw e (by simp [he])) hs'
    have hw2 := Lexer.blank_winner (s := s') hc hw hs'
    generalize ht : d :: w ++ s' = t at h
    cases h with
    | nil =>
      exfalso
      rcases hf with rfl | ⟨_, hst⟩
      · simp at ht
      · have := hst .whiteSpace (by decide) (d :: w) (Lexer.winner_text hw1)
        exact this (ht ▸ List.prefix_append _ _)
    | @cons _ _ k v t' _ segs hv hcut =>
      rw [ht] at hw1
      obtain ⟨rfl, rfl⟩ := Lexer.winner_unique hw1 hv
      have := List.append_cancel_left ht
      subst this
      refine ⟨(.whiteSpace, c :: d :: w) :: segs, .cons (w := c :: d :: w) hw2 hcut, fun before => ?_⟩
      simp [tokensOf, Skipped]

theorem cut_trivia {t b : Str} (ht : Trivia t b) {m' : Mode} {rest : Str} {segs : List (TokKind × Str)}
    (h : Cut .default b segs m' rest) (hf : Lexer.Final m' rest) :
    ∃ segs', Cut .default (t ++ b) segs' m' rest ∧ ∀ before, tokensOf before segs' = tokensOf (before ++ t) segs := by
  induction ht with
  | nil => exact ⟨segs, h, fun _ => by simp⟩
  | blank hc _ ih =>
    obtain ⟨segs', h', hv⟩ := ih h
    obtain ⟨segs'', h'', hv'⟩ := cut_blank hc h' hf
    exact ⟨segs'', h'', fun before => by rw [hv', hv]; simp⟩
  | @block u t b hu _ ih =>
    obtain ⟨segs', h', hv⟩ := ih h
    refine ⟨(.multiLineComment, '/' :: '*' :: u ++ ['*', '/']) :: segs', ?_, fun before => ?_⟩
    · rw [List.append_assoc]
      exact .cons (Lexer.block_winner hu) h'
    · simp [tokensOf, Skipped, hv]
  | @line u b hu hb =>
    exact ⟨(.singleLineComment, '/' :: '/' :: u) :: segs, .cons (Lexer.line_winner hu hb) h, fun _ => by simp [tokensOf, Skipped]⟩

/-- Blank lines are cut into new lines and what is skipped. -/
theorem cut_blanks {w b : Str} (hw : Blank w b) {m' : Mode} {rest : Str} {segs : List (TokKind × Str)}
    (h : Cut .default b segs m' rest) (hf : Lexer.Final m' rest) :
    ∃ segs', Cut .default (w ++ b) segs' m' rest ∧
      ∀ before, ∃ ns, (∀ t ∈ ns, isSep t = true) ∧ tokensOf before segs' = ns ++ tokensOf (before ++ w) segs := by
  induction hw with
  | last ht =>
    obtain ⟨segs', h', hv⟩ := cut_trivia ht h hf
    exact ⟨segs', h', fun before => ⟨[], by simp, by simp [hv]⟩⟩
  | @line t n w b hn ht _ ih =>
    obtain ⟨segs1, h1, hv1⟩ := ih h
    have h2 : Cut .default (n ++ (w ++ b)) ((newLine, n) :: segs1) m' rest := .cons (newline_cut hn _) h1
    obtain ⟨segs', h', hv⟩ := cut_trivia ht h2 hf
    refine ⟨segs', by simpa using h', fun before => ?_⟩
    obtain ⟨ns, hns, e⟩ := hv1 (before ++ t ++ n)
    refine ⟨⟨newLine, n, lineAfter (before ++ t), columnAfter (before ++ t)⟩ :: ns, ?_, ?_⟩
    · intro x hx
      rcases List.mem_cons.1 hx with rfl | hx
      · rfl
      · exact hns x hx
    · rw [hv, tokensOf, e]
      simp [Skipped]

end

/-! ## Tokens elsewhere -/

/-- The token elsewhere. -/
def token (s : Shift) (t : Token) : Token := ⟨t.kind, t.text, s.line t.line, t.column + s.right t.line⟩

theorem lineAfter_app (a p : Str) : lineAfter (a ++ p) = lineAfter a + p.count '\n' := by
  simp [lineAfter, List.count_append]; omega

theorem lastLine_app {a p : Str} (h : '\n' ∈ p) : lastLine (a ++ p) = lastLine p := by
  unfold lastLine
  rw [List.reverse_append]
  have : ∀ q r : Str, '\n' ∈ q → (q ++ r).takeWhile (· ≠ '\n') = q.takeWhile (· ≠ '\n') := by
    intro q r hq
    induction q with
    | nil => simp at hq
    | cons c q ih =>
      simp only [List.cons_append, List.takeWhile_cons]
      by_cases hc : c = '\n'
      · simp [hc]
      · have hq : '\n' ∈ q := by
          rcases List.mem_cons.1 hq with h | h
          · exact absurd h.symm hc
          · exact h
        simp only [ih hq]
  rw [this _ _ (by simpa using h)]

theorem columnAfter_line {a : Str} (h : a = [] ∨ ∃ a0, a = a0 ++ ['\n']) : columnAfter a = 0 := by
  rcases h with rfl | ⟨a0, rfl⟩ <;> simp [columnAfter, lastLine]

theorem inserted_pos {a : Str} (h : columnAfter a = 0) (w p : Str) :
    (Shift.inserted a w).line (lineAfter (a ++ p)) = lineAfter (a ++ w ++ p) ∧
      columnAfter (a ++ p) + (Shift.inserted a w).right (lineAfter (a ++ p)) = columnAfter (a ++ w ++ p) := by
  have h0 : ¬ lineAfter (a ++ p) < lineAfter a := by rw [lineAfter_app]; omega
  have hcol : ∀ x y : Str, columnAfter x = 0 → '\n' ∉ y → columnAfter (x ++ y) = y.length := by
    intro x y hx hy; rw [columnAfter_append hy, hx]; omega
  refine ⟨?_, ?_⟩
  · simp only [Shift.inserted, if_neg h0]
    rw [List.append_assoc, lineAfter_app, lineAfter_app, List.count_append]
    omega
  · simp only [Shift.inserted]
    by_cases hp : '\n' ∈ p
    · have : 0 < p.count '\n' := List.count_pos_iff.2 hp
      rw [if_neg (by rw [lineAfter_app]; omega)]
      simp only [columnAfter, lastLine_app hp, Nat.add_zero]
    · rw [if_pos (lineAfter_append hp), columnAfter_append hp, columnAfter_append hp, h]
      by_cases hw : '\n' ∈ w
      · have e : columnAfter (a ++ w) = columnAfter w := by simp only [columnAfter, lastLine_app hw]
        rw [e]; omega
      · have e : columnAfter (a ++ w) = w.length := hcol a w h hw
        have e' : columnAfter w = w.length := by simpa using hcol [] w rfl hw
        rw [e, e']; omega

theorem inserted_order (a w : Str) : (Shift.inserted a w).InOrder := by
  intro i j h
  simp only [Shift.inserted]
  split <;> split <;> omega

theorem tokens_after {a : Str} (h : columnAfter a = 0) (w : Str) (segs : List (TokKind × Str)) (p : Str) :
    tokensOf (a ++ w ++ p) segs = (tokensOf (a ++ p) segs).map (token (Shift.inserted a w)) := by
  induction segs generalizing p with
  | nil => rfl
  | cons x segs ih =>
    obtain ⟨k, v⟩ := x
    have ih := ih (p ++ v)
    simp only [← List.append_assoc] at ih
    rw [tokensOf, tokensOf]
    split
    · exact ih
    · rw [ih, List.map_cons]
      have := inserted_pos h w p
      simp only [token, this.1, this.2]

theorem tokens_before {a w : Str} (segs : List (TokKind × Str)) (p : Str)
    (h : p ++ covered segs = a) (hl : segs = [] ∨ ∃ front n, segs = front ++ [(newLine, n)] ∧ '\n' ∈ n) :
    (tokensOf p segs).map (token (Shift.inserted a w)) = tokensOf p segs := by
  induction segs generalizing p with
  | nil => rfl
  | cons x segs ih =>
    obtain ⟨k, v⟩ := x
    have hc : covered ((k, v) :: segs) = v ++ covered segs := by simp [covered]
    have ih' : (tokensOf (p ++ v) segs).map (token (Shift.inserted a w)) = tokensOf (p ++ v) segs := by
      refine ih (p ++ v) (by rw [← h, hc, List.append_assoc]) ?_
      rcases hl with hl | ⟨front, n, hl, hn⟩
      · simp at hl
      · cases front with
        | nil => simp at hl; exact .inl hl.2
        | cons y front => simp at hl; exact .inr ⟨front, n, hl.2, hn⟩
    have hlt : lineAfter p < lineAfter a := by
      have hm : '\n' ∈ covered ((k, v) :: segs) := by
        rcases hl with hl | ⟨front, n, hl, hn⟩
        · simp at hl
        · rw [hl, covered, List.mem_flatMap]
          exact ⟨_, List.mem_append_right _ (List.mem_singleton.2 rfl), hn⟩
      rw [← h, lineAfter_app]
      have := List.count_pos_iff.2 hm
      omega
    rw [tokensOf]
    split
    · exact ih'
    · rw [List.map_cons, ih']
      congr 1
      simp only [token, Shift.inserted, if_pos hlt, if_neg (Nat.ne_of_lt hlt), Nat.add_zero]

/-! ## Pieces and parse trees -/

theorem isSep_token (s : Shift) (t : Token) : isSep (token s t) = isSep t := rfl

theorem parse_pieces {us us' : List Token} {e e' : Token} (he : e.kind = eof) (he' : e'.kind = eof)
    (h : pieces isSep us = pieces isSep us') : Parser.parse (us ++ [e]) = Parser.parse (us' ++ [e']) := by
  have key : ∀ {us us' : List Token} {e e' : Token} (_ : e'.kind = eof) (_ : pieces isSep us = pieces isSep us') {pr : PProgram},
      Parser.parse (us ++ [e]) = some pr → Parser.parse (us' ++ [e']) = some pr := by
    intro us us' e e' he' h pr hp
    rw [Parser.parse_iff] at hp ⊢
    obtain ⟨us1, e1, v, h1, h2, h3, h4, xs, h5, h6⟩ := program_pieces (fun _ _ h => h.1) hp
    obtain ⟨rfl, -⟩ := List.append_inj' h1 rfl
    exact pieces_program he' h3 h4 (h ▸ h5) h6
  cases hp : Parser.parse (us ++ [e]) with
  | some pr => exact (key he' h hp).symm
  | none =>
    cases hq : Parser.parse (us' ++ [e']) with
    | none => rfl
    | some pr => rw [key he h.symm hq] at hp; simp at hp

/-- What inserting blank lines does to the tokens of a text, as far as it is cut into tokens. -/
theorem cut_inserted {a w b : Str} (ha : StartsLine a b) (hw : Blank w b) :
    ∃ segs segs' m rest A B N, Cut .default (a ++ b) segs m rest ∧ Cut .default (a ++ (w ++ b)) segs' m rest ∧ Lexer.Final m rest ∧
      tokensOf [] segs = A ++ B ∧ tokensOf [] segs' = A ++ (N ++ B.map (token (Shift.inserted a w))) ∧
      A.map (token (Shift.inserted a w)) = A ∧ (∀ t ∈ N, isSep t = true) ∧ (A = [] ∨ ∃ f n, A = f ++ [n] ∧ isSep n = true) ∧
      lineAfter (covered segs') = (Shift.inserted a w).line (lineAfter (covered segs)) ∧
      columnAfter (covered segs') = columnAfter (covered segs) + (Shift.inserted a w).right (lineAfter (covered segs)) := by
  obtain ⟨sa, hcut, hcl, hend⟩ := ha
  have hcov : covered sa = a := List.append_cancel_right (Lexer.cut_covered hcut).symm
  obtain ⟨sb, m, rest, hb, hf⟩ := Lexer.cut_exists .default b
  obtain ⟨sb', hb', hv⟩ := cut_blanks hw hb hf
  -- the text before is cut as it was
  have hend' : sa = [] ∨ ∃ front n, sa = front ++ [(newLine, n)] ∧ (n = c!"\n" ∨ n = c!"\r\n") := by
    rcases hend with rfl | ⟨front, n, rfl⟩
    · left
      cases hs : sa with
      | nil => rfl
      | cons x xs =>
        exfalso
        rw [hs] at hcut hcov
        obtain ⟨k, v⟩ := x
        cases hcut with
        | cons hwin _ =>
          have : v = [] := by simp [covered] at hcov; exact hcov.1
          exact Lexer.winner_ne_nil hwin this
    · refine .inr ⟨front, n, rfl, ?_⟩
      have : ∀ {m m' : Lexer.Mode} {s r : Str} {f : List (TokKind × Str)}, Cut m s (f ++ [(newLine, n)]) m' r → Text newLine n := by
        intro m m' s r f
        induction f generalizing m s with
        | nil => intro h; cases h with | cons hwin _ => exact Lexer.winner_text hwin
        | cons y f ih => intro h; cases h with | cons _ h => exact ih h
      exact this hcut
  have hcut' : ∀ b', Cut .default (a ++ b') sa .default b' := by
    intro b'
    rcases hend' with rfl | ⟨front, n, rfl, hn⟩
    · simp only [covered, List.flatMap_nil] at hcov
      rw [← hcov]
      exact .nil _ _
    · have hsplit : ∀ {m m' : Lexer.Mode} {s r : Str} {f : List (TokKind × Str)}, Cut m s (f ++ [(newLine, n)]) m' r →
          Closed (f ++ [(newLine, n)]) → ∃ m1, Cut m s f m1 (n ++ r) ∧ Closed f ∧ modeAfter m1 newLine = m' := by
        intro m m' s r f
        induction f generalizing m s with
        | nil =>
          intro h _
          cases h with
          | cons hwin h => cases h; exact ⟨_, .nil _ _, trivial, rfl⟩
        | cons y f ih =>
          intro h hc
          cases h with
          | cons hwin h =>
            obtain ⟨m1, h1, h2, h3⟩ := ih h hc.2.2
            refine ⟨m1, .cons hwin h1, ⟨hc.1, fun hk p hp => hc.2.1 hk p ?_, h2⟩, h3⟩
            cases f with
            | nil => simp at hp
            | cons z f => simpa using hp
      obtain ⟨m1, h1, h2, h3⟩ := hsplit hcut hcl
      have hm1 : m1 = .default := by simpa [modeAfter] using h3
      subst hm1
      have h4 := cut_follow h1 h2 hn rfl b'
      have h5 := Lexer.cut_append h4 (.cons (newline_cut hn b') (.nil _ _))
      have e : covered front ++ (n ++ b') = a ++ b' := by rw [← hcov]; simp [covered]
      rw [e] at h5
      exact h5
  have hA := Lexer.cut_append (hcut' b) hb
  have hB := Lexer.cut_append (hcut' (w ++ b)) hb'
  have hcol : columnAfter a = 0 := by
    refine columnAfter_line ?_
    rcases hend' with rfl | ⟨front, n, rfl, hn⟩
    · exact .inl hcov.symm
    · right
      rcases hn with rfl | rfl
      · exact ⟨covered front, by rw [← hcov]; simp [covered]⟩
      · exact ⟨covered front ++ ['\r'], by rw [← hcov]; simp [covered]⟩
  have htb : (tokensOf [] sa).map (token (Shift.inserted a w)) = tokensOf [] sa := by
    refine tokens_before sa [] (by simpa using hcov) ?_
    rcases hend' with rfl | ⟨front, n, rfl, hn⟩
    · exact .inl rfl
    · exact .inr ⟨front, n, rfl, by rcases hn with rfl | rfl <;> simp⟩
  have hta := tokens_after hcol w sb []
  simp only [List.append_nil] at hta
  obtain ⟨ns, hns, hv⟩ := hv a
  have hsb : covered sb' = w ++ covered sb := by
    have h1 := Lexer.cut_covered hb
    have h2 := Lexer.cut_covered hb'
    rw [h1, ← List.append_assoc] at h2
    exact (List.append_cancel_right h2).symm
  have hpos := inserted_pos hcol w (covered sb)
  have happ : ∀ x y : List (TokKind × Str), covered (x ++ y) = covered x ++ covered y := by intro x y; simp [covered]
  refine ⟨_, _, m, rest, tokensOf [] sa, tokensOf a sb, ns, hA, hB, hf, ?_, ?_, htb, hns, ?_, ?_, ?_⟩
  · rw [Lexer.tokensOf_append, List.nil_append, hcov]
  · rw [Lexer.tokensOf_append, List.nil_append, hcov, hv, hta]
  · rcases hend' with rfl | ⟨front, n, rfl, hn⟩
    · exact .inl rfl
    · right
      rw [Lexer.tokensOf_append]
      exact ⟨_, _, rfl, rfl⟩
  · rw [happ, happ, hsb, hcov, ← List.append_assoc, hpos.1]
  · rw [happ, happ, hsb, hcov, ← List.append_assoc, hpos.2]

/-- What inserting blank lines does to what the parser makes of a text. -/
theorem parse_inserted {a w b : Str} (ha : StartsLine a b) (hw : Blank w b) :
    (∃ l l', Lexer.lex (a ++ b) = .error l ∧ Lexer.lex (a ++ (w ++ b)) = .error l') ∨
      ∃ ts ts', Lexer.lex (a ++ b) = .ok ts ∧ Lexer.lex (a ++ (w ++ b)) = .ok ts' ∧
        Parser.parse ts' = (Parser.parse ts).map (mapP (token (Shift.inserted a w))) := by
  obtain ⟨segs, segs', m, rest, A, B, N, hA, hB, hf, h1, h2, h3, h4, h5, -, -⟩ := cut_inserted ha hw
  rcases hf with rfl | ⟨hne, hst⟩
  · right
    refine ⟨_, _, Lexer.lex_of_cut hA, Lexer.lex_of_cut hB, ?_⟩
    have hmap := parse_map (f := token (Shift.inserted a w)) (fun _ => rfl) (tokensOf [] segs ++ [Lexer.eofAfter (a ++ b)])
    rw [← hmap, List.map_append]
    refine parse_pieces rfl rfl ?_
    rw [h1, h2, List.map_append, h3]
    rcases h5 with rfl | ⟨f, n, rfl, hn⟩
    · exact pieces_seps h4
    · simp only [List.append_assoc]
      refine pieces_replace (a := f) (seps := n :: N) (seps' := [n]) ?_ ?_ (by simp) (by simp)
      · intro x hx
        rcases List.mem_cons.1 hx with rfl | hx
        · exact hn
        · exact h4 x hx
      · intro x hx
        rw [List.mem_singleton.1 hx]
        exact hn
  · exact .inl ⟨_, _, Lexer.lex_of_stuck hA hne hst, Lexer.lex_of_stuck hB hne hst⟩

end Place
end Qasm
