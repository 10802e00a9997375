import Verif.Lemmas.Lexer
/-!
# Words, blanks and comments
-/

namespace Qasm.Lexer

open Spec

theorem winner_exists {m : Mode} {s w : Str} {k : TokKind} (hk : k ∈ order m) (hw : Text k w) (hp : w <+: s) :
    ∃ k' v, Winner m s k' v := by
  cases hb : best (rules m) s with
  | none => exact absurd hp (best_stuck.1 hb k hk w hw)
  | some p => exact ⟨_, _, (best_winner hb).2.2.2⟩

theorem winner_mem {m : Mode} {s w : Str} {k : TokKind} (h : Winner m s k w) : k ∈ order m := by
  obtain ⟨_, _, ho, _⟩ := h; rw [ho]; simp

theorem winner_text {m : Mode} {s w : Str} {k : TokKind} (h : Winner m s k w) : Text k w := by
  obtain ⟨_, _, _, hc, _⟩ := h; exact hc.1

theorem winner_prefix {m : Mode} {s w : Str} {k : TokKind} (h : Winner m s k w) : w <+: s := by
  obtain ⟨_, _, _, hc, _⟩ := h; exact hc.2.1

theorem winner_max {m : Mode} {s w v : Str} {k k' : TokKind} (h : Winner m s k w) (hk' : k' ∈ order m)
    (hc : Candidate k' s v) : v.length ≤ w.length := by
  obtain ⟨pre, post, ho, _, hlt, hle⟩ := h
  rw [ho] at hk'
  rcases List.mem_append.1 hk' with h | h
  · exact Nat.le_of_lt (hlt k' h v hc)
  · exact hle k' h v hc

theorem digit_not_letter {c : Char} (h : Digit c) : ¬ Letter c := by
  simp only [Digit, List.mem_cons, List.not_mem_nil, or_false] at h
  rcases h with rfl | rfl | rfl | rfl | rfl | rfl | rfl | rfl | rfl | rfl <;> simp [Letter] <;> decide

/-- Texts that start with a letter are keywords, booleans or identifiers, and are words. -/
theorem text_letter {m : Mode} {k : TokKind} {c : Char} {u : Str} (hk : k ∈ order m) (hc : Letter c)
    (h : Text k (c :: u)) : Word (c :: u) ∧ m = .default ∧
      ((c :: u, k) ∈ keywords ∨ (k = .booleanLiteral ∧ (c :: u = c!"true" ∨ c :: u = c!"false"))
        ∨ k = .identifier) := by
  have nl : ∀ {d : Char}, ¬ Letter d → c ≠ d := fun hd he => hd (he ▸ hc)
  have ws : ∀ w : Str, (∃ c u, w = c :: u ∧ Lexer.isLetter c = true
      ∧ ∀ d ∈ u, Lexer.isLetter d = true ∨ Lexer.isDigit d = true) → Word w := by
    rintro w ⟨c, u, rfl, h1, h2⟩
    refine ⟨c, u, rfl, (isLetter_iff c).1 h1, fun d hd => ?_⟩
    exact (h2 d hd).imp (isLetter_iff d).1 (isDigit_iff d).1
  cases m with
  | versionStatement =>
    exfalso
    simp only [order, List.mem_cons, List.not_mem_nil, or_false] at hk
    rcases hk with rfl | rfl
    · rcases h.2 c (by simp) with rfl | rfl
      · revert hc; simp [Letter]
      · revert hc; simp [Letter]
    · rcases h with h | ⟨a, b, he, ha, _⟩
      · exact digit_not_letter (h.2 c (by simp)) hc
      · cases a with
        | nil => exact ha.1 rfl
        | cons d a =>
          obtain ⟨rfl, _⟩ := List.cons.inj he
          exact digit_not_letter (ha.2 c (by simp)) hc
  | default =>
    by_cases hf : k = .identifier
    · subst hf; exact ⟨h, rfl, .inr (.inr rfl)⟩
    by_cases hb : k = .booleanLiteral
    · subst hb
      refine ⟨?_, rfl, .inr (.inl ⟨rfl, h⟩)⟩
      rcases h with h | h <;>
      · obtain ⟨rfl, rfl⟩ := List.cons.inj h
        exact ws _ ⟨_, _, rfl, by decide, by decide⟩
    by_cases hkey : fixedText k = some (c :: u) ∧ (c :: u, k) ∈ keywords
    · refine ⟨?_, rfl, .inl hkey.2⟩
      have := hkey.2
      revert this
      have all : ∀ p ∈ keywords, Word p.1 := by
        intro p hp
        apply ws
        revert p
        have : ∀ p ∈ keywords, (match p.1 with
          | [] => false
          | c :: u => Lexer.isLetter c && u.all (fun d => Lexer.isLetter d || Lexer.isDigit d)) = true := by
          decide
        intro p hp
        have := this p hp
        split at this
        · cases this
        · next c u he =>
          rw [he]
          simp only [Bool.and_eq_true, List.all_eq_true, Bool.or_eq_true] at this
          exact ⟨c, u, rfl, this⟩
      intro h; exact all _ h
    exfalso
    have lit : ∀ d v, fixedText k = some (d :: v) → Letter d → (d :: v, k) ∈ keywords := by
      intro d v hd hl
      cases k <;> simp only [fixedText, Option.some.injEq, List.cons.injEq, reduceCtorEq] at hd <;>
        obtain ⟨rfl, rfl⟩ := hd <;>
        first
        | decide
        | (exact absurd ((isLetter_iff _).2 hl) (by decide))
    by_cases hft : fixedText k = some (c :: u)
    · exact hkey ⟨hft, lit c u hft hc⟩
    · cases k with
      | whiteSpace =>
        rcases h.2 c (by simp) with rfl | rfl
        · revert hc; simp [Letter]
        · revert hc; simp [Letter]
      | versionWhiteSpace => simp [order] at hk
      | versionNumber => simp [order] at hk
      | singleLineComment =>
        obtain ⟨_, he, _⟩ := h
        exact nl (by simp [Letter]) (List.cons.inj he).1
      | multiLineComment =>
        obtain ⟨_, he⟩ := h
        exact nl (by simp [Letter]) (List.cons.inj he).1
      | newLine =>
        rcases h with h | h
        · exact nl (by simp [Letter]) (List.cons.inj h).1
        · exact nl (by simp [Letter]) (List.cons.inj h).1
      | integerLiteral => exact digit_not_letter (h.2 c (by simp)) hc
      | floatLiteral =>
        obtain ⟨a, b, e, he, ha, _, _, _⟩ := h
        cases a with
        | nil => exact nl (by simp [Letter]) (List.cons.inj he).1
        | cons d a =>
          obtain ⟨rfl, _⟩ := List.cons.inj he
          exact digit_not_letter (ha c (by simp)) hc
      | rawTextString =>
        obtain ⟨_, he⟩ := h
        exact nl (by simp [Letter]) (List.cons.inj he).1
      | identifier => exact hf rfl
      | booleanLiteral => exact hb rfl
      | _ => exact hft h

theorem word_all {w : Str} (h : Word w) : ∀ c ∈ w, Letter c ∨ Digit c := by
  obtain ⟨c, u, rfl, hc, hu⟩ := h
  intro d hd
  rcases List.mem_cons.1 hd with rfl | hd
  · exact .inl hc
  · exact hu d hd

theorem keywords_spec : ∀ p ∈ keywords, p.2 ∈ order .default ∧ fixedText p.2 = some p.1 ∧ wordKind p.1 = p.2
    ∧ p.1 ≠ c!"true" ∧ p.1 ≠ c!"false" := by decide +kernel

theorem keyword_text {p : Str × TokKind} (hp : p ∈ keywords) : Text p.2 p.1 := by
  obtain ⟨w, k⟩ := p
  have := (keywords_spec _ hp).2.1
  dsimp only at this ⊢
  simp only [keywords, List.mem_cons, Prod.mk.injEq, List.not_mem_nil, or_false] at hp
  rcases hp with ⟨_, rfl⟩ | ⟨_, rfl⟩ | ⟨_, rfl⟩ | ⟨_, rfl⟩ | ⟨_, rfl⟩ | ⟨_, rfl⟩ | ⟨_, rfl⟩ | ⟨_, rfl⟩ |
    ⟨_, rfl⟩ | ⟨_, rfl⟩ | ⟨_, rfl⟩ | ⟨_, rfl⟩ <;> exact this

/-- The identifier rule comes after the keywords and booleans. -/
theorem before_identifier {k : TokKind} (h : (∃ w, (w, k) ∈ keywords) ∨ k = .booleanLiteral) :
    ∀ pre post, order .default = pre ++ .identifier :: post → k ∈ pre := by
  intro pre post ho
  have hk : k ∈ (order .default).takeWhile (· ≠ .identifier) := by
    rcases h with ⟨w, hw⟩ | rfl
    · have : ∀ p ∈ keywords, p.2 ∈ (order .default).takeWhile (· ≠ .identifier) := by decide +kernel
      exact this _ hw
    · decide +kernel
  rw [ho, List.takeWhile_append] at hk
  split at hk
  · next hl =>
    have : List.takeWhile (fun x => decide (x ≠ TokKind.identifier)) pre = pre :=
      (List.takeWhile_prefix _).eq_of_length hl
    rcases List.mem_append.1 hk with h | h
    · exact h
    · simp at h
  · exact (List.takeWhile_prefix _).subset hk

theorem candidate_of_text {k : TokKind} {s w : Str} (he : ¬ EndsEarly k) (hw : Text k w) (hp : w <+: s) :
    Candidate k s w := ⟨hw, hp, fun h => absurd h he⟩

theorem wordKind_mem {w : Str} {k : TokKind} (h : (w, k) ∈ keywords) : wordKind w = k :=
  (keywords_spec _ h).2.2.1

theorem wordKind_not_mem {w : Str} (h : ∀ k, (w, k) ∉ keywords) :
    wordKind w = if w = c!"true" ∨ w = c!"false" then .booleanLiteral else .identifier := by
  unfold wordKind
  have : keywords.find? (·.1 = w) = none := by
    rw [List.find?_eq_none]
    rintro ⟨v, k⟩ hp he
    have : v = w := by simpa using he
    exact h k (this ▸ hp)
  rw [this]

/-- A maximal word is cut off as a keyword, a boolean or an identifier. -/
theorem word_winner {w s : Str} (hw : Word w) (hs : ∀ c, s.head? = some c → ¬ Letter c ∧ ¬ Digit c) :
    Winner .default (w ++ s) (wordKind w) w := by
  have hp : w <+: w ++ s := List.prefix_append _ _
  obtain ⟨k, v, hv⟩ := winner_exists (m := .default) (k := .identifier) (by decide) hw hp
  have hci : Candidate .identifier (w ++ s) w := candidate_of_text (by simp [EndsEarly]) hw hp
  have hle : w.length ≤ v.length := winner_max hv (by decide) hci
  obtain ⟨c, u, rfl, hc, hu⟩ := hw
  have hvp := winner_prefix hv
  cases v with
  | nil => exact absurd rfl (winner_ne_nil hv)
  | cons d v =>
    obtain ⟨rfl, hvp'⟩ := List.cons_prefix_cons.1 hvp
    obtain ⟨hword, _, hkind⟩ := text_letter (winner_mem hv) hc (winner_text hv)
    -- the winner is exactly the word
    have hlen : (d :: v).length ≤ (d :: u).length := by
      apply Nat.le_of_not_lt
      intro hlt
      obtain ⟨x, hx⟩ : d :: u <+: d :: v := List.prefix_of_prefix_length_le hp hvp hle
      cases x with
      | nil => rw [List.append_nil] at hx; rw [hx] at hlt; omega
      | cons e x =>
        have hs' : s.head? = some e := by
          obtain ⟨y, hy⟩ := hvp
          rw [← hx, List.append_assoc] at hy
          have := List.append_cancel_left hy
          rw [← this]; rfl
        have he : e ∈ d :: v := by rw [← hx]; simp
        exact (word_all hword e he).elim (hs e hs').1 (hs e hs').2
    have hveq : d :: v = d :: u := by
      exact (List.prefix_of_prefix_length_le hvp hp hlen).eq_of_length (by omega)
    rw [hveq] at hv hkind
    suffices wordKind (d :: u) = k by rw [this]; exact hv
    rcases hkind with hkw | ⟨rfl, hb⟩ | rfl
    · exact wordKind_mem hkw
    · rw [wordKind_not_mem, if_pos hb]
      intro k hk
      have := (keywords_spec _ hk).2.2.2
      exact hb.elim this.1 this.2
    · obtain ⟨pre, post, ho, _, hlt, _⟩ := hv
      have nokw : ∀ k, (d :: u, k) ∉ keywords := by
        intro k hk
        have hc : Candidate k (d :: u ++ s) (d :: u) :=
          candidate_of_text (by
            simp only [keywords, List.mem_cons, Prod.mk.injEq, List.not_mem_nil, or_false] at hk
            rcases hk with ⟨_, rfl⟩ | ⟨_, rfl⟩ | ⟨_, rfl⟩ | ⟨_, rfl⟩ | ⟨_, rfl⟩ | ⟨_, rfl⟩ | ⟨_, rfl⟩ | ⟨_, rfl⟩ |
              ⟨_, rfl⟩ | ⟨_, rfl⟩ | ⟨_, rfl⟩ | ⟨_, rfl⟩ <;> simp [EndsEarly]) (keyword_text hk) hp
        have := hlt k (before_identifier (.inl ⟨_, hk⟩) pre post ho) _ hc
        omega
      rw [wordKind_not_mem nokw, if_neg]
      intro hb
      have hc : Candidate .booleanLiteral (d :: u ++ s) (d :: u) :=
        candidate_of_text (by simp [EndsEarly]) hb hp
      have := hlt _ (before_identifier (.inr rfl) pre post ho) _ hc
      omega

theorem cut_append {m m' m'' : Mode} {s r r' : Str} {segs segs' : List (TokKind × Str)}
    (h : Cut m s segs m' r) (h' : Cut m' r segs' m'' r') : Cut m s (segs ++ segs') m'' r' := by
  induction h with
  | nil => exact h'
  | cons hw _ ih => exact .cons hw (ih h')

theorem cut_one {m : Mode} {s w : Str} {k : TokKind} (h : Winner m (w ++ s) k w) :
    Cut m (w ++ s) [(k, w)] (modeAfter m k) s := .cons h (.nil _ _)

/-- Cutting is deterministic: one cut continues the other. -/
theorem cut_unique {m m' : Mode} {s : Str} {segs : List (TokKind × Str)} (h : Cut m s segs m' [])
    {m'' : Mode} {segs' : List (TokKind × Str)} (h' : Cut m s segs' m'' []) : segs = segs' ∧ m' = m'' := by
  generalize hr : ([] : Str) = r at h
  induction h generalizing segs' with
  | nil m s =>
    subst hr
    generalize hs : ([] : Str) = s at h'
    cases h' with
    | nil => exact ⟨rfl, rfl⟩
    | cons hw _ =>
      exact absurd (List.append_eq_nil_iff.1 hs.symm).1 (winner_ne_nil hw)
  | @cons m m' k w s rest segs hw _ ih =>
    generalize hs : w ++ s = t at h'
    cases h' with
    | nil => exact absurd (List.append_eq_nil_iff.1 hs).1 (winner_ne_nil hw)
    | @cons _ _ k' w' s' _ segs' hw' hc' =>
      rw [← hs] at hw'
      obtain ⟨rfl, rfl⟩ := winner_unique hw hw'
      have := List.append_cancel_left hs
      subst this
      obtain ⟨rfl, rfl⟩ := ih hc' hr
      exact ⟨rfl, rfl⟩

/-! ## Blanks and comments -/

/-- Texts that start with a blank. -/
theorem text_blank {k : TokKind} {c : Char} {u : Str} (hk : k ∈ order .default) (hc : c = ' ' ∨ c = '\t')
    (h : Text k (c :: u)) : k = .whiteSpace := by
  have d1 : ¬ Digit ' ' := by simp [Digit]
  have d2 : ¬ Digit '\t' := by simp [Digit]
  have hd : ¬ Digit c := by rcases hc with rfl | rfl <;> assumption
  have hl : ¬ Letter c := by rcases hc with rfl | rfl <;> simp [Letter]
  cases k with
  | whiteSpace => rfl
  | versionWhiteSpace => simp [order] at hk
  | versionNumber => simp [order] at hk
  | singleLineComment =>
    obtain ⟨_, he, _⟩ := h
    have := (List.cons.inj he).1
    subst this; simp at hc
  | multiLineComment =>
    obtain ⟨_, he⟩ := h
    have := (List.cons.inj he).1
    subst this; simp at hc
  | newLine =>
    rcases h with h | h <;>
    · have := (List.cons.inj h).1
      subst this; simp at hc
  | integerLiteral => exact absurd (h.2 c (by simp)) hd
  | floatLiteral =>
    obtain ⟨a, b, e, he, ha, _, _, _⟩ := h
    cases a with
    | nil =>
      have := (List.cons.inj he).1
      subst this; simp at hc
    | cons d a =>
      obtain ⟨rfl, _⟩ := List.cons.inj he
      exact absurd (ha c (by simp)) hd
  | rawTextString =>
    obtain ⟨_, he⟩ := h
    have := (List.cons.inj he).1
    subst this; simp at hc
  | identifier =>
    obtain ⟨d, v, he, hd, _⟩ := h
    have := (List.cons.inj he).1
    subst this; exact absurd hd hl
  | booleanLiteral =>
    rcases h with h | h <;>
    · have := (List.cons.inj h).1
      subst this; simp at hc
  | eof => simp [order] at hk
  | _ =>
    have := (List.cons.inj (Option.some.inj h)).1
    subst this; simp at hc

/-- Texts that start with a slash. -/
theorem text_slash {k : TokKind} {u : Str} (hk : k ∈ order .default) (h : Text k ('/' :: u)) :
    (k = .division ∧ u = []) ∨ (k = .singleLineComment ∧ u.head? = some '/')
      ∨ (k = .multiLineComment ∧ u.head? = some '*') := by
  cases k with
  | division => exact .inl ⟨rfl, (List.cons.inj (Option.some.inj h)).2.symm⟩
  | singleLineComment =>
    obtain ⟨v, he, _⟩ := h
    exact .inr (.inl ⟨rfl, by rw [(List.cons.inj he).2]; rfl⟩)
  | multiLineComment =>
    obtain ⟨v, he⟩ := h
    exact .inr (.inr ⟨rfl, by rw [(List.cons.inj he).2]; rfl⟩)
  | whiteSpace => rcases h.2 '/' (by simp) with h | h <;> simp at h
  | versionWhiteSpace => simp [order] at hk
  | versionNumber => simp [order] at hk
  | newLine => rcases h with h | h <;> simp at h
  | integerLiteral => exact absurd (h.2 '/' (by simp)) (by simp [Digit])
  | floatLiteral =>
    obtain ⟨a, b, e, he, ha, _, _, _⟩ := h
    cases a with
    | nil => simp at he
    | cons d a =>
      obtain ⟨rfl, _⟩ := List.cons.inj he
      exact absurd (ha '/' (by simp)) (by simp [Digit])
  | rawTextString =>
    obtain ⟨_, he⟩ := h
    simp at he
  | identifier =>
    obtain ⟨d, v, he, hd, _⟩ := h
    have := (List.cons.inj he).1
    subst this; revert hd; simp [Letter]
  | booleanLiteral => rcases h with h | h <;> simp at h
  | eof => simp [order] at hk
  | _ => simp [Text, fixedText] at h

/-- Texts that start with a quote. -/
theorem text_quote {k : TokKind} {u : Str} (hk : k ∈ order .default) (h : Text k ('\'' :: u)) :
    k = .tripleQuote ∨ k = .rawTextString := by
  cases k with
  | tripleQuote => exact .inl rfl
  | rawTextString => exact .inr rfl
  | singleLineComment => obtain ⟨v, he, _⟩ := h; simp at he
  | multiLineComment => obtain ⟨v, he⟩ := h; simp at he
  | whiteSpace => rcases h.2 '\'' (by simp) with h | h <;> simp at h
  | versionWhiteSpace => simp [order] at hk
  | versionNumber => simp [order] at hk
  | newLine => rcases h with h | h <;> simp at h
  | integerLiteral => exact absurd (h.2 '\'' (by simp)) (by simp [Digit])
  | floatLiteral =>
    obtain ⟨a, b, e, he, ha, _, _, _⟩ := h
    cases a with
    | nil => simp at he
    | cons d a =>
      obtain ⟨rfl, _⟩ := List.cons.inj he
      exact absurd (ha '\'' (by simp)) (by simp [Digit])
  | identifier =>
    obtain ⟨d, v, he, hd, _⟩ := h
    have := (List.cons.inj he).1
    subst this; revert hd; simp [Letter]
  | booleanLiteral => rcases h with h | h <;> simp at h
  | eof => simp [order] at hk
  | _ => simp [Text, fixedText] at h

/-- Only blanks, comments and raw strings contain a space. -/
theorem text_space {m : Mode} {k : TokKind} {w : Str} (hk : k ∈ order m) (h : Text k w) (hs : ' ' ∈ w) :
    k = .whiteSpace ∨ k = .versionWhiteSpace ∨ k = .singleLineComment ∨ k = .multiLineComment
      ∨ k = .rawTextString := by
  have d1 : ¬ Digit ' ' := by simp [Digit]
  have l1 : ¬ Letter ' ' := by simp [Letter]
  have de : ∀ ds, Digits ds → ' ' ∉ ds := fun ds h hm => d1 (h.2 _ hm)
  cases k with
  | whiteSpace => simp
  | versionWhiteSpace => simp
  | singleLineComment => simp
  | multiLineComment => simp
  | rawTextString => simp
  | newLine => exfalso; rcases h with rfl | rfl <;> simp at hs
  | booleanLiteral => exfalso; rcases h with rfl | rfl <;> simp at hs
  | integerLiteral => exact absurd hs (de _ h)
  | versionNumber =>
    exfalso
    rcases h with h | ⟨a, b, rfl, ha, hb⟩
    · exact de _ h hs
    · rcases List.mem_append.1 hs with h | h
      · exact de _ ha h
      · rcases List.mem_cons.1 h with h | h
        · simp at h
        · exact de _ hb h
  | floatLiteral =>
    exfalso
    obtain ⟨a, b, e, rfl, ha, hb, _, he⟩ := h
    simp only [List.append_assoc, List.cons_append, List.mem_append, List.mem_cons] at hs
    rcases hs with h | h | h | h
    · exact d1 (ha _ h)
    · simp at h
    · exact d1 (hb _ h)
    · rcases he with rfl | ⟨x, sg, ds, rfl, hx, hsg, hds⟩
      · simp at h
      · simp only [List.cons_append, List.mem_append, List.mem_cons] at h
        rcases h with h | h | h
        · rcases hx with rfl | rfl <;> simp at h
        · rcases hsg with rfl | rfl | rfl <;> simp at h
        · exact de _ hds h
  | identifier => exact absurd (word_all h _ hs) (by simp [d1, l1])
  | eof => exact absurd hk (by cases m <;> simp [order])
  | _ =>
    exfalso
    have := Option.some.inj h
    subst this
    simp at hs

end Qasm.Lexer
