import Verif.Lemmas.Trivia
/-!
# Numbers, raw strings and separators as segments
-/

namespace Qasm.Lexer

open Spec

/-- Texts that start with a digit. -/
theorem text_digit {k : TokKind} {c : Char} {u : Str} (hk : k ∈ order .default) (hc : Digit c) (h : Text k (c :: u)) :
    k = .integerLiteral ∨ k = .floatLiteral := by
  have nd : ∀ d, ¬ Digit d → c ≠ d := fun d hd he => hd (he ▸ hc)
  cases k with
  | integerLiteral => exact .inl rfl
  | floatLiteral => exact .inr rfl
  | whiteSpace => rcases h.2 c (by simp) with h | h <;> exact absurd h (nd _ (by simp [Digit]))
  | versionWhiteSpace => simp [order] at hk
  | versionNumber => simp [order] at hk
  | singleLineComment => obtain ⟨v, he, _⟩ := h; exact absurd (List.cons.inj he).1 (nd _ (by simp [Digit]))
  | multiLineComment => obtain ⟨v, he⟩ := h; exact absurd (List.cons.inj he).1 (nd _ (by simp [Digit]))
  | newLine => rcases h with h | h <;> exact absurd (List.cons.inj h).1 (nd _ (by simp [Digit]))
  | rawTextString => obtain ⟨_, he⟩ := h; exact absurd (List.cons.inj he).1 (nd _ (by simp [Digit]))
  | identifier =>
    obtain ⟨d, v, he, hd, _⟩ := h
    obtain ⟨rfl, _⟩ := List.cons.inj he
    exact absurd hd (digit_not_letter hc)
  | booleanLiteral => rcases h with h | h <;> exact absurd (List.cons.inj h).1 (nd _ (by simp [Digit]))
  | eof => simp [order] at hk
  | _ => exact absurd (List.cons.inj (Option.some.inj h)).1.symm (nd _ (by simp [Digit]))

/-- A maximal run of digits that is not followed by a point is an integer literal. -/
theorem number_winner {w s : Str} (hw : Digits w) (hs : ∀ c, s.head? = some c → ¬ Digit c ∧ c ≠ '.') :
    Winner .default (w ++ s) .integerLiteral w := by
  have hcand : Candidate .integerLiteral (w ++ s) w := candidate_of_text (by simp [EndsEarly]) hw (List.prefix_append _ _)
  -- a run of digits at the start is within `w`
  have hrun : ∀ a, (∀ c ∈ a, Digit c) → a <+: w ++ s → a.length ≤ w.length := by
    intro a ha hp
    rcases prefix_cases hp with h | ⟨x, rfl, hx, hp⟩
    · exact h.length_le
    · cases x with
      | nil => exact absurd rfl hx
      | cons c x =>
        cases s with
        | nil => simp at hp
        | cons d s =>
          obtain ⟨rfl, _⟩ := List.cons_prefix_cons.1 hp
          exact absurd (ha c (by simp)) (hs c rfl).1
  refine winner_of
    ((order .default).takeWhile (· ≠ .integerLiteral)) _ (by rfl) hcand ?_
  rintro k hk v ⟨hv, hp, _⟩
  cases v with
  | nil => exact absurd rfl (text_ne_nil hv)
  | cons d v =>
    have hd : Digit d := by
      cases w with
      | nil => exact absurd rfl hw.1
      | cons c w =>
        obtain ⟨rfl, _⟩ := List.cons_prefix_cons.1 hp
        exact hw.2 _ (by simp)
    rcases text_digit hk hd hv with rfl | rfl
    · exact ⟨fun h => absurd h (by decide +kernel), hrun _ hv.2 hp⟩
    · exfalso
      obtain ⟨a, b, e, he, ha, -, -, -⟩ := hv
      rw [he] at hp
      have hpa : a ++ ['.'] <+: w ++ s := by
        refine List.IsPrefix.trans ?_ hp
        exact ⟨b ++ e, by simp⟩
      rcases prefix_cases hpa with ⟨y, hy⟩ | ⟨x, hx, hne, hpx⟩
      · have : Digit '.' := hw.2 _ (by rw [← hy]; simp)
        exact absurd this (by simp [Digit])
      · have hlen := hrun a ha ((List.prefix_append a ['.']).trans hpa)
        have hl := congrArg List.length hx
        cases x with
        | nil => exact hne rfl
        | cons c x =>
          simp only [List.length_append, List.length_cons, List.length_nil] at hl
          have hx0 : x = [] := List.length_eq_zero_iff.1 (by omega)
          subst hx0
          have : c = '.' := by
            have := congrArg List.getLast? hx
            simpa using this.symm
          subst this
          cases s with
          | nil => simp at hpx
          | cons d s =>
            obtain ⟨rfl, _⟩ := List.cons_prefix_cons.1 hpx
            exact (hs _ rfl).2 rfl

/-- A raw string ends at the first triple quote. -/
theorem raw_winner {u s : Str} (hu : ¬ c!"'''" <:+: u ++ c!"''") :
    Winner .default (c!"'''" ++ u ++ c!"'''" ++ s) .rawTextString (c!"'''" ++ u ++ c!"'''") := by
  have hmin : ∀ v, Text .rawTextString v → v <+: c!"'''" ++ u ++ c!"'''" ++ s → (c!"'''" ++ u ++ c!"'''").length ≤ v.length := by
    rintro v ⟨u', rfl⟩ hp
    apply Nat.le_of_not_lt
    intro hlt
    obtain ⟨y, hy⟩ := List.prefix_of_prefix_length_le hp (List.prefix_append _ s) (Nat.le_of_lt hlt)
    have hy' : u' ++ c!"'''" ++ y = u ++ c!"'''" := by simpa using hy
    simp only [List.length_append, List.length_cons, List.length_nil] at hlt
    apply hu
    have hpre : u' ++ c!"'''" <+: u ++ c!"''" := by
      apply List.prefix_of_prefix_length_le (l₃ := u ++ c!"'''")
      · exact ⟨y, hy'⟩
      · exact ⟨['\''], by simp⟩
      · simp only [List.length_append, List.length_cons, List.length_nil]; omega
    obtain ⟨z, hz⟩ := hpre
    exact ⟨u', z, hz⟩
  refine winner_of ((order .default).takeWhile (· ≠ .rawTextString)) [] (by rfl)
    ⟨⟨u, rfl⟩, List.prefix_append _ _, fun _ v hv hp => hmin v hv hp⟩ ?_
  rintro k hk v ⟨hv, hp, hshort⟩
  cases v with
  | nil => exact absurd rfl (text_ne_nil hv)
  | cons d v =>
    obtain ⟨rfl, hp'⟩ := List.cons_prefix_cons.1 hp
    rcases text_quote hk hv with rfl | rfl
    · have := Option.some.inj hv
      rw [← this]
      simp
    · exact ⟨fun h => absurd h (by decide +kernel), hshort (.inr rfl) _ ⟨u, rfl⟩ (List.prefix_append _ _)⟩

/-- The separator texts. -/
theorem text_separator {k : TokKind} {u : Str} (hk : k ∈ order .default) :
    (Text k (';' :: u) → k = .semicolon ∧ u = []) ∧ (Text k ('\n' :: u) → k = .newLine ∧ u = [])
      ∧ (Text k ('\r' :: u) → k = .newLine ∧ u = ['\n']) := by
  have hd : ¬ Digit ';' ∧ ¬ Digit '\n' ∧ ¬ Digit '\r' := by simp [Digit]
  have hl : ¬ Letter ';' ∧ ¬ Letter '\n' ∧ ¬ Letter '\r' := by simp [Letter]
  cases k with
  | semicolon =>
    refine ⟨fun h => ⟨rfl, (List.cons.inj (Option.some.inj h)).2.symm⟩, ?_, ?_⟩ <;> intro h <;> simp [Text, fixedText] at h
  | newLine =>
    refine ⟨?_, ?_, ?_⟩ <;> rintro (h | h) <;> simp_all
  | whiteSpace => refine ⟨?_, ?_, ?_⟩ <;> intro h <;> rcases h.2 _ (List.mem_cons_self ..) with h | h <;> simp at h
  | versionWhiteSpace => simp [order] at hk
  | versionNumber => simp [order] at hk
  | singleLineComment => refine ⟨?_, ?_, ?_⟩ <;> rintro ⟨v, he, _⟩ <;> simp at he
  | multiLineComment => refine ⟨?_, ?_, ?_⟩ <;> rintro ⟨v, he⟩ <;> simp at he
  | rawTextString => refine ⟨?_, ?_, ?_⟩ <;> rintro ⟨v, he⟩ <;> simp at he
  | integerLiteral =>
    refine ⟨?_, ?_, ?_⟩ <;> intro h <;> have h := h.2 _ (List.mem_cons_self ..)
    · exact absurd h hd.1
    · exact absurd h hd.2.1
    · exact absurd h hd.2.2
  | floatLiteral =>
    refine ⟨?_, ?_, ?_⟩ <;> rintro ⟨a, b, e, he, ha, -, -, -⟩ <;> cases a with
    | nil => simp at he
    | cons x a =>
      obtain ⟨rfl, _⟩ := List.cons.inj he
      have := ha _ (List.mem_cons_self ..)
      first
      | exact absurd this hd.1
      | exact absurd this hd.2.1
      | exact absurd this hd.2.2
  | identifier =>
    refine ⟨?_, ?_, ?_⟩ <;> rintro ⟨d, v, he, h, _⟩ <;> obtain ⟨rfl, _⟩ := List.cons.inj he <;>
      first
      | exact absurd h hl.1
      | exact absurd h hl.2.1
      | exact absurd h hl.2.2
  | booleanLiteral => refine ⟨?_, ?_, ?_⟩ <;> rintro (h | h) <;> simp at h
  | eof => simp [order] at hk
  | _ => simp [Text, fixedText]

theorem semicolon_winner (s : Str) : Winner .default (c!";" ++ s) .semicolon c!";" := by
  refine winner_of ((order .default).takeWhile (· ≠ .semicolon)) _ (by rfl)
    (candidate_of_text (by simp [EndsEarly]) (w := c!";") rfl (List.prefix_append _ _)) ?_
  rintro k hk v ⟨hv, hp, _⟩
  cases v with
  | nil => exact absurd rfl (text_ne_nil hv)
  | cons d v =>
    obtain ⟨rfl, -⟩ := List.cons_prefix_cons.1 hp
    obtain ⟨rfl, rfl⟩ := (text_separator hk).1 hv
    exact ⟨fun h => absurd h (by decide +kernel), by simp⟩

theorem newline_winner (s : Str) : Winner .default (c!"\n" ++ s) .newLine c!"\n" := by
  refine winner_of ((order .default).takeWhile (· ≠ .newLine)) _ (by rfl)
    (candidate_of_text (by simp [EndsEarly]) (w := c!"\n") (.inl rfl) (List.prefix_append _ _)) ?_
  rintro k hk v ⟨hv, hp, _⟩
  cases v with
  | nil => exact absurd rfl (text_ne_nil hv)
  | cons d v =>
    obtain ⟨rfl, -⟩ := List.cons_prefix_cons.1 hp
    obtain ⟨rfl, rfl⟩ := (text_separator hk).2.1 hv
    exact ⟨fun h => absurd h (by decide +kernel), by simp⟩

theorem crlf_winner (s : Str) : Winner .default (c!"\r\n" ++ s) .newLine c!"\r\n" := by
  refine winner_of ((order .default).takeWhile (· ≠ .newLine)) _ (by rfl)
    (candidate_of_text (by simp [EndsEarly]) (w := c!"\r\n") (.inr rfl) (List.prefix_append _ _)) ?_
  rintro k hk v ⟨hv, hp, _⟩
  cases v with
  | nil => exact absurd rfl (text_ne_nil hv)
  | cons d v =>
    obtain ⟨rfl, -⟩ := List.cons_prefix_cons.1 hp
    obtain ⟨rfl, rfl⟩ := (text_separator hk).2.2 hv
    exact ⟨fun h => absurd h (by decide +kernel), by simp⟩

/-- What the parser sees of a text that starts with a winning segment. -/
theorem seen_cons {k : TokKind} {w b : Str} (hw : Winner .default (w ++ b) k w) (hk : Skipped k = false)
    (hm : modeAfter .default k = .default) : seen (w ++ b) = (seen b).map ((k, w) :: ·) := by
  obtain ⟨sb, m', rest, hb, hf⟩ := cut_exists .default b
  have h : Cut .default (w ++ b) ((k, w) :: sb) m' rest := .cons hw (by rw [hm]; exact hb)
  rw [seen_of_cut h hf, seen_of_cut hb hf]
  have hv : visible ((k, w) :: sb) = (k, w) :: visible sb := by simp [visible, hk]
  rw [hv]
  by_cases hr : rest = [] <;> simp [hr]

/-- What the parser sees of a text after a blank. -/
theorem seen_context {a b b' : Str} {segs : List (TokKind × Str)}
    (hcut : Cut .default (a ++ ' ' :: b) segs .default (' ' :: b)) (hclosed : Closed segs) :
    seen (a ++ ' ' :: b') = (seen b').map (visible segs ++ ·) := by
  have ha : a = covered segs := List.append_cancel_right (cut_covered hcut)
  obtain ⟨sb, m', rest, hb, hf⟩ := cut_exists .default b'
  obtain ⟨s1, h1, hv1⟩ := cut_blank (.inl rfl) hb hf
  have hs := cut_stable hcut hclosed rfl b'
  rw [← ha] at hs
  rw [seen_of_cut (cut_append hs h1) hf, seen_of_cut hb hf, visible_append, hv1]
  by_cases hr : rest = [] <;> simp [hr]

end Qasm.Lexer
