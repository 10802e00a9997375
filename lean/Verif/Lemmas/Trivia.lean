import Verif.Lemmas.Words
/-!
# Blanks and comments do not change the tokens
-/

namespace Qasm.Lexer

open Spec

/-- The segments that are not skipped. -/
def visible (segs : List (TokKind × Str)) : List (TokKind × Str) := segs.filter fun p => !Skipped p.1

/-- Nothing more can be cut off. -/
def Final (m : Mode) (rest : Str) : Prop := rest = [] ∨ rest ≠ [] ∧ Stuck m rest

theorem tokensOf_visible (before : Str) (segs : List (TokKind × Str)) :
    (tokensOf before segs).map (fun t => (t.kind, t.text)) = visible segs := by
  induction segs generalizing before with
  | nil => rfl
  | cons p segs ih =>
    obtain ⟨k, w⟩ := p
    rw [tokensOf, visible, List.filter_cons]
    cases h : Skipped k
    · simp only [Bool.false_eq_true, if_false, Bool.not_false, if_true, List.map_cons, ih]
      rfl
    · simp only [if_true, Bool.not_true, Bool.false_eq_true, if_false, ih]
      rfl

theorem seen_of_cut {m' : Mode} {s rest : Str} {segs : List (TokKind × Str)}
    (h : Cut .default s segs m' rest) (hf : Final m' rest) :
    seen s = if rest = [] then some (visible segs ++ [(.eof, c!"<EOF>")]) else none := by
  unfold seen
  rcases hf with rfl | ⟨hne, hs⟩
  · rw [lex_of_cut h, if_pos rfl]
    simp [tokensOf_visible, eofAfter]
  · rw [lex_of_stuck h hne hs, if_neg hne]

theorem visible_append (a b : List (TokKind × Str)) : visible (a ++ b) = visible a ++ visible b :=
  List.filter_append ..

/-- A winner from the list of candidates. -/
theorem winner_of {m : Mode} {s w : Str} {k : TokKind} (pre post : List TokKind)
    (ho : order m = pre ++ k :: post) (hc : Candidate k s w)
    (h : ∀ k' ∈ order m, ∀ v, Candidate k' s v → (k' ∈ pre → v.length < w.length) ∧ v.length ≤ w.length) :
    Winner m s k w := by
  refine ⟨pre, post, ho, hc, ?_, ?_⟩
  · intro k' hk' v hv
    exact (h k' (by rw [ho]; simp [hk']) v hv).1 hk'
  · intro k' hk' v hv
    exact (h k' (by rw [ho]; exact List.mem_append_right _ hk') v hv).2

theorem blank_winner {c : Char} {w s : Str} (hc : c = ' ' ∨ c = '\t') (hw : ∀ d ∈ w, d = ' ' ∨ d = '\t')
    (hs : ∀ d, s.head? = some d → ¬ (d = ' ' ∨ d = '\t')) :
    Winner .default (c :: w ++ s) .whiteSpace (c :: w) := by
  have hall : ∀ d ∈ c :: w, d = ' ' ∨ d = '\t' := by
    intro d hd
    rcases List.mem_cons.1 hd with rfl | hd
    · exact hc
    · exact hw d hd
  refine winner_of [] _ rfl (candidate_of_text (by simp [EndsEarly]) ⟨by simp, hall⟩ (List.prefix_append _ _)) ?_
  rintro k hk v ⟨hv, hp, _⟩
  refine ⟨by simp, ?_⟩
  apply Nat.le_of_not_lt
  intro hlt
  cases v with
  | nil => simp at hlt
  | cons d v =>
    obtain ⟨rfl, _⟩ := List.cons_prefix_cons.1 hp
    have := text_blank hk hc hv
    subst this
    obtain ⟨x, hx⟩ : d :: w <+: d :: v := List.prefix_of_prefix_length_le (List.prefix_append _ _) hp (by omega)
    cases x with
    | nil => rw [List.append_nil] at hx; rw [hx] at hlt; omega
    | cons e x =>
      have hs' : s.head? = some e := by
        obtain ⟨y, hy⟩ := hp
        rw [← hx, List.append_assoc] at hy
        rw [← List.append_cancel_left hy]; rfl
      exact hs e hs' (hv.2 e (by rw [← hx]; simp))

/-- A text is a run of blanks followed by something else. -/
theorem blank_split (s : Str) : ∃ w s', s = w ++ s' ∧ (∀ d ∈ w, d = ' ' ∨ d = '\t')
    ∧ ∀ d, s'.head? = some d → ¬ (d = ' ' ∨ d = '\t') := by
  induction s with
  | nil => exact ⟨[], [], rfl, by simp, by simp⟩
  | cons c s ih =>
    by_cases hc : c = ' ' ∨ c = '\t'
    · obtain ⟨w, s', rfl, h1, h2⟩ := ih
      refine ⟨c :: w, s', rfl, ?_, h2⟩
      intro d hd
      rcases List.mem_cons.1 hd with rfl | hd
      · exact hc
      · exact h1 d hd
    · refine ⟨[], c :: s, rfl, by simp, ?_⟩
      intro d hd; rw [← Option.some.inj hd]; exact hc

theorem block_winner {u s : Str} (hu : ¬ c!"*/" <:+: u ++ ['*']) :
    Winner .default ('/' :: '*' :: u ++ ['*', '/'] ++ s) .multiLineComment ('/' :: '*' :: u ++ ['*', '/']) := by
  have hmin : ∀ v, Text .multiLineComment v → v <+: '/' :: '*' :: u ++ ['*', '/'] ++ s →
      ('/' :: '*' :: u ++ ['*', '/']).length ≤ v.length := by
    rintro v ⟨u', rfl⟩ hp
    apply Nat.le_of_not_lt
    intro hlt
    have hp2 := List.prefix_of_prefix_length_le hp (List.prefix_append _ s) (Nat.le_of_lt hlt)
    obtain ⟨y, hy⟩ := hp2
    have hy' : u' ++ ['*', '/'] ++ y = u ++ ['*', '/'] := by simpa using hy
    simp only [List.length_cons, List.length_append, List.length_nil] at hlt
    apply hu
    have hpre : u' ++ ['*', '/'] <+: u ++ ['*'] := by
      apply List.prefix_of_prefix_length_le (l₃ := u ++ ['*', '/'])
      · exact ⟨y, hy'⟩
      · exact ⟨['/'], by simp⟩
      · simp only [List.length_append, List.length_cons, List.length_nil]; omega
    obtain ⟨z, hz⟩ := hpre
    exact ⟨u', z, hz⟩
  refine winner_of [.whiteSpace, .singleLineComment] _ rfl
    ⟨⟨u, rfl⟩, List.prefix_append _ _, fun _ v hv hp => hmin v hv hp⟩ ?_
  rintro k hk v ⟨hv, hp, hshort⟩
  cases v with
  | nil => exact absurd rfl (text_ne_nil hv)
  | cons d v =>
    obtain ⟨rfl, hp'⟩ := List.cons_prefix_cons.1 hp
    rcases text_slash hk hv with ⟨rfl, rfl⟩ | ⟨rfl, hh⟩ | ⟨rfl, hh⟩
    · simp
    · cases v with
      | nil => simp at hh
      | cons e v =>
        obtain ⟨rfl, _⟩ := List.cons_prefix_cons.1 hp'
        simp at hh
    · exact ⟨by simp, hshort (.inl rfl) _ ⟨u, rfl⟩ (List.prefix_append _ _)⟩

theorem line_winner {u s : Str} (hu : ∀ c ∈ u, c ≠ '\r' ∧ c ≠ '\n')
    (hs : ∀ c, s.head? = some c → c = '\r' ∨ c = '\n') :
    Winner .default ('/' :: '/' :: u ++ s) .singleLineComment ('/' :: '/' :: u) := by
  refine winner_of [.whiteSpace] _ rfl
    (candidate_of_text (by simp [EndsEarly]) ⟨u, rfl, hu⟩ (List.prefix_append _ _)) ?_
  rintro k hk v ⟨hv, hp, _⟩
  cases v with
  | nil => exact absurd rfl (text_ne_nil hv)
  | cons d v =>
    obtain ⟨rfl, hp'⟩ := List.cons_prefix_cons.1 hp
    rcases text_slash hk hv with ⟨rfl, rfl⟩ | ⟨rfl, hh⟩ | ⟨rfl, hh⟩
    · simp
    · refine ⟨by simp, ?_⟩
      apply Nat.le_of_not_lt
      intro hlt
      obtain ⟨x, hx⟩ := List.prefix_of_prefix_length_le (List.prefix_append ('/' :: '/' :: u) s) hp (by omega)
      cases x with
      | nil => rw [List.append_nil] at hx; rw [hx] at hlt; omega
      | cons e x =>
        have hs' : s.head? = some e := by
          obtain ⟨y, hy⟩ := hp
          rw [← hx, List.append_assoc] at hy
          rw [← List.append_cancel_left hy]; rfl
        obtain ⟨u', he, hu'⟩ := hv
        have hm : e ∈ u' := by
          have h2 : '/' :: '/' :: u ++ e :: x = '/' :: '/' :: u' := hx.trans he
          have h3 : u ++ e :: x = u' := by simpa using h2
          rw [← h3]; simp
        rcases hs e hs' with rfl | rfl
        · exact (hu' _ hm).1 rfl
        · exact (hu' _ hm).2 rfl
    · cases v with
      | nil => simp at hh
      | cons e v =>
        obtain ⟨rfl, _⟩ := List.cons_prefix_cons.1 hp'
        simp at hh

/-- A blank in front of a text does not change its visible segments. -/
theorem cut_blank {c : Char} (hc : c = ' ' ∨ c = '\t') {m' : Mode} {s rest : Str}
    {segs : List (TokKind × Str)} (h : Cut .default s segs m' rest) (hf : Final m' rest) :
    ∃ segs', Cut .default (c :: s) segs' m' rest ∧ visible segs' = visible segs := by
  obtain ⟨w, s', rfl, hw, hs'⟩ := blank_split s
  cases w with
  | nil =>
    refine ⟨(.whiteSpace, [c]) :: segs, ?_, rfl⟩
    exact .cons (w := [c]) (blank_winner (w := []) hc (by simp) hs') h
  | cons d w =>
    have hw1 := blank_winner (w := w) (s := s') (hw d (by simp)) (fun e he => hw e (by simp [he])) hs'
    have hw2 := blank_winner (s := s') hc hw hs'
    generalize ht : d :: w ++ s' = t at h
    cases h with
    | nil =>
      exfalso
      rcases hf with rfl | ⟨_, hst⟩
      · simp at ht
      · have := hst .whiteSpace (by decide) (d :: w) (winner_text hw1)
        exact this (ht ▸ List.prefix_append _ _)
    | @cons _ _ k v t' _ segs hv hcut =>
      rw [ht] at hw1
      obtain ⟨rfl, rfl⟩ := winner_unique hw1 hv
      have := List.append_cancel_left ht
      subst this
      exact ⟨(.whiteSpace, c :: d :: w) :: segs, .cons (w := c :: d :: w) hw2 hcut, rfl⟩

theorem cut_trivia {t b : Str} (ht : Trivia t b) {m' : Mode} {rest : Str} {segs : List (TokKind × Str)}
    (h : Cut .default b segs m' rest) (hf : Final m' rest) :
    ∃ segs', Cut .default (t ++ b) segs' m' rest ∧ visible segs' = visible segs := by
  induction ht with
  | nil => exact ⟨segs, h, rfl⟩
  | blank hc _ ih =>
    obtain ⟨segs', h', hv⟩ := ih h
    obtain ⟨segs'', h'', hv'⟩ := cut_blank hc h' hf
    exact ⟨segs'', h'', hv'.trans hv⟩
  | @block u t b hu _ ih =>
    obtain ⟨segs', h', hv⟩ := ih h
    refine ⟨(.multiLineComment, '/' :: '*' :: u ++ ['*', '/']) :: segs', ?_, hv⟩
    rw [List.append_assoc]
    exact .cons (block_winner hu) h'
  | @line u b hu hb =>
    exact ⟨(.singleLineComment, '/' :: '/' :: u) :: segs, .cons (line_winner hu hb) h, rfl⟩

/-! ## What comes after a blank does not change how the text before it is cut -/

theorem prefix_cases {v a b : Str} (h : v <+: a ++ b) : v <+: a ∨ ∃ x, v = a ++ x ∧ x ≠ [] ∧ x <+: b := by
  by_cases hl : v.length ≤ a.length
  · exact .inl (List.prefix_of_prefix_length_le h (List.prefix_append _ _) hl)
  · obtain ⟨x, hx⟩ := List.prefix_of_prefix_length_le (List.prefix_append a b) h (by omega)
    refine .inr ⟨x, hx.symm, ?_, ?_⟩
    · rintro rfl; rw [List.append_nil] at hx; subst hx; omega
    · rw [← hx] at h; exact (List.prefix_append_right_inj a).1 h

theorem prefix_change {v a b b' : Str} (h : v <+: a ++ b) (hl : v.length ≤ a.length) : v <+: a ++ b' :=
  (List.prefix_of_prefix_length_le h (List.prefix_append _ _) hl).trans (List.prefix_append _ _)

theorem winner_stable {m : Mode} {k : TokKind} {w x b b' : Str}
    (h : Winner m (w ++ x ++ ' ' :: b) k w) (hq : k ≠ .tripleQuote)
    (hd : k = .division → x.head? ≠ some '*') : Winner m (w ++ x ++ ' ' :: b') k w := by
  have split : ∀ y : Str, w ++ x ++ ' ' :: y = (w ++ x ++ [' ']) ++ y := by intro y; simp
  rw [split] at h ⊢
  have hwne := winner_ne_nil h
  have hwlen : w.length ≤ (w ++ x ++ [' ']).length := by simp
  have hwpre : ∀ y, w <+: (w ++ x ++ [' ']) ++ y := fun y => ⟨x ++ [' '] ++ y, by simp⟩
  have hwin := h
  obtain ⟨pre, post, ho, hc, hlt, hle⟩ := h
  -- a candidate of the new text is one of the old text
  have back : ∀ k' ∈ order m, ∀ v, Candidate k' ((w ++ x ++ [' ']) ++ b') v →
      Candidate k' ((w ++ x ++ [' ']) ++ b) v := by
    rintro k' hk' v ⟨hv, hp, hmin⟩
    by_cases hvl : v.length ≤ (w ++ x ++ [' ']).length
    · refine ⟨hv, prefix_change hp hvl, fun he v' hv' hp' => ?_⟩
      by_cases hvl' : v'.length ≤ (w ++ x ++ [' ']).length
      · exact hmin he v' hv' (prefix_change hp' hvl')
      · omega
    · exfalso
      -- `v` contains the blank
      have hvx : w ++ x ++ [' '] <+: v :=
        List.prefix_of_prefix_length_le (List.prefix_append _ _) hp (by omega)
      obtain ⟨z, hz⟩ := hvx
      have hsp : ' ' ∈ v := by rw [← hz]; simp
      have hin : ∀ c ∈ w ++ x ++ [' '], c ∈ v := by intro c hc; rw [← hz]; exact List.mem_append_left _ hc
      have over : ¬ (Candidate k' ((w ++ x ++ [' ']) ++ b) (w ++ x ++ [' '])) := by
        intro hcand
        have := winner_max hwin hk' hcand
        simp at this
        omega
      rcases text_space hk' hv hsp with rfl | rfl | rfl | rfl | rfl
      · exact over (candidate_of_text (by simp [EndsEarly]) ⟨by simp, fun c hc => hv.2 c (hin c hc)⟩
          (List.prefix_append _ _))
      · exact over (candidate_of_text (by simp [EndsEarly]) ⟨by simp, fun c hc => hv.2 c (hin c hc)⟩
          (List.prefix_append _ _))
      · obtain ⟨u, hu, hu'⟩ := hv
        -- the comment would have swallowed the blank
        apply over
        refine candidate_of_text (by simp [EndsEarly]) ?_ (List.prefix_append _ _)
        have e : w ++ x ++ [' '] ++ z = '/' :: '/' :: u := hz.trans hu
        generalize hp : w ++ x ++ [' '] = p at e hz
        match p, hp, e with
        | [], hp, _ => simp at hp
        | [c], hp, e =>
          exfalso
          have : w ++ x = [] := by
            have := congrArg List.length hp
            simp at this
            cases w with
            | nil => exact absurd rfl hwne
            | cons _ _ => simp at this; omega
          exact hwne (List.append_eq_nil_iff.1 this).1
        | c :: d :: p, hp, e =>
          simp only [List.cons_append, List.cons.injEq] at e
          obtain ⟨rfl, rfl, rfl⟩ := e
          exact ⟨p, rfl, fun c hc => hu' c (List.mem_append_left _ hc)⟩
      · obtain ⟨u, hu⟩ := hv
        have e : w ++ x ++ [' '] ++ z = '/' :: '*' :: (u ++ ['*', '/']) := by rw [hz, hu]; simp
        have hm : m = .default := by cases m with
          | default => rfl
          | versionStatement => simp [order] at hk'
        subst hm
        cases w with
        | nil => exact hwne rfl
        | cons c w =>
          obtain ⟨rfl, e'⟩ := List.cons.inj e
          rcases text_slash (winner_mem hwin) (winner_text hwin) with ⟨hk, rfl⟩ | ⟨hk, hh⟩ | ⟨rfl, _⟩
          · cases x with
            | nil => simp at e'
            | cons d x =>
              obtain ⟨rfl, _⟩ := List.cons.inj e'
              exact hd hk rfl
          · cases w with
            | nil => simp at hh
            | cons d w =>
              obtain ⟨rfl, _⟩ := List.cons.inj e'
              simp at hh
          · have := hmin (.inl rfl) _ (winner_text hwin) (hwpre b')
            omega
      · obtain ⟨u, hu⟩ := hv
        have e : w ++ x ++ [' '] ++ z = '\'' :: '\'' :: '\'' :: (u ++ c!"'''") := by rw [hz, hu]; simp
        have hm : m = .default := by cases m with
          | default => rfl
          | versionStatement => simp [order] at hk'
        subst hm
        cases w with
        | nil => exact hwne rfl
        | cons c w =>
          obtain ⟨rfl, e'⟩ := List.cons.inj e
          rcases text_quote (winner_mem hwin) (winner_text hwin) with hk | rfl
          · exact hq hk
          · have := hmin (.inr rfl) _ (winner_text hwin) (hwpre b')
            omega
  refine ⟨pre, post, ho, ?_, ?_, ?_⟩
  · refine ⟨hc.1, hwpre b', fun he v hv hp => ?_⟩
    by_cases hvl : v.length ≤ (w ++ x ++ [' ']).length
    · exact hc.2.2 he v hv (prefix_change hp hvl)
    · omega
  · intro k' hk' v hv
    exact hlt k' hk' v (back k' (by rw [ho]; simp [hk']) v hv)
  · intro k' hk' v hv
    exact hle k' hk' v (back k' (by rw [ho]; exact List.mem_append_right _ hk') v hv)

theorem cut_stable {m m' : Mode} {s rest : Str} {segs : List (TokKind × Str)} (h : Cut m s segs m' rest)
    (hcl : Closed segs) {b : Str} (hr : rest = ' ' :: b) (b' : Str) :
    Cut m (covered segs ++ ' ' :: b') segs m' (' ' :: b') := by
  induction h with
  | nil => exact .nil _ _
  | @cons m m' k w s rest segs hw hcut ih =>
    have hcl' := hcl
    obtain ⟨hq, hd, hcl⟩ := hcl
    have hs := cut_covered hcut
    have e : covered ((k, w) :: segs) ++ ' ' :: b' = w ++ (covered segs ++ ' ' :: b') := by simp [covered]
    rw [e]
    refine .cons ?_ (ih hcl hr)
    rw [hs, hr, ← List.append_assoc] at hw
    rw [← List.append_assoc]
    refine winner_stable hw hq ?_
    intro hk
    cases segs with
    | nil => simp [covered]
    | cons p segs =>
      have := hd hk p (by simp)
      obtain ⟨k', w'⟩ := p
      generalize hss : covered ((k', w') :: segs) = cc at *
      cases w' with
      | nil =>
        exfalso
        cases hcut with
        | cons hw' _ => exact winner_ne_nil hw' rfl
      | cons d w' =>
        simp [covered] at hss
        rw [← hss]
        simpa using this

end Qasm.Lexer
