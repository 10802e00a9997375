import Verif.Spec.Lines
import Verif.Lemmas.Trivia
import Verif.Lemmas.AppendText
/-!
# Helper lemmas: texts that differ in line ends are cut alike
-/

namespace Qasm
namespace Lines

open Spec TokKind

theorem unix_crlf (s : Str) : unix ('\r' :: '\n' :: s) = '\n' :: unix s := by simp [unix]

theorem unix_cons {c : Char} {s : Str} (h : c = '\r' → s.head? ≠ some '\n') : unix (c :: s) = c :: unix s := by
  cases s with
  | nil => rfl
  | cons d s =>
    rw [unix, if_neg]
    rintro ⟨rfl, rfl⟩
    exact h rfl rfl

theorem unix_eq_nil {s : Str} : unix s = [] ↔ s = [] := by
  constructor
  · intro h
    match s with
    | [] => rfl
    | [c] => simp [unix] at h
    | c :: d :: s => rw [unix] at h; split at h <;> simp at h
  · rintro rfl; rfl

/-- Induction along the lines of a text. -/
theorem lines_induction {P : Str → Prop} (h0 : P []) (h1 : ∀ s, P s → P ('\r' :: '\n' :: s))
    (h2 : ∀ c s, (c = '\r' → s.head? ≠ some '\n') → P s → P (c :: s)) : ∀ s, P s
  | [] => h0
  | [c] => h2 c [] (by simp) h0
  | c :: d :: s => by
    by_cases h : c = '\r' ∧ d = '\n'
    · rw [h.1, h.2]; exact h1 s (lines_induction h0 h1 h2 s)
    · exact h2 c (d :: s) (fun hc hd => h ⟨hc, by simpa using hd⟩) (lines_induction h0 h1 h2 (d :: s))

/-- A text that does not end within a line end. -/
def Whole (w : Str) : Prop := w.getLast? ≠ some '\r'

theorem whole_tail {c : Char} {w : Str} (h : Whole (c :: w)) : Whole w := by
  unfold Whole at *
  cases w with
  | nil => simp
  | cons d w => simpa using h

theorem unix_append {v : Str} (x : Str) : Whole v → unix (v ++ x) = unix v ++ unix x := by
  induction v using lines_induction with
  | h0 => intro _; rfl
  | h1 s ih =>
    intro h
    have := ih (whole_tail (whole_tail h))
    rw [unix_crlf, List.cons_append, List.cons_append, unix_crlf, this]
    rfl
  | h2 c s hc ih =>
    intro h
    have := ih (whole_tail h)
    rw [unix_cons hc, List.cons_append, unix_cons, this]
    · rfl
    · intro he
      cases s with
      | nil => subst he; exact absurd rfl h
      | cons d s => simpa using hc he

theorem whole_unix {v : Str} : Whole (unix v) ↔ Whole v := by
  induction v using lines_induction with
  | h0 => rfl
  | h1 s ih =>
    rw [unix_crlf]
    cases s with
    | nil => simp [Whole, unix]
    | cons d s =>
      have hne : unix (d :: s) ≠ [] := by rw [Ne, unix_eq_nil]; simp
      obtain ⟨e, t, he⟩ := List.exists_cons_of_ne_nil hne
      simp only [Whole, he, List.getLast?_cons_cons] at ih ⊢
      exact ih
  | h2 c s hc ih =>
    rw [unix_cons hc]
    cases s with
    | nil => rfl
    | cons d s =>
      have hne : unix (d :: s) ≠ [] := by rw [Ne, unix_eq_nil]; simp
      obtain ⟨e, t, he⟩ := List.exists_cons_of_ne_nil hne
      simp only [Whole, he, List.getLast?_cons_cons] at ih ⊢
      exact ih

/-- A prefix that does not end within a line end has a counterpart. -/
theorem prefix_lift {s : Str} : ∀ {p : Str}, p <+: unix s → Whole p → ∃ w, w <+: s ∧ unix w = p := by
  induction s using lines_induction with
  | h0 => intro p hp _; exact ⟨[], List.prefix_refl _, (List.prefix_nil.1 hp).symm⟩
  | h1 s ih =>
    intro p hp hw
    rw [unix_crlf] at hp
    cases p with
    | nil => exact ⟨[], List.nil_prefix, rfl⟩
    | cons c p =>
      obtain ⟨rfl, hq⟩ := List.cons_prefix_cons.1 hp
      obtain ⟨w, h1, h2⟩ := ih hq (whole_tail hw)
      exact ⟨'\r' :: '\n' :: w, by simpa using h1, by rw [unix_crlf, h2]⟩
  | h2 c s hc ih =>
    intro p hp hw
    rw [unix_cons hc] at hp
    cases p with
    | nil => exact ⟨[], List.nil_prefix, rfl⟩
    | cons d p =>
      obtain ⟨rfl, hq⟩ := List.cons_prefix_cons.1 hp
      obtain ⟨w, h1, h2⟩ := ih hq (whole_tail hw)
      refine ⟨d :: w, by simpa using h1, ?_⟩
      rw [unix_cons, h2]
      intro hd hh
      refine hc hd ?_
      cases w with
      | nil => simp at hh
      | cons e w =>
        obtain ⟨r, rfl⟩ := h1
        simpa using hh

theorem unix_plain {w : Str} (h : '\n' ∉ unix w) : unix w = w := by
  induction w using lines_induction with
  | h0 => rfl
  | h1 s _ => rw [unix_crlf] at h; simp at h
  | h2 c s hc ih =>
    rw [unix_cons hc] at h ⊢
    rw [ih (fun hm => h (List.mem_cons_of_mem _ hm))]

theorem feed_unix {w : Str} : '\n' ∈ unix w ↔ '\n' ∈ w := by
  induction w using lines_induction with
  | h0 => rfl
  | h1 s _ => rw [unix_crlf]; simp
  | h2 c s hc ih => rw [unix_cons hc]; simp [ih]

theorem same_plain {w w' : Str} (h : unix w = unix w') (hw : '\n' ∉ w) : w = w' := by
  have h1 : '\n' ∉ unix w := fun h => hw (feed_unix.1 h)
  rw [← unix_plain h1, h, unix_plain (h ▸ h1)]

/-! ## Texts of tokens -/

theorem text_whole {k : TokKind} {w : Str} (h : Text k w) : Whole w := by
  have digits : ∀ w : Str, Digits w → Whole w := by
    intro w hw hl
    have := hw.2 '\r' (List.mem_of_getLast? hl)
    simp [Digit] at this
  have tail : ∀ (a b : Str), b ≠ [] → Whole b → Whole (a ++ b) := by
    intro a b hne hb
    unfold Whole
    rw [List.getLast?_append]
    cases hl : b.getLast? with
    | none => simp [List.getLast?_eq_none_iff.1 hl] at hne
    | some c =>
      have := hb
      rw [Whole, hl] at this
      simpa using this
  cases k with
  | whiteSpace => intro hl; have := h.2 _ (List.mem_of_getLast? hl); simp at this
  | versionWhiteSpace => intro hl; have := h.2 _ (List.mem_of_getLast? hl); simp at this
  | singleLineComment =>
    obtain ⟨u, rfl, hu⟩ := h
    intro hl
    have := List.mem_of_getLast? hl
    simp only [List.mem_cons] at this
    rcases this with h | h | h
    · simp at h
    · simp at h
    · exact (hu _ h).1 rfl
  | multiLineComment => obtain ⟨u, rfl⟩ := h; exact tail _ _ (by simp) (by simp [Whole])
  | newLine => rcases h with rfl | rfl <;> simp [Whole]
  | booleanLiteral => rcases h with rfl | rfl <;> simp [Whole]
  | integerLiteral => exact digits _ h
  | floatLiteral =>
    obtain ⟨a, b, e, rfl, ha, hb, -, he⟩ := h
    rcases he with rfl | ⟨x, sign, ds, rfl, -, -, hd⟩
    · intro hl
      have := List.mem_of_getLast? hl
      simp only [List.append_nil, List.mem_append, List.mem_cons] at this
      rcases this with h | h | h
      · have := ha _ h; simp [Digit] at this
      · simp at h
      · have := hb _ h; simp [Digit] at this
    · have := tail (a ++ '.' :: b ++ (x :: sign)) ds hd.1 (digits _ hd)
      simpa using this
  | identifier =>
    obtain ⟨c, u, rfl, hc, hu⟩ := h
    intro hl
    have := List.mem_of_getLast? hl
    rcases List.mem_cons.1 this with h | h
    · rw [← h] at hc; simp [Letter] at hc
    · have := hu _ h; simp [Letter, Digit] at this
  | rawTextString => obtain ⟨u, rfl⟩ := h; exact tail _ _ (by simp) (by simp [Whole])
  | versionNumber =>
    rcases h with h | ⟨a, b, rfl, -, hb⟩
    · exact digits _ h
    · have := tail (a ++ ['.']) b hb.1 (digits _ hb)
      simpa using this
  | eof => cases h
  | _ => obtain rfl := Option.some.inj h; simp [Whole]

/-- Token texts without line ends. -/
theorem text_line {k : TokKind} {w : Str} (h : Text k w) (h1 : k ≠ newLine) (h2 : k ≠ multiLineComment) (h3 : k ≠ rawTextString) :
    '\n' ∉ w := by
  have digits : ∀ {w : Str}, (∀ c ∈ w, Digit c) → '\n' ∉ w := by
    intro w hw hl
    have := hw _ hl
    simp [Digit] at this
  cases k with
  | whiteSpace => intro hl; have := h.2 _ hl; simp at this
  | versionWhiteSpace => intro hl; have := h.2 _ hl; simp at this
  | singleLineComment =>
    obtain ⟨u, rfl, hu⟩ := h
    intro hl
    simp only [List.mem_cons] at hl
    rcases hl with h | h | h
    · simp at h
    · simp at h
    · exact (hu _ h).2 rfl
  | multiLineComment => exact absurd rfl h2
  | newLine => exact absurd rfl h1
  | booleanLiteral => rcases h with rfl | rfl <;> simp
  | integerLiteral => exact digits h.2
  | floatLiteral =>
    obtain ⟨a, b, e, rfl, ha, hb, -, he⟩ := h
    have hxe : '\n' ∉ e := by
      rcases he with rfl | ⟨x, sign, ds, rfl, hx, hs, hd⟩
      · simp
      · have := digits hd.2
        rcases hx with rfl | rfl <;> rcases hs with rfl | rfl | rfl <;> simp [this]
    simp [digits ha, digits hb, hxe]
  | identifier =>
    obtain ⟨c, u, rfl, hc, hu⟩ := h
    intro hl
    rcases List.mem_cons.1 hl with h | h
    · rw [← h] at hc; simp [Letter] at hc
    · have := hu _ h; simp [Letter, Digit] at this
  | rawTextString => exact absurd rfl h3
  | versionNumber =>
    rcases h with h | ⟨a, b, rfl, ha, hb⟩
    · exact digits h.2
    · simp [digits ha.2, digits hb.2]
  | eof => cases h
  | _ => obtain rfl := Option.some.inj h; simp

theorem unix_between {a b u : Str} (ha : Whole a) (hb : b.head? ≠ some '\n') : unix (a ++ u ++ b) = unix a ++ unix u ++ unix b := by
  have : ∀ u : Str, unix (u ++ b) = unix u ++ unix b := by
    intro u
    induction u using lines_induction with
    | h0 => rfl
    | h1 s ih => rw [unix_crlf, List.cons_append, List.cons_append, unix_crlf, ih]; rfl
    | h2 c s hc ih =>
      rw [unix_cons hc, List.cons_append, unix_cons, ih]
      · rfl
      · intro h
        cases s with
        | nil => simpa using hb
        | cons d s => simpa using hc h
  rw [List.append_assoc, unix_append _ ha, this, List.append_assoc]

/-- A text with the same lines that starts and ends alike. -/
theorem between_lift {a b : Str} (ha : '\n' ∉ a) (har : '\r' ∉ a) (hb : '\n' ∉ b) (hbr : '\r' ∉ b) {u w : Str}
    (h : unix w = unix (a ++ u ++ b)) : ∃ u', w = a ++ u' ++ b ∧ unix u' = unix u := by
  have ua : unix a = a := unix_plain fun h => ha (feed_unix.1 h)
  have ub : unix b = b := unix_plain fun h => hb (feed_unix.1 h)
  have wa : Whole a := fun h => har (List.mem_of_getLast? h)
  have hh : b.head? ≠ some '\n' := fun h => hb (List.mem_of_head? h)
  rw [unix_between wa hh, ua, ub] at h
  -- the front
  have front : ∀ {a : Str} (_ : '\n' ∉ a) (_ : '\r' ∉ a) {w x : Str}, unix w = a ++ x → ∃ v, w = a ++ v ∧ unix v = x := by
    intro a
    induction a with
    | nil => intro _ _ w x h; exact ⟨w, rfl, h⟩
    | cons c a ih =>
      intro h1 h2 w x h
      simp only [List.mem_cons, not_or] at h1 h2
      induction w using lines_induction with
      | h0 => simp [unix] at h
      | h1 s _ => rw [unix_crlf] at h; exact absurd (List.cons.inj h).1 h1.1
      | h2 d s hc _ =>
        rw [unix_cons hc] at h
        obtain ⟨rfl, h'⟩ := List.cons.inj h
        obtain ⟨v, rfl, hv⟩ := ih h1.2 h2.2 h'
        exact ⟨v, rfl, hv⟩
  -- the back
  have back : ∀ {b : Str} (_ : '\n' ∉ b), ∀ {w x : Str}, unix w = x ++ b → ∃ v, w = v ++ b ∧ unix v = x := by
    intro b hb w
    induction w using lines_induction with
    | h0 => intro x h; simp [unix] at h; obtain ⟨rfl, rfl⟩ := h; exact ⟨[], rfl, rfl⟩
    | h1 s ih =>
      intro x h
      rw [unix_crlf] at h
      cases x with
      | nil => exact absurd (by rw [List.nil_append] at h; rw [← h]; simp) hb
      | cons c x =>
        obtain ⟨rfl, h'⟩ := List.cons.inj h
        obtain ⟨v, rfl, hv⟩ := ih h'
        exact ⟨'\r' :: '\n' :: v, rfl, by rw [unix_crlf, hv]⟩
    | h2 c s hc ih =>
      intro x h
      rw [unix_cons hc] at h
      cases x with
      | nil =>
        refine ⟨[], ?_, rfl⟩
        rw [List.nil_append] at h ⊢
        rw [← h, unix_plain]
        intro hm
        exact hb (by rw [← h]; exact List.mem_cons_of_mem _ hm)
      | cons d x =>
        obtain ⟨rfl, h'⟩ := List.cons.inj h
        obtain ⟨v, rfl, hv⟩ := ih h'
        refine ⟨c :: v, rfl, ?_⟩
        rw [unix_cons, hv]
        intro hr hh
        refine hc hr ?_
        cases v with
        | nil => simp at hh
        | cons e v => simpa using hh
  rw [List.append_assoc] at h
  obtain ⟨v, rfl, hv⟩ := front ha har h
  obtain ⟨u', rfl, hu⟩ := back hb hv
  exact ⟨u', by rw [List.append_assoc], hu⟩

theorem text_lines {k : TokKind} {w w' : Str} (h : Text k w) (he : unix w = unix w') : Text k w' := by
  by_cases h1 : k = newLine
  · subst h1
    have hu : unix w' = ['\n'] := by rcases h with rfl | rfl <;> rw [← he] <;> rfl
    induction w' using lines_induction with
    | h0 => simp [unix] at hu
    | h1 s _ =>
      rw [unix_crlf] at hu
      have := unix_eq_nil.1 (List.cons.inj hu).2
      subst this
      exact .inr rfl
    | h2 c s hc _ =>
      rw [unix_cons hc] at hu
      obtain ⟨rfl, hv⟩ := List.cons.inj hu
      have := unix_eq_nil.1 hv
      subst this
      exact .inl rfl
  by_cases h2 : k = multiLineComment
  · subst h2
    obtain ⟨u, rfl⟩ := h
    obtain ⟨u', rfl, -⟩ := between_lift (a := c!"/*") (b := c!"*/") (by simp) (by simp) (by simp) (by simp) he.symm
    exact ⟨u', rfl⟩
  by_cases h3 : k = rawTextString
  · subst h3
    obtain ⟨u, rfl⟩ := h
    obtain ⟨u', rfl, -⟩ := between_lift (a := c!"'''") (b := c!"'''") (by simp) (by simp) (by simp) (by simp) he.symm
    exact ⟨u', rfl⟩
  rw [← same_plain he (text_line h h1 h2 h3)]
  exact h

/-! ## Winners -/

section
open Lexer (Mode)

theorem prefix_unix {v w : Str} (hv : Whole v) (h : v <+: w) : unix v <+: unix w := by
  obtain ⟨x, rfl⟩ := h
  rw [unix_append _ hv]
  exact List.prefix_append _ _

theorem text_lift {k : TokKind} {s s' w : Str} (he : unix s = unix s') (h : Text k w) (hp : w <+: s) :
    ∃ w', Text k w' ∧ w' <+: s' ∧ unix w' = unix w := by
  have hw := text_whole h
  obtain ⟨w', h1, h2⟩ := prefix_lift (he ▸ prefix_unix hw hp) (whole_unix.2 hw)
  exact ⟨w', text_lines h h2.symm, h1, h2⟩

theorem length_lt {s v w : Str} (hv : v <+: s) (hw : w <+: s) (wv : Whole v) (ww : Whole w) :
    v.length < w.length ↔ (unix v).length < (unix w).length := by
  constructor
  · intro h
    obtain ⟨x, rfl⟩ := List.prefix_of_prefix_length_le hv hw (by omega)
    rw [unix_append _ wv]
    have : x ≠ [] := by rintro rfl; simp at h
    have : (unix x).length ≠ 0 := fun h => this (unix_eq_nil.1 (List.eq_nil_of_length_eq_zero h))
    simp; omega
  · intro h
    refine Decidable.byContradiction fun hn => ?_
    have := (prefix_unix ww (List.prefix_of_prefix_length_le hw hv (by omega))).length_le
    omega

theorem candidate_lift {k : TokKind} {s s' w : Str} (he : unix s = unix s') (h : Candidate k s w) :
    ∃ w', Candidate k s' w' ∧ unix w' = unix w := by
  obtain ⟨h1, h2, h3⟩ := h
  obtain ⟨w', g1, g2, g3⟩ := text_lift he h1 h2
  refine ⟨w', ⟨g1, g2, fun hk v hv hp => ?_⟩, g3⟩
  refine Decidable.byContradiction fun hn => ?_
  have hlt := (length_lt hp g2 (text_whole hv) (text_whole g1)).1 (by omega)
  obtain ⟨v', f1, f2, f3⟩ := text_lift he.symm hv hp
  have := h3 hk v' f1 f2
  have := (length_lt f2 h2 (text_whole f1) (text_whole h1)).2 (by rw [f3, ← g3]; exact hlt)
  omega

theorem winner_lift {m : Mode} {k : TokKind} {s s' w : Str} (he : unix s = unix s') (h : Winner m s k w) :
    ∃ w', Winner m s' k w' ∧ unix w' = unix w := by
  obtain ⟨pre, post, ho, hc, hlt, hle⟩ := h
  obtain ⟨w', hc', hw'⟩ := candidate_lift he hc
  have wo : Whole w := text_whole hc.1
  have wo' : Whole w' := text_whole hc'.1
  refine ⟨w', ⟨pre, post, ho, hc', fun k' hk' v hv => ?_, fun k' hk' v hv => ?_⟩, hw'⟩
  · obtain ⟨v', hv', e⟩ := candidate_lift he.symm hv
    have := (length_lt hv'.2.1 hc.2.1 (text_whole hv'.1) wo).1 (hlt k' hk' v' hv')
    exact (length_lt hv.2.1 hc'.2.1 (text_whole hv.1) wo').2 (by rw [← e, hw']; exact this)
  · obtain ⟨v', hv', e⟩ := candidate_lift he.symm hv
    refine Decidable.byContradiction fun hn => ?_
    have := (length_lt hc'.2.1 hv.2.1 wo' (text_whole hv.1)).1 (by omega)
    have := (length_lt hc.2.1 hv'.2.1 wo (text_whole hv'.1)).2 (by rw [e, ← hw']; exact this)
    have := hle k' hk' v' hv'
    omega

theorem stuck_lift {m : Mode} {s s' : Str} (he : unix s = unix s') (h : Stuck m s) : Stuck m s' := by
  intro k hk w hw hp
  obtain ⟨w', h1, h2, -⟩ := text_lift he.symm hw hp
  exact h k hk w' h1 h2

/-- Two segments that differ in line ends only. -/
def Seg (x y : TokKind × Str) : Prop := x.1 = y.1 ∧ unix x.2 = unix y.2 ∧ Whole x.2 ∧ Whole y.2 ∧ Text x.1 x.2

theorem cut_lift {m m' : Mode} {s rest : Str} {segs : List (TokKind × Str)} (h : Cut m s segs m' rest) :
    ∀ {s' : Str}, unix s = unix s' → ∃ segs' rest', Cut m s' segs' m' rest' ∧ Forall2 Seg segs segs' ∧ unix rest = unix rest' := by
  induction h with
  | nil m s => intro s' he; exact ⟨[], s', .nil _ _, .nil, he⟩
  | @cons m m' k w s rest segs hw hcut ih =>
    intro s' he
    obtain ⟨w', hw', e⟩ := winner_lift he hw
    have t := Lexer.winner_text hw
    have t' := Lexer.winner_text hw'
    have hp : w' <+: s' := by obtain ⟨_, _, _, hc, _⟩ := hw'; exact hc.2.1
    obtain ⟨r', rfl⟩ := hp
    rw [unix_append _ (text_whole t), unix_append _ (text_whole t'), e] at he
    obtain ⟨segs', rest', h1, h2, h3⟩ := ih (List.append_cancel_left he)
    exact ⟨(k, w') :: segs', rest', .cons hw' h1, .cons ⟨rfl, e.symm, text_whole t, text_whole t', t⟩ h2, h3⟩

/-! ## Positions -/

theorem count_unix (b : Str) : (unix b).count '\n' = b.count '\n' := by
  induction b using lines_induction with
  | h0 => rfl
  | h1 s ih => rw [unix_crlf]; simp [ih]
  | h2 c s hc ih => rw [unix_cons hc]; simp [List.count_cons, ih]

theorem lastLine_cons (c : Char) (b : Str) : lastLine (c :: b) = if '\n' ∈ b then lastLine b else if c = '\n' then b else c :: b := by
  unfold lastLine
  rw [List.reverse_cons]
  have h1 : ∀ (x y : Str), '\n' ∈ x → (x ++ y).takeWhile (· ≠ '\n') = x.takeWhile (· ≠ '\n') := by
    intro x y hx
    induction x with
    | nil => simp at hx
    | cons d x ih =>
      simp only [List.cons_append, List.takeWhile_cons]
      by_cases hd : d = '\n'
      · simp [hd]
      · have : '\n' ∈ x := by
          rcases List.mem_cons.1 hx with h | h
          · exact absurd h.symm hd
          · exact h
        simp only [ih this]
  have h2 : ∀ (x y : Str), '\n' ∉ x → (x ++ y).takeWhile (· ≠ '\n') = x ++ y.takeWhile (· ≠ '\n') := by
    intro x y hx
    induction x with
    | nil => rfl
    | cons d x ih =>
      simp only [List.mem_cons, not_or] at hx
      rw [List.cons_append, List.takeWhile_cons, if_pos (by simpa using fun h => hx.1 h.symm), ih hx.2]
      rfl
  split
  · rename_i h
    rw [h1 _ _ (by simpa using h)]
  · rename_i h
    rw [h2 _ _ (by simpa using h)]
    split
    · rename_i hc; simp [hc]
    · rename_i hc; simp [hc]

theorem column_unix (b : Str) : columnAfter (unix b) = columnAfter b := by
  have : lastLine (unix b) = lastLine b := by
    induction b using lines_induction with
    | h0 => rfl
    | h1 s ih =>
      rw [unix_crlf, lastLine_cons, lastLine_cons, lastLine_cons, if_pos (List.mem_cons_self ..)]
      simp only [feed_unix, ih, if_true]
      split
      · rfl
      · rename_i h; exact unix_plain (fun hm => h (feed_unix.1 hm))
    | h2 c s hc ih =>
      rw [unix_cons hc, lastLine_cons, lastLine_cons]
      simp only [feed_unix, ih]
      split
      · rfl
      · rename_i h
        rw [unix_plain (fun hm => h (feed_unix.1 hm))]
  rw [columnAfter, this, columnAfter]

theorem line_unix (b : Str) : lineAfter (unix b) = lineAfter b := by rw [lineAfter, count_unix, lineAfter]

theorem tokens_lift {segs segs' : List (TokKind × Str)} (h : Forall2 Seg segs segs') :
    ∀ {b b' : Str}, unix b = unix b' → Whole b → Whole b' → Forall2 AlikeToken (tokensOf b segs) (tokensOf b' segs') := by
  induction h with
  | nil => intros; exact .nil
  | @cons x y xs ys hxy _ ih =>
    intro b b' he hb hb'
    obtain ⟨k, w⟩ := x
    obtain ⟨k', w'⟩ := y
    obtain ⟨rfl, e, hw, hw', ht⟩ := hxy
    have app : ∀ {a b : Str}, Whole a → Whole b → Whole (a ++ b) := by
      intro a b ha hb
      unfold Whole at *
      rw [List.getLast?_append]
      cases hl : b.getLast? with
      | none => simpa using ha
      | some c => rw [hl] at hb; simpa using hb
    have ih := ih (b := b ++ w) (b' := b' ++ w') (by rw [unix_append _ hb, unix_append _ hb', he]; exact congrArg _ e) (app hb hw) (app hb' hw')
    rw [tokensOf, tokensOf]
    split
    · exact ih
    · rename_i hs
      refine .cons ⟨rfl, ?_, ?_, e, fun h1 h2 => same_plain e (text_line ht h1 ?_ h2)⟩ ih
      · show lineAfter b = lineAfter b'; rw [← line_unix, he, line_unix]
      · show columnAfter b = columnAfter b'; rw [← column_unix, he, column_unix]
      · rintro rfl; exact hs rfl

theorem covered_lift {segs segs' : List (TokKind × Str)} (h : Forall2 Seg segs segs') :
    unix (covered segs) = unix (covered segs') := by
  induction h with
  | nil => rfl
  | @cons x y xs ys hxy _ ih =>
    have e1 : covered (x :: xs) = x.2 ++ covered xs := rfl
    have e2 : covered (y :: ys) = y.2 ++ covered ys := rfl
    rw [e1, e2, unix_append _ hxy.2.2.1, unix_append _ hxy.2.2.2.1, ih, hxy.2.1]

/-- Texts that differ in line ends only have the same tokens. -/
theorem lex_lift {s s' : Str} (he : unix s = unix s') :
    (∃ l, Lexer.lex s = .error l ∧ Lexer.lex s' = .error l) ∨
      ∃ ts ts', Lexer.lex s = .ok ts ∧ Lexer.lex s' = .ok ts' ∧ Forall2 AlikeToken ts ts' := by
  obtain ⟨segs, m, rest, hc, hf⟩ := Lexer.cut_exists .default s
  obtain ⟨segs', rest', hc', hs, hr⟩ := cut_lift hc he
  have hcov := covered_lift hs
  rcases hf with rfl | ⟨hne, hst⟩
  · have : rest' = [] := unix_eq_nil.1 hr.symm
    subst this
    refine .inr ⟨_, _, Lexer.lex_of_cut hc, Lexer.lex_of_cut hc', ?_⟩
    have app : ∀ {a b c d : List Token}, Forall2 AlikeToken a b → Forall2 AlikeToken c d → Forall2 AlikeToken (a ++ c) (b ++ d) := by
      intro a b c d h1 h2
      induction h1 with
      | nil => exact h2
      | cons h _ ih => exact .cons h ih
    refine app (tokens_lift hs (b := []) (b' := []) rfl (by simp [Whole]) (by simp [Whole])) (.cons ⟨rfl, ?_, ?_, rfl, fun _ _ => rfl⟩ .nil)
    · show lineAfter s = lineAfter s'; rw [← line_unix, he, line_unix]
    · show columnAfter s = columnAfter s'; rw [← column_unix, he, column_unix]
  · have hne' : rest' ≠ [] := by rintro rfl; exact hne (unix_eq_nil.1 hr)
    refine .inl ⟨_, Lexer.lex_of_stuck hc hne hst, ?_⟩
    rw [Lexer.lex_of_stuck hc' hne' (stuck_lift hr hst)]
    rw [← line_unix (covered segs), ← column_unix (covered segs), hcov, line_unix, column_unix]

end

end Lines
end Qasm
