import Verif.Lemmas.Viable
import Verif.Lemmas.PlaceText
import Verif.Lemmas.WrittenProgram
/-!
# Helper lemmas: completing the text before an offending token
-/

namespace Qasm

open Spec TokKind

namespace Lexer

/-- A winner that is not skipped, or not the end of the text, wins when the text is followed by a blank. -/
theorem winner_blank {m : Mode} {k : TokKind} {w x : Str} (b : Str) (h : Winner m (w ++ x) k w) (hq : k ≠ .tripleQuote)
    (hd : k = .division → x.head? ≠ some '*') (hl : x = [] → Skipped k = false) : Winner m (w ++ (x ++ ' ' :: b)) k w := by
  rw [← List.append_assoc]
  have hwne := winner_ne_nil h
  have hwpre : ∀ y, w <+: (w ++ x) ++ y := fun y => ⟨x ++ y, by simp⟩
  have hwin := h
  obtain ⟨pre, post, ho, hc, hlt, hle⟩ := h
  have old : ∀ {v : Str}, v <+: w ++ x ++ ' ' :: b → v.length ≤ (w ++ x).length → v <+: w ++ x :=
    fun hp hl => List.prefix_of_prefix_length_le hp (List.prefix_append _ _) hl
  -- no blanks and no line comment up to the end
  have over : ∀ k' ∈ order m, k' ∈ [whiteSpace, versionWhiteSpace, singleLineComment] → Text k' (w ++ x) → False := by
    intro k' hk' hs ht
    have hcand : Candidate k' (w ++ x) (w ++ x) :=
      candidate_of_text (by
        simp only [List.mem_cons, List.not_mem_nil, or_false] at hs
        rcases hs with rfl | rfl | rfl <;> simp [EndsEarly]) ht (List.prefix_refl _)
    have := winner_max hwin hk' hcand
    have hx : x = [] := by
      simp only [List.length_append] at this
      exact List.length_eq_zero_iff.1 (by omega)
    have hsk := hl hx
    rw [ho] at hk'
    rcases List.mem_append.1 hk' with hp | hp
    · have := hlt k' hp _ hcand
      simp only [List.length_append] at this
      omega
    · rcases List.mem_cons.1 hp with rfl | hp
      · simp only [List.mem_cons, List.not_mem_nil, or_false] at hs
        rcases hs with rfl | rfl | rfl <;> simp [Skipped] at hsk
      · -- only blanks are preferred to these
        have key : ∀ k ∈ order m, Skipped k = false → ∀ pre post, order m = pre ++ k :: post →
            k' ∈ [whiteSpace, versionWhiteSpace, singleLineComment] → k' ∉ post := by
          intro k hk hsk pre post ho hs hp
          have hnd : (order m).Nodup := by cases m <;> decide
          have hidx : ∀ j ∈ [whiteSpace, versionWhiteSpace, singleLineComment], j ∈ order m → (order m).idxOf j ≤ 1 := by
            cases m <;> decide
          have hmem : k' ∈ order m := by rw [ho]; simp [hp]
          have h1 := hidx k' hs hmem
          rw [ho] at hnd h1
          have hn1 : k' ∉ pre := by
            intro h; exact (List.nodup_append.1 hnd).2.2 k' h k' (List.mem_cons_of_mem _ hp) rfl
          have hn2 : k' ≠ k := by
            rintro rfl
            exact (List.nodup_cons.1 (List.nodup_append.1 hnd).2.1).1 hp
          have hb : (k == k') = false := by simpa using Ne.symm hn2
          rw [List.idxOf_append, if_neg hn1, List.idxOf_cons, hb, cond_false] at h1
          have hpre : pre = [] := List.length_eq_zero_iff.1 (by omega)
          subst hpre
          cases m <;> simp only [order, List.nil_append, List.cons.injEq] at ho <;>
            (obtain ⟨rfl, -⟩ := ho; simp [Skipped] at hsk)
        exact key k (by rw [ho]; simp) hsk pre post ho hs hp
  -- a candidate of the new text is one of the old text
  have back : ∀ k' ∈ order m, ∀ v, Candidate k' (w ++ x ++ ' ' :: b) v → Candidate k' (w ++ x) v := by
    rintro k' hk' v ⟨hv, hp, hmin⟩
    by_cases hvl : v.length ≤ (w ++ x).length
    · exact ⟨hv, old hp hvl, fun he v' hv' hp' => hmin he v' hv' (hp'.trans (List.prefix_append _ _))⟩
    · exfalso
      have hvx : w ++ x ++ [' '] <+: v := by
        refine List.prefix_of_prefix_length_le ⟨b, by simp⟩ hp ?_
        simp only [List.length_append, List.length_cons, List.length_nil] at hvl ⊢
        omega
      obtain ⟨z, hz⟩ := hvx
      have hsp : ' ' ∈ v := by rw [← hz]; simp
      have hin : ∀ c ∈ w ++ x, c ∈ v := by
        intro c hc; rw [← hz]; exact List.mem_append_left _ (List.mem_append_left _ hc)
      rcases text_space hk' hv hsp with rfl | rfl | rfl | rfl | rfl
      · exact over _ hk' (by simp) ⟨by simp [hwne], fun c hc => hv.2 c (hin c hc)⟩
      · exact over _ hk' (by simp) ⟨by simp [hwne], fun c hc => hv.2 c (hin c hc)⟩
      · obtain ⟨u, hu, hu'⟩ := hv
        have e : w ++ x ++ [' '] ++ z = '/' :: '/' :: u := hz.trans hu
        generalize hp : w ++ x = p at e over
        match p, hp, e with
        | [], hp, _ => exact hwne (List.append_eq_nil_iff.1 hp).1
        | [c], hp, e => simp at e
        | c :: d :: p, hp, e =>
          simp only [List.cons_append, List.cons.injEq] at e
          obtain ⟨rfl, rfl, rfl⟩ := e
          exact over _ hk' (by simp) ⟨p, rfl, fun c hc => hu' c (List.mem_append_left _ (List.mem_append_left _ hc))⟩
      · obtain ⟨u, hu⟩ := hv
        have e : w ++ x ++ [' '] ++ z = '/' :: '*' :: (u ++ ['*', '/']) := by rw [hz, hu]; simp
        have hm : m = .default := by cases m with
          | default => rfl
          | versionStatement => simp [order] at hk'
        subst hm
        cases w with
        | nil => exact hwne rfl
        | cons c w =>
          obtain ⟨rfl, e'⟩ := List.cons.inj e
          rcases text_slash (winner_mem hwin) (winner_text hwin) with ⟨hk, rfl⟩ | ⟨hk, hh⟩ | ⟨rfl, _⟩
          · cases x with
            | nil => simp at e'
            | cons d x =>
              obtain ⟨rfl, _⟩ := List.cons.inj e'
              exact hd hk rfl
          · cases w with
            | nil => simp at hh
            | cons d w =>
              obtain ⟨rfl, _⟩ := List.cons.inj e'
              simp at hh
          · have := hmin (.inl rfl) _ (winner_text hwin) (hwpre _)
            simp only [List.length_append] at hvl
            omega
      · obtain ⟨u, hu⟩ := hv
        have e : w ++ x ++ [' '] ++ z = '\'' :: '\'' :: '\'' :: (u ++ c!"'''") := by rw [hz, hu]; simp
        have hm : m = .default := by cases m with
          | default => rfl
          | versionStatement => simp [order] at hk'
        subst hm
        cases w with
        | nil => exact hwne rfl
        | cons c w =>
          obtain ⟨rfl, e'⟩ := List.cons.inj e
          rcases text_quote (winner_mem hwin) (winner_text hwin) with hk | rfl
          · exact hq hk
          · have := hmin (.inr rfl) _ (winner_text hwin) (hwpre _)
            simp only [List.length_append] at hvl
            omega
  refine ⟨pre, post, ho, ?_, ?_, ?_⟩
  · refine ⟨hc.1, hwpre _, fun he v hv hp => ?_⟩
    by_cases hvl : v.length ≤ (w ++ x).length
    · exact hc.2.2 he v hv (old hp hvl)
    · simp only [List.length_append] at hvl
      omega
  · intro k' hk' v hv
    exact hlt k' hk' v (back k' (by rw [ho]; simp [hk']) v hv)
  · intro k' hk' v hv
    exact hle k' hk' v (back k' (by rw [ho]; exact List.mem_append_right _ hk') v hv)

/-- Segments that leave nothing open and end with a token are cut off in front of a blank, whatever follows. -/
theorem cut_then_blank {m m' : Mode} {s rest : Str} {segs : List (TokKind × Str)} (h : Cut m s segs m' rest)
    (hcl : Closed segs) (hl : ∀ p, segs.getLast? = some p → Skipped p.1 = false) (b : Str) :
    Cut m (covered segs ++ ' ' :: b) segs m' (' ' :: b) := by
  induction h with
  | nil => exact .nil _ _
  | @cons m m' k w s rest segs hw hcut ih =>
    obtain ⟨hq, hd, hcl⟩ := hcl
    have hs := cut_covered hcut
    have e : covered ((k, w) :: segs) ++ ' ' :: b = w ++ (covered segs ++ ' ' :: b) := by simp [covered]
    rw [e]
    rw [hs] at hw
    refine .cons (winner_blank b (Place.winner_shorter hw) hq ?_ ?_) (ih hcl ?_)
    · intro hk
      cases segs with
      | nil => simp [covered]
      | cons p segs =>
        have := hd hk p (by simp)
        obtain ⟨k', w'⟩ := p
        cases w' with
        | nil =>
          exfalso
          cases hcut with
          | cons hw' _ => exact winner_ne_nil hw' rfl
        | cons d w' => simpa [covered] using this
    · intro hx
      cases segs with
      | nil => exact hl (k, w) rfl
      | cons p segs =>
        exfalso
        obtain ⟨k', w'⟩ := p
        cases hcut with
        | cons hw' _ =>
          have := winner_ne_nil hw'
          simp [covered, this] at hx
    · intro p hp
      cases segs with
      | nil => simp at hp
      | cons q segs => exact hl p (by simpa using hp)

/-! ## The segments of a start of a program -/

/-- The types of the tokens of the segments, at the start of types in the shape of a program: nothing is left open, and the mode
is the one that the rest expects. -/
theorem shape_closed {m m' : Mode} {s rest : Str} {segs : List (TokKind × Str)} (h : Cut m s segs m' rest) :
    ∀ n b ks, Parser.Scan n ((visible segs).map (·.1) ++ ks) → Parser.Shape b ((visible segs).map (·.1) ++ ks) →
      (b = true ↔ m = .versionStatement) → (∀ p ∈ segs, p.1 ≠ eof) →
      Closed segs ∧ ∃ b', Parser.Shape b' ks ∧ (b' = true ↔ m' = .versionStatement) := by
  induction h with
  | nil m s => intro n b ks _ h hb _; exact ⟨trivial, b, h, hb⟩
  | @cons m m' k w s rest segs hw hcut ih =>
    intro n b ks hsc h hb hne
    have hkne : k ≠ eof := hne (k, w) (by simp)
    have hne' : ∀ p ∈ segs, p.1 ≠ eof := fun p hp => hne p (List.mem_cons_of_mem _ hp)
    cases hk : Skipped k with
    | true =>
      have hv : visible ((k, w) :: segs) = visible segs := by simp [visible, hk]
      rw [hv] at h hsc
      have hm : modeAfter m k = m := by
        revert hk; cases k <;> simp [Skipped, modeAfter]
      rw [hm] at ih hcut
      obtain ⟨c1, c2⟩ := ih n b ks hsc h hb hne'
      refine ⟨⟨?_, ?_, c1⟩, c2⟩
      · rintro rfl; simp [Skipped] at hk
      · rintro rfl; simp [Skipped] at hk
    | false =>
      have hv : visible ((k, w) :: segs) = (k, w) :: visible segs := by simp [visible, hk]
      rw [hv] at h hsc
      obtain ⟨a1, a2, a3⟩ := h
      obtain ⟨b1, b2, b3, b4⟩ := hsc
      simp only [hkne, if_false] at a3
      have hmode : (decide (k = version) = true ↔ modeAfter m k = .versionStatement) := by
        have hmem := winner_mem hw
        by_cases h1 : k = version
        · simp [h1, modeAfter]
        · by_cases h2 : k = versionNumber
          · simp [h2, modeAfter]
          · simp only [h1, h2, modeAfter, if_false, decide_false, Bool.false_eq_true, false_iff]
            intro hm
            exact h2 (a1.1 (hb.2 hm))
      obtain ⟨c1, c2⟩ := ih _ _ ks b4 a3 hmode hne'
      refine ⟨⟨b3, ?_, c1⟩, c2⟩
      rintro rfl
      intro p hp hs
      cases segs with
      | nil => simp at hp
      | cons q segs =>
        simp only [List.head?_cons, Option.mem_def, Option.some.injEq] at hp
        subst hp
        obtain ⟨k', w'⟩ := q
        cases hcut with
        | cons hw' _ =>
          cases w' with
          | nil => simp at hs
          | cons d w' =>
            simp only [List.head?_cons, Option.some.injEq] at hs
            subst hs
            have hm : modeAfter m division = .default := by
              have := winner_mem hw
              cases m with
              | default => rfl
              | versionStatement => simp [order] at this
            rw [hm] at hw'
            have hst := text_star (winner_mem hw') (winner_text hw')
            have hsk : Skipped k' = false := by rcases hst with rfl | rfl <;> rfl
            have hv' : visible ((k', '*' :: w') :: segs) = (k', '*' :: w') :: visible segs := by simp [visible, hsk]
            rw [hv'] at b4
            have := b4.1 (by simp)
            rcases hst with rfl | rfl
            · exact this.1 rfl
            · exact this.2 rfl

theorem cut_not_eof {m m' : Mode} {s rest : Str} {segs : List (TokKind × Str)} (h : Cut m s segs m' rest) : ∀ p ∈ segs, p.1 ≠ eof := by
  induction h with
  | nil => simp
  | @cons m m' k w s rest segs hw _ ih =>
    intro p hp
    rcases List.mem_cons.1 hp with rfl | hp
    · intro he
      have := winner_mem hw
      simp only at he
      rw [he] at this
      revert this
      cases m <;> decide
    · exact ih p hp

end Lexer

/-! ## Writing fillers -/

namespace Parser

/-- The tokens as text, each followed by a blank. -/
def render (s : List Token) : Str := s.flatMap fun t => t.text ++ [' ']

/-- A blank and one filler in front of a blank. -/
theorem filler_winners {t : Token} (ht : t ∈ fillers) (he : t.kind ≠ eof) {m : Lexer.Mode} (hm : t.kind = versionNumber ↔ m = .versionStatement)
    (s : Str) : (∃ k, Skipped k = true ∧ Winner m (' ' :: (t.text ++ ' ' :: s)) k [' ']) ∧ Winner m (t.text ++ ' ' :: s) t.kind t.text := by
  have key : ∀ (k : TokKind) (k' : TokKind), k' ≠ .tripleQuote → Skipped k = true → k ≠ .tripleQuote → k ≠ .division → k' ≠ .division →
      ((Lexer.best (Lexer.rules m) ([' '] ++ (t.text ++ [' ']))).map fun p => (p.1.kind, p.2)) = some (k, 1) →
      ((Lexer.best (Lexer.rules m) (t.text ++ [' '])).map fun p => (p.1.kind, p.2)) = some (k', t.text.length) →
      (∃ k, Skipped k = true ∧ Winner m (' ' :: (t.text ++ ' ' :: s)) k [' ']) ∧ Winner m (t.text ++ ' ' :: s) k' t.text := by
    intro k k' hq' hs hq hd hd' h1 h2
    refine ⟨⟨k, hs, ?_⟩, ?_⟩
    · have := Lexer.winner_stable (w := [' ']) (x := t.text) (b := []) (b' := s)
        (by simpa using winner_eval (u := [' ']) (s := t.text ++ [' ']) h1) hq (fun h => absurd h hd)
      simpa using this
    · have := Lexer.winner_stable (x := []) (b := []) (b' := s) (by simpa using winner_eval h2) hq' (fun h => absurd h hd')
      simpa using this
  simp only [fillers, List.mem_cons, List.not_mem_nil, or_false] at ht
  rcases ht with rfl | rfl | rfl | rfl | rfl | rfl | rfl | rfl | rfl | rfl | rfl | rfl | rfl
  case inr.inr.inr.inr.inr.inr.inr.inr.inr.inr.inr.inr => exact absurd rfl he
  case inr.inr.inr.inr.inr.inr.inr.inr.inr.inr.inr.inl =>
    obtain rfl := hm.1 rfl
    exact key .versionWhiteSpace _ (by decide) (by decide) (by decide) (by decide) (by decide) (by decide +kernel) (by decide +kernel)
  all_goals
    obtain rfl : m = .default := by
      cases m with
      | default => rfl
      | versionStatement => exact absurd (hm.2 rfl) (by decide)
    exact key .whiteSpace _ (by decide) (by decide) (by decide) (by decide) (by decide) (by decide +kernel) (by decide +kernel)

/-- Fillers in the shape of the end of a program, as text. -/
theorem render_cut {s : List Token} {e : Token} (hf : Fill s) (he : e.kind = eof) (hne : ∀ t ∈ s, t.kind ≠ eof) :
    ∀ b m, Shape b ((s ++ [e]).map (·.kind)) → (b = true ↔ m = .versionStatement) →
      ∃ segs m', Cut m (' ' :: render s) segs m' [] ∧ (Lexer.visible segs).map (·.1) = s.map (·.kind) := by
  induction s with
  | nil =>
    intro b m hs hb
    have hb' : b = false := by
      cases b with
      | false => rfl
      | true => have : e.kind = versionNumber := hs.1.1 rfl; rw [he] at this; cases this
    have hm : m = .default := by
      cases m with
      | default => rfl
      | versionStatement => rw [hb'] at hb; simp at hb
    subst hm
    refine ⟨[(whiteSpace, [' '])], .default, ?_, by simp [Lexer.visible, Skipped]⟩
    have hw : Winner .default ([' '] ++ []) .whiteSpace [' '] := winner_eval (by decide +kernel)
    exact .cons (w := [' ']) hw (.nil _ _)
  | cons t s ih =>
    intro b m hs hb
    have htne := hne t (by simp)
    obtain ⟨a1, a2, a3⟩ := hs
    simp only [htne, if_false] at a3
    have hm : t.kind = versionNumber ↔ m = .versionStatement := by rw [← hb, ← a1]
    have hmode : (decide (t.kind = version) = true ↔ modeAfter m t.kind = .versionStatement) := by
      by_cases h1 : t.kind = version
      · simp [h1, modeAfter]
      · by_cases h2 : t.kind = versionNumber
        · simp [h2, modeAfter]
        · simp only [h1, h2, modeAfter, if_false, decide_false, Bool.false_eq_true, false_iff]
          exact fun hmm => h2 (hm.2 hmm)
    obtain ⟨segs, m', hc, hv⟩ := ih (fun u hu => hf u (List.mem_cons_of_mem _ hu)) (fun u hu => hne u (List.mem_cons_of_mem _ hu)) _ _ a3 hmode
    obtain ⟨⟨k, hk, h1⟩, h2⟩ := filler_winners (hf t (by simp)) htne hm (render s)
    have hmk : modeAfter m k = m := by revert hk; cases k <;> simp [Skipped, modeAfter]
    refine ⟨(k, [' ']) :: (t.kind, t.text) :: segs, m', ?_, ?_⟩
    · have e : (' ' :: render (t :: s)) = [' '] ++ (t.text ++ ' ' :: render s) := by simp [render]
      rw [e]
      refine .cons h1 ?_
      rw [hmk]
      exact .cons h2 hc
    · have hsk : Skipped t.kind = false := by
        have : t.kind ∉ [tripleQuote, whiteSpace, versionWhiteSpace, singleLineComment, multiLineComment] := a2
        revert this
        generalize t.kind = j
        cases j <;> simp [Skipped]
      simp [Lexer.visible, hk, hsk]
      simpa [Lexer.visible] using hv

/-- Only the types of the tokens matter. -/
theorem program_kinds {us vs : List Token} (h : us.map (·.kind) = vs.map (·.kind)) {pr : PProgram} (hp : Program DerivesStmt us pr) :
    ∃ pr', Program DerivesStmt vs pr' := by
  obtain ⟨p, h1⟩ := (C45_accepts us).2 ⟨pr, hp⟩
  let g : Token → Token := fun t => ⟨t.kind, [], 0, 0⟩
  have hg : us.map g = vs.map g := by
    have : ∀ l : List Token, l.map g = (l.map (·.kind)).map fun k => (⟨k, [], 0, 0⟩ : Token) := by intro l; simp [g]
    rw [this, this, h]
  have h2 := parse_map (f := g) (fun _ => rfl) us
  have h3 := parse_map (f := g) (fun _ => rfl) vs
  rw [hg, h3, h1] at h2
  cases hv : parse vs with
  | none => rw [hv] at h2; cases h2
  | some q => exact ⟨q, C45_derivation vs q hv⟩

end Parser

/-! ## Splitting the segments at a token -/

namespace Lexer

theorem cut_apart {m m' : Mode} {s rest : Str} {a b : List (TokKind × Str)} (h : Cut m s (a ++ b) m' rest) :
    ∃ m1 r1, Cut m s a m1 r1 ∧ Cut m1 r1 b m' rest := by
  induction a generalizing m s with
  | nil => exact ⟨m, s, .nil _ _, h⟩
  | cons p a ih =>
    obtain ⟨k, w⟩ := p
    rw [List.cons_append] at h
    cases h with
    | cons hw hc =>
      obtain ⟨m1, r1, h1, h2⟩ := ih hc
      exact ⟨m1, r1, .cons hw h1, h2⟩

theorem tokens_split {segs : List (TokKind × Str)} : ∀ {before : Str} {pre post : List Token}, tokensOf before segs = pre ++ post →
    ∃ s1 s2, segs = s1 ++ s2 ∧ tokensOf before s1 = pre ∧ tokensOf (before ++ covered s1) s2 = post ∧
      ∀ p, s1.getLast? = some p → Skipped p.1 = false := by
  induction segs with
  | nil =>
    intro before pre post h
    obtain ⟨rfl, rfl⟩ := List.nil_eq_append_iff.1 h
    exact ⟨[], [], rfl, rfl, rfl, by simp⟩
  | cons q segs ih =>
    obtain ⟨k, w⟩ := q
    intro before pre post h
    cases pre with
    | nil => exact ⟨[], (k, w) :: segs, rfl, rfl, by simpa [covered] using h, by simp⟩
    | cons t pre =>
      by_cases hk : Skipped k = true
      · rw [tokensOf, if_pos hk] at h
        obtain ⟨s1, s2, rfl, h1, h2, h3⟩ := ih h
        refine ⟨(k, w) :: s1, s2, rfl, by rw [tokensOf, if_pos hk, h1], by simpa [covered] using h2, ?_⟩
        intro p hp
        cases s1 with
        | nil => simp [tokensOf] at h1
        | cons r s1 => exact h3 p (by simpa using hp)
      · rw [tokensOf, if_neg hk] at h
        obtain ⟨rfl, h'⟩ := List.cons.inj h
        obtain ⟨s1, s2, rfl, h1, h2, h3⟩ := ih h'
        refine ⟨(k, w) :: s1, s2, rfl, by rw [tokensOf, if_neg hk, h1], by simpa [covered] using h2, ?_⟩
        intro p hp
        cases s1 with
        | nil =>
          simp only [List.getLast?_singleton, Option.some.injEq] at hp
          subst hp
          simpa using hk
        | cons r s1 => exact h3 p (by simpa using hp)

theorem tokens_first {segs : List (TokKind × Str)} : ∀ {before : Str} {t : Token} {post : List Token}, tokensOf before segs = t :: post →
    ∃ sk k w s3, segs = sk ++ (k, w) :: s3 ∧ (∀ p ∈ sk, Skipped p.1 = true) ∧ Skipped k = false ∧
      t = ⟨k, w, lineAfter (before ++ covered sk), columnAfter (before ++ covered sk)⟩ := by
  induction segs with
  | nil => intro before t post h; simp [tokensOf] at h
  | cons q segs ih =>
    obtain ⟨k, w⟩ := q
    intro before t post h
    by_cases hk : Skipped k = true
    · rw [tokensOf, if_pos hk] at h
      obtain ⟨sk, k', w', s3, rfl, h1, h2, h3⟩ := ih h
      refine ⟨(k, w) :: sk, k', w', s3, rfl, ?_, h2, ?_⟩
      · intro p hp
        rcases List.mem_cons.1 hp with rfl | hp
        · exact hk
        · exact h1 p hp
      · have : before ++ covered ((k, w) :: sk) = before ++ w ++ covered sk := by simp [covered]
        rw [this]
        exact h3
    · rw [tokensOf, if_neg hk] at h
      obtain ⟨rfl, -⟩ := List.cons.inj h
      exact ⟨[], k, w, segs, rfl, by simp, by simpa using hk, by simp [covered]⟩

theorem tokens_none {segs : List (TokKind × Str)} : ∀ {before : Str}, tokensOf before segs = [] → ∀ p ∈ segs, Skipped p.1 = true := by
  induction segs with
  | nil => simp
  | cons q segs ih =>
    obtain ⟨k, w⟩ := q
    intro before h p hp
    by_cases hk : Skipped k = true
    · rw [tokensOf, if_pos hk] at h
      rcases List.mem_cons.1 hp with rfl | hp
      · exact hk
      · exact ih h p hp
    · rw [tokensOf, if_neg hk] at h
      simp at h

theorem cut_text {m m' : Mode} {s rest : Str} {segs : List (TokKind × Str)} (h : Cut m s segs m' rest) : ∀ p ∈ segs, Text p.1 p.2 := by
  induction h with
  | nil => simp
  | cons hw _ ih =>
    intro p hp
    rcases List.mem_cons.1 hp with rfl | hp
    · exact winner_text hw
    · exact ih p hp

theorem tokens_kinds (before : Str) (segs : List (TokKind × Str)) :
    (tokensOf before segs).map (fun t : Token => t.kind) = (visible segs).map (·.1) := by
  rw [← tokensOf_visible before]
  simp

end Lexer

/-- The text of the tokens before the offending one can be completed to a text of the language. -/
theorem complete_text {m' : Lexer.Mode} {s rest : Str} {s1 : List (TokKind × Str)} (hc : Cut .default s s1 m' rest)
    (hl : ∀ p, s1.getLast? = some p → Skipped p.1 = false) {f : List Token} {pr : PProgram} (hf : Parser.Fill f)
    (hp : Program DerivesStmt (tokensOf [] s1 ++ f) pr) : Closed s1 ∧ ∃ z, InLanguage (covered s1 ++ ' ' :: z) := by
  have hk : (tokensOf [] s1 ++ f).map (fun t : Token => t.kind) = (Lexer.visible s1).map (·.1) ++ f.map (·.kind) := by
    rw [List.map_append, Lexer.tokens_kinds]
  have hscan := Parser.program_scan hp
  have hshape := Parser.program_shape hp
  rw [hk] at hscan hshape
  obtain ⟨hcl, b', hs, hb⟩ := Lexer.shape_closed hc 0 false _ hscan hshape (by simp) (Lexer.cut_not_eof hc)
  refine ⟨hcl, ?_⟩
  obtain ⟨js, hj, hne⟩ := Parser.shape_last hs
  obtain ⟨f0, fe, rfl, hf0, hfe⟩ := List.map_eq_append_iff.1 hj
  obtain ⟨e, fe', rfl, he, hfe'⟩ := List.map_eq_cons_iff.1 hfe
  obtain rfl := List.map_eq_nil_iff.1 hfe'
  obtain ⟨sf, m2, hcf, hvf⟩ := Parser.render_cut (fun t ht => hf t (by simp [ht])) he
    (fun t ht h => hne (by rw [← hf0, ← h]; exact List.mem_map_of_mem ht)) b' m' hs hb
  have hwhole := Lexer.cut_append (Lexer.cut_then_blank hc hcl hl (Parser.render f0)) hcf
  refine ⟨Parser.render f0, ?_⟩
  have hlex := Lexer.lex_of_cut hwhole
  obtain ⟨pr', hpr⟩ := Parser.program_kinds (vs := tokensOf [] (s1 ++ sf) ++ [Lexer.eofAfter (covered s1 ++ ' ' :: Parser.render f0)]) (by
    have h1 : ∀ x : Token, (tokensOf [] (s1 ++ sf) ++ [x]).map (fun t : Token => t.kind) =
        (Lexer.visible s1).map (·.1) ++ ((Lexer.visible sf).map (·.1) ++ [x.kind]) := by
      intro x
      rw [List.map_append, Lexer.tokens_kinds]
      simp [Lexer.visible]
    rw [hk, h1, hvf, List.map_append, List.map_cons, he]
    rfl) hp
  exact ⟨_, pr', hlex, hpr⟩

/-- A text that starts with tokens that do not start a program is not in the language. -/
theorem not_in_language {m' : Lexer.Mode} {s rest : Str} {s1 : List (TokKind × Str)} (hc : Cut .default s s1 m' rest)
    (h : ¬ Starts (tokensOf [] s1)) : ¬ InLanguage s := by
  rintro ⟨ts, pr, hlex, hp⟩
  obtain ⟨s2, m2, r2, hc2, hr⟩ := Lexer.cut_exists m' rest
  have hw := Lexer.cut_append hc hc2
  rcases hr with rfl | ⟨hne, hst⟩
  · rw [Lexer.lex_of_cut hw] at hlex
    cases hlex
    rw [Lexer.tokensOf_append, List.append_assoc] at hp
    exact h ⟨_, pr, hp⟩
  · rw [Lexer.lex_of_stuck hw hne hst] at hlex
    cases hlex

/-! ## Where a text goes wrong -/

namespace Lexer

theorem closed_append {a b : List (TokKind × Str)} (ha : Closed a) (hb : Closed b)
    (h : ∀ p q, a.getLast? = some p → b.head? = some q → p.1 = division → q.2.head? ≠ some '*') : Closed (a ++ b) := by
  induction a with
  | nil => exact hb
  | cons p a ih =>
    obtain ⟨k, w⟩ := p
    obtain ⟨h1, h2, h3⟩ := ha
    refine ⟨h1, ?_, ih h3 ?_⟩
    · intro hk q hq
      cases a with
      | nil => exact h (k, w) q rfl (by simpa using hq) hk
      | cons r a => exact h2 hk q (by simpa using hq)
    · intro p q hp hq
      cases a with
      | nil => simp at hp
      | cons r a => exact h p q (by simpa using hp) hq

theorem skipped_closed {a : List (TokKind × Str)} (h : ∀ p ∈ a, Skipped p.1 = true) : Closed a := by
  induction a with
  | nil => trivial
  | cons p a ih =>
    obtain ⟨k, w⟩ := p
    have hk : Skipped k = true := h (k, w) (by simp)
    refine ⟨?_, ?_, ih fun q hq => h q (List.mem_cons_of_mem _ hq)⟩
    · rintro rfl; simp [Skipped] at hk
    · rintro rfl; simp [Skipped] at hk

theorem skipped_head {k : TokKind} {w : Str} (hk : Skipped k = true) (ht : Text k w) : w.head? ≠ some '*' := by
  intro h
  cases w with
  | nil => simp at h
  | cons c w =>
    simp only [List.head?_cons, Option.some.injEq] at h
    subst h
    cases k <;> simp [Skipped] at hk
    case whiteSpace => rcases ht.2 '*' (by simp) with h | h <;> cases h
    case versionWhiteSpace => rcases ht.2 '*' (by simp) with h | h <;> cases h
    case singleLineComment => obtain ⟨u, h, -⟩ := ht; cases h
    case multiLineComment => obtain ⟨u, h⟩ := ht; cases h

theorem blanks_of {sk : List (TokKind × Str)} (h : ∀ p ∈ sk, Skipped p.1 = true) (ht : ∀ p ∈ sk, Text p.1 p.2) : Blanks (covered sk) :=
  ⟨sk, rfl, fun p hp => ⟨h p hp, ht p hp⟩⟩

theorem covered_append (a b : List (TokKind × Str)) : covered (a ++ b) = covered a ++ covered b := by simp [covered]

end Lexer

theorem token_not_eof {m' : Lexer.Mode} {text rest : Str} {segs : List (TokKind × Str)} (hc : Cut .default text segs m' rest) :
    ∀ t ∈ tokensOf [] segs, t.kind ≠ eof := by
  intro t ht he
  have h1 : t.kind ∈ (tokensOf [] segs).map (fun t : Token => t.kind) := List.mem_map_of_mem ht
  rw [Lexer.tokens_kinds, he] at h1
  obtain ⟨p, hp, hpe⟩ := List.mem_map.1 h1
  exact Lexer.cut_not_eof hc p (List.mem_filter.1 hp).1 hpe

/-- The text goes wrong at a token. -/
theorem wrong_token {m' : Lexer.Mode} {text rest : Str} {segs : List (TokKind × Str)} (hc : Cut .default text segs m' rest)
    {pre post : List Token} {t : Token} (hs : tokensOf [] segs = pre ++ t :: post) {f : List Token} {pr : PProgram}
    (hf : Parser.Fill f) (hp : Program DerivesStmt (pre ++ f) pr) (hn : ¬ Starts (pre ++ [t])) :
    ∃ u b w v, GoesWrong text u b w v ∧ w ≠ [] ∧ t.text = w ∧ t.line = lineAfter (u ++ b) ∧ t.column = columnAfter (u ++ b) ∧
      ∃ x, covered segs = u ++ b ++ w ++ x := by
  obtain ⟨s1, s2, rfl, h1, h2, h3⟩ := Lexer.tokens_split hs
  obtain ⟨sk, k, w, s3, rfl, h4, h5, ht⟩ := Lexer.tokens_first h2
  subst h1
  obtain ⟨m1, r1, hc1, hc2⟩ := Lexer.cut_apart hc
  obtain ⟨hcl, z, hz⟩ := complete_text hc1 h3 hf hp
  obtain ⟨m2, r2, hc3, hc4⟩ := Lexer.cut_apart hc2
  have htext := Lexer.cut_covered hc
  have hw : w ≠ [] := by
    cases hc4 with
    | cons hw _ => exact Lexer.winner_ne_nil hw
  rw [List.nil_append] at ht
  refine ⟨covered s1, covered sk, w, covered s3 ++ rest, ⟨?_, ?_, ⟨z, hz⟩, fun h => absurd h hw, ?_⟩, hw, by rw [ht],
    by rw [ht], by rw [ht], covered s3, by simp [covered]⟩
  · rw [htext]; simp [covered]
  · exact Lexer.blanks_of h4 fun p hp => Lexer.cut_text hc p (by simp [hp])
  · intro _ hq hd z
    have hcut : Cut .default text (s1 ++ (sk ++ [(k, w)])) (modeAfter m2 k) (covered s3 ++ rest) := by
      refine Lexer.cut_append hc1 (Lexer.cut_append hc3 ?_)
      cases hc4 with
      | cons hw hc5 =>
        have := Lexer.cut_covered hc5
        rw [← this]
        exact .cons hw (.nil _ _)
    have hclosed : Closed (s1 ++ (sk ++ [(k, w)])) := by
      refine Lexer.closed_append hcl (Lexer.closed_append (Lexer.skipped_closed h4) ⟨?_, by simp, trivial⟩ ?_) ?_
      · rintro rfl
        have : Text .tripleQuote w := Lexer.cut_text hc (.tripleQuote, w) (by simp)
        exact hq (Option.some.inj this).symm
      · intro p q hp _ hpk
        have := h4 p (List.mem_of_getLast? hp)
        rw [hpk] at this
        simp [Skipped] at this
      · intro p q hp hq' hpk hh
        cases sk with
        | cons r sk =>
          simp only [List.cons_append, List.head?_cons, Option.some.injEq] at hq'
          subst hq'
          exact Lexer.skipped_head (h4 r (by simp)) (Lexer.cut_text hc r (by simp)) hh
        | nil =>
          simp only [List.nil_append, List.head?_cons, Option.some.injEq] at hq'
          subst hq'
          refine hd hh ?_
          obtain ⟨s0, rfl⟩ := List.getLast?_eq_some_iff.1 hp
          have hpt : Text p.1 p.2 := Lexer.cut_text hc1 p (by simp)
          rw [hpk] at hpt
          have hp2 : p.2 = ['/'] := (Option.some.inj hpt).symm
          simp [covered, hp2]
    have hcb := Lexer.cut_then_blank hcut hclosed (by
      intro p hp
      simp only [List.getLast?_append, List.getLast?_singleton, Option.some_or, Option.some.injEq] at hp
      subst hp
      exact h5) z
    have := not_in_language hcb (by
      rw [Lexer.tokensOf_append, Lexer.tokensOf_append]
      have h6 : tokensOf ([] ++ covered s1) sk = [] := by
        have := Lexer.tokensOf_visible ([] ++ covered s1) sk
        have hv : Lexer.visible sk = [] := by
          simp only [Lexer.visible, List.filter_eq_nil_iff]
          intro p hp; simp [h4 p hp]
        rw [hv] at this
        exact List.map_eq_nil_iff.1 this
      rw [h6, List.nil_append, tokensOf, if_neg (by simp [h5]), tokensOf]
      rw [ht] at hn
      simpa [List.append_assoc] using hn)
    simpa [covered] using this

/-- The text goes wrong by ending. -/
theorem wrong_end {m' : Lexer.Mode} {text : Str} {segs : List (TokKind × Str)} (hc : Cut .default text segs m' [])
    {f : List Token} {pr : PProgram} (hf : Parser.Fill f) (hp : Program DerivesStmt (tokensOf [] segs ++ f) pr) :
    ∃ u b, GoesWrong text u b [] [] := by
  obtain ⟨s1, s2, rfl, h1, h2, h3⟩ := Lexer.tokens_split (post := []) (segs := segs) (before := []) (pre := tokensOf [] segs) (by simp)
  obtain ⟨m1, r1, hc1, hc2⟩ := Lexer.cut_apart hc
  rw [← h1] at hp
  obtain ⟨hcl, z, hz⟩ := complete_text hc1 h3 hf hp
  have htext := Lexer.cut_covered hc
  refine ⟨covered s1, covered s2, by rw [htext]; simp [covered], ?_, ⟨z, hz⟩, fun _ => rfl, fun h => absurd rfl h⟩
  exact Lexer.blanks_of (Lexer.tokens_none h2) fun p hp => Lexer.cut_text hc p (by simp [hp])

/-- No token is recognised, whatever follows the character and a blank. -/
theorem stuck_blank {m : Lexer.Mode} {c : Char} {v : Str} (h : Stuck m (c :: v)) (z : Str) : Stuck m (c :: ' ' :: z) := by
  intro k hk w hw hp
  have hne := Lexer.text_ne_nil hw
  cases w with
  | nil => exact hne rfl
  | cons d w =>
    obtain ⟨rfl, hp'⟩ := List.cons_prefix_cons.1 hp
    cases w with
    | nil => exact h k hk _ hw ⟨v, rfl⟩
    | cons d' w =>
      obtain ⟨rfl, hp''⟩ := List.cons_prefix_cons.1 hp'
      have hdef : ∀ k', k' ∈ order .default → k' ∉ order .versionStatement → k = k' → m = .default := by
        rintro k' - h2 rfl
        cases m with
        | default => rfl
        | versionStatement => exact absurd hk h2
      rcases Lexer.text_space hk hw (by simp) with rfl | rfl | rfl | rfl | rfl
      · exact h _ hk [d] ⟨by simp, by simpa using hw.2 d (by simp)⟩ ⟨v, rfl⟩
      · exact h _ hk [d] ⟨by simp, by simpa using hw.2 d (by simp)⟩ ⟨v, rfl⟩
      · obtain ⟨u, hu, -⟩ := hw; cases hu
      · obtain ⟨u, hu⟩ := hw; cases hu
      · obtain ⟨u, hu⟩ := hw; cases hu

/-- Segments before a character at which no token is recognised are cut off, whatever follows it and a blank. -/
theorem stuck_cut {m m' : Lexer.Mode} {s v : Str} {c : Char} {segs : List (TokKind × Str)} (h : Cut m s segs m' (c :: v))
    (hcl : Closed segs) (hst : Stuck m' (c :: v)) (z : Str) :
    Cut m (covered segs ++ (c :: ' ' :: z)) segs m' (c :: ' ' :: z) := by
  generalize hr : c :: v = rest at h
  induction h with
  | nil => exact .nil _ _
  | @cons m m' k w s rest segs hw hcut ih =>
    obtain ⟨hq, hd, hcl⟩ := hcl
    subst hr
    have hs := Lexer.cut_covered hcut
    have e : covered ((k, w) :: segs) ++ (c :: ' ' :: z) = w ++ (covered segs ++ (c :: ' ' :: z)) := by simp [covered]
    rw [e]
    have e2 : covered segs ++ (c :: ' ' :: z) = covered segs ++ [c] ++ ' ' :: z := by simp
    refine .cons ?_ (ih hcl hst rfl)
    rw [e2]
    refine Lexer.winner_blank z (Place.winner_shorter (r := v) ?_) hq ?_ (by simp)
    · rw [hs] at hw
      simpa using hw
    · intro hk
      cases segs with
      | nil =>
        cases hcut
        have hm : modeAfter m k = .default := by
          subst hk
          have := Lexer.winner_mem hw
          cases m with
          | default => rfl
          | versionStatement => simp [order] at this
        rw [hm] at hst
        simp only [covered, List.flatMap_nil, List.nil_append, List.head?_cons, ne_eq, Option.some.injEq]
        rintro rfl
        exact hst .product (by decide) ['*'] rfl ⟨v, rfl⟩
      | cons p segs =>
        have := hd hk p (by simp)
        obtain ⟨k', w'⟩ := p
        cases w' with
        | nil =>
          exfalso
          cases hcut with
          | cons hw' _ => exact Lexer.winner_ne_nil hw' rfl
        | cons d w' => simpa [covered] using this

/-- The text goes wrong where no token is recognised. -/
theorem wrong_stuck {m' : Lexer.Mode} {text v : Str} {c : Char} {segs : List (TokKind × Str)}
    (hc : Cut .default text segs m' (c :: v)) (hst : Stuck m' (c :: v))
    {f : List Token} {pr : PProgram} (hf : Parser.Fill f) (hp : Program DerivesStmt (tokensOf [] segs ++ f) pr) :
    ∃ u b, GoesWrong text u b [c] v ∧ u ++ b = covered segs := by
  obtain ⟨s1, s2, rfl, h1, h2, h3⟩ := Lexer.tokens_split (post := []) (segs := segs) (before := []) (pre := tokensOf [] segs) (by simp)
  obtain ⟨m1, r1, hc1, hc2⟩ := Lexer.cut_apart hc
  have hp' := hp
  rw [← h1] at hp
  obtain ⟨hcl, z, hz⟩ := complete_text hc1 h3 hf hp
  have htext := Lexer.cut_covered hc
  have hsk := Lexer.tokens_none h2
  refine ⟨covered s1, covered s2, ⟨by rw [htext]; simp [covered], ?_, ⟨z, hz⟩, by simp, fun _ _ _ z => ?_⟩, by simp [covered]⟩
  · exact Lexer.blanks_of hsk fun p hp => Lexer.cut_text hc p (by simp [hp])
  · have hclosed : Closed (s1 ++ s2) := by
      refine Lexer.closed_append hcl (Lexer.skipped_closed hsk) ?_
      intro p q _ hq _
      have hq := List.mem_of_mem_head? hq
      exact Lexer.skipped_head (hsk q hq) (Lexer.cut_text hc q (by simp [hq]))
    have hcut : Cut .default (covered (s1 ++ s2) ++ (c :: ' ' :: z)) (s1 ++ s2) m' (c :: ' ' :: z) := stuck_cut hc hclosed hst z
    rintro ⟨ts, pr', hlex, -⟩
    have := Lexer.lex_of_stuck hcut (by simp) (stuck_blank hst z)
    rw [show covered s1 ++ covered s2 ++ [c] ++ ' ' :: z = covered (s1 ++ s2) ++ (c :: ' ' :: z) by simp [covered]] at hlex
    rw [this] at hlex
    cases hlex

end Qasm
