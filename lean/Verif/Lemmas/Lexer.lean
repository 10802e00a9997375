import Verif.Spec.Lexer
import Verif.Lemmas.Regex
/-!
# The lexer model meets the description of tokens in `Spec/Lexer`
-/

namespace Qasm.Lexer

open Spec Regex

theorem isDigit_iff (c : Char) : isDigit c = true ↔ Digit c := by
  have e : ∀ d : Char, c = d ↔ c.toNat = d.toNat := fun d => ⟨fun h => h ▸ rfl, fun h => Char.toNat_inj.1 h⟩
  simp only [isDigit, Digit, List.mem_cons, List.not_mem_nil, or_false, e, Bool.and_eq_true,
    decide_eq_true_eq]
  simp only [show '0'.toNat = 48 from rfl, show '1'.toNat = 49 from rfl, show '2'.toNat = 50 from rfl,
    show '3'.toNat = 51 from rfl, show '4'.toNat = 52 from rfl, show '5'.toNat = 53 from rfl,
    show '6'.toNat = 54 from rfl, show '7'.toNat = 55 from rfl, show '8'.toNat = 56 from rfl,
    show '9'.toNat = 57 from rfl]
  omega

theorem isLetter_iff (c : Char) : isLetter c = true ↔ Letter c := by
  simp only [isLetter, Letter, Char.isAlpha, Char.isUpper, Char.isLower, Bool.or_eq_true, Bool.and_eq_true,
    decide_eq_true_eq, beq_iff_eq, Char.toNat, UInt32.le_iff_toNat_le, ge_iff_le]
  simp only [show ('a' : Char).val.toNat = 97 from rfl, show ('z' : Char).val.toNat = 122 from rfl,
    show ('A' : Char).val.toNat = 65 from rfl, show ('Z' : Char).val.toNat = 90 from rfl]
  constructor
  · rintro ((h | h) | h)
    · exact .inl (.inr h)
    · exact .inl (.inl h)
    · exact .inr h
  · rintro ((h | h) | h)
    · exact .inl (.inr h)
    · exact .inl (.inl h)
    · exact .inr h

theorem matches_digits {w : Str} : Matches digits w ↔ Digits w := by
  rw [digits, matches_plus_set, Digits]
  simp only [isDigit_iff]

theorem matches_exponent {w : Str} : Matches exponent w ↔ Exponent w := by
  simp only [exponent, matches_seq, matches_set, matches_opt, matches_digits, Exponent, Bool.or_eq_true,
    beq_iff_eq]
  constructor
  · rintro ⟨_, _, rfl, ⟨e, rfl, he⟩, sign, ds, rfl, hs, hd⟩
    refine ⟨e, sign, ds, by simp, he, ?_, hd⟩
    rcases hs with ⟨c, rfl, hc⟩ | rfl
    · rcases hc with rfl | rfl
      · exact .inr (.inl rfl)
      · exact .inr (.inr rfl)
    · exact .inl rfl
  · rintro ⟨e, sign, ds, rfl, he, hs, hd⟩
    refine ⟨[e], sign ++ ds, by simp, ⟨e, rfl, he⟩, sign, ds, rfl, ?_, hd⟩
    rcases hs with rfl | rfl | rfl
    · exact .inr rfl
    · exact .inl ⟨_, rfl, .inl rfl⟩
    · exact .inl ⟨_, rfl, .inr rfl⟩

theorem matches_opt_exponent {w : Str} : Matches (opt exponent) w ↔ w = [] ∨ Exponent w := by
  rw [matches_opt, matches_exponent, or_comm]

theorem matches_float {w : Str} : Matches floatLiteral w ↔ Text .floatLiteral w := by
  simp only [floatLiteral, matches_seq, matches_alt, matches_str, matches_digits, matches_opt_exponent, Text]
  constructor
  · rintro (⟨a, _, rfl, ha, _, _, rfl, rfl, b, e, rfl, hb, he⟩ | ⟨a, _, rfl, ha, _, e, rfl, rfl, he⟩ |
      ⟨_, _, rfl, rfl, b, e, rfl, hb, he⟩)
    · exact ⟨a, b, e, by simp, ha.2, hb.2, .inl ha.1, he⟩
    · exact ⟨a, [], e, by simp, ha.2, by simp, .inl ha.1, he⟩
    · exact ⟨[], b, e, by simp, by simp, hb.2, .inr hb.1, he⟩
  · rintro ⟨a, b, e, rfl, ha, hb, hab, he⟩
    by_cases h : a = []
    · subst h
      exact .inr (.inr ⟨['.'], b ++ e, by simp, rfl, b, e, rfl, ⟨hab.resolve_left (by simp), hb⟩, he⟩)
    · by_cases h' : b = []
      · subst h'
        exact .inr (.inl ⟨a, '.' :: e, by simp, ⟨h, ha⟩, ['.'], e, rfl, rfl, he⟩)
      · exact .inl ⟨a, '.' :: b ++ e, by simp, ⟨h, ha⟩, ['.'], b ++ e, by simp, rfl, b, e, rfl, ⟨h', hb⟩, he⟩

theorem matches_blank {w : Str} :
    Matches (plus (set (fun c => c == ' ' || c == '\t'))) w ↔ w ≠ [] ∧ ∀ c ∈ w, c = ' ' ∨ c = '\t' := by
  rw [matches_plus_set]
  simp only [Bool.or_eq_true, beq_iff_eq]

theorem matches_line {w : Str} :
    Matches (seq (str ['/', '/']) (star (set (fun c => !(c == '\r' || c == '\n'))))) w
      ↔ Text .singleLineComment w := by
  simp only [matches_seq, matches_str, matches_star_set, Text, Bool.not_eq_true', Bool.or_eq_false_iff,
    beq_eq_false_iff_ne]
  constructor
  · rintro ⟨_, u, rfl, rfl, h⟩; exact ⟨u, rfl, h⟩
  · rintro ⟨u, rfl, h⟩; exact ⟨_, u, rfl, rfl, h⟩

theorem matches_between {a b w : Str} :
    Matches (seq (str a) (seq (star (set (fun _ => true))) (str b))) w ↔ ∃ u, w = a ++ u ++ b := by
  simp only [matches_seq, matches_str, matches_star_set]
  constructor
  · rintro ⟨_, _, rfl, rfl, u, _, rfl, _, rfl⟩; exact ⟨u, by simp⟩
  · rintro ⟨u, rfl⟩; exact ⟨a, u ++ b, by simp, rfl, u, b, rfl, by simp, rfl⟩

theorem matches_newLine {w : Str} :
    Matches (seq (opt (str ['\r'])) (str ['\n'])) w ↔ Text .newLine w := by
  simp only [matches_seq, matches_str, matches_opt, Text]
  constructor
  · rintro ⟨_, _, rfl, rfl | rfl, rfl⟩
    · exact .inr rfl
    · exact .inl rfl
  · rintro (rfl | rfl)
    · exact ⟨[], _, rfl, .inr rfl, rfl⟩
    · exact ⟨['\r'], _, rfl, .inl rfl, rfl⟩

theorem matches_star_alt {p q : Char → Bool} {w : Str} :
    Matches (star (alt (set p) (set q))) w ↔ ∀ c ∈ w, p c = true ∨ q c = true := by
  constructor
  · intro h
    generalize hr : star (alt (set p) (set q)) = r at h
    induction h with
    | starNil => simp
    | starCons h _ _ ih =>
      cases hr
      intro d hd
      rcases matches_alt.1 h with h | h <;>
      · obtain ⟨c, rfl, hc⟩ := matches_set.1 h
        rcases List.mem_cons.1 hd with rfl | hd
        · simp [hc]
        · exact ih rfl d hd
    | _ => cases hr
  · intro h
    induction w with
    | nil => exact .starNil
    | cons c w ih =>
      refine .starCons (u := [c]) (matches_alt.2 ?_) (ih fun d hd => h d (by simp [hd]))
      exact (h c (by simp)).imp .set .set

theorem matches_word {w : Str} :
    Matches (seq (set isLetter) (star (alt (set isLetter) (set isDigit)))) w ↔ Word w := by
  simp only [matches_seq, matches_set, matches_star_alt, isLetter_iff, isDigit_iff, Word]
  constructor
  · rintro ⟨_, u, rfl, ⟨c, rfl, hc⟩, hu⟩; exact ⟨c, u, rfl, hc, hu⟩
  · rintro ⟨c, u, rfl, hc, hu⟩; exact ⟨[c], u, rfl, ⟨c, rfl, hc⟩, hu⟩

theorem matches_version {w : Str} :
    Matches (seq digits (opt (seq (str ['.']) digits))) w ↔ Text .versionNumber w := by
  simp only [matches_seq, matches_opt, matches_digits, matches_str, Text]
  constructor
  · rintro ⟨a, _, rfl, ha, ⟨_, b, rfl, rfl, hb⟩ | rfl⟩
    · exact .inr ⟨a, b, by simp, ha, hb⟩
    · exact .inl (by simpa using ha)
  · rintro (h | ⟨a, b, rfl, ha, hb⟩)
    · exact ⟨w, [], by simp, h, .inr rfl⟩
    · exact ⟨a, '.' :: b, by simp, ha, .inl ⟨['.'], b, rfl, rfl, hb⟩⟩

theorem fixed_iff {t w : Str} : Matches (str t) w ↔ some t = some w := by
  rw [matches_str, Option.some_inj, eq_comm]

theorem rule_text (m : Mode) : ∀ r ∈ rules m, ∀ w, Matches r.regex w ↔ Text r.kind w := by
  cases m with
  | default =>
    simp only [rules, defaultRules, List.forall_mem_cons, List.not_mem_nil, false_implies, implies_true,
      and_true]
    refine ⟨fun w => matches_blank, fun w => matches_line, fun w => matches_between, fun w => matches_newLine,
      ?_⟩
    refine ⟨?_, ?_, ?_, ?_, ?_, ?_, ?_, ?_, ?_, ?_, ?_, ?_, ?_, ?_, ?_, ?_, ?_, ?_, ?_, ?_, ?_, ?_, ?_, ?_,
      ?_, ?_, ?_, ?_, ?_, ?_, ?_, ?_, ?_, ?_, ?_, ?_, ?_, ?_, ?_, ?_, ?_, ?_, ?_, ?_, ?_,
      ?_, ?_, ?_, ?_, ?_⟩
    all_goals try exact fun w => fixed_iff
    · intro w; rw [matches_alt, matches_str, matches_str]; rfl
    · exact fun w => matches_digits
    · exact fun w => matches_float
    · exact fun w => matches_word
    · exact fun w => matches_between
  | versionStatement =>
    simp only [rules, versionRules, List.forall_mem_cons, List.not_mem_nil, false_implies, implies_true,
      and_true]
    exact ⟨fun w => matches_blank, fun w => matches_version⟩

theorem rules_kinds (m : Mode) : (rules m).map (·.kind) = order m := by cases m <;> rfl

theorem rule_greedy (m : Mode) : ∀ r ∈ rules m, r.greedy = false ↔ EndsEarly r.kind := by
  cases m <;>
    simp [rules, defaultRules, versionRules, EndsEarly]

theorem rule_skip (m : Mode) : ∀ r ∈ rules m, r.command = .skip ↔ Skipped r.kind = true := by
  cases m <;>
    simp [rules, defaultRules, versionRules, Skipped]

theorem rule_mode (m : Mode) : ∀ r ∈ rules m, nextMode m r.command = modeAfter m r.kind := by
  cases m <;>
    simp [rules, defaultRules, versionRules, nextMode, modeAfter]

theorem text_ne_nil {k : TokKind} {w : Str} (hw : Text k w) : w ≠ [] := by
  rintro rfl
  have : ∀ k, fixedText k ≠ some [] := by intro k; cases k <;> simp [fixedText]
  cases k <;> simp [Text, Word, Digits] at hw <;>
    first
    | exact this _ hw
    | skip

theorem prefix_take {w s : Str} (h : w <+: s) : w = s.take w.length := (List.prefix_iff_eq_take.1 h)

theorem matchLength_some {m : Mode} {r : Rule} (hr : r ∈ rules m) {s : Str} {n : Nat}
    (h : r.matchLength s = some n) :
    0 < n ∧ n ≤ s.length ∧ Candidate r.kind s (s.take n) ∧ ∀ v, Candidate r.kind s v → v.length ≤ n := by
  have ht := rule_text m r hr
  rw [Rule.matchLength] at h
  by_cases hg : r.greedy = true
  · rw [if_pos hg] at h
    obtain ⟨h1, h2, h3, h4⟩ := longest_some h
    refine ⟨h1, h2, ⟨(ht _).1 (any_singleton.1 h3), List.take_prefix _ _, ?_⟩, ?_⟩
    · intro he
      exact absurd ((rule_greedy m r hr).2 he) (by simp [hg])
    · rintro v ⟨hv, hp, _⟩
      apply Nat.le_of_not_lt
      intro hlt
      refine h4 v.length hlt hp.length_le (any_singleton.2 ((ht _).2 ?_))
      rw [← prefix_take hp]; exact hv
  · rw [if_neg hg] at h
    obtain ⟨h1, h2, h3, h4⟩ := shortest_some h
    have he := (rule_greedy m r hr).1 (by simpa using hg)
    have hm : ∀ v, Text r.kind v → v <+: s → n ≤ v.length := by
      intro v hv hp
      apply Nat.le_of_not_lt
      intro hlt
      have hpos : 0 < v.length := List.length_pos_iff.2 (text_ne_nil hv)
      refine h4 v.length hpos hlt (any_singleton.2 ((ht _).2 ?_))
      rw [← prefix_take hp]; exact hv
    refine ⟨h1, h2, ⟨(ht _).1 (any_singleton.1 h3), List.take_prefix _ _, ?_⟩, ?_⟩
    · intro _ v hv hp
      rw [List.length_take, Nat.min_eq_left h2]; exact hm v hv hp
    · rintro v ⟨_, _, hmin⟩
      have := hmin he (s.take n) ((ht _).1 (any_singleton.1 h3)) (List.take_prefix _ _)
      rwa [List.length_take, Nat.min_eq_left h2] at this

theorem matchLength_none {m : Mode} {r : Rule} (hr : r ∈ rules m) {s : Str}
    (h : r.matchLength s = none) : ∀ w, Text r.kind w → ¬ w <+: s := by
  intro w hw hp
  have ht := rule_text m r hr
  have hpos : 0 < w.length := List.length_pos_iff.2 (text_ne_nil hw)
  rw [Rule.matchLength] at h
  split at h
  · refine longest_none h w.length hpos hp.length_le (any_singleton.2 ((ht _).2 ?_))
    rw [← prefix_take hp]; exact hw
  · refine shortest_none h w.length hpos hp.length_le (any_singleton.2 ((ht _).2 ?_))
    rw [← prefix_take hp]; exact hw

theorem best_none {rs : List Rule} {s : Str} (h : best rs s = none) : ∀ r ∈ rs, r.matchLength s = none := by
  induction rs with
  | nil => simp
  | cons r rs ih =>
    rw [best] at h
    split at h
    · split at h <;> cases h
    · cases h
    · next hr => exact List.forall_mem_cons.2 ⟨hr, ih h⟩

theorem best_some {rs : List Rule} {s : Str} {r : Rule} {n : Nat} (h : best rs s = some (r, n)) :
    ∃ pre post, rs = pre ++ r :: post ∧ r.matchLength s = some n
      ∧ (∀ r' ∈ pre, ∀ n', r'.matchLength s = some n' → n' < n)
      ∧ (∀ r' ∈ post, ∀ n', r'.matchLength s = some n' → n' ≤ n) := by
  induction rs generalizing r n with
  | nil => cases h
  | cons q rs ih =>
    rw [best] at h
    split at h
    · next k r' k' hq hb =>
      obtain ⟨pre, post, rfl, h1, h2, h3⟩ := ih hb
      split at h
      · next hlt =>
        cases h
        refine ⟨q :: pre, post, rfl, h1, ?_, h3⟩
        intro r'' hr'' n' hn'
        rcases List.mem_cons.1 hr'' with rfl | hr''
        · rw [hq] at hn'; cases hn'; exact hlt
        · exact h2 r'' hr'' n' hn'
      · next hlt =>
        cases h
        refine ⟨[], pre ++ r' :: post, rfl, hq, by simp, ?_⟩
        intro r'' hr'' n' hn'
        rcases List.mem_append.1 hr'' with hr'' | hr''
        · have := h2 r'' hr'' n' hn'; omega
        · rcases List.mem_cons.1 hr'' with rfl | hr''
          · rw [h1] at hn'; cases hn'; omega
          · have := h3 r'' hr'' n' hn'; omega
    · next k hq hb =>
      cases h
      refine ⟨[], rs, rfl, hq, by simp, ?_⟩
      intro r'' hr'' n' hn'
      rw [best_none hb r'' hr''] at hn'; cases hn'
    · next hq =>
      obtain ⟨pre, post, rfl, h1, h2, h3⟩ := ih h
      refine ⟨q :: pre, post, rfl, h1, ?_, h3⟩
      intro r'' hr'' n' hn'
      rcases List.mem_cons.1 hr'' with rfl | hr''
      · rw [hq] at hn'; cases hn'
      · exact h2 r'' hr'' n' hn'

theorem candidate_le {m : Mode} {r : Rule} (hr : r ∈ rules m) {s v : Str} (hv : Candidate r.kind s v) :
    ∃ n, r.matchLength s = some n ∧ v.length ≤ n := by
  cases h : r.matchLength s with
  | none => exact absurd hv.2.1 (matchLength_none hr h v hv.1)
  | some n => exact ⟨n, rfl, (matchLength_some hr h).2.2.2 v hv⟩

theorem best_winner {m : Mode} {s : Str} {r : Rule} {n : Nat} (h : best (rules m) s = some (r, n)) :
    r ∈ rules m ∧ 0 < n ∧ n ≤ s.length ∧ Winner m s r.kind (s.take n) := by
  obtain ⟨pre, post, he, h1, h2, h3⟩ := best_some h
  have hr : r ∈ rules m := by rw [he]; simp
  obtain ⟨h0, hl, hc, hm⟩ := matchLength_some hr h1
  have hlen : (s.take n).length = n := by rw [List.length_take, Nat.min_eq_left hl]
  refine ⟨hr, h0, hl, pre.map (·.kind), post.map (·.kind), ?_, hc, ?_, ?_⟩
  · rw [← rules_kinds, he]; simp
  · intro k hk v hv
    obtain ⟨q, hq, rfl⟩ := List.mem_map.1 hk
    obtain ⟨n', hn', hle⟩ := candidate_le (m := m) (by rw [he]; simp [hq]) hv
    have := h2 q hq n' hn'
    omega
  · intro k hk v hv
    rcases List.mem_cons.1 hk with rfl | hk
    · have := hm v hv; omega
    · obtain ⟨q, hq, rfl⟩ := List.mem_map.1 hk
      obtain ⟨n', hn', hle⟩ := candidate_le (m := m) (by rw [he]; simp [hq]) hv
      have := h3 q hq n' hn'
      omega

theorem best_stuck {m : Mode} {s : Str} : best (rules m) s = none ↔ Stuck m s := by
  constructor
  · intro h k hk w hw
    rw [← rules_kinds] at hk
    obtain ⟨r, hr, rfl⟩ := List.mem_map.1 hk
    exact matchLength_none hr (best_none h r hr) w hw
  · intro h
    cases hb : best (rules m) s with
    | none => rfl
    | some p =>
      obtain ⟨r, n⟩ := p
      obtain ⟨hr, _, _, pre, post, ho, hc, _⟩ := best_winner hb
      exact absurd hc.2.1 (h _ (by rw [ho]; simp) _ hc.1)

theorem winner_le {m : Mode} {s : Str} {k k' : TokKind} {w w' : Str} (h : Winner m s k w)
    (h' : Winner m s k' w') : w'.length ≤ w.length := by
  obtain ⟨pre, post, ho, _, hlt, hle⟩ := h
  obtain ⟨pre', post', ho', hc', _, _⟩ := h'
  have hk : k' ∈ order m := by rw [ho']; simp
  rw [ho] at hk
  rcases List.mem_append.1 hk with hk | hk
  · exact Nat.le_of_lt (hlt k' hk w' hc')
  · exact hle k' hk w' hc'

theorem winner_unique {m : Mode} {s : Str} {k k' : TokKind} {w w' : Str} (h : Winner m s k w)
    (h' : Winner m s k' w') : k = k' ∧ w = w' := by
  have hl : w.length = w'.length := Nat.le_antisymm (winner_le h' h) (winner_le h h')
  obtain ⟨pre, post, ho, hc, hlt, hle⟩ := h
  obtain ⟨pre', post', ho', hc', hlt', hle'⟩ := h'
  refine ⟨?_, by rw [prefix_take hc.2.1, prefix_take hc'.2.1, hl]⟩
  have hk : k' ∈ order m := by rw [ho']; simp
  have hk2 : k ∈ order m := by rw [ho]; simp
  rw [ho] at hk
  rw [ho'] at hk2
  have n1 : k' ∉ pre := fun h => by have := hlt k' h w' hc'; omega
  have n2 : k ∉ pre' := fun h => by have := hlt' k h w hc; omega
  -- the earlier of the two in the order would be preferred
  rcases List.append_eq_append_iff.1 (ho.symm.trans ho') with ⟨l, rfl, hl2⟩ | ⟨l, rfl, hl2⟩
  · cases l with
    | nil => exact (List.cons.inj hl2).1
    | cons a l =>
      obtain ⟨rfl, _⟩ := List.cons.inj hl2
      exact absurd (by simp) n2
  · cases l with
    | nil => exact (List.cons.inj hl2).1.symm
    | cons a l =>
      obtain ⟨rfl, _⟩ := List.cons.inj hl2
      exact absurd (by simp) n1

theorem winner_best {m : Mode} {s : Str} {k : TokKind} {w : Str} (h : Winner m s k w) :
    ∃ r, best (rules m) s = some (r, w.length) ∧ r ∈ rules m ∧ r.kind = k ∧ s.take w.length = w := by
  cases hb : best (rules m) s with
  | none =>
    obtain ⟨pre, post, ho, hc, _⟩ := h
    exact absurd hc.2.1 (best_stuck.1 hb k (by rw [ho]; simp) w hc.1)
  | some p =>
    obtain ⟨r, n⟩ := p
    obtain ⟨hr, _, hn, hw⟩ := best_winner hb
    obtain ⟨hk, ht⟩ := winner_unique hw h
    have : w.length = n := by rw [← ht, List.length_take, Nat.min_eq_left hn]
    exact ⟨r, by rw [this], hr, hk, by rw [this]; exact ht⟩

theorem winner_ne_nil {m : Mode} {s : Str} {k : TokKind} {w : Str} (h : Winner m s k w) : w ≠ [] := by
  obtain ⟨_, _, _, hc, _⟩ := h
  exact text_ne_nil hc.1

/-! ## Positions -/

theorem lastLine_nil : lastLine [] = [] := rfl

theorem lastLine_snoc (b : Str) (c : Char) :
    lastLine (b ++ [c]) = if c = '\n' then [] else lastLine b ++ [c] := by
  rw [lastLine, List.reverse_append]
  show (List.takeWhile _ (c :: b.reverse)).reverse = _
  rw [List.takeWhile_cons]
  by_cases h : c = '\n' <;> simp [h, lastLine]

theorem columnAfter_snoc (b : Str) (c : Char) :
    columnAfter (b ++ [c]) = if c = '\n' then 0 else columnAfter b + 1 := by
  rw [columnAfter, lastLine_snoc]
  split <;> simp [columnAfter]

theorem lineAfter_snoc (b : Str) (c : Char) :
    lineAfter (b ++ [c]) = if c = '\n' then lineAfter b + 1 else lineAfter b := by
  rw [lineAfter, List.count_append]
  by_cases h : c = '\n'
  · simp [h, lineAfter]
  · have : List.count '\n' [c] = 0 := by
      rw [List.count_eq_zero]; simp [Ne.symm h]
    simp [h, lineAfter, this]

theorem advance_eq (b w : Str) :
    advance (lineAfter b) (columnAfter b) w = (lineAfter (b ++ w), columnAfter (b ++ w)) := by
  induction w generalizing b with
  | nil => simp [advance]
  | cons c w ih =>
    have e : b ++ c :: w = (b ++ [c]) ++ w := by simp
    rw [advance, e, ← ih, lineAfter_snoc, columnAfter_snoc]
    by_cases h : c = '\n' <;> simp [h]

/-! ## Runs -/

/-- The end-of-file token after a text. -/
def eofAfter (before : Str) : Token := ⟨.eof, c!"<EOF>", lineAfter before, columnAfter before⟩

theorem cut_covered {m m' : Mode} {s rest : Str} {segs : List (TokKind × Str)} (h : Cut m s segs m' rest) :
    s = covered segs ++ rest := by
  induction h with
  | nil => rfl
  | cons _ _ ih => rw [ih]; simp [covered]

/-- A run over a text that starts with winning segments. -/
theorem run_cut {m m' : Mode} {s rest : Str} {segs : List (TokKind × Str)} (h : Cut m s segs m' rest)
    {before : Str} {fuel : Nat} (hf : s.length ≤ fuel) :
    ∃ fuel', rest.length ≤ fuel' ∧
      run fuel m (lineAfter before) (columnAfter before) s
        = (match run fuel' m' (lineAfter (before ++ covered segs)) (columnAfter (before ++ covered segs)) rest with
          | .error e => .error e
          | .ok ts => .ok (tokensOf before segs ++ ts)) := by
  induction h generalizing before fuel with
  | nil m s =>
    refine ⟨fuel, hf, ?_⟩
    simp only [covered, List.flatMap_nil, List.append_nil]
    cases run fuel m (lineAfter before) (columnAfter before) s <;> simp [tokensOf]
  | @cons m m' k w s rest segs hw hc ih =>
    have hne := winner_ne_nil hw
    obtain ⟨r, hb, hr, hk, ht⟩ := winner_best hw
    cases hws : w ++ s with
    | nil => exact absurd (List.append_eq_nil_iff.1 hws).1 hne
    | cons c x =>
      rw [hws] at hf hb ht
      cases fuel with
      | zero => simp at hf
      | succ fuel =>
        have hd : (c :: x).drop w.length = s := by rw [← hws]; simp
        have hlen : s.length ≤ fuel := by
          have : (w ++ s).length ≤ fuel + 1 := by rw [hws]; exact hf
          rw [List.length_append] at this
          have := List.length_pos_iff.2 hne
          omega
        obtain ⟨fuel', hf', he⟩ := ih (before := before ++ w) (fuel := fuel) hlen
        refine ⟨fuel', hf', ?_⟩
        rw [run, hb]
        dsimp only
        rw [ht, hd, advance_eq, rule_mode m r hr, hk, he]
        have ec : before ++ covered ((k, w) :: segs) = before ++ w ++ covered segs := by
          simp [covered]
        rw [ec]
        cases run fuel' m' (lineAfter (before ++ w ++ covered segs))
          (columnAfter (before ++ w ++ covered segs)) rest with
        | error e => rfl
        | ok ts =>
          have := rule_skip m r hr
          rw [hk] at this
          simp only [tokensOf, this]
          split <;> rfl

/-- Every text can be cut until it ends or no rule matches. -/
theorem cut_exists (m : Mode) (s : Str) :
    ∃ segs m' rest, Cut m s segs m' rest ∧ (rest = [] ∨ rest ≠ [] ∧ Stuck m' rest) := by
  generalize hn : s.length = n
  induction n using Nat.strongRecOn generalizing m s with
  | _ n ih =>
    cases s with
    | nil => exact ⟨[], m, [], .nil _ _, .inl rfl⟩
    | cons c x =>
      cases hb : best (rules m) (c :: x) with
      | none => exact ⟨[], m, c :: x, .nil _ _, .inr ⟨by simp, best_stuck.1 hb⟩⟩
      | some p =>
        obtain ⟨r, k⟩ := p
        obtain ⟨hr, h0, hk, hw⟩ := best_winner hb
        obtain ⟨segs, m', rest, hc, hrest⟩ :=
          ih ((c :: x).drop k).length (by rw [List.length_drop]; omega) (modeAfter m r.kind) _ rfl
        refine ⟨(r.kind, (c :: x).take k) :: segs, m', rest, ?_, hrest⟩
        have := List.take_append_drop k (c :: x)
        rw [← this] at hw ⊢
        rw [List.take_append_drop] at hw ⊢
        have h2 := Cut.cons (w := (c :: x).take k) (s := (c :: x).drop k)
          (by rw [List.take_append_drop]; exact hw) hc
        rwa [List.take_append_drop] at h2

theorem run_nil (fuel : Nat) (m : Mode) (line column : Nat) :
    run fuel m line column [] = .ok [⟨.eof, c!"<EOF>", line, column⟩] := by
  cases fuel <;> rfl

theorem run_stuck {fuel : Nat} {m : Mode} {line column : Nat} {s : Str} (hne : s ≠ []) (h : Stuck m s) :
    run fuel m line column s = .error (line, column) := by
  cases s with
  | nil => exact absurd rfl hne
  | cons c s =>
    cases fuel with
    | zero => rfl
    | succ fuel => rw [run, best_stuck.2 h]

theorem run_of_cut {m m' : Mode} {s : Str} {segs : List (TokKind × Str)} (h : Cut m s segs m' [])
    (before : Str) {fuel : Nat} (hf : s.length ≤ fuel) :
    run fuel m (lineAfter before) (columnAfter before) s
      = .ok (tokensOf before segs ++ [eofAfter (before ++ s)]) := by
  obtain ⟨fuel', _, he⟩ := run_cut h (before := before) hf
  have hs := cut_covered h
  rw [List.append_nil] at hs
  rw [he, run_nil, hs]; rfl

theorem lex_of_cut {m' : Mode} {s : Str} {segs : List (TokKind × Str)} (h : Cut .default s segs m' []) :
    lex s = .ok (tokensOf [] segs ++ [eofAfter s]) := by
  have := run_of_cut h [] (Nat.le_refl s.length)
  simpa [lex, lineAfter, columnAfter, lastLine] using this

theorem lex_of_stuck {m' : Mode} {s rest : Str} {segs : List (TokKind × Str)} (h : Cut .default s segs m' rest)
    (hne : rest ≠ []) (hs : Stuck m' rest) :
    lex s = .error (lineAfter (covered segs), columnAfter (covered segs)) := by
  obtain ⟨fuel', _, he⟩ := run_cut h (before := []) (Nat.le_refl s.length)
  rw [run_stuck hne hs] at he
  simpa [lex, lineAfter, columnAfter, lastLine] using he

end Qasm.Lexer
