import Verif.Model.Regex
/-!
# Regular expressions: the runs of `Model/Regex` find the longest and the shortest match
-/

namespace Qasm.Regex

/-- The texts a regular expression stands for. -/
inductive Matches : Regex → Str → Prop
  | eps : Matches eps []
  | set {p : Char → Bool} {c : Char} : p c = true → Matches (set p) [c]
  | seq {r s : Regex} {u v : Str} : Matches r u → Matches s v → Matches (seq r s) (u ++ v)
  | altL {r s : Regex} {u : Str} : Matches r u → Matches (alt r s) u
  | altR {r s : Regex} {u : Str} : Matches s u → Matches (alt r s) u
  | starNil {r : Regex} : Matches (star r) []
  | starCons {r : Regex} {u v : Str} : Matches r u → Matches (star r) v → Matches (star r) (u ++ v)

theorem matches_eps {w : Str} : Matches eps w ↔ w = [] :=
  ⟨fun h => by cases h; rfl, fun h => h ▸ .eps⟩

theorem matches_set {p : Char → Bool} {w : Str} : Matches (set p) w ↔ ∃ c, w = [c] ∧ p c = true :=
  ⟨fun h => by cases h with | set h => exact ⟨_, rfl, h⟩, fun ⟨_, h, hp⟩ => h ▸ .set hp⟩

theorem matches_seq {r s : Regex} {w : Str} :
    Matches (seq r s) w ↔ ∃ u v, w = u ++ v ∧ Matches r u ∧ Matches s v :=
  ⟨fun h => by cases h with | seq h h' => exact ⟨_, _, rfl, h, h'⟩, fun ⟨_, _, h, hr, hs⟩ => h ▸ .seq hr hs⟩

theorem matches_alt {r s : Regex} {w : Str} : Matches (alt r s) w ↔ Matches r w ∨ Matches s w :=
  ⟨fun h => by cases h with | altL h => exact .inl h | altR h => exact .inr h,
   fun h => h.elim .altL .altR⟩

theorem matches_opt {r : Regex} {w : Str} : Matches (opt r) w ↔ Matches r w ∨ w = [] := by
  rw [opt, matches_alt, matches_eps]

theorem matches_star_set {p : Char → Bool} {w : Str} : Matches (star (set p)) w ↔ ∀ c ∈ w, p c = true := by
  constructor
  · intro h
    generalize hr : star (set p) = r at h
    induction h with
    | starNil => simp
    | starCons h _ _ ih =>
      cases hr
      obtain ⟨c, rfl, hc⟩ := matches_set.1 h
      intro d hd
      rcases List.mem_cons.1 hd with rfl | hd
      · exact hc
      · exact ih rfl d hd
    | _ => cases hr
  · intro h
    induction w with
    | nil => exact .starNil
    | cons c w ih =>
      exact .starCons (u := [c]) (.set (h c (by simp))) (ih fun d hd => h d (by simp [hd]))

theorem matches_plus_set {p : Char → Bool} {w : Str} :
    Matches (plus (set p)) w ↔ w ≠ [] ∧ ∀ c ∈ w, p c = true := by
  rw [plus, matches_seq]
  constructor
  · rintro ⟨u, v, rfl, h, h'⟩
    obtain ⟨c, rfl, hc⟩ := matches_set.1 h
    refine ⟨by simp, fun d hd => ?_⟩
    rcases List.mem_cons.1 hd with rfl | hd
    · exact hc
    · exact matches_star_set.1 h' d hd
  · rintro ⟨hne, h⟩
    cases w with
    | nil => exact absurd rfl hne
    | cons c w =>
      exact ⟨[c], w, rfl, .set (h c (by simp)), matches_star_set.2 fun d hd => h d (by simp [hd])⟩

theorem matches_str {t w : Str} : Matches (str t) w ↔ w = t := by
  induction t generalizing w with
  | nil => exact matches_eps
  | cons c t ih =>
    cases t with
    | nil =>
      rw [str, matches_set]
      constructor
      · rintro ⟨d, rfl, h⟩; simpa using h
      · rintro rfl; exact ⟨c, rfl, by simp⟩
    | cons d t =>
      rw [str, matches_seq]
      constructor
      · rintro ⟨u, v, rfl, h, h'⟩
        obtain ⟨e, rfl, he⟩ := matches_set.1 h
        rw [ih.1 h']; simpa using he
      · rintro rfl
        exact ⟨[c], d :: t, rfl, .set (by simp), ih.2 rfl⟩

theorem nullable_iff (r : Regex) : nullable r = true ↔ Matches r [] := by
  induction r with
  | eps => simp [nullable, matches_eps]
  | set p => simp [nullable, matches_set]
  | seq r s ihr ihs =>
    rw [nullable, Bool.and_eq_true, ihr, ihs, matches_seq]
    constructor
    · rintro ⟨h, h'⟩; exact ⟨[], [], rfl, h, h'⟩
    · rintro ⟨u, v, h, hu, hv⟩
      obtain ⟨rfl, rfl⟩ := List.append_eq_nil_iff.1 h.symm
      exact ⟨hu, hv⟩
  | alt r s ihr ihs => rw [nullable, Bool.or_eq_true, ihr, ihs, matches_alt]
  | star r _ => simp [nullable, Matches.starNil]

theorem matches_cat {r s : Regex} {w : Str} : Matches (cat r s) w ↔ Matches (seq r s) w := by
  cases r with
  | eps =>
    rw [cat, matches_seq]
    constructor
    · intro h; exact ⟨[], w, rfl, .eps, h⟩
    · rintro ⟨u, v, rfl, h, h'⟩; rw [matches_eps.1 h]; exact h'
  | _ => rfl

/-- Some configuration matches. -/
def Any (cs : List Regex) (w : Str) : Prop := ∃ r ∈ cs, Matches r w

theorem star_cons {r : Regex} {c : Char} {w : Str} :
    Matches (star r) (c :: w) ↔ ∃ u v, w = u ++ v ∧ Matches r (c :: u) ∧ Matches (star r) v := by
  constructor
  · intro h
    generalize hs : star r = s at h
    generalize hw : c :: w = x at h
    induction h with
    | starNil => cases hw
    | @starCons r' u v hu hv _ ih =>
      cases hs
      cases u with
      | nil => exact ih rfl hw
      | cons d u =>
        obtain ⟨rfl, rfl⟩ := List.cons.inj hw
        exact ⟨u, v, rfl, hu, hv⟩
    | _ => cases hs
  · rintro ⟨u, v, rfl, h, h'⟩
    exact .starCons (u := c :: u) h h'

theorem move_iff (r : Regex) (c : Char) (w : Str) : Matches r (c :: w) ↔ Any (move r c) w := by
  induction r generalizing w with
  | eps => simp [matches_eps, move, Any]
  | set p =>
    rw [matches_set, move]
    by_cases h : p c = true
    · simp only [h, if_true, Any, List.mem_singleton, exists_eq_left, matches_eps]
      constructor
      · rintro ⟨d, hd, _⟩; exact (List.cons.inj hd).2
      · rintro rfl; exact ⟨c, rfl, h⟩
    · simp only [h, if_false, Any, List.not_mem_nil, false_and, exists_false, iff_false,
        Bool.false_eq_true]
      rintro ⟨d, hd, hp⟩
      exact h ((List.cons.inj hd).1 ▸ hp)
  | seq r s ihr ihs =>
    rw [matches_seq]
    constructor
    · rintro ⟨u, v, huv, hu, hv⟩
      cases u with
      | nil =>
        obtain ⟨q, hq, hm⟩ := (ihs w).1 (by rw [huv]; exact hv)
        exact ⟨q, by rw [move, if_pos ((nullable_iff r).2 hu)]; exact List.mem_append_right _ hq, hm⟩
      | cons d u =>
        obtain ⟨rfl, rfl⟩ := List.cons.inj huv
        obtain ⟨q, hq, hm⟩ := (ihr u).1 hu
        exact ⟨cat q s, by rw [move]; exact List.mem_append_left _ (List.mem_map.2 ⟨q, hq, rfl⟩),
          matches_cat.2 (.seq hm hv)⟩
    · rintro ⟨q, hq, hm⟩
      rw [move] at hq
      rcases List.mem_append.1 hq with hq | hq
      · obtain ⟨q', hq', rfl⟩ := List.mem_map.1 hq
        obtain ⟨u, v, rfl, hu, hv⟩ := matches_seq.1 (matches_cat.1 hm)
        exact ⟨c :: u, v, rfl, (ihr u).2 ⟨q', hq', hu⟩, hv⟩
      · by_cases hn : nullable r = true
        · rw [if_pos hn] at hq
          exact ⟨[], c :: w, rfl, (nullable_iff r).1 hn, (ihs w).2 ⟨q, hq, hm⟩⟩
        · rw [if_neg hn] at hq; cases hq
  | alt r s ihr ihs =>
    rw [matches_alt, ihr, ihs, move]
    simp only [Any, List.mem_append]
    constructor
    · rintro (⟨q, h, h'⟩ | ⟨q, h, h'⟩)
      · exact ⟨q, .inl h, h'⟩
      · exact ⟨q, .inr h, h'⟩
    · rintro ⟨q, h | h, h'⟩
      · exact .inl ⟨q, h, h'⟩
      · exact .inr ⟨q, h, h'⟩
  | star r ih =>
    rw [star_cons, move]
    constructor
    · rintro ⟨u, v, rfl, hu, hv⟩
      obtain ⟨q, hq, hm⟩ := (ih u).1 hu
      exact ⟨cat q (star r), List.mem_map.2 ⟨q, hq, rfl⟩, matches_cat.2 (.seq hm hv)⟩
    · rintro ⟨q, hq, hm⟩
      obtain ⟨q', hq', rfl⟩ := List.mem_map.1 hq
      obtain ⟨u, v, rfl, hu, hv⟩ := matches_seq.1 (matches_cat.1 hm)
      exact ⟨u, v, rfl, (ih u).2 ⟨q', hq', hu⟩, hv⟩

theorem step_iff (cs : List Regex) (c : Char) (w : Str) : Any cs (c :: w) ↔ Any (step cs c) w := by
  constructor
  · rintro ⟨r, hr, hm⟩
    obtain ⟨q, hq, hm⟩ := (move_iff r c w).1 hm
    exact ⟨q, List.mem_flatMap.2 ⟨r, hr, hq⟩, hm⟩
  · rintro ⟨q, hq, hm⟩
    obtain ⟨r, hr, hq⟩ := List.mem_flatMap.1 hq
    exact ⟨r, hr, (move_iff r c w).2 ⟨q, hq, hm⟩⟩

theorem accepts_iff (cs : List Regex) : accepts cs = true ↔ Any cs [] := by
  simp only [accepts, List.any_eq_true, Any, nullable_iff]

theorem any_nil {w : Str} : ¬ Any [] w := by rintro ⟨_, h, _⟩; cases h

/-- `n` is the length of the longest non-empty match. -/
theorem longest_some {cs : List Regex} {s : Str} {n : Nat} (h : longest cs s = some n) :
    0 < n ∧ n ≤ s.length ∧ Any cs (s.take n) ∧ ∀ m, n < m → m ≤ s.length → ¬ Any cs (s.take m) := by
  induction s generalizing cs n with
  | nil => simp [longest] at h
  | cons c s ih =>
    rw [longest] at h
    split at h
    · cases h
    · split at h
      · next k hk =>
        cases h
        obtain ⟨_, h2, h3, h4⟩ := ih hk
        refine ⟨by omega, by simpa using h2, ?_, ?_⟩
        · rw [List.take_succ_cons, step_iff]; exact h3
        · intro m hm hl
          cases m with
          | zero => omega
          | succ m =>
            rw [List.take_succ_cons, step_iff]
            exact h4 m (by omega) (by simpa using hl)
      · next hk =>
        split at h
        · next ha =>
          cases h
          refine ⟨by omega, by simp, ?_, ?_⟩
          · rw [List.take_succ_cons, step_iff, List.take_zero]; exact (accepts_iff _).1 ha
          · intro m hm hl
            cases m with
            | zero => omega
            | succ m =>
              rw [List.take_succ_cons, step_iff]
              have := longest_none hk m (by omega) (by simpa using hl)
              exact this
        · cases h
where
  longest_none {cs : List Regex} {s : Str} (h : longest cs s = none) :
      ∀ m, 0 < m → m ≤ s.length → ¬ Any cs (s.take m) := by
    induction s generalizing cs with
    | nil => intro m h1 h2; simp at h2; omega
    | cons c s ih =>
      intro m h1 h2
      cases m with
      | zero => omega
      | succ m =>
        rw [List.take_succ_cons, step_iff]
        rw [longest] at h
        split at h
        · next he =>
          rw [List.isEmpty_iff.1 he]; exact any_nil
        · split at h
          · cases h
          · next hk =>
            split at h
            · cases h
            · next ha =>
              cases m with
              | zero => rw [List.take_zero, ← accepts_iff]; exact ha
              | succ m => exact ih hk (m + 1) (by omega) (by simpa using h2)

theorem longest_none {cs : List Regex} {s : Str} (h : longest cs s = none) :
    ∀ m, 0 < m → m ≤ s.length → ¬ Any cs (s.take m) := longest_some.longest_none h

/-- `n` is the length of the shortest non-empty match. -/
theorem shortest_some {cs : List Regex} {s : Str} {n : Nat} (h : shortest cs s = some n) :
    0 < n ∧ n ≤ s.length ∧ Any cs (s.take n) ∧ ∀ m, 0 < m → m < n → ¬ Any cs (s.take m) := by
  induction s generalizing cs n with
  | nil => simp [shortest] at h
  | cons c s ih =>
    rw [shortest] at h
    split at h
    · cases h
    · split at h
      · next ha =>
        cases h
        refine ⟨by omega, by simp, ?_, fun m h1 h2 => by omega⟩
        rw [List.take_succ_cons, step_iff, List.take_zero]; exact (accepts_iff _).1 ha
      · next ha =>
        obtain ⟨k, hk, rfl⟩ := Option.map_eq_some_iff.1 h
        obtain ⟨_, h2, h3, h4⟩ := ih hk
        refine ⟨by omega, by simpa using h2, ?_, ?_⟩
        · rw [List.take_succ_cons, step_iff]; exact h3
        · intro m hm hl
          cases m with
          | zero => omega
          | succ m =>
            rw [List.take_succ_cons, step_iff]
            cases m with
            | zero => rw [List.take_zero, ← accepts_iff]; exact ha
            | succ m => exact h4 (m + 1) (by omega) (by omega)

theorem shortest_none {cs : List Regex} {s : Str} (h : shortest cs s = none) :
    ∀ m, 0 < m → m ≤ s.length → ¬ Any cs (s.take m) := by
  induction s generalizing cs with
  | nil => intro m h1 h2; simp at h2; omega
  | cons c s ih =>
    intro m h1 h2
    cases m with
    | zero => omega
    | succ m =>
      rw [List.take_succ_cons, step_iff]
      rw [shortest] at h
      split at h
      · next he => rw [List.isEmpty_iff.1 he]; exact any_nil
      · split at h
        · cases h
        · next ha =>
          have hk := Option.map_eq_none_iff.1 h
          cases m with
          | zero => rw [List.take_zero, ← accepts_iff]; exact ha
          | succ m => exact ih hk (m + 1) (by omega) (by simpa using h2)

theorem any_singleton {r : Regex} {w : Str} : Any [r] w ↔ Matches r w := by
  simp [Any]

end Qasm.Regex
