import Verif.Model.PyModule
import Verif.Spec.PyModule
import Verif.Props.Version
import Verif.Props.CborErrors
/-!
# Properties C75 and C76: versions and instructions in Python
-/

namespace Qasm

open Spec

namespace Py

theorem isSpace_iff (c : Char) : isSpace c = true ↔ c.toNat ∈ pySpaces := by
  generalize hn : c.toNat = n
  simp only [isSpace, hn, pySpaces, Bool.or_eq_true, Bool.and_eq_true, decide_eq_true_eq, beq_iff_eq, List.mem_cons,
    List.not_mem_nil, or_false]
  omega

theorem space_facts {c : Char} (h : c.isDigit = true ∨ c = '+' ∨ c = '-') : isSpace c = false := by
  rcases h with h | rfl | rfl
  · have := isDigit_bounds h
    cases hs : isSpace c with
    | false => rfl
    | true =>
      rw [isSpace_iff] at hs
      simp only [pySpaces, List.mem_cons, List.not_mem_nil, or_false] at hs
      omega
  · decide
  · decide

theorem strip_eq {ws t ws' : Str} (h : ∀ c ∈ ws ++ ws', isSpace c = true) (h1 : ∀ c, t.head? = some c → isSpace c = false)
    (h2 : ∀ c, t.getLast? = some c → isSpace c = false) (hne : t ≠ []) : strip (ws ++ t ++ ws') = t := by
  unfold strip
  rw [List.append_assoc, dropWhile_stop ws _ (fun c hc => h c (by simp [hc]))]
  · rw [List.reverse_append, dropWhile_stop ws'.reverse _ (fun c hc => h c (by simp at hc; simp [hc]))]
    · simp
    · intro c hc; exact h2 c (by rw [← hc, List.head?_reverse])
  · intro c hc
    obtain ⟨d, t', rfl⟩ := List.exists_cons_of_ne_nil hne
    exact h1 c (by simpa using hc)

theorem strip_split (s : Str) : ∃ ws ws', s = ws ++ strip s ++ ws' ∧ ∀ c ∈ ws ++ ws', isSpace c = true := by
  refine ⟨s.takeWhile isSpace, ((s.dropWhile isSpace).reverse.takeWhile isSpace).reverse, ?_, ?_⟩
  · have h1 := List.takeWhile_append_dropWhile (p := isSpace) (l := s)
    have h2 := congrArg List.reverse (List.takeWhile_append_dropWhile (p := isSpace) (l := (s.dropWhile isSpace).reverse))
    rw [List.reverse_append, List.reverse_reverse] at h2
    unfold strip
    rw [List.append_assoc, h2, h1]
  · intro c hc
    simp only [List.mem_append, List.mem_reverse] at hc
    rcases hc with hc | hc <;> exact mem_takeWhile_imp hc

/-- Groups of digits. -/
private def Groups (gs : List Str) : Prop := gs ≠ [] ∧ ∀ g ∈ gs, g ≠ [] ∧ ∀ c ∈ g, c.isDigit = true

private theorem digits_sound (s ds : Str) (h : digits s = some ds) :
    ∃ gs, Groups gs ∧ joinStr ['_'] gs = s ∧ gs.flatten = ds := by
  induction s using digits.induct generalizing ds with
  | case1 => cases h
  | case2 c hc =>
    simp only [digits, hc, if_true, Option.some.injEq] at h
    subst h
    exact ⟨[[c]], ⟨by simp, by simpa using hc⟩, rfl, rfl⟩
  | case3 c hc => simp [digits, hc] at h
  | case4 c r hc ih =>
    simp only [digits, hc, if_true, Option.map_eq_some_iff] at h
    obtain ⟨ds', h1, rfl⟩ := h
    obtain ⟨gs, ⟨h2, h3⟩, h4, h5⟩ := ih ds' h1
    obtain ⟨g, gs, rfl⟩ := List.exists_cons_of_ne_nil h2
    refine ⟨[c] :: g :: gs, ⟨by simp, ?_⟩, ?_, ?_⟩
    · intro g' hg'
      rcases List.mem_cons.1 hg' with rfl | hg'
      · simpa using hc
      · exact h3 g' hg'
    · rw [joinStr, h4]; rfl
    · rw [List.flatten_cons, h5]; rfl
  | case5 c r hc => simp [digits, hc] at h
  | case6 c d r hd hc ih =>
    rw [digits, if_pos hc, Option.map_eq_some_iff] at h
    · obtain ⟨ds', h1, rfl⟩ := h
      obtain ⟨gs, ⟨h2, h3⟩, h4, h5⟩ := ih ds' h1
      obtain ⟨g, gs, rfl⟩ := List.exists_cons_of_ne_nil h2
      refine ⟨(c :: g) :: gs, ⟨by simp, ?_⟩, ?_, ?_⟩
      · intro g' hg'
        rcases List.mem_cons.1 hg' with rfl | hg'
        · refine ⟨by simp, fun x hx => ?_⟩
          rcases List.mem_cons.1 hx with rfl | hx
          · exact hc
          · exact (h3 g (.head _)).2 x hx
        · exact h3 g' (.tail _ hg')
      · cases gs with
        | nil => simp only [joinStr] at h4 ⊢; rw [h4]
        | cons g2 gs => simp only [joinStr] at h4 ⊢; rw [← h4]; simp
      · simp only [List.flatten_cons, List.cons_append]
        rw [List.flatten_cons] at h5
        rw [h5]
    · intro h'; exact hd h'
  | case7 c d r hd hc => rw [digits, if_neg hc] at h; · cases h
                         · intro h'; exact hd h'

private theorem digits_complete (gs : List Str) (h : Groups gs) : digits (joinStr ['_'] gs) = some gs.flatten := by
  obtain ⟨hne, h⟩ := h
  induction gs with
  | nil => exact absurd rfl hne
  | cons g gs ih =>
    obtain ⟨hg, hd⟩ := h g (.head _)
    cases gs with
    | nil =>
      simp only [joinStr, List.flatten_cons, List.flatten_nil, List.append_nil]
      clear ih h hne
      induction g with
      | nil => exact absurd rfl hg
      | cons c g ih =>
        cases g with
        | nil => simp [digits, hd c (.head _)]
        | cons d g =>
          have hdd := hd d (by simp)
          have : d ≠ '_' := by rintro rfl; revert hdd; decide
          rw [digits, if_pos (hd c (.head _)), ih (by simp) fun x hx => hd x (.tail _ hx)]
          · rfl
          · exact this
    | cons g2 gs =>
      have ih := ih (by simp) fun g' hg' => h g' (.tail _ hg')
      simp only [joinStr]
      clear h hne
      induction g with
      | nil => exact absurd rfl hg
      | cons c g ihg =>
        cases g with
        | nil =>
          show digits (c :: '_' :: joinStr ['_'] (g2 :: gs)) = _
          rw [digits, if_pos (hd c (.head _)), ih]
          rfl
        | cons d g =>
          have hdd := hd d (by simp)
          have : d ≠ '_' := by rintro rfl; revert hdd; decide
          have ihg := ihg (by simp) fun x hx => hd x (.tail _ hx)
          simp only [List.cons_append] at ihg ⊢
          rw [digits, if_pos (hd c (.head _)), ihg]
          · rfl
          · exact this

private theorem groups_edges {gs : List Str} (h : Groups gs) :
    ∃ c l, joinStr ['_'] gs = c :: l ∧ c.isDigit = true ∧ ∃ l' d, joinStr ['_'] gs = l' ++ [d] ∧ d.isDigit = true := by
  obtain ⟨hne, h⟩ := h
  induction gs with
  | nil => exact absurd rfl hne
  | cons g gs ih =>
    obtain ⟨hg, hd⟩ := h g (.head _)
    obtain ⟨c, g', rfl⟩ := List.exists_cons_of_ne_nil hg
    cases gs with
    | nil =>
      refine ⟨c, g', rfl, hd c (.head _), (c :: g').dropLast, (c :: g').getLast hg, ?_, hd _ (List.getLast_mem _)⟩
      exact (List.dropLast_concat_getLast (l := c :: g') (by simp)).symm
    | cons g2 gs =>
      obtain ⟨c2, l2, h1, h2, l', d, h3, h4⟩ := ih (by simp) fun g' hg' => h g' (.tail _ hg')
      refine ⟨c, g' ++ ['_'] ++ joinStr ['_'] (g2 :: gs), rfl, hd c (.head _), (c :: g') ++ ['_'] ++ l', d, ?_, h4⟩
      rw [joinStr, h3]; simp only [List.append_assoc]

theorem int_iff (s : Str) (i : Int) : int s = .ok i ↔ PyInt s i := by
  have hval : ∀ x : Str, (Version.digitsVal 0 x : Int) = decimalValue x := fun x => by rw [digitsVal_eq]; rfl
  constructor
  · intro h
    obtain ⟨ws, ws', hs, hws⟩ := strip_split s
    have hws : ∀ c ∈ ws ++ ws', c.toNat ∈ pySpaces := fun c hc => (isSpace_iff c).1 (hws c hc)
    unfold int at h
    have main : ∀ (sign r : Str) (neg : Bool), strip s = sign ++ r →
        (neg = false ∧ sign ∈ [[], ['+']] ∨ neg = true ∧ sign = ['-']) →
        (match digits r with
          | none => (.exn c!"ValueError" : Res Empty Int)
          | some ds => .ok (if neg then - (Version.digitsVal 0 ds : Int) else Version.digitsVal 0 ds)) = .ok i → PyInt s i := by
      intro sign r neg h1 h2 h3
      cases hd : digits r with
      | none => rw [hd] at h3; cases h3
      | some ds =>
        rw [hd] at h3
        obtain ⟨gs, ⟨g1, g2⟩, g3, g4⟩ := digits_sound r ds hd
        injection h3 with h3
        refine ⟨ws, sign, gs, ws', ?_, hws, g1, g2, ?_⟩
        · rw [g3, List.append_assoc ws, ← h1, ← hs]
        · rw [g4]
          rcases h2 with ⟨rfl, h2⟩ | ⟨rfl, h2⟩
          · left; exact ⟨h2, by rw [← h3]; simp [hval]⟩
          · right; exact ⟨h2, by rw [← h3]; simp [hval]⟩
    unfold Version.splitSign at h
    split at h
    · rename_i t ht; exact main ['-'] t true ht (.inr ⟨rfl, rfl⟩) h
    · rename_i t ht; exact main ['+'] t false ht (.inl ⟨rfl, by simp⟩) h
    · exact main [] _ false rfl (.inl ⟨rfl, by simp⟩) h
  · rintro ⟨ws, sign, gs, ws', rfl, hws, g1, g2, hsign⟩
    obtain ⟨c, l, e1, e2, l', d, e3, e4⟩ := groups_edges ⟨g1, g2⟩
    have hsg : sign = [] ∨ sign = ['+'] ∨ sign = ['-'] := by
      rcases hsign with ⟨h, -⟩ | ⟨h, -⟩
      · simp only [List.mem_cons, List.not_mem_nil, or_false] at h
        rcases h with h | h <;> simp [h]
      · simp [h]
    have hstrip : strip (ws ++ sign ++ joinStr ['_'] gs ++ ws') = sign ++ joinStr ['_'] gs := by
      rw [List.append_assoc ws]
      refine strip_eq (fun c hc => (isSpace_iff c).2 (hws c hc)) ?_ ?_ (by rw [e1]; simp)
      · intro x hx
        rcases hsg with rfl | rfl | rfl
        · rw [e1] at hx; simp at hx; subst hx; exact space_facts (.inl e2)
        · simp at hx; subst hx; exact space_facts (by simp)
        · simp at hx; subst hx; exact space_facts (by simp)
      · intro x hx
        rw [e3, ← List.append_assoc, List.getLast?_concat] at hx
        injection hx with hx
        subst hx; exact space_facts (.inl e4)
    unfold int
    rw [hstrip]
    have hdig := digits_complete gs ⟨g1, g2⟩
    have hsp : Version.splitSign (joinStr ['_'] gs) = (false, joinStr ['_'] gs) := by
      rw [e1]
      have h1 : c ≠ '-' := by rintro rfl; revert e2; decide
      have h2 : c ≠ '+' := by rintro rfl; revert e2; decide
      unfold Version.splitSign
      split <;> simp_all
    rcases hsign with ⟨h, rfl⟩ | ⟨rfl, rfl⟩
    · simp only [List.mem_cons, List.not_mem_nil, or_false] at h
      rcases h with rfl | rfl
      · simp only [List.nil_append, hsp, hdig, hval]; rfl
      · simp only [List.cons_append, List.nil_append, Version.splitSign, hdig, hval]; rfl
    · simp only [List.cons_append, List.nil_append, Version.splitSign, hdig, hval]; rfl

end Py

open Py

/-- C75. Which texts the Python class for versions accepts, and their components: integers as Python reads them, separated by
dots. -/
theorem C75_accepts (s : Str) (v : List Int) :
    Py.version s = .ok v ↔ ∃ ps : List Str, ps ≠ [] ∧ (∀ p ∈ ps, '.' ∉ p) ∧ joinStr ['.'] ps = s ∧ Forall2 PyInt ps v := by
  have hf : (fun (p : Str) (i : Int) => Py.int p = .ok i) = PyInt := by
    funext p i; exact propext (int_iff p i)
  unfold Py.version
  rw [each_ok, hf]
  constructor
  · intro h
    obtain ⟨j1, j2, j3⟩ := joinStr_splitDots [] s
    exact ⟨_, j2, j3 (by simp), by simpa using j1, h⟩
  · rintro ⟨ps, h1, h2, rfl, h3⟩
    rwa [splitDots_join ps h1 h2]

/-- C75. Any other text is a `ValueError`. -/
theorem C75_rejects (s : Str) (h : ∀ v, Py.version s ≠ .ok v) : Py.version s = .exn c!"ValueError" := by
  have : ∀ a : Str, (∃ b, Py.int a = .ok b) ∨ Py.int a = .exn c!"ValueError" := by
    intro a
    unfold Py.int
    dsimp only
    split
    · exact .inr rfl
    · exact .inl ⟨_, rfl⟩
  rcases each_total this (Version.splitDots [] s) with ⟨v, hv⟩ | hv
  · exact absurd hv (h v)
  · exact hv

/-- C75. The text C++ prints for a version is read by Python with the same components, of any size. -/
theorem C75_printed (v : Version) (hne : v ≠ []) : Py.version (Version.print v) = .ok (v.map Int64.toInt) := by
  rw [C75_accepts]
  have nodot : ∀ i : Int, '.' ∉ decInt i := by
    intro i hm
    have key : '.' ∉ decNat i.natAbs := fun hm => by
      have := decNat_digits _ _ hm
      revert this; decide
    unfold decInt at hm
    split at hm
    · rcases List.mem_cons.1 hm with h | h
      · revert h; decide
      · exact key h
    · exact key hm
  refine ⟨v.map fun c => decInt c.toInt, by simpa using hne, ?_, rfl, ?_⟩
  · intro p hp
    obtain ⟨c, -, rfl⟩ := List.mem_map.1 hp
    exact nodot _
  · clear hne
    induction v with
    | nil => exact .nil
    | cons c v ih =>
      refine .cons ?_ ih
      have hd : ∀ g ∈ [decNat c.toInt.natAbs], g ≠ [] ∧ ∀ c ∈ g, c.isDigit = true := by
        intro g hg
        rw [List.mem_singleton] at hg
        subst hg
        exact ⟨decNat_ne_nil _, decNat_digits _⟩
      by_cases h : c.toInt < 0
      · refine ⟨[], ['-'], [decNat c.toInt.natAbs], [], ?_, by simp, by simp, hd, .inr ⟨rfl, ?_⟩⟩
        · simp [decInt, h, joinStr]
        · simp [decimalValue_decNat]; omega
      · refine ⟨[], [], [decNat c.toInt.natAbs], [], ?_, by simp, by simp, hd, .inl ⟨by simp, ?_⟩⟩
        · simp [decInt, h, joinStr]
        · simp [decimalValue_decNat]; omega

/-- C75 does not hold: there are texts from which C++ and Python make different versions, or which only one of them
accepts. -/
theorem C75_refuted :
    (∃ s v w, Version.ofString s = .ok v ∧ Py.version s = .ok w ∧ w ≠ v.map Int64.toInt) ∧
    (∃ s v, Version.ofString s = .ok v ∧ Py.version s = .exn c!"ValueError") ∧
    (∃ s v, Py.version s = .ok v ∧ Version.ofString s = .exn c!"std::invalid_argument") :=
  ⟨⟨c!"1_0", [1], [10], by decide +kernel⟩, ⟨c!"3.0x", [3, 0], by decide +kernel⟩, ⟨c!"3.-1", [3, -1], by decide +kernel⟩⟩

/-- C75, the part that holds: a text of decimal numbers separated by dots, with white space that C++ knows, too, and without
underscores, is accepted by both with the same components, provided that they are not negative and fit into an `int`. -/
theorem C75_agree_partial (s : Str) (w : List Int) (h : Py.version s = .ok w) (hu0 : '_' ∉ s)
    (hs0 : ∀ c ∈ s, c.toNat ∈ pySpaces → c ∈ [' ', '\t', '\n', Char.ofNat 11, Char.ofNat 12, '\r'])
    (hw : ∀ i ∈ w, 0 ≤ i ∧ i ≤ 2147483647) :
    ∃ v, Version.ofString s = .ok v ∧ v.map Int64.toInt = w := by
  obtain ⟨ps, h1, h2, rfl, h3⟩ := (C75_accepts s w).1 h
  refine ⟨w.map Int64.ofInt, ?_, ?_⟩
  · rw [C09_ofString_iff]
    right
    refine ⟨?_, ps, h1, h2, rfl, ?_⟩
    · intro he
      obtain ⟨p, ps', rfl⟩ := List.exists_cons_of_ne_nil h1
      cases h3 with
      | @cons _ i _ _ hp _ =>
        obtain ⟨ws, sign, gs, ws', rfl, -, g1, g2, -⟩ := hp
        obtain ⟨g, gs, rfl⟩ := List.exists_cons_of_ne_nil g1
        have hg := (g2 g (.head _)).1
        have hp : ws ++ sign ++ joinStr ['_'] (g :: gs) ++ ws' = [] := by
          cases ps' with
          | nil => exact he
          | cons p ps' => simp [joinStr] at he
        simp only [List.append_eq_nil_iff] at hp
        have : joinStr ['_'] (g :: gs) = [] := hp.1.2
        cases gs with
        | nil => exact hg this
        | cons g2 gs => simp [joinStr] at this
    · have hmem : ∀ (ps : List Str), ∀ p ∈ ps, ∀ c ∈ p, c ∈ joinStr ['.'] ps := by
        intro ps
        induction ps with
        | nil => intro p hp; cases hp
        | cons q ps ih =>
          intro p hp c hc
          cases ps with
          | nil => rw [List.mem_singleton] at hp; subst hp; exact hc
          | cons q2 ps =>
            rcases List.mem_cons.1 hp with rfl | hp
            · simp [joinStr, hc]
            · simp only [joinStr, List.mem_append]; exact .inr (ih p hp c hc)
      have hu : ∀ p ∈ ps, '_' ∉ p := fun p hp hc => hu0 (hmem ps p hp _ hc)
      have hs : ∀ p ∈ ps, ∀ c ∈ p, c.toNat ∈ pySpaces → c ∈ [' ', '\t', '\n', Char.ofNat 11, Char.ofNat 12, '\r'] :=
        fun p hp c hc => hs0 c (hmem ps p hp c hc)
      clear h h1 h2 hmem hu0 hs0
      induction h3 with
      | nil => exact .nil
      | @cons p i ps w hp _ ih =>
        have hi := hw i (.head _)
        have hi' : (Int64.ofInt i).toInt = i := Int64.toInt_ofInt_of_le (by omega) (by omega)
        refine .cons ⟨?_, by rw [hi']; exact hi⟩ (ih (fun j hj => hw j (.tail _ hj)) (fun q hq => hu q (.tail _ hq)) fun q hq => hs q (.tail _ hq))
        rw [hi']
        have hu := hu p (.head _)
        have hs := hs p (.head _)
        obtain ⟨ws, sign, gs, ws', rfl, g0, g1, g2, g3⟩ := hp
        have hg : ∃ g, gs = [g] := by
          obtain ⟨g, gs, rfl⟩ := List.exists_cons_of_ne_nil g1
          cases gs with
          | nil => exact ⟨g, rfl⟩
          | cons g2 gs => exact absurd (by simp [joinStr]) hu
        obtain ⟨g, rfl⟩ := hg
        refine ⟨ws, sign, g, ws', rfl, fun c hc => hs c (by simp [hc]) (g0 c (by simp [hc])), (g2 g (.head _)).1, (g2 g (.head _)).2, ?_, ?_⟩
        · intro c hc
          cases hd : c.isDigit with
          | false => rfl
          | true =>
            have hm : c ∈ ws' := by
              cases ws' with
              | nil => cases hc
              | cons x ws' => simp at hc; simp [hc]
            have h1 := g0 c (by simp [hm])
            have h2 := isDigit_bounds hd
            simp only [pySpaces, List.mem_cons, List.not_mem_nil, or_false] at h1
            omega
        · simpa using g3
  · rw [List.map_map]
    clear h h3
    induction w with
    | nil => rfl
    | cons i w ih =>
      have hi := hw i (.head _)
      simp only [List.map_cons, Function.comp]
      rw [Int64.toInt_ofInt_of_le (by omega) (by omega)]
      congr 1
      exact ih fun j hj => hw j (.tail _ hj)

private theorem same_prefix {p : Char → Prop} {l r l' r' : Str} (hl : ∀ c ∈ l, p c) (hr : ∀ c, r.head? = some c → ¬ p c)
    (hl' : ∀ c ∈ l', p c) (hr' : ∀ c, r'.head? = some c → ¬ p c) (h : l ++ r = l' ++ r') : l = l' ∧ r = r' := by
  induction l generalizing l' with
  | nil =>
    cases l' with
    | nil => exact ⟨rfl, h⟩
    | cons c l' =>
      have h : r = c :: (l' ++ r') := h
      exact absurd (hl' c (.head _)) (hr c (by rw [h]; rfl))
  | cons c l ih =>
    cases l' with
    | nil =>
      have h : c :: (l ++ r) = r' := h
      exact absurd (hl c (.head _)) (hr' c (by rw [← h]; rfl))
    | cons c' l' =>
      simp only [List.cons_append, List.cons.injEq] at h
      obtain ⟨rfl, h⟩ := h
      have h := ih (fun c hc => hl c (.tail _ hc)) (fun c hc => hl' c (.tail _ hc)) h
      exact ⟨by rw [h.1], h.2⟩

private theorem foldl_digits (ds : Str) (n : Nat) :
    ds.foldl (fun n c => 10 * n + (c.toNat - '0'.toNat)) n = n * 10 ^ ds.length + decimalValue ds := by
  unfold decimalValue
  induction ds generalizing n with
  | nil => simp
  | cons c ds ih =>
    simp only [List.foldl_cons, List.length_cons]
    rw [ih, ih (10 * 0 + _), Nat.pow_succ, Nat.mul_zero, Nat.zero_add]
    have : (10 * n + (c.toNat - '0'.toNat)) * 10 ^ ds.length
        = n * (10 ^ ds.length * 10) + (c.toNat - '0'.toNat) * 10 ^ ds.length := by
      rw [Nat.add_mul, Nat.mul_comm 10 n, Nat.mul_assoc, Nat.mul_comm 10]
    omega

private theorem decimalValue_append (a b : Str) : decimalValue (a ++ b) = decimalValue a * 10 ^ b.length + decimalValue b := by
  rw [← foldl_digits]; unfold decimalValue; rw [List.foldl_append]

/-- A number starts like the first of its groups. -/
private theorem groups_rest (g : Str) (gs : List Str) (ws' : Str) (h : ∀ c ∈ ws', c.toNat ∈ pySpaces) :
    ∃ rest, joinStr ['_'] (g :: gs) ++ ws' = g ++ rest ∧ ∀ c, rest.head? = some c → ¬ c.isDigit = true := by
  cases gs with
  | nil =>
    refine ⟨ws', rfl, fun c hc hd => ?_⟩
    have h1 := h c (List.mem_of_head? hc)
    have h2 := isDigit_bounds hd
    simp only [pySpaces, List.mem_cons, List.not_mem_nil, or_false] at h1
    omega
  | cons g2 gs =>
    refine ⟨['_'] ++ joinStr ['_'] (g2 :: gs) ++ ws', by simp [joinStr], fun c hc hd => ?_⟩
    have : c = '_' := by simpa using hc.symm
    subst this
    revert hd; decide

private theorem common_iff (p : Str) (i : Int) :
    (PyInt p i ∧ LeadingInt p i ∧ 0 ≤ i ∧ i ≤ 2147483647) ↔ CommonInt p i := by
  have cspace : ∀ c ∈ [' ', '\t', '\n', Char.ofNat 11, Char.ofNat 12, '\r'], c.toNat ∈ pySpaces := by decide
  constructor
  · rintro ⟨⟨ws, sign, gs, ws', rfl, g0, g1, g2, g3⟩, ⟨wt, sign', ds, rest, h, h0, h1, h2, h3, h4⟩, hi, hj⟩
    obtain ⟨g, gs, rfl⟩ := List.exists_cons_of_ne_nil g1
    obtain ⟨r, hr, hr'⟩ := groups_rest g gs ws' fun c hc => g0 c (by simp [hc])
    obtain ⟨hg, hgd⟩ := g2 g (.head _)
    obtain ⟨x, g, rfl⟩ := List.exists_cons_of_ne_nil hg
    obtain ⟨y, ds, rfl⟩ := List.exists_cons_of_ne_nil h1
    have dig : ∀ c : Char, c.isDigit = true → c.toNat ∉ pySpaces ∧ c ≠ '+' ∧ c ≠ '-' := by
      intro c hc
      have := isDigit_bounds hc
      refine ⟨?_, ?_, ?_⟩
      · simp only [pySpaces, List.mem_cons, List.not_mem_nil, or_false]; omega
      · rintro rfl; revert hc; decide
      · rintro rfl; revert hc; decide
    have hx := dig x (hgd x (.head _))
    have hy := dig y (h2 y (.head _))
    have hs : sign = [] ∨ sign = ['+'] ∨ sign = ['-'] := by
      rcases g3 with ⟨g3, -⟩ | ⟨g3, -⟩
      · simp only [List.mem_cons, List.not_mem_nil, or_false] at g3; rcases g3 with g3 | g3 <;> simp [g3]
      · simp [g3]
    have hs' : sign' = [] ∨ sign' = ['+'] ∨ sign' = ['-'] := by
      rcases h4 with ⟨g3, -⟩ | ⟨g3, -⟩
      · simp only [List.mem_cons, List.not_mem_nil, or_false] at g3; rcases g3 with g3 | g3 <;> simp [g3]
      · simp [g3]
    rw [List.append_assoc, hr, List.append_assoc, List.append_assoc wt, List.append_assoc wt] at h
    have plus : 43 ∉ pySpaces ∧ 45 ∉ pySpaces := by decide
    obtain ⟨rfl, k⟩ := same_prefix (p := fun c => c.toNat ∈ pySpaces) (fun c hc => g0 c (by simp [hc]))
      (by rcases hs with rfl | rfl | rfl <;> simp [hx.1, plus]) (fun c hc => cspace c (h0 c hc))
      (by rcases hs' with rfl | rfl | rfl <;> simp [hy.1, plus]) h
    have k2 : sign = sign' ∧ (x :: g) ++ r = (y :: ds) ++ rest := by
      clear h g0 g2 g3 h4 hr hr' dig cspace plus
      rcases hs with rfl | rfl | rfl <;> rcases hs' with rfl | rfl | rfl <;>
        simp only [List.nil_append, List.cons_append, List.cons.injEq, true_and] at k ⊢
      · exact k
      · exact absurd k.1 hx.2.1
      · exact absurd k.1 hx.2.2
      · exact absurd k.1.symm hy.2.1
      · exact k
      · exact absurd k.1 (by decide)
      · exact absurd k.1.symm hy.2.2
      · exact absurd k.1 (by decide)
      · exact k
    obtain ⟨rfl, k3⟩ := k2
    obtain ⟨e, -⟩ := same_prefix (p := fun c => c.isDigit = true) hgd hr' h2
      (fun c hc => by simp [h3 c hc]) k3
    rw [← e] at h4
    have hv := decimalValue_append (x :: g) gs.flatten
    have hsg : (sign = ['-'] → i = 0) ∧ i = decimalValue ((x :: g) :: gs).flatten ∧ i = decimalValue (x :: g) := by
      rcases g3 with ⟨g3, g4⟩ | ⟨rfl, g4⟩
      · rcases h4 with ⟨h4, h5⟩ | ⟨rfl, h5⟩
        · refine ⟨?_, g4, h5⟩
          rintro rfl; simp at g3
        · simp at g3
      · rcases h4 with ⟨h4, h5⟩ | ⟨-, h5⟩
        · simp at h4
        · refine ⟨fun _ => ?_, ?_, ?_⟩ <;> omega
    refine ⟨ws, sign, (x :: g) :: gs, ws', rfl, h0, fun c hc => g0 c (by simp [hc]), g1, g2,
      by rcases hs with h | h | h <;> simp [h], hsg.2.1, hj, hsg.1, ?_⟩
    cases gs with
    | nil => exact .inl rfl
    | cons g2' gs =>
      right
      obtain ⟨z, g2', rfl⟩ := List.exists_cons_of_ne_nil (g2 g2' (by simp)).1
      have e : decimalValue ((x :: g) :: (z :: g2') :: gs).flatten = decimalValue (x :: g) := by
        have := hsg.2; omega
      rw [List.flatten_cons, hv] at e
      have h10 : 10 ≤ 10 ^ ((z :: g2') :: gs).flatten.length := by
        have : ((z :: g2') :: gs).flatten.length = (g2' ++ gs.flatten).length + 1 := by simp
        rw [this, Nat.pow_succ]
        have := Nat.pow_pos (n := (g2' ++ gs.flatten).length) (show 0 < 10 by decide)
        omega
      have := Nat.mul_le_mul_left (decimalValue (x :: g)) h10
      have := hsg.2.2
      omega
  · rintro ⟨ws, sign, gs, ws', rfl, w1, w2, g1, g2, hs, hi, hj, hm, hg⟩
    have hs : sign = [] ∨ sign = ['+'] ∨ sign = ['-'] := by simpa using hs
    refine ⟨⟨ws, sign, gs, ws', rfl, ?_, g1, g2, ?_⟩, ?_, by omega, hj⟩
    · intro c hc
      rcases List.mem_append.1 hc with hc | hc
      · exact cspace c (w1 c hc)
      · exact w2 c hc
    · rcases hs with rfl | rfl | rfl
      · exact .inl ⟨by simp, hi⟩
      · exact .inl ⟨by simp, hi⟩
      · refine .inr ⟨rfl, ?_⟩
        have := hm rfl; omega
    · obtain ⟨g, gs, rfl⟩ := List.exists_cons_of_ne_nil g1
      obtain ⟨r, hr, hr'⟩ := groups_rest g gs ws' w2
      have hv : i = decimalValue g := by
        rw [List.flatten_cons, decimalValue_append] at hi
        rcases hg with hg | rfl
        · have : gs = [] := by simpa using hg
          subst this
          simpa [decimalValue] using hi
        · have h10 := Nat.pow_pos (n := gs.flatten.length) (show 0 < 10 by decide)
          have := Nat.mul_le_mul_left (decimalValue g) (show 1 ≤ 10 ^ gs.flatten.length from h10)
          omega
      refine ⟨ws, sign, g, r, ?_, w1, (g2 g (.head _)).1, (g2 g (.head _)).2, fun c hc => by simpa using hr' c hc, ?_⟩
      · rw [List.append_assoc, hr]; simp
      · rcases hs with rfl | rfl | rfl
        · exact .inl ⟨by simp, hv⟩
        · exact .inl ⟨by simp, hv⟩
        · refine .inr ⟨rfl, ?_⟩
          have := hm rfl; omega

private theorem map_toInt_forall2 {P : Str → Int → Prop} (hP : ∀ p i, P p i → 0 ≤ i ∧ i ≤ 2147483647) (ps : List Str) (w : List Int)
    (h : Forall2 P ps w) :
    (w.map Int64.ofInt).map Int64.toInt = w ∧ Forall2 (fun p (c : Int64) => P p c.toInt) ps (w.map Int64.ofInt) := by
  induction h with
  | nil => exact ⟨rfl, .nil⟩
  | @cons p i ps w hp _ ih =>
    have hi := hP p i hp
    have hi' : (Int64.ofInt i).toInt = i := Int64.toInt_ofInt_of_le (by omega) (by omega)
    refine ⟨?_, .cons (by rw [hi']; exact hp) ih.2⟩
    simp only [List.map_cons, hi', ih.1]

/-- C75. Exactly the texts from which both classes make the same version: dot-separated integers that both languages read in
the same way. -/
theorem C75_common_partial (s : Str) (w : List Int) :
    (Py.version s = .ok w ∧ ∃ v, Version.ofString s = .ok v ∧ v.map Int64.toInt = w) ↔
      ∃ ps : List Str, ps ≠ [] ∧ (∀ p ∈ ps, '.' ∉ p) ∧ joinStr ['.'] ps = s ∧ Forall2 CommonInt ps w := by
  constructor
  · rintro ⟨hp, v, hv, rfl⟩
    obtain ⟨ps, h1, h2, rfl, h3⟩ := (C75_accepts s _).1 hp
    refine ⟨ps, h1, h2, rfl, ?_⟩
    rcases (C09_ofString_iff _ _).1 hv with ⟨-, rfl⟩ | ⟨-, ps', k1, k2, k3, k4⟩
    · cases ps with
      | nil => exact absurd rfl h1
      | cons p ps => cases h3
    · have : ps' = ps := by rw [← splitDots_join ps' k1 k2, k3, splitDots_join ps h1 h2]
      subst this
      clear h1 h2 k1 k2 k3 hp hv
      induction k4 with
      | nil => exact .nil
      | cons k _ ih =>
        cases h3 with
        | cons h h3 => exact .cons ((common_iff _ _).1 ⟨h, k⟩) (ih h3)
  · rintro ⟨ps, h1, h2, rfl, h3⟩
    obtain ⟨e, h4⟩ := map_toInt_forall2 (fun p i h => ((common_iff p i).2 h).2.2) ps w h3
    refine ⟨(C75_accepts _ _).2 ⟨ps, h1, h2, rfl, ?_⟩, w.map Int64.ofInt, (C09_ofString_iff _ _).2 (.inr ⟨?_, ps, h1, h2, rfl, ?_⟩), e⟩
    · clear h1 h2 e h4
      induction h3 with
      | nil => exact .nil
      | cons h _ ih => exact .cons ((common_iff _ _).2 h).1 ih
    · intro he
      obtain ⟨p, ps, rfl⟩ := List.exists_cons_of_ne_nil h1
      cases h3 with
      | cons h h3 =>
        obtain ⟨-, ⟨wt, sign', ds, rest, h, h0, hd, -⟩, -⟩ := (common_iff _ _).2 h
        subst h
        cases ps with
        | nil => simp [joinStr, hd] at he
        | cons q ps => simp [joinStr] at he
    · clear h1 h2 e h3
      generalize w.map Int64.ofInt = v at h4
      induction h4 with
      | nil => exact .nil
      | cons h _ ih => exact .cons ((common_iff _ _).2 h).2 ih

example : Py.version c!" 3.-0_0.1 " = .ok [3, 0, 1] ∧ Version.ofString c!" 3.-0_0.1 " = .ok [3, 0, 1] := by decide +kernel

example : Py.version c!" 3.0" = .ok [3, 0] ∧ Py.version c!"3." = .exn c!"ValueError" ∧ Py.version c!"1_000.0" = .ok [1000, 0] ∧
    Py.version (Version.print [3, -1, 9223372036854775807]) = .ok [3, -1, 9223372036854775807] := by decide +kernel

/-! ## C76: instructions -/

/-- C76 does not hold: an instruction built from an iterator of types has no types, because the check uses them up. -/
theorem C76_refuted (name : Str) (t : Ty) (ts : List Ty) :
    Py.Instruction.init name (some (.iterator ((t :: ts).map .node))) = .ok ⟨name, []⟩ := by
  have : ((t :: ts).map Obj.node).any (· == Obj.other) = false := by
    rw [List.any_eq_false]
    intro o ho
    obtain ⟨t', -, rfl⟩ := List.mem_map.1 ho
    simp
  simp only [Instruction.init, Iterable.loop, this]
  rfl

/-- C76, the part that holds: an instruction built from a sequence has exactly its types if they are all type nodes, otherwise
there is a `TypeError`; without types it has none. -/
theorem C76_sequence_partial (name : Str) (l : List Obj) :
    (∀ ts : List Ty, l = ts.map .node → Py.Instruction.init name (some (.sequence l)) = .ok ⟨name, ts.map .node⟩) ∧
    ((∀ ts : List Ty, l ≠ ts.map .node) → Py.Instruction.init name (some (.sequence l)) = .exn c!"TypeError") ∧
    Py.Instruction.init name none = .ok ⟨name, []⟩ := by
  refine ⟨?_, fun h => ?_, rfl⟩
  · rintro ts rfl
    have : (ts.map Obj.node).any (· == Obj.other) = false := by
      rw [List.any_eq_false]
      intro o ho
      obtain ⟨t', -, rfl⟩ := List.mem_map.1 ho
      simp
    simp only [Instruction.init, Iterable.loop, this]
    rfl
  · have : l.any (· == Obj.other) = true := by
      rw [List.any_eq_true]
      refine Classical.byContradiction fun hn => ?_
      have : ∃ ts : List Ty, l = ts.map .node := by
        clear h
        induction l with
        | nil => exact ⟨[], rfl⟩
        | cons o l ih =>
          obtain ⟨ts, rfl⟩ := ih fun ⟨x, hx, hx'⟩ => hn ⟨x, .tail _ hx, hx'⟩
          cases o with
          | node t => exact ⟨t :: ts, rfl⟩
          | other => exact absurd ⟨_, .head _, by simp⟩ hn
      obtain ⟨ts, hts⟩ := this
      exact h ts hts
    simp [Instruction.init, Iterable.loop, this]

/-- C76. An iterator with an element that is not a type node is rejected, too. -/
theorem C76_iterator_partial (name : Str) (l : List Obj) (h : .other ∈ l) :
    Py.Instruction.init name (some (.iterator l)) = .exn c!"TypeError" := by
  have : l.any (· == Obj.other) = true := List.any_eq_true.2 ⟨_, h, by simp⟩
  simp [Instruction.init, Iterable.loop, this]

/-- C76. A reference without arguments or for `None` is unresolved, one for an instruction refers to it, and one with the
arguments of an instruction to the instruction they make. -/
theorem C76_reference (i : Py.Instruction) (name : Str) (types : Option Iterable) :
    InstructionRef.init .nothing = .ok none ∧ InstructionRef.init (.data none) = .ok none ∧
    InstructionRef.init (.data (some i)) = .ok (some i) ∧
    (∀ j, InstructionRef.init (.instruction name types) = .ok (some j) ↔ Py.Instruction.init name types = .ok j) := by
  refine ⟨rfl, rfl, rfl, fun j => ?_⟩
  unfold InstructionRef.init
  cases h : Py.Instruction.init name types with
  | ok k => simp [h, Res.bind]
  | err e => exact e.elim
  | exn c => simp [h, Res.bind]
  | ub => simp [h, Res.bind]

/-- C76. The text of a reference: `unresolved`, or the name and the types in parentheses. -/
theorem C76_text (str : Obj → Str) (i : Py.Instruction) :
    InstructionRef.str str none = c!"unresolved" ∧
    InstructionRef.str str (some i) = i.name ++ c!"(" ++ (c!", ").intercalate (i.types.map str) ++ c!")" := by
  refine ⟨rfl, ?_⟩
  have : ∀ l : List Str, joinStr c!", " l = (c!", ").intercalate l := by
    intro l
    induction l with
    | nil => rfl
    | cons x l ih =>
      cases l with
      | nil => simp [joinStr, List.intercalate]
      | cons y l => rw [joinStr, ih]; simp [List.intercalate]
  simp [InstructionRef.str, Instruction.str, this]

example : Py.Instruction.init c!"CNOT" (some (.sequence [.node ⟨.qubit, 1⟩, .node ⟨.qubit, 1⟩])) =
      .ok ⟨c!"CNOT", [.node ⟨.qubit, 1⟩, .node ⟨.qubit, 1⟩]⟩ ∧
    Py.Instruction.init c!"CNOT" (some (.iterator [.node ⟨.qubit, 1⟩, .node ⟨.qubit, 1⟩])) = .ok ⟨c!"CNOT", []⟩ ∧
    Py.Instruction.init c!"CNOT" (some (.sequence [.node ⟨.qubit, 1⟩, .other])) = .exn c!"TypeError" := by decide +kernel

end Qasm
