import Verif.Model.Version
import Verif.Spec.Version
/-!
# Properties of versions (C08, C09)
-/

namespace Qasm
open Version Spec

/-! ## C08: order -/

private theorem component_eq (v : List Int64) (i : Nat) :
    component v i = (if h : i < v.length then v[i] else 0).toInt := by
  unfold component
  split <;> simp_all

private theorem component_beyond (v : List Int64) (i : Nat) (h : v.length ≤ i) : component v i = 0 := by
  rw [component_eq, dif_neg (by omega)]; rfl

private theorem cmpLoop_spec (a b : Version) (n : Nat) : ∀ i, a.length ≤ i + n → b.length ≤ i + n →
    (∀ j, j < i → component a j = component b j) →
    (cmpLoop a b n i = 0 ∧ VersionSame a b) ∨ (cmpLoop a b n i = -1 ∧ VersionOlder a b) ∨
    (cmpLoop a b n i = 1 ∧ VersionOlder b a) := by
  induction n with
  | zero =>
    intro i ha hb hi
    refine Or.inl ⟨rfl, fun j => ?_⟩
    by_cases hj : j < i
    · exact hi j hj
    · rw [component_beyond a j (by omega), component_beyond b j (by omega)]
  | succ n ih =>
    intro i ha hb hi
    unfold cmpLoop
    simp only [GT.gt, Int64.lt_iff_toInt_lt, ← component_eq]
    split
    · rename_i h
      exact Or.inr (Or.inr ⟨rfl, i, fun j hj => (hi j hj).symm, h⟩)
    split
    · rename_i h
      exact Or.inr (Or.inl ⟨rfl, i, hi, h⟩)
    · refine ih (i + 1) (by omega) (by omega) fun j hj => ?_
      by_cases hj' : j = i
      · subst hj'; omega
      · exact hi j (by omega)

private theorem compare_cases (a b : Version) :
    (cmp a b = 0 ∧ VersionSame a b) ∨ (cmp a b = -1 ∧ VersionOlder a b) ∨
    (cmp a b = 1 ∧ VersionOlder b a) :=
  cmpLoop_spec a b (max a.length b.length) 0 (by omega) (by omega) (by omega)

private theorem older_not_same {a b : List Int64} (h : VersionOlder a b) : ¬ VersionSame a b := by
  obtain ⟨i, _, h⟩ := h
  intro hs; have := hs i; omega

private theorem older_asymm {a b : List Int64} (h : VersionOlder a b) : ¬ VersionOlder b a := by
  obtain ⟨i, h1, h2⟩ := h
  rintro ⟨j, h3, h4⟩
  rcases Nat.lt_trichotomy i j with hij | rfl | hij
  · have := h3 i hij; omega
  · omega
  · have := h1 j hij; omega

private theorem same_symm {a b : List Int64} (h : VersionSame a b) : VersionSame b a := fun i => (h i).symm

/-- C08. `==` on versions: all components agree, missing ones counting as 0. -/
theorem C08_eq (a b : Version) : Version.eq a b = true ↔ VersionSame a b := by
  unfold Version.eq
  rcases compare_cases a b with ⟨h, hs⟩ | ⟨h, hs⟩ | ⟨h, hs⟩
  · simp [h, hs]
  · simp [h, older_not_same hs]
  · simp [h]; intro h'; exact older_not_same hs (same_symm h')

/-- C08. `<` on versions is the lexicographic order of the zero-padded components. -/
theorem C08_lt (a b : Version) : Version.lt a b = true ↔ VersionOlder a b := by
  unfold Version.lt
  rcases compare_cases a b with ⟨h, hs⟩ | ⟨h, hs⟩ | ⟨h, hs⟩
  · simp [h]; intro h'; exact older_not_same h' hs
  · simp [h, hs]
  · simp [h]; exact older_asymm hs

/-- C08. `>` is `<` with the arguments swapped; `<=` and `>=` are the negations. -/
theorem C08_gt_le_ge (a b : Version) :
    Version.gt a b = Version.lt b a ∧ Version.le a b = !Version.gt a b ∧ Version.ge a b = !Version.lt a b := by
  refine ⟨?_, ?_, ?_⟩
  · rw [Bool.eq_iff_iff, C08_lt]
    unfold Version.gt
    rcases compare_cases a b with ⟨h, hs⟩ | ⟨h, hs⟩ | ⟨h, hs⟩
    · simp [h]; intro h'; exact older_not_same h' (same_symm hs)
    · simp [h]; exact older_asymm hs
    · simp [h, hs]
  · simp only [Version.le, Version.gt, ← decide_not]; congr 1; simp
  · simp only [Version.ge, Version.lt, ← decide_not]; congr 1; simp

/-- C08. Trichotomy: exactly one of `a < b`, `a == b`, `a > b`. -/
theorem C08_trichotomy (a b : Version) :
    (Version.lt a b = true ∧ Version.eq a b = false ∧ Version.gt a b = false) ∨
    (Version.lt a b = false ∧ Version.eq a b = true ∧ Version.gt a b = false) ∨
    (Version.lt a b = false ∧ Version.eq a b = false ∧ Version.gt a b = true) := by
  unfold Version.lt Version.eq Version.gt
  rcases compare_cases a b with ⟨h, _⟩ | ⟨h, _⟩ | ⟨h, _⟩ <;> simp [h]

/-- C08. `==` is an equivalence relation, `<` is transitive and respects `==`. -/
theorem C08_order (a b c : Version) :
    Version.eq a a = true ∧
    (Version.eq a b = true → Version.eq b a = true) ∧
    (Version.eq a b = true → Version.eq b c = true → Version.eq a c = true) ∧
    (Version.lt a b = true → Version.lt b c = true → Version.lt a c = true) ∧
    (Version.eq a b = true → Version.lt b c = true → Version.lt a c = true) ∧
    (Version.lt a b = true → Version.eq b c = true → Version.lt a c = true) := by
  simp only [C08_eq, C08_lt]
  refine ⟨fun _ => rfl, same_symm, fun h h' i => (h i).trans (h' i), ?_, ?_, ?_⟩
  · rintro ⟨i, h1, h2⟩ ⟨j, h3, h4⟩
    rcases Nat.lt_trichotomy i j with hij | rfl | hij
    · exact ⟨i, fun k hk => (h1 k hk).trans (h3 k (by omega)), by rw [← h3 i hij]; exact h2⟩
    · exact ⟨i, fun k hk => (h1 k hk).trans (h3 k hk), by omega⟩
    · exact ⟨j, fun k hk => (h1 k (by omega)).trans (h3 k hk), by rw [h1 j hij]; exact h4⟩
  · rintro h ⟨i, h1, h2⟩
    exact ⟨i, fun k hk => (h k).trans (h1 k hk), by rw [h i]; exact h2⟩
  · rintro ⟨i, h1, h2⟩ h
    exact ⟨i, fun k hk => (h1 k hk).trans (h k), by rw [← h i]; exact h2⟩

example : Version.eq [3] [3, 0, 0] = true ∧ Version.lt [3, 0] [3, 0, 1] = true ∧ Version.gt [3, 1] [3, 0, 5] = true := by
  decide

/-! ## C09: text -/

theorem isDigit_bounds {c : Char} (h : c.isDigit = true) : 48 ≤ c.toNat ∧ c.toNat ≤ 57 := by
  simp only [Char.isDigit, Bool.and_eq_true, decide_eq_true_eq] at h
  exact ⟨h.1, h.2⟩

private theorem toNat_zero : '0'.toNat = 48 := by decide

theorem digitsVal_eq (acc : Nat) (ds : Str) :
    digitsVal acc ds = ds.foldl (fun n c => 10 * n + (c.toNat - '0'.toNat)) acc := by
  unfold digitsVal
  congr 1
  funext a c
  rw [Nat.mul_comm a 10, toNat_zero]

private theorem foldl_acc (acc : Nat) (ds : Str) :
    ds.foldl (fun n c => 10 * n + (c.toNat - '0'.toNat)) acc = acc * 10 ^ ds.length + decimalValue ds := by
  unfold decimalValue
  induction ds generalizing acc with
  | nil => simp
  | cons c cs ih =>
    rw [List.foldl_cons, ih, List.foldl_cons, ih (10 * 0 + _)]
    simp only [List.length_cons, Nat.pow_succ]
    grind

private theorem decimalValue_append_digit (ds : Str) (d : Nat) (hd : d < 10) :
    decimalValue (ds ++ [d.digitChar]) = 10 * decimalValue ds + d := by
  unfold decimalValue
  rw [List.foldl_append]
  simp only [List.foldl_cons, List.foldl_nil]
  have := Nat.toNat_digitChar_sub_48_of_lt_ten hd
  have h0 : '0'.toNat = 48 := rfl
  rw [h0, this]

/-- The printed decimal text denotes the number. -/
theorem decimalValue_decNat (n : Nat) : decimalValue (decNat n) = n := by
  unfold decNat
  induction n using Nat.strongRecOn with
  | _ n ih =>
    rw [Nat.toDigits_eq_if (by omega)]
    split
    · rename_i h
      have := decimalValue_append_digit [] n h
      simpa [decimalValue] using this
    · rename_i h
      rw [decimalValue_append_digit _ _ (Nat.mod_lt _ (by omega)), ih _ (by omega)]
      omega

theorem decNat_digits (n : Nat) : ∀ c ∈ decNat n, c.isDigit = true := fun _ hc =>
  Nat.isDigit_of_mem_toDigits (by omega) (by omega) hc

theorem decNat_ne_nil (n : Nat) : decNat n ≠ [] := Nat.toDigits_ne_nil

private theorem takeWhile_all {p : Char → Bool} {l : Str} (h : ∀ c ∈ l, p c = true) : l.takeWhile p = l := by
  induction l with
  | nil => rfl
  | cons c l ih =>
    rw [List.takeWhile_cons, if_pos (h c (by simp)), ih fun d hd => h d (by simp [hd])]

theorem mem_takeWhile_imp {p : Char → Bool} {l : Str} {c : Char} (h : c ∈ l.takeWhile p) : p c = true := by
  induction l with
  | nil => cases h
  | cons d l ih =>
    rw [List.takeWhile_cons] at h
    split at h
    · rcases List.mem_cons.1 h with rfl | h
      · assumption
      · exact ih h
    · cases h

private theorem takeWhile_stop {p : Char → Bool} (l r : Str) (h : ∀ c ∈ l, p c = true)
    (hr : ∀ c, r.head? = some c → p c = false) : (l ++ r).takeWhile p = l := by
  induction l with
  | nil =>
    cases r with
    | nil => rfl
    | cons c r => simp [hr c rfl]
  | cons c l ih =>
    rw [List.cons_append, List.takeWhile_cons, if_pos (h c (by simp)), ih fun d hd => h d (by simp [hd])]

theorem dropWhile_stop {p : Char → Bool} (l r : Str) (h : ∀ c ∈ l, p c = true)
    (hr : ∀ c, r.head? = some c → p c = false) : (l ++ r).dropWhile p = r := by
  induction l with
  | nil =>
    cases r with
    | nil => rfl
    | cons c r => simp [hr c rfl]
  | cons c l ih =>
    rw [List.cons_append, List.dropWhile_cons, if_pos (h c (by simp)), ih fun d hd => h d (by simp [hd])]

private theorem isSpace_iff (c : Char) :
    isSpace c = true ↔ c ∈ [' ', '\t', '\n', Char.ofNat 11, Char.ofNat 12, '\r'] := by
  have key : ∀ n, n < 128 → n.isValidChar → (c.toNat = n ↔ c = Char.ofNat n) := by
    intro n _ hv
    constructor
    · rintro rfl; exact (Char.ofNat_toNat c).symm
    · rintro rfl; simp [Char.ofNat, hv, Char.toNat, Char.ofNatAux]
  have k := fun n (h : n < 128) => key n h (Or.inl (by omega))
  simp only [isSpace, Bool.or_eq_true, beq_iff_eq, Bool.and_eq_true, decide_eq_true_eq, List.mem_cons,
    List.not_mem_nil, or_false]
  have e9 := k 9 (by omega); have e10 := k 10 (by omega); have e11 := k 11 (by omega)
  have e12 := k 12 (by omega); have e13 := k 13 (by omega)
  have r9 : Char.ofNat 9 = '\t' := rfl
  have r10 : Char.ofNat 10 = '\n' := rfl
  have r13 : Char.ofNat 13 = '\r' := rfl
  rw [r9] at e9; rw [r10] at e10; rw [r13] at e13
  rw [← e9, ← e10, ← e11, ← e12, ← e13]
  constructor
  · rintro (h | h)
    · exact Or.inl h
    · right; omega
  · rintro (h | h)
    · exact Or.inl h
    · right; omega

private theorem space_not_digit {c : Char} (h : c.isDigit = true) : isSpace c = false := by
  have hb := isDigit_bounds h
  cases hs : isSpace c with
  | false => rfl
  | true =>
    simp only [isSpace, Bool.or_eq_true, beq_iff_eq, Bool.and_eq_true, decide_eq_true_eq] at hs
    rcases hs with rfl | hs
    · revert hb; decide
    · omega

/-- `int` range of the platform. -/
private def inInt (i : Int) : Prop := -2147483648 ≤ i ∧ i ≤ 2147483647

private theorem stoi_leading {p : Str} {i : Int} (h : LeadingInt p i) :
    stoi p = if -2147483648 ≤ i ∧ i ≤ 2147483647 then .ok i else .exn c!"std::out_of_range" := by
  obtain ⟨ws, sign, ds, rest, rfl, hws, hne, hds, hrest, hsign⟩ := h
  have hws' : ∀ c ∈ ws, isSpace c = true := fun c hc => (isSpace_iff c).2 (hws c hc)
  obtain ⟨d, ds', rfl⟩ := List.exists_cons_of_ne_nil hne
  have hd := hds d (by simp)
  have hdb := isDigit_bounds hd
  have hdrop : (ws ++ sign ++ (d :: ds') ++ rest).dropWhile isSpace = sign ++ (d :: ds') ++ rest := by
    rw [List.append_assoc, List.append_assoc, dropWhile_stop _ _ hws', ← List.append_assoc]
    intro c hc
    rcases hsign with ⟨hs, _⟩ | ⟨rfl, _⟩
    · simp only [List.mem_cons, List.not_mem_nil, or_false] at hs
      rcases hs with rfl | rfl
      · simp at hc; subst hc; exact space_not_digit hd
      · simp at hc; subst hc; decide
    · simp at hc; subst hc; decide
  have htake : (d :: ds' ++ rest).takeWhile Char.isDigit = d :: ds' := takeWhile_stop _ _ hds hrest
  have hval : ∀ x : Str, (digitsVal 0 x : Int) = decimalValue x := fun x => by rw [digitsVal_eq]; rfl
  have hss : splitSign (d :: (ds' ++ rest)) = (false, d :: (ds' ++ rest)) := by
    have hnm : d ≠ '-' := by rintro rfl; revert hdb; decide
    have hnp : d ≠ '+' := by rintro rfl; revert hdb; decide
    unfold splitSign
    split <;> simp_all
  unfold stoi
  rw [hdrop]
  simp only [List.cons_append] at htake
  rcases hsign with ⟨hs, rfl⟩ | ⟨rfl, rfl⟩
  · simp only [List.mem_cons, List.not_mem_nil, or_false] at hs
    rcases hs with rfl | rfl
    · simp only [List.nil_append, List.cons_append, hss, htake, hval]
      simp
    · simp only [List.nil_append, List.cons_append, splitSign, htake, hval]
      simp
  · simp only [List.nil_append, List.cons_append, splitSign, htake, hval]
    simp

private theorem stoi_ok {p : Str} {i : Int} (h : stoi p = .ok i) : LeadingInt p i ∧ inInt i := by
  have hsplit := List.takeWhile_append_dropWhile (p := isSpace) (l := p)
  have hws : ∀ c ∈ p.takeWhile isSpace, isSpace c = true := fun c hc => mem_takeWhile_imp hc
  generalize hs1 : p.dropWhile isSpace = s1 at *
  have hdig : ∀ (l : Str), ∀ c ∈ l.takeWhile Char.isDigit, c.isDigit = true := fun l c hc => mem_takeWhile_imp hc
  have hrest : ∀ (l : Str) c, (l.dropWhile Char.isDigit).head? = some c → c.isDigit = false := by
    intro l c hc
    have := List.head?_dropWhile_not Char.isDigit l
    rw [hc] at this
    simpa using this
  have hval : ∀ x : Str, (digitsVal 0 x : Int) = decimalValue x := fun x => by rw [digitsVal_eq]; rfl
  have main : ∀ (sign s2 : Str) (neg : Bool), s1 = sign ++ s2 →
      (neg = false ∧ sign ∈ [[], ['+']] ∨ neg = true ∧ sign = ['-']) →
      (if (s2.takeWhile Char.isDigit).isEmpty then (.exn c!"std::invalid_argument" : Res Empty Int)
       else
        let v : Int := if neg then - (digitsVal 0 (s2.takeWhile Char.isDigit) : Int) else digitsVal 0 (s2.takeWhile Char.isDigit)
        if -2147483648 ≤ v ∧ v ≤ 2147483647 then .ok v else .exn c!"std::out_of_range") = .ok i →
      LeadingInt p i ∧ inInt i := by
    intro sign s2 neg hs hneg hres
    split at hres
    · cases hres
    rename_i hne
    by_cases hr : -2147483648 ≤ (if neg then - (digitsVal 0 (s2.takeWhile Char.isDigit) : Int) else digitsVal 0 (s2.takeWhile Char.isDigit)) ∧
        (if neg then - (digitsVal 0 (s2.takeWhile Char.isDigit) : Int) else digitsVal 0 (s2.takeWhile Char.isDigit)) ≤ 2147483647
    · simp only [hr, and_self, if_true] at hres
      injection hres with hres
      rw [hres] at hr
      refine ⟨⟨p.takeWhile isSpace, sign, s2.takeWhile Char.isDigit, s2.dropWhile Char.isDigit, ?_,
        fun c hc => (isSpace_iff c).1 (hws c hc), by simpa using hne, hdig _, hrest _, ?_⟩, hr⟩
      · rw [List.append_assoc, List.append_assoc, List.takeWhile_append_dropWhile, ← hs, hsplit]
      · rcases hneg with ⟨rfl, h⟩ | ⟨rfl, h⟩
        · left; refine ⟨h, ?_⟩; rw [← hres]; simp [hval]
        · right; refine ⟨h, ?_⟩; rw [← hres]; simp [hval]
    · simp only [hr, if_false] at hres
      cases hres
  unfold stoi at h
  rw [hs1] at h
  unfold splitSign at h
  split at h
  · exact main ['-'] _ true rfl (Or.inr ⟨rfl, rfl⟩) h
  · exact main ['+'] _ false rfl (Or.inl ⟨rfl, by simp⟩) h
  · exact main [] _ false rfl (Or.inl ⟨rfl, by simp⟩) h

/-- Pieces between dots. -/
private theorem splitDots_nodot (cur p : Str) (h : '.' ∉ p) : splitDots cur p = [cur.reverse ++ p] := by
  induction p generalizing cur with
  | nil => simp [splitDots]
  | cons c p ih =>
    have hc : c ≠ '.' := fun e => h (by simp [e])
    rw [splitDots, if_neg hc, ih _ fun hm => h (by simp [hm])]
    simp

private theorem splitDots_append (cur p s : Str) (h : '.' ∉ p) :
    splitDots cur (p ++ '.' :: s) = (cur.reverse ++ p) :: splitDots [] s := by
  induction p generalizing cur with
  | nil => simp [splitDots]
  | cons c p ih =>
    have hc : c ≠ '.' := fun e => h (by simp [e])
    rw [List.cons_append, splitDots, if_neg hc, ih _ fun hm => h (by simp [hm])]
    simp

theorem splitDots_join (ps : List Str) (hne : ps ≠ []) (h : ∀ p ∈ ps, '.' ∉ p) :
    splitDots [] (joinStr ['.'] ps) = ps := by
  induction ps with
  | nil => exact absurd rfl hne
  | cons p ps ih =>
    cases ps with
    | nil => simp [joinStr, splitDots_nodot [] p (h p (by simp))]
    | cons q ps =>
      rw [joinStr, List.append_assoc, List.singleton_append, splitDots_append _ _ _ (h p (by simp)), ih (by simp)
        fun r hr => h r (by simp [hr])]
      simp

theorem joinStr_splitDots (cur s : Str) : joinStr ['.'] (splitDots cur s) = cur.reverse ++ s ∧
    splitDots cur s ≠ [] ∧ ('.' ∉ cur → ∀ p ∈ splitDots cur s, '.' ∉ p) := by
  induction s generalizing cur with
  | nil => simp [splitDots, joinStr]
  | cons c s ih =>
    unfold splitDots
    split
    · rename_i h; subst h
      obtain ⟨h1, h2, h3⟩ := ih []
      refine ⟨?_, by simp, ?_⟩
      · obtain ⟨q, qs, hq⟩ := List.exists_cons_of_ne_nil h2
        rw [hq] at h1 ⊢
        rw [joinStr, h1]; simp
      · intro hcur p hp
        rcases List.mem_cons.1 hp with rfl | hp
        · simpa using hcur
        · exact h3 (by simp) p hp
    · rename_i h
      obtain ⟨h1, h2, h3⟩ := ih (c :: cur)
      refine ⟨by simp [h1], h2, fun hcur => h3 ?_⟩
      intro hm
      rcases List.mem_cons.1 hm with h' | h'
      · exact h h'.symm
      · exact hcur h'

private theorem stois_ok (ps : List Str) (v : Version) :
    stois ps = .ok v ↔ Forall2 (fun p c => ∃ i, LeadingInt p i ∧ -2147483648 ≤ i ∧ i ≤ 2147483647 ∧ c = Int64.ofInt i) ps v := by
  induction ps generalizing v with
  | nil =>
    simp only [stois]
    constructor
    · intro h; injection h with h; subst h; exact .nil
    · intro h; cases h; rfl
  | cons p ps ih =>
    simp only [stois]
    constructor
    · intro h
      cases hp : stoi p with
      | ok i =>
        rw [hp] at h
        cases hr : stois ps with
        | ok r =>
          rw [hr] at h
          simp at h; subst h
          obtain ⟨h1, h2, h3⟩ := stoi_ok hp
          exact .cons ⟨i, h1, h2, h3, rfl⟩ ((ih r).1 hr)
        | err e => exact nomatch e
        | exn c => rw [hr] at h; simp at h
        | ub => rw [hr] at h; simp at h
      | err e => exact nomatch e
      | exn c => rw [hp] at h; simp at h
      | ub => rw [hp] at h; simp at h
    · rintro (_ | ⟨⟨i, h1, h2, h3, rfl⟩, ht⟩)
      rw [stoi_leading h1, if_pos ⟨h2, h3⟩, (ih _).2 ht]
      simp

/-- C09. Exactly which texts are accepted by the constructor, and with what value: dot-separated
pieces that each start with a decimal number in 0..2^31-1 (white space before it, a sign and trailing
text are tolerated); the empty text gives the empty version. -/
theorem C09_ofString_iff (s : Str) (v : Version) :
    ofString s = .ok v ↔
      (s = [] ∧ v = []) ∨
      (s ≠ [] ∧ ∃ ps : List Str, ps ≠ [] ∧ (∀ p ∈ ps, '.' ∉ p) ∧ joinStr ['.'] ps = s ∧
        Forall2 (fun p (c : Int64) => LeadingInt p c.toInt ∧ 0 ≤ c.toInt ∧ c.toInt ≤ 2147483647) ps v) := by
  unfold ofString
  cases s with
  | nil =>
    simp only [List.isEmpty_nil, if_true, true_and, ne_eq, not_true_eq_false, false_and, or_false, Res.ok.injEq]
    exact eq_comm
  | cons x s =>
    simp only [List.isEmpty_cons, Bool.false_eq_true, if_false, List.cons_ne_nil, false_and, ne_eq,
      not_false_eq_true, true_and, false_or]
    obtain ⟨j1, j2, j3⟩ := joinStr_splitDots [] (x :: s)
    have toInt_ofInt : ∀ i : Int, -2147483648 ≤ i → i ≤ 2147483647 → (Int64.ofInt i).toInt = i :=
      fun i h1 h2 => Int64.toInt_ofInt_of_le (by omega) (by omega)
    have conv : ∀ ps, (∃ w, stois ps = .ok w ∧ w.any (· < 0) = false ∧ w = v) ↔
        Forall2 (fun p (c : Int64) => LeadingInt p c.toInt ∧ 0 ≤ c.toInt ∧ c.toInt ≤ 2147483647) ps v := by
      intro ps
      constructor
      · rintro ⟨w, hw, hneg, rfl⟩
        rw [stois_ok] at hw
        induction hw with
        | nil => exact .nil
        | cons hd tl ih =>
          obtain ⟨i, h1, h2, h3, rfl⟩ := hd
          rw [List.any_cons, Bool.or_eq_false_iff] at hneg
          obtain ⟨hn1, hn2⟩ := hneg
          rw [decide_eq_false_iff_not, Int64.lt_iff_toInt_lt, Int64.toInt_zero, toInt_ofInt _ h2 h3] at hn1
          refine .cons ⟨by rw [toInt_ofInt _ h2 h3]; exact h1, ?_, ?_⟩ (ih hn2)
          · rw [toInt_ofInt _ h2 h3]; omega
          · rw [toInt_ofInt _ h2 h3]; omega
      · intro h
        refine ⟨v, ?_, ?_, rfl⟩
        · rw [stois_ok]
          induction h with
          | nil => exact .nil
          | cons hd tl ih => exact .cons ⟨_, hd.1, by omega, by omega, by simp⟩ ih
        · induction h with
          | nil => rfl
          | cons hd tl ih =>
            rw [List.any_cons, ih, Bool.or_false, decide_eq_false_iff_not, Int64.lt_iff_toInt_lt,
              Int64.toInt_zero]
            have := hd.2.1
            omega
    constructor
    · intro h
      refine ⟨splitDots [] (x :: s), j2, j3 (by simp), by simpa using j1, (conv _).1 ?_⟩
      cases hr : stois (splitDots [] (x :: s)) with
      | ok w =>
        rw [hr] at h
        simp only [Res.bind_eq, Res.bind, Res.pure_eq] at h
        split at h
        · cases h
        · rename_i hn
          injection h with h
          exact ⟨w, rfl, by simpa using hn, h⟩
      | err e => exact nomatch e
      | exn c => rw [hr] at h; simp at h
      | ub => rw [hr] at h; simp at h
    · rintro ⟨ps, p1, p2, p3, p4⟩
      obtain ⟨w, hw, hn, rfl⟩ := (conv ps).2 p4
      rw [← p3, splitDots_join ps p1 p2, hw]
      simp only [Res.bind_eq, Res.bind, hn, Bool.false_eq_true, if_false, Res.pure_eq]

/-- C09. Printing and reading back: for every non-empty version with components in 0..2^31-1 the
constructor applied to the printed text gives the version. -/
theorem C09_print_roundtrip (v : Version) (hne : v ≠ []) (h : ∀ c ∈ v, 0 ≤ c.toInt ∧ c.toInt ≤ 2147483647) :
    ofString (print v) = .ok v := by
  rw [C09_ofString_iff]
  right
  have hps : v.map (fun c => decInt c.toInt) ≠ [] := by simpa using hne
  have nodot : ∀ n : Nat, '.' ∉ decNat n := by
    intro n hm
    have := decNat_digits n _ hm
    revert this; decide
  have hdec : ∀ c ∈ v, decInt c.toInt = decNat c.toInt.natAbs := by
    intro c hc
    have := (h c hc).1
    unfold decInt; rw [if_neg (by omega)]
  refine ⟨?_, v.map (fun c => decInt c.toInt), hps, ?_, rfl, ?_⟩
  · unfold print
    obtain ⟨c, v', rfl⟩ := List.exists_cons_of_ne_nil hne
    have hc : decInt c.toInt ≠ [] := by rw [hdec c (by simp)]; exact decNat_ne_nil _
    cases v' <;> simp [joinStr, hc]
  · intro p hp
    obtain ⟨c, hc, rfl⟩ := List.mem_map.1 hp
    rw [hdec c hc]; exact nodot _
  · clear hne hps
    induction v with
    | nil => exact .nil
    | cons c v ih =>
      refine .cons ⟨?_, h c (by simp)⟩ (ih (fun d hd => h d (by simp [hd])) (fun d hd => hdec d (by simp [hd])))
      have hc := h c (by simp)
      refine ⟨[], [], decInt c.toInt, [], by simp, by simp, ?_, ?_, by simp, Or.inl ⟨by simp, ?_⟩⟩
      · rw [hdec c (by simp)]; exact decNat_ne_nil _
      · rw [hdec c (by simp)]; exact decNat_digits _
      · rw [hdec c (by simp), decimalValue_decNat]; omega

private theorem stoi_none {p : Str} (h : ¬∃ i, LeadingInt p i) : stoi p = .exn c!"std::invalid_argument" := by
  have hsplit := List.takeWhile_append_dropWhile (p := isSpace) (l := p)
  have hws : ∀ c ∈ p.takeWhile isSpace, isSpace c = true := fun c hc => mem_takeWhile_imp hc
  generalize hs1 : p.dropWhile isSpace = s1 at *
  have main : ∀ (sign s2 : Str), s1 = sign ++ s2 → (sign ∈ [[], ['+']] ∨ sign = ['-']) → (s2.takeWhile Char.isDigit).isEmpty = true := by
    intro sign s2 hs hsign
    rw [List.isEmpty_iff]
    refine Classical.byContradiction fun hne => h ?_
    have hrest : ∀ c, (s2.dropWhile Char.isDigit).head? = some c → c.isDigit = false := by
      intro c hc
      have := List.head?_dropWhile_not Char.isDigit s2
      rw [hc] at this
      simpa using this
    have hp : p = p.takeWhile isSpace ++ sign ++ s2.takeWhile Char.isDigit ++ s2.dropWhile Char.isDigit := by
      rw [List.append_assoc, List.append_assoc, List.takeWhile_append_dropWhile, ← hs, hsplit]
    rcases hsign with hsign | hsign
    · exact ⟨_, _, sign, _, _, hp, fun c hc => (isSpace_iff c).1 (hws c hc), hne, fun c hc => mem_takeWhile_imp hc, hrest, .inl ⟨hsign, rfl⟩⟩
    · exact ⟨_, _, sign, _, _, hp, fun c hc => (isSpace_iff c).1 (hws c hc), hne, fun c hc => mem_takeWhile_imp hc, hrest, .inr ⟨hsign, rfl⟩⟩
  unfold stoi
  rw [hs1]
  unfold splitSign
  split
  · simp only [main ['-'] _ rfl (.inr rfl), if_true]
  · simp only [main ['+'] _ rfl (.inl (by simp)), if_true]
  · simp only [main [] _ rfl (.inl (by simp)), if_true]

private theorem stois_exn (ps : List Str) (c : Str) :
    stois ps = .exn c ↔ ∃ pre p post, ps = pre ++ p :: post ∧ (∀ q ∈ pre, ∃ i, stoi q = .ok i) ∧ stoi p = .exn c := by
  induction ps with
  | nil => simp [stois]
  | cons p ps ih =>
    simp only [stois]
    cases hp : stoi p with
    | err e => exact nomatch e
    | ub =>
      simp only [Res.bind_eq, Res.bind]
      refine ⟨nofun, ?_⟩
      rintro ⟨pre, q, post, h1, h2, h3⟩
      cases pre with
      | nil => cases h1; rw [hp] at h3; cases h3
      | cons q' pre => cases h1; obtain ⟨i, hi⟩ := h2 p (by simp); rw [hp] at hi; cases hi
    | exn c' =>
      simp only [Res.bind_eq, Res.bind]
      constructor
      · intro h; cases h; exact ⟨[], p, ps, rfl, by simp, hp⟩
      · rintro ⟨pre, q, post, h1, h2, h3⟩
        cases pre with
        | nil => cases h1; rw [hp] at h3; cases h3; rfl
        | cons q' pre => cases h1; obtain ⟨i, hi⟩ := h2 p (by simp); rw [hp] at hi; cases hi
    | ok i =>
      have : (stois ps).bind (fun rest => (.ok (Int64.ofInt i :: rest) : Res Empty Version)) = .exn c ↔ stois ps = .exn c := by
        cases stois ps <;> simp [Res.bind]
      simp only [Res.bind_eq, Res.bind, Res.pure_eq]
      refine this.trans (ih.trans ?_)
      constructor
      · rintro ⟨pre, q, post, rfl, h2, h3⟩
        exact ⟨p :: pre, q, post, rfl, fun x hx => (List.mem_cons.1 hx).elim (fun e => ⟨i, e ▸ hp⟩) (h2 x), h3⟩
      · rintro ⟨pre, q, post, h1, h2, h3⟩
        cases pre with
        | nil => cases h1; rw [hp] at h3; cases h3
        | cons q' pre => cases h1; exact ⟨pre, q, post, rfl, fun x hx => h2 x (List.mem_cons_of_mem _ hx), h3⟩

/-- C09. Exactly which texts are rejected, and with which exception. Let `ps` be the pieces between the dots. If the first piece that
is not a number of type `int` starts with a number all the same, the exception is `std::out_of_range`; if it starts with no number,
`std::invalid_argument`. If all pieces start with such numbers, but one of them is negative, it is `std::invalid_argument`. -/
theorem C09_rejected (ps : List Str) (hne : ps ≠ []) (hdot : ∀ p ∈ ps, '.' ∉ p) (hs : joinStr ['.'] ps ≠ []) (InInt : Str → Prop)
    (hInt : ∀ q, InInt q ↔ ∃ i, LeadingInt q i ∧ -2147483648 ≤ i ∧ i ≤ 2147483647) :
    (ofString (joinStr ['.'] ps) = .exn c!"std::out_of_range" ↔
      ∃ pre p post, ps = pre ++ p :: post ∧ (∀ q ∈ pre, InInt q) ∧ ¬ InInt p ∧ ∃ i, LeadingInt p i) ∧
    (ofString (joinStr ['.'] ps) = .exn c!"std::invalid_argument" ↔
      (∃ pre p post, ps = pre ++ p :: post ∧ (∀ q ∈ pre, InInt q) ∧ ¬∃ i, LeadingInt p i) ∨
      ((∀ q ∈ ps, InInt q) ∧ ∃ q ∈ ps, ∃ i, LeadingInt q i ∧ i < 0)) := by
  have hok : ∀ q, (∃ i, stoi q = .ok i) ↔ InInt q := fun q => by
    rw [hInt]
    constructor
    · rintro ⟨i, hi⟩; exact ⟨i, stoi_ok hi⟩
    · rintro ⟨i, h1, h2⟩; exact ⟨i, by rw [stoi_leading h1, if_pos h2]⟩
  have hout : ∀ q, stoi q = .exn c!"std::out_of_range" ↔ ¬ InInt q ∧ ∃ i, LeadingInt q i := fun q => by
    rw [← hok]
    constructor
    · intro h
      refine ⟨?_, Classical.byContradiction fun hn => ?_⟩
      · rintro ⟨i, hi⟩
        rw [h] at hi
        cases hi
      rw [stoi_none hn] at h
      cases h
    · rintro ⟨h1, i, h2⟩
      have := stoi_leading h2
      split at this
      · exact absurd ⟨i, this⟩ h1
      · exact this
  have hinv : ∀ q, stoi q = .exn c!"std::invalid_argument" ↔ ¬∃ i, LeadingInt q i := fun q => by
    constructor
    · rintro h ⟨i, hi⟩
      rw [stoi_leading hi] at h
      split at h <;> cases h
    · exact stoi_none
  have hof : ofString (joinStr ['.'] ps) =
      (stois ps).bind fun v => if v.any (· < 0) then .exn c!"std::invalid_argument" else .ok v := by
    unfold ofString
    rw [if_neg (by simpa using hs), splitDots_join ps hne hdot]
    rfl
  have hneg : ∀ (qs : List Str) (v : Version), stois qs = .ok v → (v.any (· < 0) = true ↔ ∃ q ∈ qs, ∃ i, LeadingInt q i ∧ i < 0) := by
    intro qs v hv
    have hv' := (stois_ok qs v).1 hv
    clear hv
    induction hv' with
    | nil => simp
    | @cons q c qs v hd _ ih =>
      obtain ⟨i, h1, h2, h3, rfl⟩ := hd
      have hi : ∀ j, LeadingInt q j → j = i := by
        intro j hj
        have e1 := stoi_leading h1
        rw [if_pos ⟨h2, h3⟩, stoi_leading hj] at e1
        split at e1 <;> cases e1
        rfl
      rw [List.any_cons, Bool.or_eq_true, decide_eq_true_eq, Int64.lt_iff_toInt_lt, Int64.toInt_zero,
        Int64.toInt_ofInt_of_le (by omega) (by omega)]
      refine (or_congr Iff.rfl ih).trans ?_
      constructor
      · rintro (h | ⟨q', hq, hh⟩)
        · exact ⟨q, by simp, i, h1, h⟩
        · exact ⟨q', by simp [hq], hh⟩
      · rintro ⟨q', hq, j, h4, h5⟩
        rcases List.mem_cons.1 hq with rfl | hq
        · exact .inl (hi j h4 ▸ h5)
        · exact .inr ⟨q', hq, j, h4, h5⟩
  have hall : (∀ q ∈ ps, InInt q) ↔ ∃ v, stois ps = .ok v := by
    clear hof hneg hs hne hdot
    induction ps with
    | nil => simp [stois]
    | cons p ps ih =>
      have hstep : (∃ v, stois (p :: ps) = .ok v) ↔ (∃ i, stoi p = .ok i) ∧ ∃ v, stois ps = .ok v := by
        simp only [stois]
        cases stoi p <;> cases stois ps <;> simp [Res.bind]
      rw [hstep, ← ih, hok]
      simp
  rw [hof]
  cases hv : stois ps with
  | err e => exact nomatch e
  | ub =>
    exfalso
    clear hof hneg hs hne hdot hall
    induction ps with
    | nil => cases hv
    | cons p ps ih =>
      simp only [stois] at hv
      by_cases hl : ∃ i, LeadingInt p i
      · obtain ⟨i, hl⟩ := hl
        rw [stoi_leading hl] at hv
        split at hv
        · cases hr : stois ps with
          | ub => exact ih hr
          | err e => exact nomatch e
          | _ => rw [hr] at hv; cases hv
        · cases hv
      · rw [stoi_none hl] at hv; cases hv
  | exn c =>
    have hno : ¬ ∀ q ∈ ps, InInt q := by rw [hall, hv]; rintro ⟨v, h⟩; cases h
    have h1 := stois_exn ps c!"std::out_of_range"
    have h2 := stois_exn ps c!"std::invalid_argument"
    simp only [hok, hout, hinv, hv] at h1 h2
    simp only [Res.bind, h1, h2, hno, false_and, or_false, and_self]
  | ok v =>
    have hyes : ∀ q ∈ ps, InInt q := hall.2 ⟨v, hv⟩
    have hf : ∀ pre p post, ps = pre ++ p :: post → InInt p := fun pre p post h => hyes p (by simp [h])
    have hlead : ∀ q, InInt q → ∃ i, LeadingInt q i := fun q h => by
      obtain ⟨i, hi, -⟩ := (hInt q).1 h
      exact ⟨i, hi⟩
    have hn := hneg ps v hv
    simp only [Res.bind]
    constructor
    · constructor
      · intro h; split at h <;> cases h
      · rintro ⟨pre, p, post, h1, -, h3, -⟩
        exact absurd (hf _ _ _ h1) h3
    · constructor
      · intro h
        split at h
        · rename_i hc; exact .inr ⟨hyes, hn.1 hc⟩
        · cases h
      · rintro (⟨pre, p, post, h1, -, h3⟩ | ⟨-, h⟩)
        · exact absurd (hlead _ (hf _ _ _ h1)) h3
        · rw [if_pos (hn.2 h)]

/-- C09. No accepted text has a negative component. -/
theorem C09_negative_rejected (s : Str) (v : Version) (hv : ofString s = .ok v) :
    ∀ c ∈ v, 0 ≤ c.toInt := by
  rw [C09_ofString_iff] at hv
  rcases hv with ⟨_, rfl⟩ | ⟨_, ps, hne, hnd, hj, hf⟩
  · simp
  · intro c hc
    clear hne hnd hj
    induction hf with
    | nil => cases hc
    | cons hd _ ih =>
      rcases List.mem_cons.1 hc with rfl | hc
      · exact hd.2.1
      · exact ih hc

example : ofString c!"3.0" = .ok [3, 0] ∧ ofString c!" +3.0x" = .ok [3, 0] ∧
    ofString c!"3.-1" = .exn c!"std::invalid_argument" ∧ ofString c!"2147483648" = .exn c!"std::out_of_range" ∧
    print [3, 0, 12] = c!"3.0.12" := by decide +kernel

end Qasm
