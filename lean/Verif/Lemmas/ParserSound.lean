import Verif.Lemmas.ParserFuel
import Verif.Spec.Grammar
/-!
# The parser of expressions is sound: it returns grouped derivations
-/

namespace Qasm.Parser

open TokKind Spec

/-! ## The tables -/

/-- The precedence of an infix operator, `?` included. -/
def opPrec (k : TokKind) : Option Nat := if k = ternary then some ternaryPrec else prec k

theorem level_iff (k : TokKind) (m : Nat) : level k = some m ↔ m ≤ 12 ∧ opPrec k = some (19 - m) := by
  have h : ∀ k, level k = (opPrec k).map (19 - ·) ∧ ((opPrec k).all fun q => 7 ≤ q ∧ q ≤ 19) = true := by
    intro k; cases k <;> decide +kernel
  obtain ⟨h1, h2⟩ := h k
  rw [h1]
  cases hq : opPrec k with
  | none => simp
  | some q =>
    simp [hq] at h2 ⊢
    omega

theorem opPrec_bounds {k : TokKind} {q : Nat} (h : opPrec k = some q) : 7 ≤ q ∧ q ≤ 19 := by
  have h' : ((opPrec k).all fun q => 7 ≤ q ∧ q ≤ 19) = true := by cases k <;> decide +kernel
  simpa [h] using h'

theorem prec_bounds {k : TokKind} {q : Nat} (h : prec k = some q) : 8 ≤ q ∧ q ≤ 19 := by
  have h' : ((prec k).all fun q => 8 ≤ q ∧ q ≤ 19) = true := by cases k <;> decide +kernel
  simpa [h] using h'

theorem prec_op {k : TokKind} {q : Nat} (h : prec k = some q) : opPrec k = some q := by
  unfold opPrec
  split
  · subst_vars; simp [prec] at h
  · exact h

theorem infix_iff (k : TokKind) : k ∈ infixOps ↔ ∃ q, prec k = some q := by
  have h : (k ∈ infixOps) ↔ (prec k).isSome := by cases k <;> decide +kernel
  rw [h, Option.isSome_iff_exists]

theorem prefix_iff (k : TokKind) : k ∈ prefixOps ↔ ∃ p, prefixPrec k = some p := by
  have h : (k ∈ prefixOps) ↔ (prefixPrec k).isSome := by cases k <;> decide +kernel
  rw [h, Option.isSome_iff_exists]

theorem prefixPrec_bounds {k : TokKind} {p : Nat} (h : prefixPrec k = some p) : 20 ≤ p ∧ p ≤ 22 := by
  have h' : ((prefixPrec k).all fun p => 20 ≤ p ∧ p ≤ 22) = true := by cases k <;> decide +kernel
  simpa [h] using h'

theorem rightAssoc_iff {k : TokKind} {q : Nat} (h : prec k = some q) : k ∈ rightAssociative ↔ k = power := by
  cases k <;> simp [prec] at h <;> simp [rightAssociative]

theorem prec_power {k : TokKind} {q : Nat} (h : prec k = some q) : k = power ↔ q = 19 := by
  cases k <;> simp [prec] at h <;> subst h <;> decide

theorem rightPrec_of {k : TokKind} {q : Nat} (h : prec k = some q) :
    (k = power ∧ q = 19 ∧ rightPrec k q = 19) ∨ (k ≠ power ∧ q ≤ 18 ∧ rightPrec k q = q + 1) := by
  have := prec_bounds h
  by_cases hk : k = power
  · left; exact ⟨hk, (prec_power h).1 hk, by simp [rightPrec, hk, (prec_power h).1 hk]⟩
  · right
    refine ⟨hk, ?_, by simp [rightPrec, hk]⟩
    have := mt (prec_power h).2 hk
    omega

/-- The precedence of the operator at the root. -/
def topPrec (e : PExpr) : Nat :=
  match top e with
  | none => 100
  | some k => (opPrec k).getD 0

/-- An operator after the expression is not part of it iff its precedence is below this. -/
def limit : PExpr → Nat
  | .bin op _ _ => rightPrec op.kind ((prec op.kind).getD 0)
  | .tern .. => ternaryPrec
  | _ => 100

/-- The precedence of the operator at the head of the list, if any, is below `n`. -/
def Below (n : Nat) (ts : List Token) : Prop := ∀ t us, ts = t :: us → ∀ q, opPrec t.kind = some q → q < n

theorem tighter_of {e : PExpr} {k : TokKind} {q : Nat} (hk : opPrec k = some q)
    (ht : ∀ j, top e = some j → ∃ m, level j = some m) : Tighter e k ↔ q < topPrec e := by
  have hq := opPrec_bounds hk
  have hn : level k = some (19 - q) := (level_iff _ _).2 ⟨by omega, by rw [hk]; congr 1; omega⟩
  unfold Tighter topPrec
  cases h : top e with
  | none => simp; omega
  | some j =>
    obtain ⟨m, hm⟩ := ht j h
    obtain ⟨h1, h2⟩ := (level_iff _ _).1 hm
    simp only [hn, hm, h2, Option.some.injEq, Option.getD_some]
    constructor
    · intro H
      obtain ⟨a, b, h3, h4, h5⟩ := H j rfl
      rw [hm] at h3
      simp at h3
      omega
    · rintro H _ rfl
      exact ⟨m, 19 - q, hm, rfl, by omega⟩

theorem asTight_of {e : PExpr} {k : TokKind} {q : Nat} (hk : opPrec k = some q)
    (ht : ∀ j, top e = some j → ∃ m, level j = some m) : AsTight e k ↔ q ≤ topPrec e := by
  have hq := opPrec_bounds hk
  have hn : level k = some (19 - q) := (level_iff _ _).2 ⟨by omega, by rw [hk]; congr 1; omega⟩
  unfold AsTight topPrec
  cases h : top e with
  | none => simp; omega
  | some j =>
    obtain ⟨m, hm⟩ := ht j h
    obtain ⟨h1, h2⟩ := (level_iff _ _).1 hm
    simp only [hn, hm, h2, Option.some.injEq, Option.getD_some]
    constructor
    · intro H
      obtain ⟨a, b, h3, h4, h5⟩ := H j rfl
      rw [hm] at h3
      simp at h3
      omega
    · rintro H _ rfl
      exact ⟨m, 19 - q, hm, rfl, by omega⟩

theorem level_of_opPrec {k : TokKind} {q : Nat} (hk : opPrec k = some q) : ∃ m, level k = some m := by
  have hq := opPrec_bounds hk
  exact ⟨19 - q, (level_iff _ _).2 ⟨by omega, by rw [hk]; congr 1; omega⟩⟩

/-- The root of a derived expression is an operator of the table. -/
theorem derives_top {us : List Token} {e : PExpr} (h : Derives us (.expr e)) :
    ∀ j, top e = some j → ∃ m, level j = some m := by
  cases h <;> simp [top]
  case bin h _ =>
    obtain ⟨q, hq⟩ := (infix_iff _).1 h
    exact level_of_opPrec (prec_op hq)
  case tern h _ _ _ => 
    rw [h]; exact ⟨12, by decide +kernel⟩

theorem topPrec_bin {op : Token} {l r : PExpr} {q : Nat} (h : prec op.kind = some q) : topPrec (.bin op l r) = q := by
  simp [topPrec, top, prec_op h]

theorem topPrec_tern {op : Token} {c a b : PExpr} (h : op.kind = ternary) : topPrec (.tern op c a b) = 7 := by
  simp [topPrec, top, h, opPrec, ternaryPrec]

theorem limit_bin {op : Token} {l r : PExpr} {q : Nat} (h : prec op.kind = some q) :
    limit (.bin op l r) = rightPrec op.kind q := by
  simp [limit, h]

theorem topPrec_none {e : PExpr} (h : top e = none) : topPrec e = 100 ∧ limit e = 100 := by
  cases e <;> simp_all [top, topPrec, limit]

theorem topPrec_le_limit {us : List Token} {e : PExpr} (h : Derives us (.expr e)) : topPrec e ≤ limit e := by
  cases h <;> try (simp [topPrec, top, limit]; done)
  case bin h _ =>
    obtain ⟨q, hq⟩ := (infix_iff _).1 h
    rw [topPrec_bin hq, limit_bin hq]
    rcases rightPrec_of hq with ⟨_, h1, h2⟩ | ⟨_, h1, h2⟩ <;> omega
  case tern h _ _ _ => rw [topPrec_tern h]; simp [limit, ternaryPrec]

/-! ## Inversion -/

/-- What `primary` recognises. -/
theorem P_inv {ts us : List Token} {e : PExpr} (h : P ts = some (e, us)) :
    (∃ o c e' vs, o.kind = openParens ∧ c.kind = closeParens ∧ e = .parens e' ∧ ts = o :: vs ∧ E 0 vs = some (e', c :: us)) ∨
    (∃ op p e' vs, prefixPrec op.kind = some p ∧ e = .pre op e' ∧ ts = op :: vs ∧ E p vs = some (e', us)) ∨
    (∃ n o c, n.kind = identifier ∧ o.kind = openParens ∧ c.kind = closeParens ∧ e = .call n [] ∧ ts = n :: o :: c :: us) ∨
    (∃ n o c es vs, n.kind = identifier ∧ o.kind = openParens ∧ c.kind = closeParens ∧ e = .call n es ∧ ts = n :: o :: vs ∧
      S vs = some (es, c :: us)) ∨
    (∃ n o c es vs, n.kind = identifier ∧ o.kind = openBracket ∧ c.kind = closeBracket ∧ e = .index n es ∧ ts = n :: o :: vs ∧
      X vs = some (es, c :: us)) ∨
    (∃ t, t.kind ∈ [identifier, booleanLiteral, integerLiteral, floatLiteral] ∧ e = .atom t ∧ ts = t :: us) := by
  cases ts with
  | nil => simp [P_nil] at h
  | cons t ts =>
    by_cases h1 : t.kind = openParens
    · rw [P_parens h1] at h
      split at h
      · simp at h
      · rename_i e' vs h0
        simp only [Option.map_eq_some_iff, Prod.mk.injEq] at h
        obtain ⟨w, hw, rfl, rfl⟩ := h
        obtain ⟨c, rfl, hc⟩ := expect_some hw
        exact .inl ⟨t, c, e', ts, h1, hc, rfl, rfl, h0⟩
    by_cases h2 : t.kind = identifier
    · right; right
      cases ts with
      | nil =>
        rw [P_ident h2 (by simp)] at h
        simp at h; obtain ⟨rfl, rfl⟩ := h
        exact .inr (.inr (.inr ⟨t, by simp [h2], rfl, rfl⟩))
      | cons o vs =>
        by_cases ho : o.kind = openParens
        · cases hn : next closeParens vs with
          | true =>
            obtain ⟨c, ws, rfl, hc⟩ := next_cons hn
            rw [P_call0 h2 ho hc] at h
            simp at h; obtain ⟨rfl, rfl⟩ := h
            exact .inl ⟨t, o, c, h2, ho, hc, rfl, rfl⟩
          | false =>
            rw [P_call h2 ho hn] at h
            split at h
            · simp at h
            · rename_i es ws h0
              simp only [Option.map_eq_some_iff, Prod.mk.injEq] at h
              obtain ⟨w, hw, rfl, rfl⟩ := h
              obtain ⟨c, rfl, hc⟩ := expect_some hw
              exact .inr (.inl ⟨t, o, c, es, vs, h2, ho, hc, rfl, rfl, h0⟩)
        · by_cases hb : o.kind = openBracket
          · rw [P_index h2 hb] at h
            split at h
            · simp at h
            · rename_i es ws h0
              simp only [Option.map_eq_some_iff, Prod.mk.injEq] at h
              obtain ⟨w, hw, rfl, rfl⟩ := h
              obtain ⟨c, rfl, hc⟩ := expect_some hw
              exact .inr (.inr (.inl ⟨t, o, c, es, vs, h2, hb, hc, rfl, rfl, h0⟩))
          · rw [P_ident h2 (by intro o' us' he; injection he with he1 he2; subst he1; exact ⟨ho, hb⟩)] at h
            simp at h; obtain ⟨rfl, rfl⟩ := h
            exact .inr (.inr (.inr ⟨t, by simp [h2], rfl, rfl⟩))
    by_cases h3 : t.kind = booleanLiteral ∨ t.kind = integerLiteral ∨ t.kind = floatLiteral
    · rw [P_literal h3] at h
      simp at h; obtain ⟨rfl, rfl⟩ := h
      exact .inr (.inr (.inr (.inr (.inr ⟨t, by simpa [h2] using h3, rfl, rfl⟩))))
    cases hp : prefixPrec t.kind with
    | none =>
      rw [P_other h1 h2 (fun hc => h3 (.inl hc)) (fun hc => h3 (.inr (.inl hc))) (fun hc => h3 (.inr (.inr hc))) hp] at h
      simp at h
    | some p =>
      rw [P_pre hp] at h
      split at h
      · simp at h
      · rename_i e' vs h0
        simp at h; obtain ⟨rfl, rfl⟩ := h
        exact .inr (.inl ⟨t, p, e', ts, hp, rfl, rfl, h0⟩)

/-! ## Soundness -/

/-- A sound result for the rule `expression`. -/
def OkE (p : Nat) (ts : List Token) (e : PExpr) (rest : List Token) : Prop :=
  ∃ us, ts = us ++ rest ∧ Derives us (.expr e) ∧ Grouped e ∧ p ≤ topPrec e ∧ Below p rest

theorem L_sound (n : Nat) (hE : ∀ p ts e us, p ≤ 100 → ts.length < n → E p ts = some (e, us) → OkE p ts e us) :
    ∀ m p e0 ts e us us0, ts.length ≤ m → m ≤ n → L p e0 ts = some (e, us) → Derives us0 (.expr e0) → Grouped e0 → p ≤ topPrec e0 →
      Below (limit e0) ts → ∃ vs, ts = vs ++ us ∧ Derives (us0 ++ vs) (.expr e) ∧ Grouped e ∧ p ≤ topPrec e ∧ Below p us := by
  intro m
  induction m with
  | zero =>
    intro p e0 ts e us us0 hm _ h hd hg hp hb
    cases ts with
    | cons t ts => simp at hm
    | nil =>
      rw [L_nil] at h
      simp at h; obtain ⟨rfl, rfl⟩ := h
      exact ⟨[], by simp, by simpa using hd, hg, hp, by intro t us h; simp at h⟩
  | succ m ih =>
    intro p e0 ts e us us0 hm hmn h hd hg hp hb
    cases ts with
    | nil =>
      rw [L_nil] at h
      simp at h; obtain ⟨rfl, rfl⟩ := h
      exact ⟨[], by simp, by simpa using hd, hg, hp, by intro t us h; simp at h⟩
    | cons t ts =>
      simp only [List.length_cons] at hm
      by_cases hpq : ∃ q, prec t.kind = some q ∧ p ≤ q
      · obtain ⟨q, hq, hpq⟩ := hpq
        rw [L_bin hq hpq] at h
        split at h
        · simp at h
        · rename_i r vs h0
          have hlen := E_len h0
          obtain ⟨ws, rfl, hd1, hg1, hp1, hb1⟩ := hE _ _ _ _ (by have := prec_bounds hq; rcases rightPrec_of hq with ⟨_, _, h⟩ | ⟨_, _, h⟩ <;> omega) (by omega) h0
          have hlim := hb _ _ rfl q (prec_op hq)
          have hd2 : Derives (us0 ++ t :: ws) (.expr (.bin t e0 r)) := .bin hd ((infix_iff _).2 ⟨q, hq⟩) hd1
          have hg2 : Grouped (.bin t e0 r) := by
            have hqb := prec_bounds hq
            rcases rightPrec_of hq with ⟨hk, h1, h2⟩ | ⟨hk, h1, h2⟩
            · refine .right ((rightAssoc_iff hq).2 hk) ((tighter_of (prec_op hq) (derives_top hd)).2 ?_)
                ((asTight_of (prec_op hq) (derives_top hd1)).2 (by omega)) hg hg1
              cases htop : top e0 with
              | none => rw [(topPrec_none htop).1]; omega
              | some j =>
                exfalso
                cases hd <;> simp [top] at htop
                case bin hop _ =>
                  obtain ⟨q', hq'⟩ := (infix_iff _).1 hop
                  rw [limit_bin hq'] at hlim
                  rcases rightPrec_of hq' with ⟨_, h3, h4⟩ | ⟨_, h3, h4⟩ <;> omega
                case tern => simp [limit, ternaryPrec] at hlim; omega
            · refine .left (mt (rightAssoc_iff hq).1 hk) ((asTight_of (prec_op hq) (derives_top hd)).2 ?_)
                ((tighter_of (prec_op hq) (derives_top hd1)).2 (by omega)) hg hg1
              cases htop : top e0 with
              | none => rw [(topPrec_none htop).1]; omega
              | some j =>
                cases hd <;> simp [top] at htop
                case bin hop _ =>
                  obtain ⟨q', hq'⟩ := (infix_iff _).1 hop
                  rw [limit_bin hq'] at hlim
                  rw [topPrec_bin hq']
                  rcases rightPrec_of hq' with ⟨_, h3, h4⟩ | ⟨_, h3, h4⟩ <;> omega
                case tern => simp [limit, ternaryPrec] at hlim; omega
          obtain ⟨xs, rfl, hd3, hg3, hp3, hb3⟩ := ih p _ vs e us _ (by omega) (by omega) h hd2 hg2
            (by rw [topPrec_bin hq]; exact hpq) (by rw [limit_bin hq]; exact hb1)
          exact ⟨t :: ws ++ xs, by simp, by simpa using hd3, hg3, hp3, hb3⟩
      · by_cases ht : t.kind = ternary ∧ p ≤ ternaryPrec
        · rw [L_tern ht.1 ht.2] at h
          split at h
          · simp at h
          · rename_i a vs h0
            split at h
            · simp at h
            · rename_i ws hw
              obtain ⟨c, rfl, hc⟩ := expect_some hw
              split at h
              · simp at h
              · rename_i b xs h1
                have hlen := E_len h0
                have hlen1 := E_len h1
                simp only [List.length_cons] at hlen
                obtain ⟨as, rfl, hd1, hg1, hp1, hb1⟩ := hE _ _ _ _ (by omega) (by omega) h0
                obtain ⟨bs, rfl, hd2, hg2, hp2, hb2⟩ := hE _ _ _ _ (by decide) (by omega) h1
                have hop : opPrec t.kind = some 7 := by simp [opPrec, ht.1, ternaryPrec]
                have hlim := hb _ _ rfl 7 hop
                have hd3 : Derives (us0 ++ t :: as ++ c :: bs) (.expr (.tern t e0 a b)) := .tern hd ht.1 hd1 hc hd2
                have hg3 : Grouped (.tern t e0 a b) := by
                  refine .tern ((tighter_of hop (derives_top hd)).2 ?_) ((asTight_of hop (derives_top hd2)).2 hp2) hg hg1 hg2
                  cases htop : top e0 with
                  | none => rw [(topPrec_none htop).1]; omega
                  | some j =>
                    cases hd <;> simp [top] at htop
                    case bin hop _ =>
                      obtain ⟨q', hq'⟩ := (infix_iff _).1 hop
                      have := prec_bounds hq'
                      rw [topPrec_bin hq']
                      omega
                    case tern => simp [limit, ternaryPrec] at hlim
                obtain ⟨ys, rfl, hd4, hg4, hp4, hb4⟩ := ih p _ xs e us _ (by simp at hlen1 hlen hm; omega) (by omega) h hd3 hg3
                  (by rw [topPrec_tern ht.1]; exact ht.2) hb2
                exact ⟨t :: as ++ c :: bs ++ ys, by simp, by simpa using hd4, hg4, hp4, hb4⟩
        · have hstop := L_stop (p := p) (e := e0) (t := t) (ts := ts)
            (fun q hq => by have := mt (fun hle => (⟨q, hq, hle⟩ : ∃ q, prec t.kind = some q ∧ p ≤ q)) hpq; omega)
            (fun hk => by have := mt (fun hle => (⟨hk, hle⟩ : t.kind = ternary ∧ p ≤ ternaryPrec)) ht; omega)
          rw [hstop] at h
          simp at h; obtain ⟨rfl, rfl⟩ := h
          refine ⟨[], by simp, by simpa using hd, hg, hp, ?_⟩
          intro t' us' he q hq
          injection he with he1 he2
          subst he1
          unfold opPrec at hq
          split at hq
          · simp at hq; subst hq
            rename_i hk
            have := mt (fun hle => (⟨hk, hle⟩ : t.kind = ternary ∧ p ≤ ternaryPrec)) ht; omega
          · have := mt (fun hle => (⟨q, hq, hle⟩ : ∃ q, prec t.kind = some q ∧ p ≤ q)) hpq; omega

/-- Grouping of index entries. -/
def GroupedEntries (is : List PEntry) : Prop :=
  (∀ e, .item e ∈ is → Grouped e) ∧ (∀ a b, .range a b ∈ is → Grouped a ∧ Grouped b)

theorem sound (n : Nat) :
    (∀ p ts e us, p ≤ 100 → ts.length < n → E p ts = some (e, us) → OkE p ts e us) ∧
    (∀ ts es us, ts.length < n → S ts = some (es, us) → ∃ vs, ts = vs ++ us ∧ Derives vs (.exprs es) ∧ ∀ e ∈ es, Grouped e) ∧
    (∀ ts i us, ts.length < n → N ts = some (i, us) → ∃ vs, ts = vs ++ us ∧ Derives vs (.entry i) ∧ GroupedEntries [i]) ∧
    (∀ ts is us, ts.length < n → X ts = some (is, us) → ∃ vs, ts = vs ++ us ∧ Derives vs (.entries is) ∧ GroupedEntries is) := by
  induction n with
  | zero => refine ⟨?_, ?_, ?_, ?_⟩ <;> intros <;> omega
  | succ n ih =>
    obtain ⟨hE, hS, hN, hX⟩ := ih
    have hP : ∀ ts e us, ts.length ≤ n → P ts = some (e, us) →
        ∃ vs, ts = vs ++ us ∧ Derives vs (.expr e) ∧ Grouped e ∧ top e = none := by
      intro ts e us hn h
      rcases P_inv h with ⟨o, c, e', vs, ho, hc, rfl, rfl, h0⟩ | ⟨op, p, e', vs, hp, rfl, rfl, h0⟩ |
        ⟨t, o, c, ht, ho, hc, rfl, rfl⟩ | ⟨t, o, c, es, vs, ht, ho, hc, rfl, rfl, h0⟩ |
        ⟨t, o, c, es, vs, ht, ho, hc, rfl, rfl, h0⟩ | ⟨t, ht, rfl, rfl⟩
      · obtain ⟨ws, rfl, hd, hg, -, -⟩ := hE _ _ _ _ (by omega) (by simp at hn; omega) h0
        exact ⟨o :: ws ++ [c], by simp, .parens ho hd hc, .parens hg, rfl⟩
      · obtain ⟨ws, rfl, hd, hg, hpt, -⟩ := hE _ _ _ _ (by have := prefixPrec_bounds hp; omega) (by simp at hn; omega) h0
        refine ⟨op :: ws, by simp, .pre ((prefix_iff _).2 ⟨p, hp⟩) hd, .pre ?_ hg, rfl⟩
        have := prefixPrec_bounds hp
        cases htop : top e' with
        | none => rfl
        | some j =>
          exfalso
          obtain ⟨m, hm⟩ := derives_top hd j htop
          obtain ⟨h1, h2⟩ := (level_iff _ _).1 hm
          simp [topPrec, htop, h2] at hpt
          omega
      · exact ⟨[t, o, c], by simp, .call0 ht ho hc, .call (by simp), rfl⟩
      · obtain ⟨ws, rfl, hd, hg⟩ := hS _ _ _ (by simp at hn; omega) h0
        exact ⟨t :: o :: ws ++ [c], by simp, .call ht ho hd hc, .call hg, rfl⟩
      · obtain ⟨ws, rfl, hd, hg⟩ := hX _ _ _ (by simp at hn; omega) h0
        exact ⟨t :: o :: ws ++ [c], by simp, .index ht ho hd hc,
          .index hg.1 (fun a b h => (hg.2 a b h).1) (fun a b h => (hg.2 a b h).2), rfl⟩
      · exact ⟨[t], by simp, .atom ht, .atom, rfl⟩
    have hE' : ∀ p ts e us, p ≤ 100 → ts.length < n + 1 → E p ts = some (e, us) → OkE p ts e us := by
      intro p ts e us hp hn h
      rw [E_eq] at h
      split at h
      · simp at h
      · rename_i e0 ws h0
        have hlen := P_len h0
        obtain ⟨vs, rfl, hd, hg, ht⟩ := hP _ _ _ (by omega) h0
        have hb : Below (limit e0) ws := by
          intro t us _ q hq
          have := opPrec_bounds hq
          rw [(topPrec_none ht).2]; omega
        obtain ⟨xs, rfl, hd1, hg1, hp1, hb1⟩ := L_sound n hE ws.length p e0 ws e us vs (Nat.le_refl _) (by omega) h hd hg
          (by rw [(topPrec_none ht).1]; exact hp) hb
        exact ⟨vs ++ xs, by simp, hd1, hg1, hp1, hb1⟩
    have hN' : ∀ ts i us, ts.length < n + 1 → N ts = some (i, us) →
        ∃ vs, ts = vs ++ us ∧ Derives vs (.entry i) ∧ GroupedEntries [i] := by
      intro ts i us hn h
      rw [N_eq] at h
      split at h
      · simp at h
      · rename_i a ws h0
        have hlen := E_len h0
        obtain ⟨vs, rfl, hd, hg, -, -⟩ := hE' _ _ _ _ (by omega) hn h0
        split at h
        · simp at h; obtain ⟨rfl, rfl⟩ := h
          exact ⟨vs, rfl, .item hd, by simpa using hg, by simp⟩
        · rename_i xs hx
          obtain ⟨c, rfl, hc⟩ := expect_some hx
          split at h
          · simp at h
          · rename_i b ys h1
            simp only [List.length_cons] at hlen
            obtain ⟨zs, rfl, hd1, hg1, -, -⟩ := hE _ _ _ _ (by omega) (by omega) h1
            simp at h; obtain ⟨rfl, rfl⟩ := h
            exact ⟨vs ++ c :: zs, by simp, .range hd hc hd1, by simp, by simp only [List.mem_singleton, PEntry.range.injEq]; rintro _ _ ⟨rfl, rfl⟩; exact ⟨hg, hg1⟩⟩
    refine ⟨hE', ?_, hN', ?_⟩
    · intro ts es us hn h
      rw [S_eq] at h
      split at h
      · simp at h
      · rename_i a ws h0
        have hlen := E_len h0
        obtain ⟨vs, rfl, hd, hg, -, -⟩ := hE' _ _ _ _ (by omega) hn h0
        split at h
        · simp at h; obtain ⟨rfl, rfl⟩ := h
          exact ⟨vs, rfl, .expr1 hd, by simpa using hg⟩
        · rename_i xs hx
          obtain ⟨c, rfl, hc⟩ := expect_some hx
          split at h
          · simp at h
          · rename_i b ys h1
            simp only [List.length_cons] at hlen
            obtain ⟨zs, rfl, hd1, hg1⟩ := hS _ _ _ (by omega) h1
            simp at h; obtain ⟨rfl, rfl⟩ := h
            exact ⟨vs ++ c :: zs, by simp, .exprN hd hc hd1, by simpa using ⟨hg, hg1⟩⟩
    · intro ts es us hn h
      rw [X_eq] at h
      split at h
      · simp at h
      · rename_i a ws h0
        have hlen := N_len h0
        obtain ⟨vs, rfl, hd, hg⟩ := hN' _ _ _ hn h0
        split at h
        · simp at h; obtain ⟨rfl, rfl⟩ := h
          exact ⟨vs, rfl, .entry1 hd, hg⟩
        · rename_i xs hx
          obtain ⟨c, rfl, hc⟩ := expect_some hx
          split at h
          · simp at h
          · rename_i b ys h1
            simp only [List.length_cons] at hlen
            obtain ⟨zs, rfl, hd1, hg1⟩ := hX _ _ _ (by omega) h1
            simp at h; obtain ⟨rfl, rfl⟩ := h
            refine ⟨vs ++ c :: zs, by simp, .entryN hd hc hd1, ?_, ?_⟩
            · intro e he
              rcases List.mem_cons.1 he with he | he
              · exact hg.1 e (by simp [he])
              · exact hg1.1 e he
            · intro a' b' he
              rcases List.mem_cons.1 he with he | he
              · exact hg.2 a' b' (by simp [he])
              · exact hg1.2 a' b' he

theorem E_sound {p : Nat} {ts us : List Token} {e : PExpr} (hp : p ≤ 100) (h : E p ts = some (e, us)) : OkE p ts e us :=
  (sound (ts.length + 1)).1 p ts e us hp (by omega) h

theorem S_sound {ts us : List Token} {es : List PExpr} (h : S ts = some (es, us)) :
    ∃ vs, ts = vs ++ us ∧ Derives vs (.exprs es) ∧ ∀ e ∈ es, Grouped e :=
  (sound (ts.length + 1)).2.1 ts es us (by omega) h

end Qasm.Parser
