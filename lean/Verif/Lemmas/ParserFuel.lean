import Verif.Model.Parser
/-!
# The parser has enough fuel

`E`, `P`, `L`, `S`, `N` and `X` are the parser's functions with enough fuel; they satisfy the equations
of the parser with the fuel left out.
-/

namespace Qasm.Parser

open TokKind

theorem expect_some {k : TokKind} {ts us : List Token} (h : expect k ts = some us) :
    ∃ t, ts = t :: us ∧ t.kind = k := by
  cases ts with
  | nil => simp [expect] at h
  | cons t ts =>
    simp only [expect] at h
    split at h
    · simp at h; subst h; exact ⟨t, rfl, by assumption⟩
    · simp at h

theorem expect_cons {k : TokKind} {t : Token} {ts : List Token} (h : t.kind = k) :
    expect k (t :: ts) = some ts := by simp [expect, h]

theorem expect_len {k : TokKind} {ts us : List Token} (h : expect k ts = some us) :
    us.length + 1 = ts.length := by
  obtain ⟨t, rfl, -⟩ := expect_some h; rfl

theorem next_cons {k : TokKind} {us : List Token} (h : next k us = true) :
    ∃ t ts, us = t :: ts ∧ t.kind = k := by
  cases us with
  | nil => simp [next] at h
  | cons t ts => exact ⟨t, ts, rfl, by simpa [next] using h⟩

theorem fuel (f : Nat) :
    (∀ p ts e us, expr f p ts = some (e, us) →
      us.length < ts.length ∧ ∀ g, 4 * ts.length + 2 ≤ g → expr g p ts = some (e, us)) ∧
    (∀ ts e us, primary f ts = some (e, us) →
      us.length < ts.length ∧ ∀ g, 4 * ts.length + 1 ≤ g → primary g ts = some (e, us)) ∧
    (∀ p e0 ts e us, loop f p e0 ts = some (e, us) →
      us.length ≤ ts.length ∧ ∀ g, 4 * ts.length + 1 ≤ g → loop g p e0 ts = some (e, us)) ∧
    (∀ ts e us, exprList f ts = some (e, us) →
      us.length < ts.length ∧ ∀ g, 4 * ts.length + 3 ≤ g → exprList g ts = some (e, us)) ∧
    (∀ ts e us, indexEntry f ts = some (e, us) →
      us.length < ts.length ∧ ∀ g, 4 * ts.length + 3 ≤ g → indexEntry g ts = some (e, us)) ∧
    (∀ ts e us, indexList f ts = some (e, us) →
      us.length < ts.length ∧ ∀ g, 4 * ts.length + 4 ≤ g → indexList g ts = some (e, us)) := by
  induction f with
  | zero => 
    refine ⟨?_, ?_, ?_, ?_, ?_, ?_⟩ <;> intros <;> simp_all [expr, primary, loop, exprList, indexEntry, indexList]
  | succ f ih =>
    obtain ⟨hE, hP, hL, hS, hN, hX⟩ := ih
    refine ⟨?_, ?_, ?_, ?_, ?_, ?_⟩
    · intro p ts e us h
      simp only [expr] at h
      split at h
      · simp at h
      · rename_i e0 vs h0
        have h1 := hP _ _ _ h0
        have h2 := hL _ _ _ _ _ h
        refine ⟨by omega, ?_⟩
        intro g hg
        obtain ⟨g, rfl⟩ : ∃ k, g = k + 1 := ⟨g - 1, by omega⟩
        simp only [expr, h1.2 g (by omega), h2.2 g (by omega)]
    · intro ts e us h
      cases ts with
      | nil => simp [primary] at h
      | cons t ts =>
        suffices H : us.length < (t :: ts).length ∧ ∀ g, 4 * (t :: ts).length ≤ g → primary (g + 1) (t :: ts) = some (e, us) from by
          refine ⟨H.1, ?_⟩
          intro g hg
          obtain ⟨g, rfl⟩ : ∃ k, g = k + 1 := ⟨g - 1, by omega⟩
          exact H.2 g (by omega)
        simp only [primary] at h ⊢
        simp only [List.length_cons] at *
        split at h <;> rename_i hk
        · split at h
          · simp at h
          · rename_i e0 vs h0
            have h1 := hE _ _ _ _ h0
            simp only [Option.map_eq_some_iff, Prod.mk.injEq] at h
            obtain ⟨w, hw, rfl, rfl⟩ := h
            have := expect_len hw
            refine ⟨by omega, ?_⟩
            intro g hg
            simp [hk, h1.2 g (by omega), hw]
        · split at h
          · simp at h; obtain ⟨rfl, rfl⟩ := h
            exact ⟨by simp, by intro g hg; simp [hk]⟩
          · rename_i o vs
            simp only [List.length_cons] at *
            split at h
            · rename_i ho
              split at h
              · rename_i hn
                simp at h; obtain ⟨rfl, rfl⟩ := h
                refine ⟨by simp; omega, ?_⟩
                intro g hg; simp [hk, ho, hn]
              · rename_i hn
                split at h
                · simp at h
                · rename_i es ws h0
                  have h1 := hS _ _ _ h0
                  simp only [Option.map_eq_some_iff, Prod.mk.injEq] at h
                  obtain ⟨w, hw, rfl, rfl⟩ := h
                  have := expect_len hw
                  refine ⟨by omega, ?_⟩
                  intro g hg
                  simp [hk, ho, hn, h1.2 g (by omega), hw]
            · rename_i ho
              split at h
              · rename_i hb
                split at h
                · simp at h
                · rename_i es ws h0
                  have h1 := hX _ _ _ h0
                  simp only [Option.map_eq_some_iff, Prod.mk.injEq] at h
                  obtain ⟨w, hw, rfl, rfl⟩ := h
                  have := expect_len hw
                  refine ⟨by omega, ?_⟩
                  intro g hg
                  simp [hk, hb, h1.2 g (by omega), hw]
              · rename_i hb
                simp at h; obtain ⟨rfl, rfl⟩ := h
                exact ⟨by simp, by intro g hg; simp [hk, ho, hb]⟩
        · simp at h; obtain ⟨rfl, rfl⟩ := h
          exact ⟨by simp, by intro g hg; simp [hk]⟩
        · simp at h; obtain ⟨rfl, rfl⟩ := h
          exact ⟨by simp, by intro g hg; simp [hk]⟩
        · simp at h; obtain ⟨rfl, rfl⟩ := h
          exact ⟨by simp, by intro g hg; simp [hk]⟩
        · split at h
          · simp at h
          · rename_i p hp
            split at h
            · simp at h
            · rename_i e0 vs h0
              have h1 := hE _ _ _ _ h0
              simp at h; obtain ⟨rfl, rfl⟩ := h
              refine ⟨by omega, ?_⟩
              intro g hg
              have h3 := h1.2 g (by omega)
              clear h1 hE hP hL hS hN hX h0
              split <;> simp_all
    · intro p e0 ts e us h
      cases ts with
      | nil =>
        simp [loop] at h; obtain ⟨rfl, rfl⟩ := h
        refine ⟨by simp, ?_⟩
        intro g hg
        obtain ⟨g, rfl⟩ : ∃ k, g = k + 1 := ⟨g - 1, by omega⟩
        simp [loop]
      | cons t ts =>
        suffices H : us.length ≤ (t :: ts).length ∧ ∀ g, 4 * (t :: ts).length ≤ g → loop (g + 1) p e0 (t :: ts) = some (e, us) from by
          refine ⟨H.1, ?_⟩
          intro g hg
          obtain ⟨g, rfl⟩ : ∃ k, g = k + 1 := ⟨g - 1, by omega⟩
          exact H.2 g (by omega)
        simp only [loop] at h ⊢
        simp only [List.length_cons] at *
        split at h
        · rename_i q hq
          split at h
          · rename_i hpq
            simp only [hpq, if_true]
            split at h
            · simp at h
            · rename_i r vs h0
              have h1 := hE _ _ _ _ h0
              have h2 := hL _ _ _ _ _ h
              refine ⟨by omega, ?_⟩
              intro g hg
              simp [h1.2 g (by omega), h2.2 g (by omega)]
          · rename_i hpq
            simp only [hpq, if_false]
            simp at h; obtain ⟨rfl, rfl⟩ := h
            simp
        · rename_i hq
          split at h
          · rename_i hpq
            simp only [hpq, if_true, and_self]
            split at h
            · simp at h
            · rename_i a vs h0
              have h1 := hE _ _ _ _ h0
              split at h
              · simp at h
              · rename_i ws h3
                have := expect_len h3
                split at h
                · simp at h
                · rename_i b xs h4
                  have h5 := hE _ _ _ _ h4
                  have h2 := hL _ _ _ _ _ h
                  refine ⟨by omega, ?_⟩
                  intro g hg
                  simp [h1.2 g (by omega), h3, h5.2 g (by omega), h2.2 g (by omega)]
          · rename_i hpq
            simp only [hpq, if_false]
            simp at h; obtain ⟨rfl, rfl⟩ := h
            simp
    · intro ts es us h
      simp only [exprList] at h
      split at h
      · simp at h
      · rename_i e0 vs h0
        have h1 := hE _ _ _ _ h0
        split at h
        · rename_i hc
          simp at h; obtain ⟨rfl, rfl⟩ := h
          refine ⟨by omega, ?_⟩
          intro g hg
          obtain ⟨g, rfl⟩ : ∃ k, g = k + 1 := ⟨g - 1, by omega⟩
          simp [exprList, h1.2 g (by omega), hc]
        · rename_i ws hc
          have := expect_len hc
          split at h
          · simp at h
          · rename_i es' xs h2
            have h3 := hS _ _ _ h2
            simp at h; obtain ⟨rfl, rfl⟩ := h
            refine ⟨by omega, ?_⟩
            intro g hg
            obtain ⟨g, rfl⟩ : ∃ k, g = k + 1 := ⟨g - 1, by omega⟩
            simp [exprList, h1.2 g (by omega), hc, h3.2 g (by omega)]
    · intro ts es us h
      simp only [indexEntry] at h
      split at h
      · simp at h
      · rename_i e0 vs h0
        have h1 := hE _ _ _ _ h0
        split at h
        · rename_i hc
          simp at h; obtain ⟨rfl, rfl⟩ := h
          refine ⟨by omega, ?_⟩
          intro g hg
          obtain ⟨g, rfl⟩ : ∃ k, g = k + 1 := ⟨g - 1, by omega⟩
          simp [indexEntry, h1.2 g (by omega), hc]
        · rename_i ws hc
          have := expect_len hc
          split at h
          · simp at h
          · rename_i es' xs h2
            have h3 := hE _ _ _ _ h2
            simp at h; obtain ⟨rfl, rfl⟩ := h
            refine ⟨by omega, ?_⟩
            intro g hg
            obtain ⟨g, rfl⟩ : ∃ k, g = k + 1 := ⟨g - 1, by omega⟩
            simp [indexEntry, h1.2 g (by omega), hc, h3.2 g (by omega)]
    · intro ts es us h
      simp only [indexList] at h
      split at h
      · simp at h
      · rename_i e0 vs h0
        have h1 := hN _ _ _ h0
        split at h
        · rename_i hc
          simp at h; obtain ⟨rfl, rfl⟩ := h
          refine ⟨by omega, ?_⟩
          intro g hg
          obtain ⟨g, rfl⟩ : ∃ k, g = k + 1 := ⟨g - 1, by omega⟩
          simp [indexList, h1.2 g (by omega), hc]
        · rename_i ws hc
          have := expect_len hc
          split at h
          · simp at h
          · rename_i es' xs h2
            have h3 := hX _ _ _ h2
            simp at h; obtain ⟨rfl, rfl⟩ := h
            refine ⟨by omega, ?_⟩
            intro g hg
            obtain ⟨g, rfl⟩ : ∃ k, g = k + 1 := ⟨g - 1, by omega⟩
            simp [indexList, h1.2 g (by omega), hc, h3.2 g (by omega)]

/-! ## The functions without fuel -/

def E (p : Nat) (ts : List Token) := expr (4 * ts.length + 2) p ts
def P (ts : List Token) := primary (4 * ts.length + 1) ts
def L (p : Nat) (e : PExpr) (ts : List Token) := loop (4 * ts.length + 1) p e ts
def S (ts : List Token) := exprList (4 * ts.length + 3) ts
def N (ts : List Token) := indexEntry (4 * ts.length + 3) ts
def X (ts : List Token) := indexList (4 * ts.length + 4) ts

theorem opt_eq {α : Type} {a b : Option α} (h1 : ∀ x, a = some x → b = some x) (h2 : ∀ x, b = some x → a = some x) :
    a = b := by
  cases a with
  | some x => exact (h1 x rfl).symm
  | none =>
    cases b with
    | some x => exact h2 x rfl
    | none => rfl

theorem E_of {g p ts} (h : 4 * ts.length + 2 ≤ g) : expr g p ts = E p ts :=
  opt_eq (fun x hx => ((fuel g).1 _ _ _ _ hx).2 _ (Nat.le_refl _)) (fun x hx => ((fuel _).1 _ _ _ _ hx).2 _ h)
theorem P_of {g ts} (h : 4 * ts.length + 1 ≤ g) : primary g ts = P ts :=
  opt_eq (fun x hx => ((fuel g).2.1 _ _ _ hx).2 _ (Nat.le_refl _)) (fun x hx => ((fuel _).2.1 _ _ _ hx).2 _ h)
theorem L_of {g p e ts} (h : 4 * ts.length + 1 ≤ g) : loop g p e ts = L p e ts :=
  opt_eq (fun x hx => ((fuel g).2.2.1 _ _ _ _ _ hx).2 _ (Nat.le_refl _)) (fun x hx => ((fuel _).2.2.1 _ _ _ _ _ hx).2 _ h)
theorem S_of {g ts} (h : 4 * ts.length + 3 ≤ g) : exprList g ts = S ts :=
  opt_eq (fun x hx => ((fuel g).2.2.2.1 _ _ _ hx).2 _ (Nat.le_refl _)) (fun x hx => ((fuel _).2.2.2.1 _ _ _ hx).2 _ h)
theorem N_of {g ts} (h : 4 * ts.length + 3 ≤ g) : indexEntry g ts = N ts :=
  opt_eq (fun x hx => ((fuel g).2.2.2.2.1 _ _ _ hx).2 _ (Nat.le_refl _)) (fun x hx => ((fuel _).2.2.2.2.1 _ _ _ hx).2 _ h)
theorem X_of {g ts} (h : 4 * ts.length + 4 ≤ g) : indexList g ts = X ts :=
  opt_eq (fun x hx => ((fuel g).2.2.2.2.2 _ _ _ hx).2 _ (Nat.le_refl _)) (fun x hx => ((fuel _).2.2.2.2.2 _ _ _ hx).2 _ h)

theorem E_len {p ts e us} (h : E p ts = some (e, us)) : us.length < ts.length := ((fuel _).1 _ _ _ _ h).1
theorem P_len {ts e us} (h : P ts = some (e, us)) : us.length < ts.length := ((fuel _).2.1 _ _ _ h).1
theorem L_len {p e0 ts e us} (h : L p e0 ts = some (e, us)) : us.length ≤ ts.length := ((fuel _).2.2.1 _ _ _ _ _ h).1
theorem S_len {ts e us} (h : S ts = some (e, us)) : us.length < ts.length := ((fuel _).2.2.2.1 _ _ _ h).1
theorem N_len {ts e us} (h : N ts = some (e, us)) : us.length < ts.length := ((fuel _).2.2.2.2.1 _ _ _ h).1
theorem X_len {ts e us} (h : X ts = some (e, us)) : us.length < ts.length := ((fuel _).2.2.2.2.2 _ _ _ h).1

theorem E_eq (p : Nat) (ts : List Token) :
    E p ts = match P ts with
      | none => none
      | some (e, us) => L p e us := by
  rw [E, expr, P_of (by omega)]
  cases h : P ts with
  | none => rfl
  | some x =>
    obtain ⟨e, us⟩ := x
    have := P_len h
    exact L_of (by omega)

theorem P_nil : P [] = none := by simp [P, primary]

theorem P_parens {t : Token} {ts : List Token} (hk : t.kind = openParens) :
    P (t :: ts) = match E 0 ts with
      | none => none
      | some (e, us) => (expect closeParens us).map fun us => (.parens e, us) := by
  rw [P]
  simp only [List.length_cons, primary, hk]
  rw [E_of (by omega)]
  rcases E 0 ts with _ | ⟨_, _⟩ <;> rfl

theorem P_ident {t : Token} {ts : List Token} (hk : t.kind = identifier)
    (h : ∀ o us, ts = o :: us → o.kind ≠ openParens ∧ o.kind ≠ openBracket) :
    P (t :: ts) = some (.atom t, ts) := by
  rw [P]
  simp only [primary, hk]
  cases ts with
  | nil => rfl
  | cons o us => simp [h o us rfl]

theorem P_call0 {t o c : Token} {us : List Token} (hk : t.kind = identifier) (ho : o.kind = openParens)
    (hc : c.kind = closeParens) : P (t :: o :: c :: us) = some (.call t [], us) := by
  rw [P]
  simp [primary, hk, ho, next, hc]

theorem P_call {t o : Token} {us : List Token} (hk : t.kind = identifier) (ho : o.kind = openParens)
    (hc : next closeParens us = false) :
    P (t :: o :: us) = match S us with
      | none => none
      | some (es, us) => (expect closeParens us).map fun us => (.call t es, us) := by
  rw [P]
  simp only [List.length_cons, primary, hk, ho, if_true, hc]
  rw [S_of (by omega)]
  rcases S us with _ | ⟨_, _⟩ <;> rfl

theorem P_index {t o : Token} {us : List Token} (hk : t.kind = identifier) (ho : o.kind = openBracket) :
    P (t :: o :: us) = match X us with
      | none => none
      | some (es, us) => (expect closeBracket us).map fun us => (.index t es, us) := by
  rw [P]
  simp only [List.length_cons, primary, hk, ho, if_true]
  rw [X_of (by omega)]
  rcases X us with _ | ⟨_, _⟩ <;> rfl

theorem P_literal {t : Token} {ts : List Token}
    (hk : t.kind = booleanLiteral ∨ t.kind = integerLiteral ∨ t.kind = floatLiteral) :
    P (t :: ts) = some (.atom t, ts) := by
  rw [P]
  rcases hk with hk | hk | hk <;> simp [primary, hk]

theorem P_pre {t : Token} {ts : List Token} {p : Nat} (hp : prefixPrec t.kind = some p) :
    P (t :: ts) = match E p ts with
      | none => none
      | some (e, us) => some (.pre t e, us) := by
  rw [P]
  simp only [List.length_cons, primary]
  split
  case h_6 =>
    rw [hp]
    simp only
    rw [E_of (by omega)]
    rcases E p ts with _ | ⟨_, _⟩ <;> rfl
  all_goals simp_all [prefixPrec]

theorem P_other {t : Token} {ts : List Token} (h1 : t.kind ≠ openParens) (h2 : t.kind ≠ identifier)
    (h3 : t.kind ≠ booleanLiteral) (h4 : t.kind ≠ integerLiteral) (h5 : t.kind ≠ floatLiteral)
    (hp : prefixPrec t.kind = none) : P (t :: ts) = none := by
  rw [P]
  simp only [primary]
  split <;> simp_all

theorem L_nil (p : Nat) (e : PExpr) : L p e [] = some (e, []) := by simp [L, loop]

theorem L_bin {p q : Nat} {e : PExpr} {t : Token} {ts : List Token} (hq : prec t.kind = some q) (h : p ≤ q) :
    L p e (t :: ts) = match E (rightPrec t.kind q) ts with
      | none => none
      | some (r, us) => L p (.bin t e r) us := by
  rw [L]
  simp only [List.length_cons, loop, hq, h, if_true]
  rw [E_of (by omega)]
  cases h : E (rightPrec t.kind q) ts with
  | none => rfl
  | some x =>
    have := E_len h
    exact L_of (by omega)

theorem L_stop {p : Nat} {e : PExpr} {t : Token} {ts : List Token} (hq : ∀ q, prec t.kind = some q → q < p)
    (h : t.kind = ternary → ternaryPrec < p) : L p e (t :: ts) = some (e, t :: ts) := by
  rw [L]
  simp only [loop]
  split
  · rename_i q hq'
    have := hq q hq'
    simp; omega
  · rw [if_neg (fun hc => by have := h hc.1; omega)]

theorem L_tern {p : Nat} {e : PExpr} {t : Token} {ts : List Token} (ht : t.kind = ternary) (h : p ≤ ternaryPrec) :
    L p e (t :: ts) = match E 0 ts with
      | none => none
      | some (a, us) =>
        match expect colon us with
        | none => none
        | some us =>
          match E ternaryPrec us with
          | none => none
          | some (b, us) => L p (.tern t e a b) us := by
  rw [L]
  simp only [List.length_cons, loop, ht, prec, h, and_self, if_true]
  rw [E_of (by omega)]
  cases h : E 0 ts with
  | none => rfl
  | some x =>
    obtain ⟨a, us⟩ := x
    have := E_len h
    simp only
    cases h' : expect colon us with
    | none => rfl
    | some vs =>
      have := expect_len h'
      simp only
      rw [E_of (by omega)]
      cases h'' : E ternaryPrec vs with
      | none => rfl
      | some y =>
        have := E_len h''
        exact L_of (by omega)

theorem S_eq (ts : List Token) :
    S ts = match E 0 ts with
      | none => none
      | some (e, us) =>
        match expect comma us with
        | none => some ([e], us)
        | some vs =>
          match S vs with
          | none => none
          | some (es, ws) => some (e :: es, ws) := by
  rw [S, exprList, E_of (by omega)]
  cases h : E 0 ts with
  | none => rfl
  | some x =>
    obtain ⟨a, us⟩ := x
    have := E_len h
    simp only
    cases h' : expect comma us with
    | none => rfl
    | some vs =>
      have := expect_len h'
      simp only
      rw [S_of (by omega)]
      rcases S vs with _ | ⟨_, _⟩ <;> rfl

theorem N_eq (ts : List Token) :
    N ts = match E 0 ts with
      | none => none
      | some (a, us) =>
        match expect colon us with
        | none => some (.item a, us)
        | some vs =>
          match E 0 vs with
          | none => none
          | some (b, ws) => some (.range a b, ws) := by
  rw [N, indexEntry, E_of (by omega)]
  cases h : E 0 ts with
  | none => rfl
  | some x =>
    obtain ⟨a, us⟩ := x
    have := E_len h
    simp only
    cases h' : expect colon us with
    | none => rfl
    | some vs =>
      have := expect_len h'
      simp only
      rw [E_of (by omega)]
      rcases E 0 vs with _ | ⟨_, _⟩ <;> rfl

theorem X_eq (ts : List Token) :
    X ts = match N ts with
      | none => none
      | some (e, us) =>
        match expect comma us with
        | none => some ([e], us)
        | some vs =>
          match X vs with
          | none => none
          | some (es, ws) => some (e :: es, ws) := by
  rw [X, indexList, N_of (by omega)]
  cases h : N ts with
  | none => rfl
  | some x =>
    obtain ⟨a, us⟩ := x
    have := N_len h
    simp only
    cases h' : expect comma us with
    | none => rfl
    | some vs =>
      have := expect_len h'
      simp only
      rw [X_of (by omega)]
      rcases X vs with _ | ⟨_, _⟩ <;> rfl

theorem expression_eq (ts : List Token) : expression ts = E 0 ts := rfl
theorem expressions_eq (ts : List Token) : expressions ts = S ts := rfl

end Qasm.Parser
