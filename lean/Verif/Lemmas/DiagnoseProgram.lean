import Verif.Lemmas.Diagnose
/-!
# Where parsing stops: statements and programs
-/

namespace Qasm.Parser

open TokKind Spec

variable {α β : Type}

/-! ## Pieces -/

theorem ifAtEnd_none {x : Option (α × List Token)} :
    ifAtEnd x = none ↔ ∀ a us, x = some (a, us) → atEnd us = false := by
  cases x with
  | none => simp [ifAtEnd]
  | some y =>
    obtain ⟨b, us⟩ := y
    simp only [ifAtEnd, Option.some.injEq, Prod.mk.injEq]
    split
    · rename_i h
      simp only [reduceCtorEq, false_iff]
      intro hc
      rw [hc b us ⟨rfl, rfl⟩] at h
      simp at h
    · rename_i h
      simp only [true_iff]
      rintro a vs ⟨rfl, rfl⟩
      simpa using h

theorem atEnd_head {us vs : List Token} (h : us.head? = vs.head?) : atEnd us = atEnd vs := by
  cases us <;> cases vs <;> simp_all [atEnd]

/-- A function after which the statement has to end. -/
theorem badAt_end {f : List Token → Option (α × List Token)} {g g' : List Token → List Token} {A : α → List Token → Prop}
    {W : List Token → Prop} {ts : List Token} (hg : Then (f ts) (g ts) (fun _ us => us) (g' ts)) (h1 : OkAt f A ts) (h2 : BadAt f g W ts)
    (hA : ∀ a c, A a c → W c) : BadAt (fun us => ifAtEnd (f us)) g' W ts := by
  intro h
  cases hx : f ts with
  | none =>
    obtain ⟨c, e, w, l⟩ := h2 hx
    rw [← hg.1 hx] at e l
    exact ⟨c, e, w, fun t r hr r' => by simp [l t r hr r', ifAtEnd]⟩
  | some x =>
    obtain ⟨a, us⟩ := x
    obtain ⟨c, e, ha, l⟩ := h1 a us hx
    have hn := ifAtEnd_none.1 h a us hx
    have hgs : g' ts = us := hg.2 a us hx
    rw [← hgs] at e l hn
    refine ⟨c, e, hA a c ha, fun t r hr r' => ?_⟩
    have hh : (t :: r').head? = (g' ts).head? := by rw [hr]; rfl
    simp only [l _ hh, ifAtEnd_none, Option.some.injEq, Prod.mk.injEq]
    rintro _ _ ⟨rfl, rfl⟩
    rw [atEnd_head hh, hn]

theorem badAt_last_expr {f : List Token → Option (α × List Token)} {k : PExpr → α} {W : List Token → Prop} {ts : List Token}
    (hf : ∀ us, f us = ifAtEnd ((E 0 us).map fun x => (k x.1, x.2))) (hW : ∀ c, WE c → W c) : BadAt f stopExpression W ts := by
  have h := badAt_end (f := fun us => (E 0 us).map fun x => (k x.1, x.2)) (g := stopExpr (4 * ts.length + 2) 0) (g' := stopExpression)
    (A := fun _ c => WE c) (W := W) (ts := ts) ?_
    (okAt_map (g := k) (fun _ => rfl) ((stops ts).okE 0) fun _ _ h => WE_of h)
    (badAt_map (h' := k) (fun _ => rfl) ((stops ts).badE 0 _ (Nat.le_refl _)) hW) fun _ => hW
  · intro hn
    rw [hf] at hn
    obtain ⟨c, e, w, l⟩ := h hn
    exact ⟨c, e, w, fun t r hr r' => by rw [hf]; exact l t r hr r'⟩
  · simp only [stopExpression, expression_eq]
    exact ⟨fun h => by rw [Option.map_eq_none_iff.1 h], fun a us h => by
      simp only [Option.map_eq_some_iff, Prod.mk.injEq] at h
      obtain ⟨⟨e, us⟩, h, -, rfl⟩ := h
      rw [h]⟩

theorem badAt_last_exprs {f : List Token → Option (α × List Token)} {k : List PExpr → α} {W : List Token → Prop} {ts : List Token}
    (hf : ∀ us, f us = ifAtEnd ((S us).map fun x => (k x.1, x.2))) (hW : ∀ c, WS c → W c) : BadAt f stopExpressions W ts := by
  have h := badAt_end (f := fun us => (S us).map fun x => (k x.1, x.2)) (g := stopExprList (4 * ts.length + 3)) (g' := stopExpressions)
    (A := fun _ c => WS c) (W := W) (ts := ts) ?_
    (okAt_map (g := k) (fun _ => rfl) ((stops ts).okS) fun a c h => ⟨[], a, fill_nil, by simpa using h⟩)
    (badAt_map (h' := k) (fun _ => rfl) ((stops ts).badS _ (Nat.le_refl _)) hW) fun _ => hW
  · intro hn
    rw [hf] at hn
    obtain ⟨c, e, w, l⟩ := h hn
    exact ⟨c, e, w, fun t r hr r' => by rw [hf]; exact l t r hr r'⟩
  · simp only [stopExpressions, expressions_eq]
    exact ⟨fun h => by rw [Option.map_eq_none_iff.1 h], fun a us h => by
      simp only [Option.map_eq_some_iff, Prod.mk.injEq] at h
      obtain ⟨⟨e, us⟩, h, -, rfl⟩ := h
      rw [h]⟩

/-- A token of the type comes first. -/
theorem badAt_after {k : TokKind} {f : List Token → Option (α × List Token)} {f' : Token → List Token → Option (α × List Token)}
    {g : List Token → List Token} {W : List Token → Prop} {ts : List Token} (h0 : ∀ us, expect k us = none → f us = none)
    (h1 : ∀ c vs, c.kind = k → f (c :: vs) = f' c vs) (w : W [])
    (h : ∀ c vs, ts = c :: vs → c.kind = k → BadAt (f' c) g (fun x => W (c :: x)) vs) : BadAt f (stopAfter k g) W ts := by
  have none_case : expect k ts = none → BadAt f (stopAfter k g) W ts := by
    intro he _
    refine ⟨[], by simp [stopAfter, he], w, fun t r hr r' => ?_⟩
    simp only [stopAfter, he] at hr
    subst hr
    refine h0 _ ?_
    simp only [expect] at he ⊢
    split at he
    · simp at he
    · rename_i hk; exact if_neg hk
  cases ts with
  | nil => exact none_case rfl
  | cons c vs =>
    by_cases hk : c.kind = k
    · refine badAt_cons (g' := g) (by simp [stopAfter, expect_cons hk]) fun hf => ?_
      simp only [h1 c _ hk] at hf ⊢
      exact h c vs rfl hk hf
    · exact none_case (by simp [expect, hk])

/-- An expression comes first. -/
theorem badAt_expr {f : List Token → Option (α × List Token)} {f' : PExpr → List Token → Option (α × List Token)}
    {g : List Token → List Token} {W : List Token → Prop} {ts : List Token} (hf : ∀ us, Then (E 0 us) none f' (f us))
    (hW : ∀ c, WE c → W c) (h : ∀ e us, E 0 ts = some (e, us) → BadAt (f' e) g (fun c => ∀ c1, Derives c1 (.expr e) → W (c1 ++ c)) us) :
    BadAt f (fun ts => match expression ts with
      | none => stopExpression ts
      | some (_, ts) => g ts) W ts :=
  badAt_bind (g1 := stopExpr (4 * ts.length + 2) 0) (g2 := fun _ => g) (fun us _ => hf us)
    (by
      simp only [stopExpression, expression_eq]
      exact ⟨fun h => by rw [h], fun a us h => by rw [h]⟩)
    ((stops ts).okE 0) ((stops ts).badE 0 _ (Nat.le_refl _)) h hW fun _ c1 _ h1 h2 => h2 c1 h1

/-- A list of expressions comes first. -/
theorem badAt_exprs {f : List Token → Option (α × List Token)} {f' : List PExpr → List Token → Option (α × List Token)}
    {g : List Token → List Token} {W : List Token → Prop} {ts : List Token} (hf : ∀ us, Then (S us) none f' (f us))
    (hW : ∀ c, WS c → W c) (h : ∀ e us, BadAt (f' e) g (fun c => ∀ c1, Derives c1 (.exprs e) → W (c1 ++ c)) us) :
    BadAt f (fun ts => match expressions ts with
      | none => stopExpressions ts
      | some (_, ts) => g ts) W ts :=
  badAt_bind (g1 := stopExprList (4 * ts.length + 3)) (g2 := fun _ => g) (fun us _ => hf us)
    (by
      simp only [stopExpressions, expressions_eq]
      exact ⟨fun h => by rw [h], fun a us h => by rw [h]⟩)
    ((stops ts).okS) ((stops ts).badS _ (Nat.le_refl _)) (fun a us _ => h a us) hW fun _ c1 _ h1 h2 => h2 c1 h1

/-- One of two alternatives. -/
theorem badAt_or {f f1 f2 : List Token → Option (α × List Token)} {g1 g2 : List Token → List Token} {W : List Token → Prop} {ts : List Token}
    (hf : ∀ us, us.head? = ts.head? → (f us = none ↔ f1 us = none ∧ f2 us = none)) (h1 : BadAt f1 g1 W ts) (h2 : BadAt f2 g2 W ts) :
    BadAt f (fun us => later (g1 us) (g2 us)) W ts := by
  intro h
  obtain ⟨n1, n2⟩ := (hf _ rfl).1 h
  obtain ⟨c1, e1, w1, l1⟩ := h1 n1
  obtain ⟨c2, e2, w2, l2⟩ := h2 n2
  have key : ∀ {c c' r r' : List Token}, c ++ r = c' ++ r' → r.length ≤ r'.length → ∃ d, c = c' ++ d ∧ r' = d ++ r := by
    intro c c' r r' he hl
    rcases List.append_eq_append_iff.1 he with ⟨d, h3, h4⟩ | ⟨d, h3, h4⟩
    · subst h4
      simp only [List.length_append] at hl
      have : d = [] := List.eq_nil_of_length_eq_zero (by omega)
      subst this
      exact ⟨[], by simpa using h3.symm, rfl⟩
    · exact ⟨d, h3, h4⟩
  have local_ : ∀ {f' : List Token → Option (α × List Token)} {g' : List Token} {c c' d : List Token} {t : Token},
      c = c' ++ d → (∃ r, g' = d ++ t :: r) → (∀ t r, g' = t :: r → ∀ r', f' (c' ++ t :: r') = none) → ∀ r',
      f' (c ++ t :: r') = none := by
    intro f' g' c c' d t hc hg hl r'
    obtain ⟨r, hg⟩ := hg
    subst hc
    cases d with
    | nil => simpa using hl t r hg r'
    | cons x d => simpa using hl x (d ++ t :: r) hg (d ++ t :: r')
  simp only [later]
  split
  · rename_i hle
    obtain ⟨d, hc, hg⟩ := key (e1.symm.trans e2) hle
    refine ⟨c1, e1, w1, fun t r hr r' => (hf _ (by rw [e1, hr]; exact head_append rfl)).2 ⟨l1 t r hr r', ?_⟩⟩
    rw [hr] at hg
    exact local_ hc ⟨r, hg⟩ l2 r'
  · rename_i hle
    obtain ⟨d, hc, hg⟩ := key (e2.symm.trans e1) (by omega)
    refine ⟨c2, e2, w2, fun t r hr r' => (hf _ (by rw [e2, hr]; exact head_append rfl)).2 ⟨?_, l2 t r hr r'⟩⟩
    rw [hr] at hg
    exact local_ hc ⟨r, hg⟩ l1 r'

/-- The same function, written differently. -/
theorem badAt_congr {f f' : List Token → Option (α × List Token)} {g g' : List Token → List Token} {W W' : List Token → Prop}
    {ts : List Token} (hf : ∀ us, f us = none ↔ f' us = none) (hg : g ts = g' ts) (hW : ∀ c, W' c → W c) (h : BadAt f' g' W' ts) :
    BadAt f g W ts := by
  intro hn
  obtain ⟨c, e, w, l⟩ := h ((hf _).1 hn)
  exact ⟨c, by rw [hg]; exact e, hW c w, fun t r hr r' => (hf _).2 (l t r (hg ▸ hr) r')⟩

/-! ## Gates -/

/-- The tokens start a statement. -/
def WT (c : List Token) : Prop := ∃ s st, Fill s ∧ DerivesStmt (c ++ s) st

/-- The tokens start a gate and its operands. -/
def WG (c : List Token) : Prop := ∃ s us vs g es, Fill s ∧ c ++ s = us ++ vs ∧ DerivesGate us g ∧ Derives vs (.exprs es)

@[inherit_doc qTok] def dotTok : Token := ⟨dot, c!".", 0, 0⟩
@[inherit_doc qTok] def eqTok : Token := ⟨equals, c!"=", 0, 0⟩
@[inherit_doc qTok] def msTok : Token := ⟨TokKind.measure, c!"measure", 0, 0⟩
@[inherit_doc qTok] def opTok : Token := ⟨openParens, c!"(", 0, 0⟩
@[inherit_doc qTok] def intTok : Token := ⟨integerLiteral, c!"1", 0, 0⟩
@[inherit_doc qTok] def rawTok : Token := ⟨rawTextString, c!"''''''", 0, 0⟩
@[inherit_doc qTok] def vTok : Token := ⟨version, c!"version", 0, 0⟩
@[inherit_doc qTok] def nTok : Token := ⟨versionNumber, c!"3", 0, 0⟩
@[inherit_doc qTok] def eofTok : Token := ⟨eof, c!"<EOF>", 0, 0⟩

theorem fill_of {s : List Token} (h : s.all (fillers.contains ·) = true) : Fill s := by
  intro t ht
  have := List.all_eq_true.1 h t ht
  simpa using this

theorem derives_qs : Derives [qTok] (.exprs [.atom qTok]) := .expr1 derives_q
theorem derives_gate_q : DerivesGate [qTok] (.named qTok none) := .named rfl

theorem gate_fuel (f : Nat) : ∀ f' ts, ts.length ≤ f → ts.length ≤ f' → gateInstruction f ts = gateInstruction f' ts := by
  induction f with
  | zero =>
    intro f' ts h _
    have : ts = [] := List.eq_nil_of_length_eq_zero (by omega)
    subst this
    cases f' <;> simp [gateInstruction]
  | succ f ih =>
    intro f' ts h h'
    cases ts with
    | nil => cases f' <;> simp [gateInstruction]
    | cons t ts =>
      obtain ⟨f', rfl⟩ : ∃ k, f' = k + 1 := ⟨f' - 1, by simp at h'; omega⟩
      simp only [List.length_cons] at h h'
      have hd : ∀ us vs : List Token, us.length ≤ ts.length → expect dot us = some vs → gateInstruction f vs = gateInstruction f' vs := by
        intro us vs hl he
        have := expect_len he
        exact ih f' vs (by omega) (by omega)
      by_cases h1 : t.kind = inv
      · rw [G_inv h1, G_inv h1]
        cases he : expect dot ts with
        | none => rfl
        | some vs => simp only [Option.bind_some, hd ts vs (Nat.le_refl _) he]
      by_cases h1 : t.kind = ctrl
      · rw [G_ctrl h1, G_ctrl h1]
        cases he : expect dot ts with
        | none => rfl
        | some vs => simp only [Option.bind_some, hd ts vs (Nat.le_refl _) he]
      by_cases h1 : t.kind = pow
      · rw [G_pow h1, G_pow h1]
        cases he : expect openParens ts with
        | none => rfl
        | some us =>
          have l1 := expect_len he
          simp only [Option.bind_some]
          cases hx : E 0 us with
          | none => rfl
          | some x =>
            obtain ⟨e, vs⟩ := x
            have l2 := E_len hx
            simp only [Option.bind_some]
            cases hc : expect closeParens vs with
            | none => rfl
            | some ws =>
              have l3 := expect_len hc
              simp only [Option.bind_some]
              cases hdt : expect dot ws with
              | none => rfl
              | some xs => simp only [Option.bind_some, hd ws xs (by omega) hdt]
      by_cases h1 : t.kind = identifier
      · rw [G_named h1, G_named h1]
      simp only [gateInstruction]

/-- `gateInstruction` with enough fuel. -/
def G (ts : List Token) : Option ((PGate × List PExpr) × List Token) := gateInstruction ts.length ts

theorem G_of {f : Nat} {ts : List Token} (h : ts.length ≤ f) : gateInstruction f ts = G ts := gate_fuel f _ ts h (Nat.le_refl _)

theorem WS_of {c : List Token} {es : List PExpr} (h : Derives c (.exprs es)) : WS c := ⟨[], es, fill_nil, by simpa using h⟩

theorem WS_nil : WS [] := WS_of_WE WE_nil

/-- Parameters in parentheses come first. -/
theorem badAt_params {f : List Token → Option (α × List Token)} {F : List PExpr → List Token → Option (α × List Token)}
    {g : List Token → List Token} {W : List Token → Prop} {ts : List Token}
    (hf : ∀ us, f us = ifAtEnd ((parenthesised us).bind fun x => F x.1 x.2)) (w0 : W [])
    (w1 : ∀ o c, o.kind = openParens → WS c → W (o :: c))
    (h : ∀ o p es us, o.kind = openParens → p.kind = closeParens →
      BadAt (fun us => ifAtEnd (F es us)) g (fun x => ∀ c1, Derives c1 (.exprs es) → W (o :: (c1 ++ p :: x))) us) :
    BadAt f (stopParenthesised g) W ts := by
  refine badAt_after (f' := fun _ vs => ifAtEnd ((S vs).bind fun x => (expect closeParens x.2).bind fun us => F x.1 us)) ?_ ?_ w0 ?_
  · intro us he
    simp [hf, parenthesised_eq, he, ifAtEnd]
  · intro c vs hc
    rw [hf, parenthesised_eq]
    simp only [expect_cons hc, Option.bind_some]
    cases S vs with
    | none => rfl
    | some x =>
      simp only [Option.bind_some]
      cases expect closeParens x.2 <;> rfl
  · intro o vs _ ho
    refine badAt_exprs (f' := fun es us => ifAtEnd ((expect closeParens us).bind fun us => F es us)) ?_ (fun c hc => w1 o c ho hc) ?_
    · intro us
      exact ⟨fun h => by simp [h, ifAtEnd], fun a vs h => by simp [h]⟩
    · intro es us
      refine badAt_after (f' := fun _ us => ifAtEnd (F es us)) ?_ ?_ ?_ ?_
      · intro us he; simp [he, ifAtEnd]
      · intro c vs hc; simp [expect_cons hc]
      · intro c1 hc1
        simpa using w1 o c1 ho (WS_of hc1)
      · intro p us _ hp
        exact h o p es us ho hp

theorem WG_nil : WG [] := ⟨[qTok, qTok], [qTok], [qTok], _, _, fill_of (by decide), rfl, derives_gate_q, derives_qs⟩

theorem WG_inv {kw d : Token} {c : List Token} (hk : kw.kind = inv) (hd : d.kind = dot) (h : WG c) : WG (kw :: d :: c) := by
  obtain ⟨s, us, vs, g, es, hs, he, hg, hx⟩ := h
  exact ⟨s, kw :: d :: us, vs, _, es, hs, by simp [he], .inv hk hd hg, hx⟩

theorem WG_ctrl {kw d : Token} {c : List Token} (hk : kw.kind = ctrl) (hd : d.kind = dot) (h : WG c) : WG (kw :: d :: c) := by
  obtain ⟨s, us, vs, g, es, hs, he, hg, hx⟩ := h
  exact ⟨s, kw :: d :: us, vs, _, es, hs, by simp [he], .ctrl hk hd hg, hx⟩

theorem WG_pow {kw o p d : Token} {c1 c : List Token} {e : PExpr} (hk : kw.kind = pow) (ho : o.kind = openParens)
    (he : Derives c1 (.expr e)) (hp : p.kind = closeParens) (hd : d.kind = dot) (h : WG c) : WG (kw :: o :: (c1 ++ p :: d :: c)) := by
  obtain ⟨s, us, vs, g, es, hs, heq, hg, hx⟩ := h
  exact ⟨s, kw :: o :: c1 ++ p :: d :: us, vs, _, es, hs, by simp [heq], .pow hk ho he hp hd hg, hx⟩

/-- What can be completed to such a text can also be completed. -/
theorem WG_fill {c s : List Token} (hs : Fill s) (h : WG (c ++ s)) : WG c := by
  obtain ⟨s', us, vs, g, es, hs', he, hg, hx⟩ := h
  exact ⟨s ++ s', us, vs, g, es, fill_append hs hs', by rw [← he]; simp, hg, hx⟩

theorem badG (fuel : Nat) : ∀ ts : List Token, ts.length ≤ fuel → BadAt G (stopGate fuel) WG ts := by
  induction fuel with
  | zero =>
    intro ts h _
    have : ts = [] := List.eq_nil_of_length_eq_zero (by omega)
    subst this
    exact ⟨[], rfl, WG_nil, fun t r hr => by simp [stopGate] at hr⟩
  | succ fuel ih =>
    intro ts hl
    cases ts with
    | nil => exact fun _ => ⟨[], rfl, WG_nil, fun t r hr => by simp [stopGate] at hr⟩
    | cons t ts =>
      simp only [List.length_cons] at hl
      -- The part after the dot.
      have rec_ : ∀ {F : (PGate × List PExpr) × List Token → (PGate × List PExpr) × List Token} {W : List Token → Prop} {us : List Token},
          us.length ≤ ts.length → W [] → (∀ d c, d.kind = dot → WG c → W (d :: c)) →
          BadAt (fun us => (expect dot us).bind fun ts => (G ts).bind fun x => some (F x)) (stopAfter dot (stopGate fuel)) W us := by
        intro F W us hus w0 w1
        refine badAt_after (f' := fun _ vs => (G vs).map F) ?_ ?_ w0 ?_
        · intro us he; simp [he]
        · intro c vs hc
          simp only [expect_cons hc, Option.bind_some]
          cases G vs <;> rfl
        · rintro d vs rfl hd
          exact badAt_congr (fun us => Option.map_eq_none_iff) rfl (fun c hc => w1 d c hd hc)
            (ih vs (by simp at hus; omega))
      by_cases h1 : t.kind = inv
      · refine badAt_cons (g' := stopAfter dot (stopGate fuel)) (by simp only [stopGate, h1]) (badAt_congr (fun us => ?_) rfl (fun _ h => h)
          (rec_ (F := fun x => ((.inv t x.1.1, x.1.2), x.2)) (W := fun c => WG (t :: c)) (Nat.le_refl _) ?_ ?_))
        · rw [G, List.length_cons, G_inv h1]
          cases he : expect dot us with
          | none => rfl
          | some vs => simp only [Option.bind_some, G_of (f := us.length) (ts := vs) (by have := expect_len he; omega)]
        · exact WG_fill (s := [dotTok, qTok, qTok]) (fill_of (by decide)) (WG_inv h1 rfl (WG_fill (s := []) fill_nil ⟨[], [qTok], [qTok], _, _,
            fill_nil, rfl, derives_gate_q, derives_qs⟩))
        · intro d c hd hc
          exact WG_inv h1 hd hc
      by_cases h2 : t.kind = ctrl
      · refine badAt_cons (g' := stopAfter dot (stopGate fuel)) (by simp only [stopGate, h2]) (badAt_congr (fun us => ?_) rfl (fun _ h => h)
          (rec_ (F := fun x => ((.ctrl t x.1.1, x.1.2), x.2)) (W := fun c => WG (t :: c)) (Nat.le_refl _) ?_ ?_))
        · rw [G, List.length_cons, G_ctrl h2]
          cases he : expect dot us with
          | none => rfl
          | some vs => simp only [Option.bind_some, G_of (f := us.length) (ts := vs) (by have := expect_len he; omega)]
        · exact WG_fill (s := [dotTok, qTok, qTok]) (fill_of (by decide)) (WG_ctrl h2 rfl (WG_fill (s := []) fill_nil ⟨[], [qTok], [qTok], _, _,
            fill_nil, rfl, derives_gate_q, derives_qs⟩))
        · intro d c hd hc
          exact WG_ctrl h2 hd hc
      by_cases h3 : t.kind = pow
      · have wqq : WG [qTok, qTok] := ⟨[], [qTok], [qTok], _, _, fill_nil, rfl, derives_gate_q, derives_qs⟩
        refine badAt_cons (g' := stopAfter openParens fun ts => match expression ts with
          | none => stopExpression ts
          | some (_, ts) => stopAfter closeParens (stopAfter dot (stopGate fuel)) ts) (by simp only [stopGate, h3]; rfl) ?_
        refine badAt_congr (f' := fun us => (expect openParens us).bind fun us => (E 0 us).bind fun y => (expect closeParens y.2).bind fun ts =>
          (expect dot ts).bind fun ts => (G ts).bind fun x => some ((PGate.pow t y.1 x.1.1, x.1.2), x.2)) (fun us => ?_) rfl (fun _ h => h) ?_
        · rw [G, List.length_cons, G_pow h3]
          cases he : expect openParens us with
          | none => rfl
          | some vs =>
            have l1 := expect_len he
            simp only [Option.bind_some]
            cases hx : E 0 vs with
            | none => rfl
            | some x =>
              obtain ⟨e, ws⟩ := x
              have l2 := E_len hx
              simp only [Option.bind_some]
              cases hc : expect closeParens ws with
              | none => rfl
              | some xs =>
                have l3 := expect_len hc
                simp only [Option.bind_some]
                cases hdt : expect dot xs with
                | none => rfl
                | some ys => simp only [Option.bind_some, G_of (f := us.length) (ts := ys) (by have := expect_len hdt; omega)]
        · refine badAt_after (f' := fun _ us => (E 0 us).bind fun y => (expect closeParens y.2).bind fun ts =>
            (expect dot ts).bind fun ts => (G ts).bind fun x => some ((PGate.pow t y.1 x.1.1, x.1.2), x.2)) ?_ ?_ ?_ ?_
          · intro us he; simp [he]
          · intro c vs hc; simp [expect_cons hc]
          · exact WG_fill (s := [opTok, qTok, cpTok, dotTok, qTok, qTok]) (fill_of (by decide))
              (WG_pow (o := opTok) (p := cpTok) (d := dotTok) h3 rfl derives_q rfl rfl wqq)
          · rintro o vs rfl ho
            refine badAt_expr (f' := fun e us => (expect closeParens us).bind fun ts =>
              (expect dot ts).bind fun ts => (G ts).bind fun x => some ((PGate.pow t e x.1.1, x.1.2), x.2)) ?_ ?_ ?_
            · intro us
              exact ⟨fun h => by simp [h], fun a vs h => by simp [h]⟩
            · rintro c ⟨s, e, hs, hd⟩
              refine WG_fill (s := s ++ [cpTok, dotTok, qTok, qTok]) (fill_append hs (fill_of (by decide))) ?_
              simpa using WG_pow (p := cpTok) (d := dotTok) h3 ho hd rfl rfl wqq
            · intro e us hE
              have l1 := E_len hE
              refine badAt_after (f' := fun _ us =>
                (expect dot us).bind fun ts => (G ts).bind fun x => some ((PGate.pow t e x.1.1, x.1.2), x.2)) ?_ ?_ ?_ ?_
              · intro us he; simp [he]
              · intro c vs hc; simp [expect_cons hc]
              · intro c1 hc1
                refine WG_fill (s := [cpTok, dotTok, qTok, qTok]) (fill_of (by decide)) ?_
                simpa using WG_pow (p := cpTok) (d := dotTok) h3 ho hc1 rfl rfl wqq
              · rintro p xs rfl hp
                refine rec_ (F := fun x => ((PGate.pow t e x.1.1, x.1.2), x.2)) (by simp at l1 ⊢; omega) ?_ ?_
                · intro c1 hc1
                  refine WG_fill (s := [dotTok, qTok, qTok]) (fill_of (by decide)) ?_
                  simpa using WG_pow (d := dotTok) h3 ho hc1 hp rfl wqq
                · intro d c hd hc c1 hc1
                  exact WG_pow h3 ho hc1 hp hd hc
      by_cases h4 : t.kind = identifier
      · refine badAt_congr (f' := G) (g' := fun us => match us with
            | [] => []
            | t :: ts => later (stopParenthesised stopExpressions ts) (stopExpressions ts)) (fun _ => Iff.rfl) (by simp [stopGate, h4]) (fun _ h => h) ?_
        refine badAt_cons (g' := fun ts => later (stopParenthesised stopExpressions ts) (stopExpressions ts)) rfl
          (badAt_or (f1 := withParams t) (f2 := withoutParams t) ?_ ?_ ?_)
        · intro us _
          rw [G, List.length_cons, G_named h4, Option.or_eq_none_iff]
        · refine badAt_params (F := fun ps us => (S us).bind fun y => some ((.named t (some ps), y.1), y.2)) (fun us => rfl) ?_ ?_ ?_
          · exact ⟨[qTok], [t], [qTok], _, _, fill_q, rfl, .named h4, derives_qs⟩
          · rintro o c ho ⟨s, es, hs, hd⟩
            exact ⟨s ++ [cpTok, qTok], t :: o :: (c ++ s) ++ [cpTok], [qTok], _, _, fill_append hs (fill_of (by decide)), by simp,
              .parameters h4 ho hd rfl, derives_qs⟩
          · intro o p es us ho hp
            refine badAt_last_exprs (k := fun es' => (.named t (some es), es')) (fun us => ?_) ?_
            · cases S us <;> rfl
            · rintro c ⟨s, es', hs, hd⟩ c1 hc1
              exact ⟨s, t :: o :: c1 ++ [p], c ++ s, _, _, hs, by simp, .parameters h4 ho hc1 hp, hd⟩
        · refine badAt_last_exprs (k := fun es' => (.named t none, es')) (fun us => ?_) ?_
          · unfold withoutParams; cases S us <;> rfl
          · rintro c ⟨s, es', hs, hd⟩
            exact ⟨s, [t], c ++ s, _, _, hs, by simp, .named h4, hd⟩
      · intro _
        have hg : ∀ us, G (t :: us) = none := by
          intro us
          simp only [G, List.length_cons, gateInstruction]
        have hst : stopGate (fuel + 1) (t :: ts) = t :: ts := by simp only [stopGate]
        refine ⟨[], by simp [hst], WG_nil, fun u r hr r' => ?_⟩
        rw [hst] at hr
        injection hr with hu hr
        subst hu
        exact hg r'

/-! ## Measurements -/

theorem WT_fill {c s : List Token} (hs : Fill s) (h : WT (c ++ s)) : WT c := by
  obtain ⟨s', st, hs', hd⟩ := h
  exact ⟨s ++ s', st, fill_append hs hs', by simpa using hd⟩

theorem WT_of {c : List Token} {st : PStmt} (h : DerivesStmt c st) : WT c := ⟨[], st, fill_nil, by simpa using h⟩

theorem badM (ts : List Token) : BadAt measureInstruction stopMeasure WT ts := by
  refine badAt_congr (g' := fun ts => match expression ts with
    | none => stopExpression ts
    | some (_, ts) => stopAfter equals (stopAfter TokKind.measure fun ts => later (stopParenthesised stopExpression ts) (stopExpression ts)) ts)
    (fun _ => Iff.rfl) rfl (fun _ h => h) ?_
  refine badAt_expr (f' := fun b us => (expect equals us).bind fun us =>
      match us with
      | [] => none
      | kw :: us => if kw.kind ≠ TokKind.measure then none else (mWith kw b us).or (mWithout kw b us)) ?_ ?_ ?_
  · intro us
    have hm : measureInstruction us = (E 0 us).bind fun y => (expect equals y.2).bind fun us =>
      match us with
      | [] => none
      | kw :: us => if kw.kind ≠ TokKind.measure then none else (mWith kw y.1 us).or (mWithout kw y.1 us) := rfl
    rw [hm]
    exact ⟨fun h => by rw [h]; rfl, fun a vs h => by rw [h]; rfl⟩
  · rintro c ⟨s, e, hs, hd⟩
    refine WT_fill (s := s ++ [eqTok, msTok, qTok]) (fill_append hs (fill_of (by decide))) (WT_of (st := .measure msTok none e (.atom qTok)) ?_)
    simpa using DerivesStmt.measure (eq := eqTok) (kw := msTok) hd rfl rfl derives_q
  · intro b us _
    refine badAt_after (f' := fun _ us => match us with
      | [] => none
      | kw :: us => if kw.kind ≠ TokKind.measure then none else (mWith kw b us).or (mWithout kw b us)) ?_ ?_ ?_ ?_
    · intro us he; simp [he]
    · intro c vs hc; simp [expect_cons hc]
    · intro c1 hc1
      exact WT_fill (s := [eqTok, msTok, qTok]) (fill_of (by decide))
        (WT_of (by simpa using DerivesStmt.measure (eq := eqTok) (kw := msTok) hc1 rfl rfl derives_q))
    · intro eq us _ heq
      refine badAt_after (f' := fun kw us => (mWith kw b us).or (mWithout kw b us)) ?_ ?_ ?_ ?_
      · intro us he
        cases us with
        | nil => rfl
        | cons kw us =>
          simp only [expect] at he
          split at he
          · simp at he
          · rename_i hk; simp [hk]
      · intro kw vs hk; simp [hk]
      · intro c1 hc1
        exact WT_fill (s := [msTok, qTok]) (fill_of (by decide))
          (WT_of (by simpa using DerivesStmt.measure (kw := msTok) hc1 heq rfl derives_q))
      · intro kw us _ hk
        refine badAt_or (f1 := mWith kw b) (f2 := mWithout kw b) (fun us _ => Option.or_eq_none_iff) ?_ ?_
        · refine badAt_params (F := fun ps us => (E 0 us).bind fun y => some (.measure kw (some ps) b y.1, y.2)) (fun us => rfl) ?_ ?_ ?_
          · intro c1 hc1
            exact WT_fill (s := [qTok]) (fill_of (by decide)) (WT_of (by simpa using DerivesStmt.measure hc1 heq hk derives_q))
          · rintro o c ho ⟨s, es, hs, hd⟩ c1 hc1
            exact WT_fill (s := s ++ [cpTok, qTok]) (fill_append hs (fill_of (by decide)))
              (WT_of (by simpa using DerivesStmt.measureParameters (c := cpTok) hc1 heq hk ho hd rfl derives_q))
          · intro o p es us ho hp
            refine badAt_last_expr (k := fun q => .measure kw (some es) b q) (fun us => ?_) ?_
            · cases E 0 us <;> rfl
            · rintro c ⟨s, e, hs, hd⟩ c2 hc2 c1 hc1
              exact WT_fill (s := s) hs (WT_of (by simpa using DerivesStmt.measureParameters hc1 heq hk ho hc2 hp hd))
        · refine badAt_last_expr (k := fun q => .measure kw none b q) (fun us => ?_) ?_
          · unfold mWithout; cases E 0 us <;> rfl
          · rintro c ⟨s, e, hs, hd⟩ c1 hc1
            exact WT_fill (s := s) hs (WT_of (by simpa using DerivesStmt.measure hc1 heq hk hd))

/-! ## Statements -/

/-- The statement has to end here. -/
theorem badAt_ret {f : List Token → Option (α × List Token)} {a : α} {W : List Token → Prop} {ts : List Token}
    (hf : ∀ us, f us = ifAtEnd (some (a, us))) (w : W []) : BadAt f id W ts := by
  refine badAt_congr (f' := fun us => ifAtEnd (some (a, us))) (fun us => by rw [hf]) rfl (fun _ h => h)
    (badAt_end (g := id) (A := fun _ c => c = []) ⟨fun h => by simp at h, fun b us h => ?_⟩ ?_ (badAt_some rfl) ?_)
  · simp only [Option.some.injEq, Prod.mk.injEq] at h
    exact h.2
  · intro b us h
    obtain ⟨c, h1, h2, h3⟩ := ret_ok a ts b us h
    exact ⟨c, h1, h2.2, h3⟩
  · rintro _ _ rfl
    exact w

theorem badVar {kw : Token} (hk : kw.kind ∈ [qubitType, bitType]) (ts : List Token) :
    BadAt (fun us => ifAtEnd (variableDefinition kw us)) stopVariable (fun c => WT (kw :: c)) ts := by
  cases hn : next openBracket ts with
  | true =>
    obtain ⟨o, us, rfl, ho⟩ := next_cons hn
    refine badAt_cons (g' := stopAfter integerLiteral (stopAfter closeBracket (stopAfter identifier id)))
      (by simp [stopVariable, next, ho, stopAfter, expect]) ?_
    refine badAt_after (f' := fun n us => ifAtEnd (match us with
        | c :: name :: us => if c.kind = closeBracket ∧ name.kind = identifier then some (.var kw (some (n, c)) name, us) else none
        | _ => none)) ?_ ?_ ?_ ?_
    · intro us he
      rw [ifAtEnd_none]
      intro a vs h
      simp only [variableDefinition, next, ho, decide_true, if_true, List.tail_cons] at h
      split at h
      · rename_i n c name ts
        split at h
        · rename_i hh
          rw [expect_cons hh.1] at he
          simp at he
        · simp at h
      · simp at h
    · intro n vs hn
      congr 1
      simp only [variableDefinition, next, ho, decide_true, if_true, List.tail_cons]
      rcases vs with _ | ⟨c, _ | ⟨name, vs⟩⟩ <;> simp [hn]
    · exact WT_fill (s := [intTok, cbTok, qTok]) (fill_of (by decide)) (WT_of (.array (c := cbTok) hk ho rfl rfl rfl))
    · intro n us _ hn
      refine badAt_after (f' := fun c us => ifAtEnd (match us with
        | name :: us => if name.kind = identifier then some (.var kw (some (n, c)) name, us) else none
        | _ => none)) ?_ ?_ ?_ ?_
      · intro us he
        rcases us with _ | ⟨c, _ | ⟨name, vs⟩⟩
        · rfl
        · rfl
        · simp only [expect] at he
          split at he
          · simp at he
          · rename_i hc; simp [hc, ifAtEnd]
      · intro c vs hc
        congr 1
        rcases vs with _ | ⟨name, vs⟩ <;> simp [hc]
      · exact WT_fill (s := [cbTok, qTok]) (fill_of (by decide)) (WT_of (.array (c := cbTok) hk ho hn rfl rfl))
      · intro c us _ hc
        refine badAt_after (f' := fun name us => ifAtEnd (some (.var kw (some (n, c)) name, us))) ?_ ?_ ?_ ?_
        · intro us he
          rcases us with _ | ⟨name, vs⟩
          · rfl
          · simp only [expect] at he
            split at he
            · simp at he
            · rename_i hc; simp [hc, ifAtEnd]
        · intro c vs hc; simp [hc]
        · exact WT_fill (s := [qTok]) (fill_of (by decide)) (WT_of (.array hk ho hn hc rfl))
        · intro name us _ hi
          exact badAt_ret (fun _ => rfl) (WT_of (.array hk ho hn hc hi))
  | false =>
    have w : WT [kw] := WT_fill (s := [qTok]) (fill_of (by decide)) (WT_of (.var hk rfl))
    cases ts with
    | nil => exact fun _ => ⟨[], rfl, w, fun t r hr => by simp [stopVariable, next, stopAfter, expect] at hr⟩
    | cons name us =>
      have ho : name.kind ≠ openBracket := by simpa [next] using hn
      by_cases hi : name.kind = identifier
      · refine badAt_cons (g' := id) (by simp [stopVariable, hn, stopAfter, expect_cons hi])
          (badAt_ret (a := .var kw none name) (fun us => ?_) (WT_of (.var hk hi)))
        simp [variableDefinition, next, hi]
      · intro _
        have hst : stopVariable (name :: us) = name :: us := by simp [stopVariable, hn, stopAfter, expect, hi]
        refine ⟨[], by rw [hst]; rfl, w, fun t r hr r' => ?_⟩
        rw [hst] at hr
        injection hr with h1 h2
        subst h1
        simp [variableDefinition, next, ho, hi, ifAtEnd]

theorem badAsm {kw : Token} (hk : kw.kind = asm) (ts : List Token) :
    BadAt (fun us => ifAtEnd (asmDeclaration us)) (stopAfter openParens (stopAfter identifier (stopAfter closeParens (stopAfter rawTextString id))))
      (fun c => WT (kw :: c)) ts := by
  have miss : ∀ {k : TokKind} {t : Token} {us : List Token}, expect k (t :: us) = none → t.kind ≠ k := by
    intro k t us h
    simp only [expect] at h
    split at h
    · simp at h
    · assumption
  refine badAt_after (f' := fun _ us => ifAtEnd (match us with
    | name :: c :: raw :: us =>
      if name.kind = identifier ∧ c.kind = closeParens ∧ raw.kind = rawTextString then some (.asm name raw, us) else none
    | _ => none)) ?_ ?_ ?_ ?_
  · intro us he
    rcases us with _ | ⟨o, _ | ⟨name, _ | ⟨c, _ | ⟨raw, us⟩⟩⟩⟩ <;> try rfl
    simp [asmDeclaration, miss he, ifAtEnd]
  · intro o us ho
    congr 1
    rcases us with _ | ⟨name, _ | ⟨c, _ | ⟨raw, us⟩⟩⟩ <;> simp [asmDeclaration, ho]
  · exact WT_fill (s := [opTok, qTok, cpTok, rawTok]) (fill_of (by decide)) (WT_of (.asm (c := cpTok) hk rfl rfl rfl rfl))
  intro o us _ ho
  refine badAt_after (f' := fun name us => ifAtEnd (match us with
    | c :: raw :: us => if c.kind = closeParens ∧ raw.kind = rawTextString then some (.asm name raw, us) else none
    | _ => none)) ?_ ?_ ?_ ?_
  · intro us he
    rcases us with _ | ⟨name, _ | ⟨c, _ | ⟨raw, us⟩⟩⟩ <;> try rfl
    simp [miss he, ifAtEnd]
  · intro name us hn
    congr 1
    rcases us with _ | ⟨c, _ | ⟨raw, us⟩⟩ <;> simp [hn]
  · exact WT_fill (s := [qTok, cpTok, rawTok]) (fill_of (by decide)) (WT_of (.asm (c := cpTok) hk ho rfl rfl rfl))
  intro name us _ hn
  refine badAt_after (f' := fun c us => ifAtEnd (match us with
    | raw :: us => if raw.kind = rawTextString then some (.asm name raw, us) else none
    | _ => none)) ?_ ?_ ?_ ?_
  · intro us he
    rcases us with _ | ⟨c, _ | ⟨raw, us⟩⟩ <;> try rfl
    simp [miss he, ifAtEnd]
  · intro name us hn
    congr 1
    rcases us with _ | ⟨raw, us⟩ <;> simp [hn]
  · exact WT_fill (s := [cpTok, rawTok]) (fill_of (by decide)) (WT_of (.asm (c := cpTok) hk ho hn rfl rfl))
  intro c us _ hc
  refine badAt_after (f' := fun raw us => ifAtEnd (some (.asm name raw, us))) ?_ ?_ ?_ ?_
  · intro us he
    rcases us with _ | ⟨raw, us⟩ <;> try rfl
    simp [miss he, ifAtEnd]
  · intro raw us hr; simp [hr]
  · exact WT_fill (s := [rawTok]) (fill_of (by decide)) (WT_of (.asm hk ho hn hc rfl))
  intro raw us _ hr
  exact badAt_ret (fun _ => rfl) (WT_of (.asm hk ho hn hc hr))

theorem badWait {kw : Token} (hk : kw.kind = wait) (ts : List Token) :
    BadAt (fun us => statement (kw :: us)) (stopAfter openParens (fun us =>
        match expression us with
        | none => stopExpression us
        | some (_, us) => stopAfter closeParens stopExpression us)) (fun c => WT (kw :: c)) ts := by
  refine badAt_after (f' := fun _ us => ifAtEnd ((E 0 us).bind fun x => (expect closeParens x.2).bind fun us =>
      (E 0 us).bind fun y => some (.wait kw x.1 y.1, y.2))) ?_ ?_ ?_ ?_
  · intro us he; simp [statement_wait hk, he, ifAtEnd]
  · intro o us ho; simp [statement_wait hk, expect_cons ho]
  · exact WT_fill (s := [opTok, qTok, cpTok, qTok]) (fill_of (by decide)) (WT_of (.wait (o := opTok) (c := cpTok) hk rfl derives_q rfl derives_q))
  intro o us _ ho
  refine badAt_expr (f' := fun e us => ifAtEnd ((expect closeParens us).bind fun us =>
      (E 0 us).bind fun y => some (.wait kw e y.1, y.2))) ?_ ?_ ?_
  · intro us; exact ⟨fun h => by simp [h, ifAtEnd], fun a vs h => by simp [h]⟩
  · rintro c ⟨s, e, hs, hd⟩
    exact WT_fill (s := s ++ [cpTok, qTok]) (fill_append hs (fill_of (by decide))) (WT_of (by
      simpa using DerivesStmt.wait (c := cpTok) hk ho hd rfl derives_q))
  intro e us _
  refine badAt_after (f' := fun _ us => ifAtEnd ((E 0 us).bind fun y => some (.wait kw e y.1, y.2))) ?_ ?_ ?_ ?_
  · intro us he; simp [he, ifAtEnd]
  · intro o us ho; simp [expect_cons ho]
  · intro c1 hc1
    exact WT_fill (s := [cpTok, qTok]) (fill_of (by decide)) (WT_of (by simpa using DerivesStmt.wait (c := cpTok) hk ho hc1 rfl derives_q))
  intro p us _ hp
  refine badAt_last_expr (k := fun e' => .wait kw e e') (fun us => by cases E 0 us <;> rfl) ?_
  rintro c ⟨s, e, hs, hd⟩ c1 hc1
  exact WT_fill (s := s) hs (WT_of (by simpa using DerivesStmt.wait hk ho hc1 hp hd))

theorem WT_nil : WT [] := WT_fill (s := [qTok, qTok]) (fill_of (by decide)) (WT_of (.gate (us := [qTok]) (vs := [qTok]) derives_gate_q derives_qs))

theorem WT_of_WG {c : List Token} (h : WG c) : WT c := by
  obtain ⟨s, us, vs, g, es, hs, he, hg, hx⟩ := h
  exact ⟨s, .gate g es, hs, he ▸ DerivesStmt.gate hg hx⟩

theorem badT (ts : List Token) : BadAt statement stopStatement WT ts := by
  cases ts with
  | nil => exact fun _ => ⟨[], rfl, WT_nil, fun t r hr => by simp [stopStatement] at hr⟩
  | cons t us =>
    by_cases h1 : t.kind ∈ [qubitType, bitType]
    · refine badAt_cons (g' := stopVariable) ?_ (badAt_congr (fun us => by rw [statement_type h1]) rfl (fun _ h => h) (badVar h1 us))
      simp only [List.mem_cons, List.not_mem_nil, or_false] at h1
      rcases h1 with h | h <;> simp only [stopStatement, h]
    by_cases h2 : t.kind ∈ [reset, init, barrier]
    · refine badAt_cons (g' := stopExpression) ?_ (badAt_last_expr (fun us => statement_simple h2) ?_)
      · simp only [List.mem_cons, List.not_mem_nil, or_false] at h2
        rcases h2 with h | h | h <;> simp only [stopStatement, h]
      · rintro c ⟨s, e, hs, hd⟩
        exact WT_fill (s := s) hs (WT_of (.simple h2 hd))
    by_cases h3 : t.kind = wait
    · refine badAt_cons ?_ (badWait h3 us)
      simp only [stopStatement, h3]
      rfl
    by_cases h4 : t.kind = asm
    · exact badAt_cons (by simp only [stopStatement, h4]) (badAt_congr (fun us => by rw [statement_asm h4]) rfl (fun _ h => h) (badAsm h4 us))
    have ho : t.kind ∉ [qubitType, bitType, reset, init, barrier, wait, asm] := by
      simp only [List.mem_cons, List.not_mem_nil, or_false, not_or] at *; simp [*]
    have hG : BadAt (fun us => (G us).map fun x => (PStmt.gate x.1.1 x.1.2, x.2)) (fun us => stopGate us.length us) WT (t :: us) := by
      have h := badAt_map (f' := fun us => (G us).map fun x => (PStmt.gate x.1.1 x.1.2, x.2)) (h' := fun x => PStmt.gate x.1 x.2) (W' := WT)
        (fun _ => rfl) (badG (t :: us).length (t :: us) (Nat.le_refl _)) (fun _ h => WT_of_WG h)
      exact badAt_congr (fun _ => Iff.rfl) rfl (fun _ h => h) h
    refine badAt_congr (f' := statement) (g' := fun us => later (stopGate us.length us) (stopMeasure us)) (fun _ => Iff.rfl) ?_ (fun _ h => h)
      (badAt_or (f1 := fun us => (G us).map fun x => (PStmt.gate x.1.1 x.1.2, x.2)) (f2 := measureInstruction) (fun us hh => ?_)
        hG (badM _))
    · simp only [List.mem_cons, List.not_mem_nil, or_false, not_or] at ho
      obtain ⟨h1, h2, h3, h4, h5, h6, h7⟩ := ho
      simp only [stopStatement]
    · cases us with
      | nil => simp at hh
      | cons t' us =>
        simp only [List.head?_cons, Option.some.injEq] at hh
        subst hh
        rw [statement_other ho, ifAtEnd_none]
        constructor
        · intro h
          have hg : G (t' :: us) = none := by
            cases hx : G (t' :: us) with
            | none => rfl
            | some x =>
              obtain ⟨⟨g, es⟩, rest⟩ := x
              have := h (.gate g es) rest (by rw [show gateInstruction _ _ = G (t' :: us) from rfl, hx]; rfl)
              rw [(gate_sound _ _ _ _ _ hx).1] at this
              simp at this
          refine ⟨by rw [hg]; rfl, ?_⟩
          cases hx : measureInstruction (t' :: us) with
          | none => rfl
          | some x =>
            obtain ⟨s, rest⟩ := x
            have := h s rest (by rw [show gateInstruction _ _ = G (t' :: us) from rfl, hg, hx]; rfl)
            rw [(measure_sound hx).1] at this
            simp at this
        · rintro ⟨h1, h2⟩ a vs h
          rw [show gateInstruction _ _ = G (t' :: us) from rfl, h2] at h
          rw [h1] at h
          simp at h

/-! ## Programs -/

/-- The tokens start the rest of a program after the version. -/
def WB (c : List Token) : Prop := ∃ s ss, Fill s ∧ Block DerivesStmt (c ++ s) ss

/-- `block`, as a function that leaves tokens. -/
def B (ts : List Token) : Option (List PStmt × List Token) := (block (ts.length + 1) ts).map fun ss => (ss, [])

theorem B_none {ts : List Token} : B ts = none ↔ ∀ ss, ¬ Block DerivesStmt ts ss := by
  simp only [B, Option.map_eq_none_iff]
  constructor
  · intro h ss hb
    obtain ⟨ss', h'⟩ := block_complete (fun _ _ h => h) hb _ (Nat.le_refl _) (fun us s rest h1 h2 => by
      obtain ⟨s', h3, -⟩ := statement_accept h1 h2; exact ⟨s', h3⟩)
    rw [h] at h'
    simp at h'
  · intro h
    cases hb : block (ts.length + 1) ts with
    | none => rfl
    | some ss =>
      have : Block DerivesStmt ts ss := by
        have := block_sound _ _ _ hb
        clear hb h
        induction this with
        | nil h1 h2 => exact .nil h1 h2
        | cons h1 h2 h3 _ ih => exact .cons h1 h2 h3.1 ih
      exact absurd this (h ss)

theorem block_weaken {ts : List Token} {ss : List PStmt} (h : Block Chosen ts ss) : Block DerivesStmt ts ss := by
  induction h with
  | nil h1 h2 => exact .nil h1 h2
  | cons h1 h2 h3 _ ih => exact .cons h1 h2 h3.1 ih

theorem not_block_of_none {f : Nat} {ts : List Token} (h : ∀ ss, ¬ Block DerivesStmt ts ss) : block f ts = none := by
  cases hb : block f ts with
  | none => rfl
  | some ss => exact absurd (block_weaken (block_sound _ _ _ hb)) (h ss)

theorem WB_nil : WB [] := ⟨[eofTok], [], fill_of (by decide), .nil (seps := []) (by simp [Separators]) rfl⟩

theorem separators_same {seps : List Token} (hs : Separators seps) {t : Token} {us : List Token} (ht : t.kind ∉ separatorKinds) :
    separators (seps ++ t :: us) = t :: us := by rw [separators_append hs, separators_cons ht]

theorem badB (fuel : Nat) : ∀ ts : List Token, ts.length < fuel → BadAt B (stopBlock fuel) WB ts := by
  induction fuel with
  | zero => intro ts h; omega
  | succ fuel ih =>
    intro ts hl hn
    obtain ⟨seps, h1, hs⟩ := separators_split ts
    cases hsep : separators ts with
    | nil =>
      rw [hsep, List.append_nil] at h1
      have hst : stopBlock (fuel + 1) ts = [] := by simp only [stopBlock, hsep]
      exact ⟨ts, by simp [hst], ⟨[eofTok], [], fill_of (by decide), .nil (by rw [h1]; exact hs) rfl⟩, fun t r hr => by simp [hst] at hr⟩
    | cons t us =>
      rw [hsep] at h1
      have ht := separators_ne hsep
      by_cases he : t.kind = eof
      · have hst : stopBlock (fuel + 1) ts = us := by simp only [stopBlock, hsep, he, if_true]
        refine ⟨seps ++ [t], by rw [hst, h1]; simp, ⟨[], [], fill_nil, by simpa using Block.nil hs he⟩, fun u r hr r' => ?_⟩
        simp only [B, Option.map_eq_none_iff, block, List.append_assoc, List.cons_append, List.nil_append, separators_same hs ht, he, if_true]
        rfl
      by_cases hlen : (separators ts).length = ts.length
      · have hnil : seps = [] := by
          rw [hsep, h1] at hlen
          simp at hlen
          exact hlen
        subst hnil
        simp only [List.nil_append] at h1
        have hst : stopBlock (fuel + 1) ts = t :: us := by simp only [stopBlock, hlen, if_true]; simp only [hsep, he, if_false]
        refine ⟨[], by rw [hst, h1]; rfl, WB_nil, fun u r hr r' => ?_⟩
        rw [hst] at hr
        injection hr with h2 h3
        subst h2
        simp [B, block, separators_cons ht, he]
      have hne : seps ≠ [] := by
        rintro rfl
        rw [hsep, h1] at hlen
        exact hlen rfl
      cases hx : statement (t :: us) with
      | none =>
        have hst : stopBlock (fuel + 1) ts = stopStatement (t :: us) := by
          simp only [stopBlock, hlen, if_false]
          simp only [hsep, he, if_false, hx]
        obtain ⟨c, e, ⟨s, st, hfill, hd⟩, l⟩ := badT _ hx
        refine ⟨seps ++ c, by rw [hst, List.append_assoc, ← e, h1], ⟨s ++ [eofTok], [st], fill_append hfill (fill_of (by decide)), ?_⟩,
          fun u r hr r' => ?_⟩
        · simpa using Block.cons hs hne hd (.nil (seps := []) (e := eofTok) (by simp [Separators]) rfl)
        · rw [hst] at hr
          have hl := l u r hr r'
          obtain ⟨x, hx'⟩ : ∃ x, c ++ u :: r' = t :: x := by
            rw [hr] at e
            cases c with
            | nil => simp only [List.nil_append, List.cons.injEq] at e; exact ⟨r', by simp [e.1]⟩
            | cons y ys => simp only [List.cons_append, List.cons.injEq] at e; exact ⟨ys ++ u :: r', by simp [e.1]⟩
          rw [List.append_assoc, hx']
          rw [hx'] at hl
          simp only [B, Option.map_eq_none_iff, block, separators_same hs ht, he, if_false]
          rw [if_neg (by
            have : seps.length ≠ 0 := by simpa using hne
            simp; omega)]
          simp only [hl]
      | some y =>
        obtain ⟨s, rest⟩ := y
        have hst : stopBlock (fuel + 1) ts = stopBlock fuel rest := by
          simp only [stopBlock, hlen, if_false]
          simp only [hsep, he, if_false, hx]
        obtain ⟨hend, vs, hv, hd, -⟩ := statement_sound hx
        have hvne := stmt_ne hd
        have hlr : rest.length < fuel := by
          have h2 : ts.length = seps.length + (vs.length + rest.length) := by rw [h1, hv]; simp
          have h3 : vs.length ≠ 0 := by simpa using hvne
          omega
        have hnr : B rest = none := B_none.2 fun ss hb => (B_none.1 hn) (s :: ss) (by
          rw [h1, hv, ← List.append_assoc]; exact .cons hs hne hd hb)
        obtain ⟨c, e, ⟨s', ss, hfill, hb⟩, l⟩ := ih rest hlr hnr
        refine ⟨seps ++ vs ++ c, by rw [hst, List.append_assoc, ← e, List.append_assoc, ← hv, h1], ⟨s', s :: ss, hfill, ?_⟩,
          fun u r hr r' => ?_⟩
        · rw [List.append_assoc]
          exact .cons hs hne hd hb
        · rw [hst] at hr
          have hl := l u r hr r'
          have hend' : atEnd (c ++ u :: r') = true := by
            rw [← hend, e, hr]
            exact atEnd_head (head_append rfl)
          obtain ⟨s'', hs'', -⟩ := statement_accept hd hend'
          obtain ⟨x, xs, rfl⟩ := List.exists_cons_of_ne_nil hvne
          simp only [List.cons_append, List.cons.injEq] at hv
          obtain ⟨rfl, -⟩ := hv
          simp only [B, Option.map_eq_none_iff, block, List.append_assoc, List.cons_append, separators_same hs ht, he, if_false]
          rw [if_neg (by
            have : seps.length ≠ 0 := by simpa using hne
            simp; omega)]
          simp only [List.cons_append] at hs''
          simp only [hs'', Option.map_eq_none_iff]
          exact not_block_of_none (B_none.1 hl)

/-- The tokens start a program. -/
def WP (c : List Token) : Prop := ∃ s pr, Fill s ∧ Program DerivesStmt (c ++ s) pr

theorem WP_fill {c s : List Token} (hs : Fill s) (h : WP (c ++ s)) : WP c := by
  obtain ⟨s', st, hs', hd⟩ := h
  exact ⟨s ++ s', st, fill_append hs hs', by simpa using hd⟩

/-- The parser gives up at the first token that cannot continue the text: the tokens before it can be completed, and with it they
cannot, whatever comes after it. -/
theorem stop_spec {ts : List Token} (h : parse ts = none) : ∃ pre, ts = pre ++ stop ts ∧
    (∃ s pr, Fill s ∧ Program DerivesStmt (pre ++ s) pr) ∧
    ∀ t r, stop ts = t :: r → ∀ r' pr, ¬ Program DerivesStmt (pre ++ t :: r') pr := by
  obtain ⟨seps, h1, hs⟩ := separators_split ts
  have key : BadAt (fun us => (expect version us).bind fun us => (expect versionNumber us).bind fun us => B us)
      (stopAfter version (stopAfter versionNumber fun us => stopBlock (us.length + 1) us)) (fun c => WP (seps ++ c)) (separators ts) := by
    have hb : Block DerivesStmt [eofTok] [] := .nil (seps := []) (by simp [Separators]) rfl
    refine badAt_after (f' := fun _ us => (expect versionNumber us).bind fun us => B us) ?_ ?_ ?_ ?_
    · intro us he; simp [he]
    · intro v us hv; simp [expect_cons hv]
    · exact WP_fill (s := [vTok, nTok, eofTok]) (fill_of (by decide)) ⟨[], _, fill_nil, by simpa using Program.mk (v := vTok) (n := nTok) hs rfl rfl hb⟩
    intro v us _ hv
    refine badAt_after (f' := fun _ us => B us) ?_ ?_ ?_ ?_
    · intro us he; simp [he]
    · intro v us hv; simp [expect_cons hv]
    · exact WP_fill (s := [nTok, eofTok]) (fill_of (by decide)) ⟨[], _, fill_nil, by simpa using Program.mk (n := nTok) hs hv rfl hb⟩
    intro n us _ hn
    refine badAt_congr (f' := B) (g' := stopBlock (us.length + 1)) (fun _ => Iff.rfl) rfl ?_ (badB _ us (by omega))
    rintro c ⟨s, ss, hfill, hb⟩
    exact ⟨s, _, hfill, by simpa using Program.mk hs hv hn hb⟩
  have hf : ∀ us : List Token, (∀ t vs, us = t :: vs → t.kind ∉ separatorKinds) → (parse (seps ++ us) = none ↔
      ((expect version us).bind fun us => (expect versionNumber us).bind fun us => B us) = none) := by
    intro us hu
    have hsep : separators (seps ++ us) = us := by
      cases us with
      | nil => rw [separators_append hs]; rfl
      | cons t us => exact separators_same hs (hu t us rfl)
    simp only [parse, hsep]
    rcases us with _ | ⟨v, _ | ⟨n, us⟩⟩
    · simp [expect]
    · simp only [expect]
      split <;> simp
    · simp only [expect]
      by_cases h1 : v.kind = version <;> by_cases h2 : n.kind = versionNumber <;> simp [h1, h2, B]
  have hhead : ∀ us : List Token, us.head? = (separators ts).head? → ∀ t vs, us = t :: vs → t.kind ∉ separatorKinds := by
    rintro us hh t vs rfl
    cases hx : separators ts with
    | nil => rw [hx] at hh; simp at hh
    | cons t' vs' =>
      rw [hx] at hh
      simp only [List.head?_cons, Option.some.injEq] at hh
      subst hh
      exact separators_ne hx
  obtain ⟨c, e, ⟨s, pr, hfill, hp⟩, l⟩ := key ((hf _ (hhead _ rfl)).1 (by rw [← h1]; exact h))
  have hst : stop ts = stopAfter version (stopAfter versionNumber fun us => stopBlock (us.length + 1) us) (separators ts) := rfl
  rw [← hst] at e l
  refine ⟨seps ++ c, by rw [List.append_assoc, ← e, ← h1], ⟨s, pr, hfill, hp⟩, fun t r hr r' pr hpr => ?_⟩
  have hn := (hf (c ++ t :: r') (hhead _ (by rw [e, hr]; exact head_append rfl))).2 (l t r hr r')
  obtain ⟨pr', hp'⟩ := parse_accept hpr
  rw [List.append_assoc, hn] at hp'
  simp at hp'

end Qasm.Parser
