import Verif.Model.Diagnose
import Verif.Lemmas.ParserProgram
/-!
# Where parsing stops: the parser gives up at the first token that cannot continue the text

`OkAt` and `BadAt` say of one token list what a function of the parser does to all lists that agree with it as far as the function looks.
-/

namespace Qasm.Parser

open TokKind Spec

variable {α β : Type}

/-- If the function reads some tokens, they are as described, and it reads them whenever the token after them is the same. -/
def OkAt (f : List Token → Option (α × List Token)) (A : α → List Token → Prop) (ts : List Token) : Prop :=
  ∀ a rest, f ts = some (a, rest) → ∃ c, ts = c ++ rest ∧ A a c ∧
    ∀ rest', rest'.head? = rest.head? → f (c ++ rest') = some (a, rest')

/-- If the function fails, the tokens before the place where it stops are as described, and it fails whatever comes after the token at
this place. -/
def BadAt (f : List Token → Option (α × List Token)) (g : List Token → List Token) (W : List Token → Prop) (ts : List Token) : Prop :=
  f ts = none → ∃ c, ts = c ++ g ts ∧ W c ∧ ∀ t r, g ts = t :: r → ∀ r', f (c ++ t :: r') = none

theorem head_append {c r r' : List Token} (h : r'.head? = r.head?) : (c ++ r').head? = (c ++ r).head? := by
  cases c <;> simp [h]

/-- The result of one function after another: `n` if the first one fails, otherwise what the second one gives. -/
def Then {γ : Type} (x : Option (α × List Token)) (n : γ) (k : α → List Token → γ) (y : γ) : Prop :=
  (x = none → y = n) ∧ ∀ a us, x = some (a, us) → y = k a us

theorem okAt_bind {f1 : List Token → Option (α × List Token)} {f2 : α → List Token → Option (β × List Token)}
    {f : List Token → Option (β × List Token)} {A1 : α → List Token → Prop} {A2 : α → β → List Token → Prop} {A : β → List Token → Prop}
    {ts : List Token}
    (hf : ∀ us, us.head? = ts.head? → Then (f1 us) none f2 (f us))
    (h1 : OkAt f1 A1 ts) (h2 : ∀ a us, f1 ts = some (a, us) → OkAt (f2 a) (A2 a) us)
    (hA : ∀ a b c1 c2, A1 a c1 → A2 a b c2 → A b (c1 ++ c2)) : OkAt f A ts := by
  intro b rest h
  cases hx : f1 ts with
  | none => simp [(hf _ rfl).1 hx] at h
  | some x =>
    obtain ⟨a, us⟩ := x
    rw [(hf _ rfl).2 a us hx] at h
    obtain ⟨c1, e1, ha, l1⟩ := h1 a us hx
    obtain ⟨c2, e2, hb, l2⟩ := h2 a us hx b rest h
    refine ⟨c1 ++ c2, by simp [e1, e2], hA _ _ _ _ ha hb, fun rest' hr => ?_⟩
    rw [(hf _ (by rw [e1, e2, ← List.append_assoc]; exact head_append hr)).2 a (c2 ++ rest') (by
      rw [List.append_assoc]; exact l1 (c2 ++ rest') (by rw [e2]; exact head_append hr))]
    exact l2 rest' hr

theorem badAt_bind {f1 : List Token → Option (α × List Token)} {f2 : α → List Token → Option (β × List Token)}
    {f : List Token → Option (β × List Token)} {g1 g : List Token → List Token} {g2 : α → List Token → List Token}
    {A1 : α → List Token → Prop} {W1 W : List Token → Prop} {W2 : α → List Token → Prop} {ts : List Token}
    (hf : ∀ us, us.head? = ts.head? → Then (f1 us) none f2 (f us))
    (hg : Then (f1 ts) (g1 ts) g2 (g ts))
    (h1 : OkAt f1 A1 ts) (h1' : BadAt f1 g1 W1 ts) (h2 : ∀ a us, f1 ts = some (a, us) → BadAt (f2 a) (g2 a) (W2 a) us)
    (hW1 : ∀ c, W1 c → W c) (hW2 : ∀ a c1 c2, A1 a c1 → W2 a c2 → W (c1 ++ c2)) : BadAt f g W ts := by
  intro h
  cases hx : f1 ts with
  | none =>
    replace hg := hg.1 hx
    obtain ⟨c, e, w, l⟩ := h1' hx
    refine ⟨c, by rw [hg]; exact e, hW1 _ w, fun t r hr r' => ?_⟩
    rw [hg] at hr
    exact (hf _ (by rw [e, hr]; exact head_append rfl)).1 (l t r hr r')
  | some x =>
    obtain ⟨a, us⟩ := x
    replace hg := hg.2 a us hx
    rw [(hf _ rfl).2 a us hx] at h
    obtain ⟨c1, e1, ha, l1⟩ := h1 a us hx
    obtain ⟨c2, e2, w, l2⟩ := h2 a us hx h
    refine ⟨c1 ++ c2, by rw [hg, List.append_assoc, ← e2, ← e1], hW2 _ _ _ ha w, fun t r hr r' => ?_⟩
    rw [hg] at hr
    rw [hr] at e2
    have hh : (c2 ++ t :: r').head? = us.head? := by rw [e2]; exact head_append rfl
    rw [List.append_assoc, (hf _ (by rw [e1]; exact head_append hh)).2 a _ (l1 _ hh)]
    exact l2 t r hr r'

/-! ## One token -/

/-- A token of the type, as a function of the parser. -/
def one (k : TokKind) (ts : List Token) : Option (Token × List Token) :=
  match ts with
  | t :: ts => if t.kind = k then some (t, ts) else none
  | [] => none

theorem expect_one (k : TokKind) (ts : List Token) : expect k ts = (one k ts).map Prod.snd := by
  cases ts with
  | nil => rfl
  | cons t ts => simp only [expect, one]; split <;> rfl

theorem one_ok (k : TokKind) (ts : List Token) : OkAt (one k) (fun t c => c = [t] ∧ t.kind = k) ts := by
  intro t rest h
  cases ts with
  | nil => simp [one] at h
  | cons u us =>
    simp only [one] at h
    split at h
    · rename_i hk
      simp only [Option.some.injEq, Prod.mk.injEq] at h
      obtain ⟨rfl, rfl⟩ := h
      exact ⟨[u], rfl, ⟨rfl, hk⟩, fun rest' _ => by simp [one, hk]⟩
    · simp at h

theorem one_bad (k : TokKind) (ts : List Token) : BadAt (one k) id (fun c => c = []) ts := by
  intro h
  refine ⟨[], rfl, rfl, fun t r hr r' => ?_⟩
  simp only [id_eq] at hr
  subst hr
  simp only [one] at h
  simp only [List.nil_append, one]
  split at h
  · simp at h
  · rename_i hk; rw [if_neg hk]

/-! ## The tokens that complete a text -/

/-- Tokens that can complete a text. -/
def fillers : List Token :=
  [⟨identifier, c!"q", 0, 0⟩, ⟨closeParens, c!")", 0, 0⟩, ⟨closeBracket, c!"]", 0, 0⟩, ⟨colon, c!":", 0, 0⟩, ⟨dot, c!".", 0, 0⟩,
   ⟨equals, c!"=", 0, 0⟩, ⟨TokKind.measure, c!"measure", 0, 0⟩, ⟨openParens, c!"(", 0, 0⟩, ⟨integerLiteral, c!"1", 0, 0⟩,
   ⟨rawTextString, c!"''''''", 0, 0⟩, ⟨version, c!"version", 0, 0⟩, ⟨versionNumber, c!"3", 0, 0⟩, ⟨eof, c!"<EOF>", 0, 0⟩]

/-- The tokens are fillers. -/
def Fill (s : List Token) : Prop := ∀ t ∈ s, t ∈ fillers

theorem fill_nil : Fill [] := by simp [Fill]

theorem fill_append {s s' : List Token} (h : Fill s) (h' : Fill s') : Fill (s ++ s') := by
  intro t ht
  rcases List.mem_append.1 ht with ht | ht
  · exact h t ht
  · exact h' t ht

/-- The tokens start an expression. -/
def WE (c : List Token) : Prop := ∃ s e, Fill s ∧ Derives (c ++ s) (.expr e)
/-- The tokens start a list of expressions. -/
def WS (c : List Token) : Prop := ∃ s e, Fill s ∧ Derives (c ++ s) (.exprs e)
/-- The tokens start an entry of an index list. -/
def WN (c : List Token) : Prop := ∃ s e, Fill s ∧ Derives (c ++ s) (.entry e)
/-- The tokens start an index list. -/
def WX (c : List Token) : Prop := ∃ s e, Fill s ∧ Derives (c ++ s) (.entries e)

/-- The filler of a type. -/
def qTok : Token := ⟨identifier, c!"q", 0, 0⟩
@[inherit_doc qTok] def cpTok : Token := ⟨closeParens, c!")", 0, 0⟩
@[inherit_doc qTok] def cbTok : Token := ⟨closeBracket, c!"]", 0, 0⟩
@[inherit_doc qTok] def clTok : Token := ⟨colon, c!":", 0, 0⟩

theorem fill_q : Fill [qTok] := by simp [Fill, fillers, qTok]
theorem fill_cp : Fill [cpTok] := by simp [Fill, fillers, cpTok]
theorem fill_cb : Fill [cbTok] := by simp [Fill, fillers, cbTok]
theorem fill_cl : Fill [clTok] := by simp [Fill, fillers, clTok]

theorem derives_q : Derives [qTok] (.expr (.atom qTok)) := .atom (by simp [qTok])

theorem WE_nil : WE [] := ⟨[qTok], _, fill_q, derives_q⟩

theorem WS_of_WE {c : List Token} (h : WE c) : WS c := by
  obtain ⟨s, e, hs, hd⟩ := h
  exact ⟨s, _, hs, .expr1 hd⟩

theorem WX_of_WN {c : List Token} (h : WN c) : WX c := by
  obtain ⟨s, e, hs, hd⟩ := h
  exact ⟨s, _, hs, .entry1 hd⟩

theorem WN_of_WE {c : List Token} (h : WE c) : WN c := by
  obtain ⟨s, e, hs, hd⟩ := h
  exact ⟨s, _, hs, .item hd⟩

theorem WE_of {c : List Token} {e : PExpr} (h : Derives c (.expr e)) : WE c := ⟨[], e, fill_nil, by simpa using h⟩

/-! ## Pieces -/

theorem okAt_cons {f : List Token → Option (α × List Token)} {A : α → List Token → Prop} {t : Token} {ts : List Token}
    (h : OkAt (fun us => f (t :: us)) (fun a c => A a (t :: c)) ts) : OkAt f A (t :: ts) := by
  intro a rest hf
  obtain ⟨c, e, ha, l⟩ := h a rest hf
  exact ⟨t :: c, by simp [e], ha, l⟩

theorem badAt_cons {f : List Token → Option (α × List Token)} {g g' : List Token → List Token} {W : List Token → Prop} {t : Token}
    {ts : List Token} (hg : g (t :: ts) = g' ts) (h : BadAt (fun us => f (t :: us)) g' (fun c => W (t :: c)) ts) :
    BadAt f g W (t :: ts) := by
  intro hf
  obtain ⟨c, e, w, l⟩ := h hf
  exact ⟨t :: c, by simp [hg, ← e], w, fun u r hr r' => l u r (hg ▸ hr) r'⟩

theorem okAt_none {f : List Token → Option (α × List Token)} {A : α → List Token → Prop} {ts : List Token} (h : f ts = none) :
    OkAt f A ts := by
  intro a rest h'
  rw [h] at h'
  simp at h'

theorem badAt_some {f : List Token → Option (α × List Token)} {g : List Token → List Token} {W : List Token → Prop} {ts : List Token}
    {x : α × List Token} (h : f ts = some x) : BadAt f g W ts := by
  intro h'
  rw [h] at h'
  simp at h'

theorem expect_ok (k : TokKind) (b : β) (ts : List Token) :
    OkAt (fun us => (expect k us).map fun us => (b, us)) (fun b' c => b' = b ∧ ∃ t : Token, c = [t] ∧ t.kind = k) ts := by
  intro b' rest h
  simp only [Option.map_eq_some_iff, Prod.mk.injEq] at h
  obtain ⟨us, h, rfl, rfl⟩ := h
  obtain ⟨t, rfl, hk⟩ := expect_some h
  exact ⟨[t], rfl, ⟨rfl, t, rfl, hk⟩, fun rest' _ => by simp [expect_cons hk]⟩

theorem expect_bad (k : TokKind) (b : β) (ts : List Token) :
    BadAt (fun us => (expect k us).map fun us => (b, us)) id (fun c => c = []) ts := by
  intro h
  refine ⟨[], rfl, rfl, fun t r hr r' => ?_⟩
  simp only [id_eq] at hr
  subst hr
  simp only [Option.map_eq_none_iff, expect, List.nil_append] at h ⊢
  split at h
  · simp at h
  · rename_i hk; rw [if_neg hk]

theorem ret_ok (b : β) (ts : List Token) : OkAt (fun us => some (b, us)) (fun b' c => b' = b ∧ c = []) ts := by
  intro b' rest h
  simp only [Option.some.injEq, Prod.mk.injEq] at h
  obtain ⟨rfl, rfl⟩ := h
  exact ⟨[], rfl, ⟨rfl, rfl⟩, fun _ _ => rfl⟩

theorem ret_bad {W : List Token → Prop} (b : β) (ts : List Token) : BadAt (fun us => some (b, us)) id W ts := badAt_some rfl

/-! ## Expressions -/

/-- What is proved about the functions for expressions. -/
structure Stops (ts : List Token) : Prop where
  okE : ∀ p, OkAt (E p) (fun e c => Derives c (.expr e)) ts
  badE : ∀ p fuel, 4 * ts.length + 2 ≤ fuel → BadAt (E p) (stopExpr fuel p) WE ts
  okL : ∀ p e, OkAt (L p e) (fun e' c => ∀ us, Derives us (.expr e) → Derives (us ++ c) (.expr e')) ts
  badL : ∀ p e fuel, 4 * ts.length + 1 ≤ fuel → BadAt (L p e) (stopLoop fuel p e) (fun c => ∀ us, Derives us (.expr e) → WE (us ++ c)) ts
  okS : OkAt S (fun es c => Derives c (.exprs es)) ts
  badS : ∀ fuel, 4 * ts.length + 3 ≤ fuel → BadAt S (stopExprList fuel) WS ts
  okN : OkAt N (fun i c => Derives c (.entry i)) ts
  badN : ∀ fuel, 4 * ts.length + 3 ≤ fuel → BadAt N (stopIndexEntry fuel) WN ts
  okX : OkAt X (fun is c => Derives c (.entries is)) ts
  badX : ∀ fuel, 4 * ts.length + 4 ≤ fuel → BadAt X (stopIndexList fuel) WX ts

theorem head_next {k : TokKind} {us vs : List Token} (h : us.head? = vs.head?) : next k us = next k vs := by
  cases us <;> cases vs <;> simp_all [next]

theorem okP {ts : List Token} (ih : ∀ us : List Token, us.length < ts.length → Stops us) :
    OkAt P (fun e c => Derives c (.expr e)) ts := by
  cases ts with
  | nil => exact okAt_none P_nil
  | cons t ts =>
    refine okAt_cons ?_
    have i1 := ih ts (by simp)
    by_cases h1 : t.kind = openParens
    · refine okAt_bind (f1 := E 0) (f2 := fun e us => (expect closeParens us).map fun us => (.parens e, us))
        (fun us _ => ⟨fun h => by rw [P_parens h1, h], fun a vs h => by rw [P_parens h1, h]⟩) (i1.okE 0) (fun e us _ => expect_ok _ _ us) ?_
      rintro a b c1 c2 ha ⟨rfl, t', rfl, hc⟩
      exact .parens h1 ha hc
    by_cases h2 : t.kind = identifier
    · cases ts with
      | nil =>
        intro a rest h
        simp only [P_ident h2 (ts := []) (by simp), Option.some.injEq, Prod.mk.injEq] at h
        obtain ⟨rfl, rfl⟩ := h
        refine ⟨[], rfl, .atom (by simp [h2]), fun rest' hr => ?_⟩
        have : rest' = [] := by simpa using hr
        subst this
        exact P_ident h2 (by simp)
      | cons o us =>
        have i2 := ih us (by simp; omega)
        by_cases ho : o.kind = openParens
        · refine okAt_cons (f := fun us => P (t :: us)) ?_
          cases hn : next closeParens us with
          | true =>
            obtain ⟨c, ws, rfl, hc⟩ := next_cons hn
            intro a rest h
            simp only [P_call0 h2 ho hc, Option.some.injEq, Prod.mk.injEq] at h
            obtain ⟨rfl, rfl⟩ := h
            exact ⟨[c], rfl, .call0 h2 ho hc, fun rest' _ => P_call0 h2 ho hc⟩
          | false =>
            refine okAt_bind (f1 := S) (f2 := fun es us => (expect closeParens us).map fun us => (.call t es, us))
              (fun us' h' => have hn' : next closeParens us' = false := by rw [head_next h', hn]
                ⟨fun h => by rw [P_call h2 ho hn', h], fun a vs h => by rw [P_call h2 ho hn', h]⟩) i2.okS (fun e us _ => expect_ok _ _ us) ?_
            rintro a b c1 c2 ha ⟨rfl, t', rfl, hc⟩
            exact .call h2 ho ha hc
        · by_cases hb : o.kind = openBracket
          · refine okAt_cons (f := fun us => P (t :: us)) ?_
            refine okAt_bind (f1 := X) (f2 := fun es us => (expect closeBracket us).map fun us => (.index t es, us))
              (fun us' h' => ⟨fun h => by rw [P_index h2 hb, h], fun a vs h => by rw [P_index h2 hb, h]⟩) i2.okX (fun e us _ => expect_ok _ _ us) ?_
            rintro a b c1 c2 ha ⟨rfl, t', rfl, hc⟩
            exact .index h2 hb ha hc
          · intro a rest h
            have hP : ∀ us, P (t :: o :: us) = some (.atom t, o :: us) := fun us =>
              P_ident h2 (by intro o' us' he; injection he with he1 he2; subst he1; exact ⟨ho, hb⟩)
            simp only [hP, Option.some.injEq, Prod.mk.injEq] at h
            obtain ⟨rfl, rfl⟩ := h
            refine ⟨[], rfl, .atom (by simp [h2]), fun rest' hr => ?_⟩
            cases rest' with
            | nil => simp at hr
            | cons o' us' =>
              simp only [List.head?_cons, Option.some.injEq] at hr
              subst hr
              exact hP us'
    by_cases h3 : t.kind = booleanLiteral ∨ t.kind = integerLiteral ∨ t.kind = floatLiteral
    · intro a rest h
      simp only [P_literal h3, Option.some.injEq, Prod.mk.injEq] at h
      obtain ⟨rfl, rfl⟩ := h
      exact ⟨[], rfl, .atom (by rcases h3 with h | h | h <;> simp [h]), fun rest' _ => P_literal h3⟩
    cases hp : prefixPrec t.kind with
    | none =>
      exact okAt_none
        (P_other h1 h2 (fun hc => h3 (.inl hc)) (fun hc => h3 (.inr (.inl hc))) (fun hc => h3 (.inr (.inr hc))) hp)
    | some p =>
      refine okAt_bind (f1 := E p) (f2 := fun e us => some (.pre t e, us)) (fun us _ => ⟨fun h => by rw [P_pre hp, h], fun a vs h => by rw [P_pre hp, h]⟩) (i1.okE p)
        (fun e us _ => ret_ok _ us) ?_
      rintro a b c1 c2 ha ⟨rfl, rfl⟩
      simpa using Derives.pre ((prefix_iff _).2 ⟨p, hp⟩) ha

theorem badP {ts : List Token} (ih : ∀ us : List Token, us.length < ts.length → Stops us) (fuel : Nat) (hfuel : 4 * ts.length + 1 ≤ fuel) :
    BadAt P (stopPrimary fuel) WE ts := by
  cases ts with
  | nil =>
    intro _
    obtain ⟨fuel, rfl⟩ : ∃ k, fuel = k + 1 := ⟨fuel - 1, by omega⟩
    exact ⟨[], by simp [stopPrimary], WE_nil, fun t r hr => by simp [stopPrimary] at hr⟩
  | cons t ts =>
    obtain ⟨fuel, rfl⟩ : ∃ k, fuel = k + 1 := ⟨fuel - 1, by omega⟩
    simp only [List.length_cons] at hfuel
    have i1 := ih ts (by simp)
    by_cases h1 : t.kind = openParens
    · refine badAt_cons (g' := fun ts => stopPrimary (fuel + 1) (t :: ts)) rfl
        (badAt_bind (g2 := fun _ => id) (f1 := E 0) (f2 := fun e us => (expect closeParens us).map fun us => (.parens e, us))
          (fun us _ => ⟨fun h => by rw [P_parens h1, h], fun a vs h => by rw [P_parens h1, h]⟩) ?_ (i1.okE 0) (i1.badE 0 fuel (by omega)) (fun e us _ => expect_bad _ _ us) ?_ ?_)
      · simp only [stopPrimary, h1]
        rw [E_of (by omega)]
        exact ⟨fun h => by rw [h], fun a vs h => by rw [h]; rfl⟩
      · rintro c ⟨s, e, hs, hd⟩
        exact ⟨s ++ [cpTok], _, fill_append hs fill_cp, by simpa using Derives.parens h1 hd rfl⟩
      · rintro a c1 c2 ha rfl
        exact ⟨[cpTok], _, fill_cp, by simpa using Derives.parens h1 ha rfl⟩
    by_cases h2 : t.kind = identifier
    · cases ts with
      | nil => exact badAt_some (P_ident h2 (by simp))
      | cons o us =>
        have i2 := ih us (by simp; omega)
        simp only [List.length_cons] at hfuel
        by_cases ho : o.kind = openParens
        · cases hn : next closeParens us with
          | true =>
            obtain ⟨c, ws, rfl, hc⟩ := next_cons hn
            exact badAt_some (P_call0 h2 ho hc)
          | false =>
            refine badAt_cons (g' := fun ts => stopPrimary (fuel + 1) (t :: ts)) rfl (badAt_cons (f := fun us => P (t :: us))
              (g' := fun ts => stopPrimary (fuel + 1) (t :: o :: ts)) rfl
              (badAt_bind (g2 := fun _ => id) (f1 := S) (f2 := fun es us => (expect closeParens us).map fun us => (.call t es, us))
                (fun us' h' => have hn' : next closeParens us' = false := by rw [head_next h', hn]
                ⟨fun h => by rw [P_call h2 ho hn', h], fun a vs h => by rw [P_call h2 ho hn', h]⟩) ?_ i2.okS (i2.badS fuel (by omega))
                (fun e us _ => expect_bad _ _ us) ?_ ?_))
            · simp only [stopPrimary, h2, ho, if_true]
              rw [S_of (by omega)]
              exact ⟨fun h => by rw [h], fun a vs h => by rw [h]; rfl⟩
            · rintro c ⟨s, e, hs, hd⟩
              exact ⟨s ++ [cpTok], _, fill_append hs fill_cp, by simpa using Derives.call h2 ho hd rfl⟩
            · rintro a c1 c2 ha rfl
              exact ⟨[cpTok], _, fill_cp, by simpa using Derives.call h2 ho ha rfl⟩
        · by_cases hb : o.kind = openBracket
          · refine badAt_cons (g' := fun ts => stopPrimary (fuel + 1) (t :: ts)) rfl (badAt_cons (f := fun us => P (t :: us))
              (g' := fun ts => stopPrimary (fuel + 1) (t :: o :: ts)) rfl
              (badAt_bind (g2 := fun _ => id) (f1 := X) (f2 := fun es us => (expect closeBracket us).map fun us => (.index t es, us))
                (fun us' h' => ⟨fun h => by rw [P_index h2 hb, h], fun a vs h => by rw [P_index h2 hb, h]⟩) ?_ i2.okX (i2.badX fuel (by omega))
                (fun e us _ => expect_bad _ _ us) ?_ ?_))
            · simp only [stopPrimary, h2, ho, if_false]
              rw [X_of (by omega)]
              exact ⟨fun h => by rw [h], fun a vs h => by rw [h]; rfl⟩
            · rintro c ⟨s, e, hs, hd⟩
              exact ⟨s ++ [cbTok], _, fill_append hs fill_cb, by simpa using Derives.index h2 hb hd rfl⟩
            · rintro a c1 c2 ha rfl
              exact ⟨[cbTok], _, fill_cb, by simpa using Derives.index h2 hb ha rfl⟩
          · exact badAt_some (P_ident h2 (by intro o' us' he; injection he with he1 he2; subst he1; exact ⟨ho, hb⟩))
    by_cases h3 : t.kind = booleanLiteral ∨ t.kind = integerLiteral ∨ t.kind = floatLiteral
    · exact badAt_some (P_literal h3)
    have hs : stopPrimary (fuel + 1) (t :: ts) = match prefixPrec t.kind with | none => t :: ts | some p => stopExpr fuel p ts := by
      simp only [stopPrimary]
      split <;> simp_all
    cases hp : prefixPrec t.kind with
    | none =>
      rw [hp] at hs
      have hP : ∀ us, P (t :: us) = none := fun us =>
        P_other h1 h2 (fun hc => h3 (.inl hc)) (fun hc => h3 (.inr (.inl hc))) (fun hc => h3 (.inr (.inr hc))) hp
      intro _
      refine ⟨[], by simp [hs], WE_nil, fun t' r hr r' => ?_⟩
      simp only [hs, List.cons.injEq] at hr
      obtain ⟨rfl, rfl⟩ := hr
      exact hP r'
    | some p =>
      rw [hp] at hs
      refine badAt_cons (g' := stopExpr fuel p) hs ?_
      intro hf
      have hE : E p ts = none := by
        cases hx : E p ts with
        | none => rfl
        | some x => simp only [P_pre hp, hx] at hf; simp at hf
      obtain ⟨c, e, ⟨s, e', hs, hd⟩, l⟩ := i1.badE p fuel (by omega) hE
      refine ⟨c, e, ⟨s, _, hs, by simpa using Derives.pre ((prefix_iff _).2 ⟨p, hp⟩) hd⟩, fun t' r hr r' => ?_⟩
      simp only [P_pre hp, l t' r hr r']

/-- A function that goes on after a token of the type and stops otherwise. -/
theorem okAt_opt {k : TokKind} {f : List Token → Option (α × List Token)} {f' : Token → List Token → Option (α × List Token)} {b : α}
    {A : α → List Token → Prop} {us : List Token} (h0 : ∀ us, NotNext k us → f us = some (b, us))
    (h1 : ∀ c vs, c.kind = k → f (c :: vs) = f' c vs) (a0 : A b [])
    (h : ∀ c vs, us = c :: vs → c.kind = k → OkAt (f' c) (fun a x => A a (c :: x)) vs) : OkAt f A us := by
  cases us with
  | nil =>
    intro a rest hf
    rw [h0 [] (by simp [NotNext]), Option.some.injEq, Prod.mk.injEq] at hf
    obtain ⟨rfl, rfl⟩ := hf
    refine ⟨[], rfl, a0, fun rest' hr => ?_⟩
    have : rest' = [] := by simpa using hr
    subst this
    exact h0 [] (by simp [NotNext])
  | cons c vs =>
    by_cases hk : c.kind = k
    · refine okAt_cons fun a rest hf => ?_
      simp only [h1 c _ hk] at hf ⊢
      exact h c vs rfl hk a rest hf
    · intro a rest hf
      rw [h0 _ (notNext_cons hk), Option.some.injEq, Prod.mk.injEq] at hf
      obtain ⟨rfl, rfl⟩ := hf
      refine ⟨[], rfl, a0, fun rest' hr => ?_⟩
      cases rest' with
      | nil => simp at hr
      | cons c' vs' =>
        simp only [List.head?_cons, Option.some.injEq] at hr
        subst hr
        exact h0 _ (notNext_cons hk)

theorem badAt_opt {k : TokKind} {f : List Token → Option (α × List Token)} {f' : Token → List Token → Option (α × List Token)} {b : α}
    {g g' : List Token → List Token} {W : List Token → Prop} {us : List Token} (h0 : ∀ us, NotNext k us → f us = some (b, us))
    (h1 : ∀ c vs, c.kind = k → f (c :: vs) = f' c vs) (hg : ∀ c vs, us = c :: vs → c.kind = k → g us = g' vs)
    (h : ∀ c vs, us = c :: vs → c.kind = k → BadAt (f' c) g' (fun x => W (c :: x)) vs) : BadAt f g W us := by
  cases us with
  | nil => exact badAt_some (h0 [] (by simp [NotNext]))
  | cons c vs =>
    by_cases hk : c.kind = k
    · refine badAt_cons (g' := g') (hg c vs rfl hk) fun hf => ?_
      simp only [h1 c _ hk] at hf ⊢
      exact h c vs rfl hk hf
    · exact badAt_some (h0 _ (notNext_cons hk))

/-- The rest of `expressionList` after an expression. -/
def moreS (e : PExpr) (us : List Token) : Option (List PExpr × List Token) :=
  match expect comma us with
  | none => some ([e], us)
  | some vs => match S vs with
    | none => none
    | some (es, ws) => some (e :: es, ws)

/-- The rest of `indexEntry` after an expression. -/
def moreN (a : PExpr) (us : List Token) : Option (PEntry × List Token) :=
  match expect colon us with
  | none => some (.item a, us)
  | some vs => match E 0 vs with
    | none => none
    | some (b, ws) => some (.range a b, ws)

/-- The rest of `indexList` after an entry. -/
def moreX (e : PEntry) (us : List Token) : Option (List PEntry × List Token) :=
  match expect comma us with
  | none => some ([e], us)
  | some vs => match X vs with
    | none => none
    | some (es, ws) => some (e :: es, ws)

theorem then_S (us : List Token) : Then (E 0 us) none moreS (S us) :=
  ⟨fun h => by rw [S_eq, h], fun a vs h => by rw [S_eq, h]; rfl⟩

theorem then_N (us : List Token) : Then (E 0 us) none moreN (N us) :=
  ⟨fun h => by rw [N_eq, h], fun a vs h => by rw [N_eq, h]; rfl⟩

theorem then_X (us : List Token) : Then (N us) none moreX (X us) :=
  ⟨fun h => by rw [X_eq, h], fun a vs h => by rw [X_eq, h]; rfl⟩

/-- A function of which only the value is changed. -/
theorem okAt_map {f : List Token → Option (α × List Token)} {f' : List Token → Option (β × List Token)} {g : α → β}
    {A : α → List Token → Prop} {A' : β → List Token → Prop} {ts : List Token} (hf : ∀ us, f' us = (f us).map fun x => (g x.1, x.2))
    (h : OkAt f A ts) (hA : ∀ a c, A a c → A' (g a) c) : OkAt f' A' ts := by
  intro b rest hb
  simp only [hf, Option.map_eq_some_iff, Prod.mk.injEq, Prod.exists] at hb
  obtain ⟨a, us, h1, rfl, rfl⟩ := hb
  obtain ⟨c, e, ha, l⟩ := h a us h1
  exact ⟨c, e, hA a c ha, fun rest' hr => by simp [hf, l rest' hr]⟩

theorem badAt_map {f : List Token → Option (α × List Token)} {f' : List Token → Option (β × List Token)} {h' : α → β}
    {g : List Token → List Token} {W W' : List Token → Prop} {ts : List Token} (hf : ∀ us, f' us = (f us).map fun x => (h' x.1, x.2))
    (h : BadAt f g W ts) (hW : ∀ c, W c → W' c) : BadAt f' g W' ts := by
  intro hb
  simp only [hf, Option.map_eq_none_iff] at hb
  obtain ⟨c, e, w, l⟩ := h hb
  exact ⟨c, e, hW c w, fun t r hr r' => by simp [hf, l t r hr r']⟩

theorem stops (ts : List Token) : Stops ts := by
  generalize hn : ts.length = n
  induction n using Nat.strongRecOn generalizing ts with
  | _ n ih =>
  subst hn
  replace ih : ∀ us : List Token, us.length < ts.length → Stops us := fun us h => ih _ h us rfl
  have okL : ∀ p e, OkAt (L p e) (fun e' c => ∀ us, Derives us (.expr e) → Derives (us ++ c) (.expr e')) ts := by
    intro p e
    cases ts with
    | nil =>
      intro a rest h
      simp only [L_nil, Option.some.injEq, Prod.mk.injEq] at h
      obtain ⟨rfl, rfl⟩ := h
      refine ⟨[], rfl, fun us h => by simpa using h, fun rest' hr => ?_⟩
      have : rest' = [] := by simpa using hr
      subst this
      exact L_nil p e
    | cons t ts =>
      have i1 := ih ts (by simp)
      by_cases hb : Below p (t :: ts)
      · have hL : ∀ us, L p e (t :: us) = some (e, t :: us) := fun us => L_below (fun t' us' he => by
          injection he with he1 he2; subst he1; exact hb t ts rfl)
        intro a rest h
        simp only [hL, Option.some.injEq, Prod.mk.injEq] at h
        obtain ⟨rfl, rfl⟩ := h
        refine ⟨[], rfl, fun us h => by simpa using h, fun rest' hr => ?_⟩
        cases rest' with
        | nil => simp at hr
        | cons t' us' =>
          simp only [List.head?_cons, Option.some.injEq] at hr
          subst hr
          exact hL us'
      · refine okAt_cons ?_
        cases hq : prec t.kind with
        | some q =>
          have hpq : p ≤ q := Nat.not_lt.1 fun hlt => hb (below_cons fun q' hq' => by
            rw [prec_op hq] at hq'; simp at hq'; omega)
          refine okAt_bind (f1 := E (rightPrec t.kind q)) (f2 := fun r us => L p (.bin t e r) us)
            (fun us _ => ⟨fun h => by simp only [L_bin hq hpq, h], fun a vs h => by simp only [L_bin hq hpq, h]⟩)
            (i1.okE _) (fun r us h => (ih us (by have := E_len h; simp; omega)).okL p _) ?_
          intro a b c1 c2 ha hb us hu
          have := hb _ (Derives.bin hu ((infix_iff _).2 ⟨q, hq⟩) ha)
          simpa using this
        | none =>
          have ht : t.kind = ternary ∧ p ≤ ternaryPrec := by
            refine Classical.byContradiction fun hc => hb (below_cons fun q' hq' => ?_)
            simp only [opPrec] at hq'
            split at hq'
            · rename_i hk
              simp only [Option.some.injEq] at hq'
              exact Nat.lt_of_not_le fun hle => hc ⟨hk, by omega⟩
            · rw [hq] at hq'; simp at hq'
          obtain ⟨ht, hp⟩ := ht
          refine okAt_bind (f1 := E 0) (f2 := fun a us => match one colon us with
              | none => none
              | some (_, us) => match E ternaryPrec us with
                | none => none
                | some (b, us) => L p (.tern t e a b) us)
            (A2 := fun a e' c => ∀ us vs, Derives us (.expr e) → Derives vs (.expr a) → Derives (us ++ t :: vs ++ c) (.expr e'))
            (fun us _ => ?_) (i1.okE 0) (fun a us h => ?_) ?_
          · refine ⟨fun h => by simp only [L_tern ht hp, h], fun a vs h => ?_⟩
            simp only [L_tern ht hp, h, expect_one]
            cases one colon vs <;> rfl
          · have hl := E_len h
            refine okAt_bind (f1 := one colon) (f2 := fun _ us => match E ternaryPrec us with
                | none => none
                | some (b, us) => L p (.tern t e a b) us)
              (A2 := fun x e' c => x.kind = colon → ∀ us vs, Derives us (.expr e) → Derives vs (.expr a) →
                Derives (us ++ t :: vs ++ x :: c) (.expr e'))
              (fun us _ => ⟨fun h => by simp only [h], fun a vs h => by simp only [h]⟩) (one_ok _ _) (fun x us' h' => ?_) ?_
            · have hl' : us'.length < us.length := by
                cases us with
                | nil => simp [one] at h'
                | cons y ys =>
                  simp only [one] at h'
                  split at h'
                  · simp only [Option.some.injEq, Prod.mk.injEq] at h'
                    rw [← h'.2]; simp
                  · simp at h'
              refine okAt_bind (f1 := E ternaryPrec) (f2 := fun b us => L p (.tern t e a b) us)
                (fun us _ => ⟨fun h => by simp only [h], fun a vs h => by simp only [h]⟩)
                ((ih us' (by simp; omega)).okE _) (fun r us h => (ih us (by have := E_len h; simp; omega)).okL p _) ?_
              intro b e' c1 c2 hb' hL hx us vs hu hv
              have := hL _ (Derives.tern hu ht hv hx hb')
              simpa using this
            · rintro x e' c1 c2 ⟨rfl, hx⟩ h2 us vs hu hv
              simpa using h2 hx us vs hu hv
          · intro a e' c1 c2 ha h2 us hu
            simpa using h2 us c1 hu ha
  have badL : ∀ p e fuel, 4 * ts.length + 1 ≤ fuel →
      BadAt (L p e) (stopLoop fuel p e) (fun c => ∀ us, Derives us (.expr e) → WE (us ++ c)) ts := by
    intro p e fuel hfuel
    obtain ⟨fuel, rfl⟩ : ∃ k, fuel = k + 1 := ⟨fuel - 1, by omega⟩
    cases ts with
    | nil => exact badAt_some (L_nil p e)
    | cons t ts =>
      have i1 := ih ts (by simp)
      simp only [List.length_cons] at hfuel
      by_cases hb : Below p (t :: ts)
      · exact badAt_some (L_below hb)
      · cases hq : prec t.kind with
        | some q =>
          have hpq : p ≤ q := Nat.not_lt.1 fun hlt => hb (below_cons fun q' hq' => by
            rw [prec_op hq] at hq'; simp at hq'; omega)
          have hin := (infix_iff _).2 ⟨q, hq⟩
          refine badAt_cons (g' := fun ts => stopLoop (fuel + 1) p e (t :: ts)) rfl
            (badAt_bind (f1 := E (rightPrec t.kind q)) (f2 := fun r us => L p (.bin t e r) us)
            (g2 := fun r us => stopLoop fuel p (.bin t e r) us)
            (fun us _ => ⟨fun h => by simp only [L_bin hq hpq, h], fun a vs h => by simp only [L_bin hq hpq, h]⟩) ?_
            (i1.okE _) (i1.badE _ fuel (by omega))
            (fun r us h => (ih us (by have := E_len h; simp; omega)).badL p _ fuel (by have := E_len h; omega)) ?_ ?_)
          · simp only [stopLoop, hq]
            rw [E_of (by omega)]
            exact ⟨fun h => by rw [h], fun a vs h => by rw [h]⟩
          · rintro c ⟨s, r, hs, hd⟩ us hu
            exact ⟨s, _, hs, by simpa using Derives.bin hu hin hd⟩
          · intro r c1 c2 hr h2 us hu
            simpa using h2 _ (Derives.bin hu hin hr)
        | none =>
          have ht : t.kind = ternary ∧ p ≤ ternaryPrec := by
            refine Classical.byContradiction fun hc => hb (below_cons fun q' hq' => ?_)
            simp only [opPrec] at hq'
            split at hq'
            · rename_i hk
              simp only [Option.some.injEq] at hq'
              exact Nat.lt_of_not_le fun hle => hc ⟨hk, by omega⟩
            · rw [hq] at hq'; simp at hq'
          obtain ⟨ht, hp⟩ := ht
          refine badAt_cons (g' := fun ts => stopLoop (fuel + 1) p e (t :: ts)) rfl
            (badAt_bind (f1 := E 0) (f2 := fun a us => match one colon us with
              | none => none
              | some (_, us) => match E ternaryPrec us with
                | none => none
                | some (b, us) => L p (.tern t e a b) us)
            (g2 := fun a us => match one colon us with
              | none => us
              | some (_, us) => match E ternaryPrec us with
                | none => stopExpr fuel ternaryPrec us
                | some (b, us) => stopLoop fuel p (.tern t e a b) us)
            (W2 := fun a c => ∀ us vs, Derives us (.expr e) → Derives vs (.expr a) → WE (us ++ t :: vs ++ c))
            (fun us _ => ?_) ?_ (i1.okE 0) (i1.badE 0 fuel (by omega)) (fun a us h => ?_) ?_ ?_)
          · refine ⟨fun h => by simp only [L_tern ht hp, h], fun a vs h => ?_⟩
            simp only [L_tern ht hp, h, expect_one]
            cases one colon vs <;> rfl
          · simp only [stopLoop, hq]
            rw [E_of (by omega)]
            refine ⟨fun h => by rw [h], fun a vs h => ?_⟩
            rw [h]
            have hl := E_len h
            simp only [expect_one]
            cases hx : one colon vs with
            | none => rfl
            | some x =>
              obtain ⟨x, ws⟩ := x
              simp only [Option.map_some]
              rw [E_of]
              · cases E ternaryPrec ws <;> rfl
              · have : ws.length < vs.length := by
                  cases vs with
                  | nil => simp [one] at hx
                  | cons y ys =>
                    simp only [one] at hx
                    split at hx
                    · simp only [Option.some.injEq, Prod.mk.injEq] at hx
                      rw [← hx.2]; simp
                    · simp at hx
                omega
          · have hl := E_len h
            refine badAt_bind (f1 := one colon) (g1 := id) (f2 := fun _ us => match E ternaryPrec us with
                | none => none
                | some (b, us) => L p (.tern t e a b) us)
              (g2 := fun _ us => match E ternaryPrec us with
                | none => stopExpr fuel ternaryPrec us
                | some (b, us) => stopLoop fuel p (.tern t e a b) us)
              (W2 := fun x c => x.kind = colon → ∀ us vs, Derives us (.expr e) → Derives vs (.expr a) →
                WE (us ++ t :: vs ++ x :: c))
              (fun us _ => ⟨fun h => by simp only [h], fun a vs h => by simp only [h]⟩)
              ⟨fun h => by simp only [h]; rfl, fun a vs h => by simp only [h]⟩ (one_ok _ _) (one_bad _ _) (fun x us' h' => ?_) ?_ ?_
            · have hl' : us'.length < us.length := by
                cases us with
                | nil => simp [one] at h'
                | cons y ys =>
                  simp only [one] at h'
                  split at h'
                  · simp only [Option.some.injEq, Prod.mk.injEq] at h'
                    rw [← h'.2]; simp
                  · simp at h'
              refine badAt_bind (f1 := E ternaryPrec) (g1 := stopExpr fuel ternaryPrec) (f2 := fun b us => L p (.tern t e a b) us)
                (g2 := fun b us => stopLoop fuel p (.tern t e a b) us)
                (fun us _ => ⟨fun h => by simp only [h], fun a vs h => by simp only [h]⟩)
                ⟨fun h => by simp only [h], fun a vs h => by simp only [h]⟩
                ((ih us' (by simp; omega)).okE _) ((ih us' (by simp; omega)).badE _ fuel (by omega))
                (fun r us h => (ih us (by have := E_len h; simp; omega)).badL p _ fuel (by have := E_len h; omega)) ?_ ?_
              · rintro c ⟨s, r, hs, hd⟩ hx us vs hu hv
                exact ⟨s, _, hs, by simpa using Derives.tern hu ht hv hx hd⟩
              · intro b c1 c2 hb' hL hx us vs hu hv
                simpa using hL _ (Derives.tern hu ht hv hx hb')
            · rintro c rfl us vs hu hv
              have hd := Derives.tern hu ht hv (c := clTok) rfl derives_q
              exact ⟨[clTok, qTok], _, fill_append fill_cl fill_q, by simpa using hd⟩
            · rintro x c1 c2 ⟨rfl, hx⟩ h2 us vs hu hv
              simpa using h2 hx us vs hu hv
          · rintro c ⟨s, r, hs, hd⟩ us hu
            have hd := Derives.tern hu ht hd (c := clTok) rfl derives_q
            exact ⟨s ++ [clTok, qTok], _, fill_append hs (fill_append fill_cl fill_q), by simpa using hd⟩
          · intro a c1 c2 ha h2 us hu
            simpa using h2 us c1 hu ha
  have okE : ∀ p, OkAt (E p) (fun e c => Derives c (.expr e)) ts := by
    intro p
    refine okAt_bind (f1 := P) (f2 := fun e us => L p e us)
      (fun us _ => ⟨fun h => by rw [E_eq, h], fun a vs h => by rw [E_eq, h]⟩) (okP ih)
      (fun e us h => (ih us (P_len h)).okL p e) ?_
    intro a b c1 c2 ha hb
    exact hb _ ha
  have badE : ∀ p fuel, 4 * ts.length + 2 ≤ fuel → BadAt (E p) (stopExpr fuel p) WE ts := by
    intro p fuel hfuel
    obtain ⟨fuel, rfl⟩ : ∃ k, fuel = k + 1 := ⟨fuel - 1, by omega⟩
    refine badAt_bind (f1 := P) (g1 := stopPrimary fuel) (f2 := fun e us => L p e us) (g2 := fun e us => stopLoop fuel p e us)
      (fun us _ => ⟨fun h => by rw [E_eq, h], fun a vs h => by rw [E_eq, h]⟩) ?_ (okP ih) (badP ih fuel (by omega))
      (fun e us h => (ih us (P_len h)).badL p e fuel (by have := P_len h; omega)) (fun _ h => h) (fun a c1 c2 ha h => h _ ha)
    simp only [stopExpr]
    rw [P_of (by omega)]
    exact ⟨fun h => by rw [h], fun a vs h => by rw [h]⟩
  have okN : OkAt N (fun i c => Derives c (.entry i)) ts := by
    refine okAt_bind (fun us _ => then_N us) (okE 0) (fun a us h =>
      okAt_opt (k := colon) (b := .item a) (A := fun i c => ∀ vs, Derives vs (.expr a) → Derives (vs ++ c) (.entry i))
      (f' := fun _ vs => match E 0 vs with
        | none => none
        | some (b, ws) => some (.range a b, ws))
      (fun us h => by simp [moreN, expect_none h]) (fun c vs hc => by simp [moreN, expect_cons hc])
      (fun vs hv => by simpa using Derives.item hv)
      (fun c vs he hc => okAt_map (f := E 0) (g := PEntry.range a) (fun us => by cases E 0 us <;> rfl)
        ((ih vs (by have := E_len h; subst he; simp at this; omega)).okE 0)
        (fun b c' hb ws hw => by simpa using Derives.range hw hc hb))) ?_
    intro a b c1 c2 ha hb
    exact hb _ ha
  have badN : ∀ fuel, 4 * ts.length + 3 ≤ fuel → BadAt N (stopIndexEntry fuel) WN ts := by
    intro fuel hfuel
    obtain ⟨fuel, rfl⟩ : ∃ k, fuel = k + 1 := ⟨fuel - 1, by omega⟩
    refine badAt_bind (g1 := stopExpr fuel 0) (g2 := fun a us => match expect colon us with | none => us | some us => stopExpr fuel 0 us)
      (fun us _ => then_N us) ?_ (okE 0) (badE 0 fuel (by omega)) (fun a us h =>
      badAt_opt (k := colon) (b := .item a) (g' := stopExpr fuel 0) (W := fun c => ∀ vs, Derives vs (.expr a) → WN (vs ++ c))
      (f' := fun _ vs => match E 0 vs with
        | none => none
        | some (b, ws) => some (.range a b, ws))
      (fun us h => by simp [moreN, expect_none h]) (fun c vs hc => by simp [moreN, expect_cons hc])
      (fun c vs he hc => by subst he; simp [expect_cons hc])
      (fun c vs he hc => badAt_map (f := E 0) (h' := PEntry.range a) (fun us => by cases E 0 us <;> rfl)
        ((ih vs (by have := E_len h; subst he; simp at this; omega)).badE 0 fuel (by have := E_len h; subst he; simp at this; omega))
        (fun c' ⟨s, b, hs, hb⟩ ws hw => ⟨s, _, hs, by simpa using Derives.range hw hc hb⟩))) (fun _ => WN_of_WE) ?_
    · simp only [stopIndexEntry]
      rw [E_of (by omega)]
      exact ⟨fun h => by rw [h], fun a vs h => by rw [h]; rfl⟩
    · intro a c1 c2 ha hb
      exact hb _ ha
  have okS : OkAt S (fun i c => Derives c (.exprs i)) ts := by
    refine okAt_bind (fun us _ => then_S us) (okE 0) (fun a us h =>
      okAt_opt (k := comma) (b := [a]) (A := fun i c => ∀ vs, Derives vs (.expr a) → Derives (vs ++ c) (.exprs i))
      (f' := fun _ vs => match S vs with
        | none => none
        | some (b, ws) => some (a :: b, ws))
      (fun us h => by simp [moreS, expect_none h]) (fun c vs hc => by simp [moreS, expect_cons hc])
      (fun vs hv => by simpa using Derives.expr1 hv)
      (fun c vs he hc => okAt_map (f := S) (g := List.cons a) (fun us => by cases S us <;> rfl)
        ((ih vs (by have := E_len h; subst he; simp at this; omega)).okS)
        (fun b c' hb ws hw => by simpa using Derives.exprN hw hc hb))) ?_
    intro a b c1 c2 ha hb
    exact hb _ ha
  have badS : ∀ fuel, 4 * ts.length + 3 ≤ fuel → BadAt S (stopExprList fuel) WS ts := by
    intro fuel hfuel
    obtain ⟨fuel, rfl⟩ : ∃ k, fuel = k + 1 := ⟨fuel - 1, by omega⟩
    refine badAt_bind (g1 := stopExpr fuel 0) (g2 := fun a us => match expect comma us with | none => us | some us => stopExprList fuel us)
      (fun us _ => then_S us) ?_ (okE 0) (badE 0 fuel (by omega)) (fun a us h =>
      badAt_opt (k := comma) (b := [a]) (g' := stopExprList fuel) (W := fun c => ∀ vs, Derives vs (.expr a) → WS (vs ++ c))
      (f' := fun _ vs => match S vs with
        | none => none
        | some (b, ws) => some (a :: b, ws))
      (fun us h => by simp [moreS, expect_none h]) (fun c vs hc => by simp [moreS, expect_cons hc])
      (fun c vs he hc => by subst he; simp [expect_cons hc])
      (fun c vs he hc => badAt_map (f := S) (h' := List.cons a) (fun us => by cases S us <;> rfl)
        ((ih vs (by have := E_len h; subst he; simp at this; omega)).badS fuel (by have := E_len h; subst he; simp at this; omega))
        (fun c' ⟨s, b, hs, hb⟩ ws hw => ⟨s, _, hs, by simpa using Derives.exprN hw hc hb⟩))) (fun _ => WS_of_WE) ?_
    · simp only [stopExprList]
      rw [E_of (by omega)]
      exact ⟨fun h => by rw [h], fun a vs h => by rw [h]; rfl⟩
    · intro a c1 c2 ha hb
      exact hb _ ha
  have okX : OkAt X (fun i c => Derives c (.entries i)) ts := by
    refine okAt_bind (fun us _ => then_X us) okN (fun a us h =>
      okAt_opt (k := comma) (b := [a]) (A := fun i c => ∀ vs, Derives vs (.entry a) → Derives (vs ++ c) (.entries i))
      (f' := fun _ vs => match X vs with
        | none => none
        | some (b, ws) => some (a :: b, ws))
      (fun us h => by simp [moreX, expect_none h]) (fun c vs hc => by simp [moreX, expect_cons hc])
      (fun vs hv => by simpa using Derives.entry1 hv)
      (fun c vs he hc => okAt_map (f := X) (g := List.cons a) (fun us => by cases X us <;> rfl)
        ((ih vs (by have := N_len h; subst he; simp at this; omega)).okX)
        (fun b c' hb ws hw => by simpa using Derives.entryN hw hc hb))) ?_
    intro a b c1 c2 ha hb
    exact hb _ ha
  have badX : ∀ fuel, 4 * ts.length + 4 ≤ fuel → BadAt X (stopIndexList fuel) WX ts := by
    intro fuel hfuel
    obtain ⟨fuel, rfl⟩ : ∃ k, fuel = k + 1 := ⟨fuel - 1, by omega⟩
    refine badAt_bind (g1 := stopIndexEntry fuel) (g2 := fun a us => match expect comma us with | none => us | some us => stopIndexList fuel us)
      (fun us _ => then_X us) ?_ okN (badN fuel (by omega)) (fun a us h =>
      badAt_opt (k := comma) (b := [a]) (g' := stopIndexList fuel) (W := fun c => ∀ vs, Derives vs (.entry a) → WX (vs ++ c))
      (f' := fun _ vs => match X vs with
        | none => none
        | some (b, ws) => some (a :: b, ws))
      (fun us h => by simp [moreX, expect_none h]) (fun c vs hc => by simp [moreX, expect_cons hc])
      (fun c vs he hc => by subst he; simp [expect_cons hc])
      (fun c vs he hc => badAt_map (f := X) (h' := List.cons a) (fun us => by cases X us <;> rfl)
        ((ih vs (by have := N_len h; subst he; simp at this; omega)).badX fuel (by have := N_len h; subst he; simp at this; omega))
        (fun c' ⟨s, b, hs, hb⟩ ws hw => ⟨s, _, hs, by simpa using Derives.entryN hw hc hb⟩))) (fun _ => WX_of_WN) ?_
    · simp only [stopIndexList]
      rw [N_of (by omega)]
      exact ⟨fun h => by rw [h], fun a vs h => by rw [h]; rfl⟩
    · intro a c1 c2 ha hb
      exact hb _ ha
  exact ⟨okE, badE, okL, badL, okS, badS, okN, badN, okX, badX⟩

end Qasm.Parser
