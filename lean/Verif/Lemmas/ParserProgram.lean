import Verif.Lemmas.ParserAccept
/-!
# Statements and programs
-/

namespace Qasm.Parser

open TokKind Spec

/-! ## The end of a statement -/

/-- Token types that end a statement. -/
def endKinds : List TokKind := [newLine, semicolon, eof]

theorem atEnd_iff {ts : List Token} : atEnd ts = true ↔ ∃ t us, ts = t :: us ∧ t.kind ∈ endKinds := by
  cases ts with
  | nil => simp [atEnd]
  | cons t us => simp [atEnd, isSeparator, endKinds, or_assoc]

theorem atEnd_follow {ts : List Token} (h : atEnd ts = true) :
    Shut ts ∧ Below 0 ts ∧ NotNext comma ts ∧ NotNext openParens ts := by
  obtain ⟨t, us, rfl, ht⟩ := atEnd_iff.1 h
  simp only [endKinds, List.mem_cons, List.not_mem_nil, or_false] at ht
  refine ⟨?_, ?_, ?_, ?_⟩
  · rcases ht with ht | ht | ht <;> exact shut_kind ht (by decide) (by decide)
  · rcases ht with ht | ht | ht <;> exact below_kind ht (by decide)
  · rcases ht with ht | ht | ht <;> exact notNext_cons (by rw [ht]; decide)
  · rcases ht with ht | ht | ht <;> exact notNext_cons (by rw [ht]; decide)

theorem split_end {us us' rest rest' : List Token} (h : us ++ rest = us' ++ rest') (hu : ∀ t ∈ us, t.kind ∉ endKinds)
    (hu' : ∀ t ∈ us', t.kind ∉ endKinds) (hr : atEnd rest = true) (hr' : atEnd rest' = true) : us = us' ∧ rest = rest' := by
  obtain ⟨t, ts, rfl, ht⟩ := atEnd_iff.1 hr
  obtain ⟨t', ts', rfl, ht'⟩ := atEnd_iff.1 hr'
  induction us generalizing us' with
  | nil =>
    cases us' with
    | nil => exact ⟨rfl, by simpa using h⟩
    | cons u us' =>
      simp only [List.nil_append, List.cons_append, List.cons.injEq] at h
      obtain ⟨rfl, -⟩ := h
      exact absurd ht (hu' _ (by simp))
  | cons u us ih =>
    cases us' with
    | nil =>
      simp only [List.nil_append, List.cons_append, List.cons.injEq] at h
      obtain ⟨rfl, -⟩ := h
      exact absurd ht' (hu _ (by simp))
    | cons u' us' =>
      simp only [List.cons_append, List.cons.injEq] at h
      obtain ⟨rfl, h⟩ := h
      obtain ⟨rfl, h2⟩ := ih (fun t ht => hu t (List.mem_cons_of_mem _ ht)) (fun t ht => hu' t (List.mem_cons_of_mem _ ht)) h
      exact ⟨rfl, h2⟩

/-- Token types no expression has: the ends of statements and `=`. -/
def foreign : List TokKind := equals :: endKinds

theorem not_foreign {k j : TokKind} (h : k = j) (hj : j ∉ foreign) : k ∉ foreign := h ▸ hj

theorem mem_not_foreign {k : TokKind} {l : List TokKind} (h : k ∈ l) (hl : ∀ j ∈ l, j ∉ foreign) : k ∉ foreign := hl k h

theorem derives_foreign {us : List Token} {x : Phrase} (h : Derives us x) : ∀ t ∈ us, t.kind ∉ foreign := by
  induction h with
  | parens ho _ hc ih =>
    intro t ht
    simp only [List.mem_append, List.mem_cons, List.not_mem_nil, or_false] at ht
    rcases ht with (rfl | ht) | rfl
    · exact not_foreign ho (by decide)
    · exact ih t ht
    · exact not_foreign hc (by decide)
  | pre ho _ ih =>
    intro t ht
    rcases List.mem_cons.1 ht with rfl | ht
    · exact mem_not_foreign ho (by decide)
    · exact ih t ht
  | bin _ ho _ ih ih' =>
    intro t ht
    simp only [List.mem_append, List.mem_cons] at ht
    rcases ht with ht | rfl | ht
    · exact ih t ht
    · exact mem_not_foreign ho (by decide)
    · exact ih' t ht
  | tern _ ho _ hc _ ih ih' ih'' =>
    intro t ht
    simp only [List.mem_append, List.mem_cons] at ht
    rcases ht with (ht | rfl | ht) | rfl | ht
    · exact ih t ht
    · exact not_foreign ho (by decide)
    · exact ih' t ht
    · exact not_foreign hc (by decide)
    · exact ih'' t ht
  | call0 hn ho hc =>
    intro t ht
    simp only [List.mem_cons, List.not_mem_nil, or_false] at ht
    rcases ht with rfl | rfl | rfl
    · exact not_foreign hn (by decide)
    · exact not_foreign ho (by decide)
    · exact not_foreign hc (by decide)
  | call hn ho _ hc ih =>
    intro t ht
    simp only [List.cons_append, List.mem_append, List.mem_cons, List.not_mem_nil, or_false] at ht
    rcases ht with rfl | rfl | ht | rfl
    · exact not_foreign hn (by decide)
    · exact not_foreign ho (by decide)
    · exact ih t ht
    · exact not_foreign hc (by decide)
  | index hn ho _ hc ih =>
    intro t ht
    simp only [List.cons_append, List.mem_append, List.mem_cons, List.not_mem_nil, or_false] at ht
    rcases ht with rfl | rfl | ht | rfl
    · exact not_foreign hn (by decide)
    · exact not_foreign ho (by decide)
    · exact ih t ht
    · exact not_foreign hc (by decide)
  | atom h =>
    intro t ht
    simp only [List.mem_cons, List.not_mem_nil, or_false] at ht
    subst ht
    exact mem_not_foreign h (by decide)
  | expr1 _ ih => exact ih
  | item _ ih => exact ih
  | entry1 _ ih => exact ih
  | exprN _ hc _ ih ih' =>
    intro t ht
    simp only [List.mem_append, List.mem_cons] at ht
    rcases ht with ht | rfl | ht
    · exact ih t ht
    · exact not_foreign hc (by decide)
    · exact ih' t ht
  | range _ hc _ ih ih' =>
    intro t ht
    simp only [List.mem_append, List.mem_cons] at ht
    rcases ht with ht | rfl | ht
    · exact ih t ht
    · exact not_foreign hc (by decide)
    · exact ih' t ht
  | entryN _ hc _ ih ih' =>
    intro t ht
    simp only [List.mem_append, List.mem_cons] at ht
    rcases ht with ht | rfl | ht
    · exact ih t ht
    · exact not_foreign hc (by decide)
    · exact ih' t ht

theorem gate_foreign {us : List Token} {g : PGate} (h : DerivesGate us g) : ∀ t ∈ us, t.kind ∉ foreign := by
  induction h with
  | inv hk hd _ ih =>
    intro t ht
    simp only [List.mem_cons] at ht
    rcases ht with rfl | rfl | ht
    · exact not_foreign hk (by decide)
    · exact not_foreign hd (by decide)
    · exact ih t ht
  | ctrl hk hd _ ih =>
    intro t ht
    simp only [List.mem_cons] at ht
    rcases ht with rfl | rfl | ht
    · exact not_foreign hk (by decide)
    · exact not_foreign hd (by decide)
    · exact ih t ht
  | pow hk ho he hc hd _ ih =>
    intro t ht
    simp only [List.cons_append, List.mem_append, List.mem_cons] at ht
    rcases ht with rfl | rfl | ht | rfl | rfl | ht
    · exact not_foreign hk (by decide)
    · exact not_foreign ho (by decide)
    · exact derives_foreign he t ht
    · exact not_foreign hc (by decide)
    · exact not_foreign hd (by decide)
    · exact ih t ht
  | named hn =>
    intro t ht
    simp only [List.mem_cons, List.not_mem_nil, or_false] at ht
    subst ht
    exact not_foreign hn (by decide)
  | parameters hn ho he hc =>
    intro t ht
    simp only [List.cons_append, List.mem_append, List.mem_cons, List.not_mem_nil, or_false] at ht
    rcases ht with rfl | rfl | ht | rfl
    · exact not_foreign hn (by decide)
    · exact not_foreign ho (by decide)
    · exact derives_foreign he t ht
    · exact not_foreign hc (by decide)

theorem foreign_end {k : TokKind} (h : k ∉ foreign) : k ∉ endKinds := fun hc => h (by simp [foreign, hc])

/-- No token of a statement ends it. -/
theorem stmt_end {us : List Token} {s : PStmt} (h : DerivesStmt us s) : ∀ t ∈ us, t.kind ∉ endKinds := by
  cases h with
  | var hk hn =>
    intro t ht
    simp only [List.mem_cons, List.not_mem_nil, or_false] at ht
    rcases ht with rfl | rfl
    · exact foreign_end (mem_not_foreign hk (by decide))
    · exact foreign_end (not_foreign hn (by decide))
  | array hk ho hn hc hi =>
    intro t ht
    simp only [List.mem_cons, List.not_mem_nil, or_false] at ht
    rcases ht with rfl | rfl | rfl | rfl | rfl
    · exact foreign_end (mem_not_foreign hk (by decide))
    · exact foreign_end (not_foreign ho (by decide))
    · exact foreign_end (not_foreign hn (by decide))
    · exact foreign_end (not_foreign hc (by decide))
    · exact foreign_end (not_foreign hi (by decide))
  | gate hg he =>
    intro t ht
    rcases List.mem_append.1 ht with ht | ht
    · exact foreign_end (gate_foreign hg t ht)
    · exact foreign_end (derives_foreign he t ht)
  | measure hb heq hk hq =>
    intro t ht
    simp only [List.mem_append, List.mem_cons] at ht
    rcases ht with ht | rfl | rfl | ht
    · exact foreign_end (derives_foreign hb t ht)
    · rw [heq]; decide
    · rw [hk]; decide
    · exact foreign_end (derives_foreign hq t ht)
  | measureParameters hb heq hk ho he hc hq =>
    intro t ht
    simp only [List.mem_append, List.mem_cons] at ht
    rcases ht with (ht | rfl | rfl | rfl | ht) | rfl | ht
    · exact foreign_end (derives_foreign hb t ht)
    · rw [heq]; decide
    · rw [hk]; decide
    · rw [ho]; decide
    · exact foreign_end (derives_foreign he t ht)
    · rw [hc]; decide
    · exact foreign_end (derives_foreign hq t ht)
  | simple hk he =>
    intro t ht
    rcases List.mem_cons.1 ht with rfl | ht
    · exact foreign_end (mem_not_foreign hk (by decide))
    · exact foreign_end (derives_foreign he t ht)
  | wait hk ho hp hc he =>
    intro t ht
    simp only [List.cons_append, List.mem_append, List.mem_cons] at ht
    rcases ht with rfl | rfl | ht | rfl | ht
    · rw [hk]; decide
    · rw [ho]; decide
    · exact foreign_end (derives_foreign hp t ht)
    · rw [hc]; decide
    · exact foreign_end (derives_foreign he t ht)
  | asm hk ho hn hc hr =>
    intro t ht
    simp only [List.mem_cons, List.not_mem_nil, or_false] at ht
    rcases ht with rfl | rfl | rfl | rfl | rfl
    · rw [hk]; decide
    · rw [ho]; decide
    · rw [hn]; decide
    · rw [hc]; decide
    · rw [hr]; decide

/-! ## Pieces -/

theorem ifAtEnd_some {α : Type} {x : Option (α × List Token)} {a : α} {ts : List Token} :
    ifAtEnd x = some (a, ts) ↔ x = some (a, ts) ∧ atEnd ts = true := by
  cases x with
  | none => simp [ifAtEnd]
  | some y =>
    obtain ⟨b, us⟩ := y
    simp only [ifAtEnd, Option.some.injEq, Prod.mk.injEq]
    split
    · simp; rintro _ rfl; assumption
    · rename_i hn; simp; rintro _ rfl; simpa using hn

theorem parenthesised_eq (ts : List Token) : parenthesised ts = (expect openParens ts).bind fun ts =>
    (S ts).bind fun x => (expect closeParens x.2).bind fun ts => some (x.1, ts) := rfl

theorem parenthesised_sound {ts rest : List Token} {es : List PExpr} (h : parenthesised ts = some (es, rest)) :
    ∃ o us c, ts = o :: us ++ c :: rest ∧ o.kind = openParens ∧ c.kind = closeParens ∧ Derives us (.exprs es) ∧ ∀ e ∈ es, Grouped e := by
  rw [parenthesised_eq] at h
  simp only [Option.bind_eq_some_iff] at h
  obtain ⟨us, h1, ⟨es', vs⟩, h2, ws, h3, h4⟩ := h
  simp at h4; obtain ⟨rfl, rfl⟩ := h4
  obtain ⟨o, rfl, ho⟩ := expect_some h1
  obtain ⟨c, hc', hc⟩ := expect_some h3
  simp only at hc'; subst hc'
  obtain ⟨xs, rfl, hd, hg⟩ := S_sound h2
  exact ⟨o, xs, c, by simp, ho, hc, hd, hg⟩

theorem parenthesised_complete {o c : Token} {us rest : List Token} {es : List PExpr} (ho : o.kind = openParens) (hc : c.kind = closeParens)
    (hd : Derives us (.exprs es)) (hg : ∀ e ∈ es, Grouped e) : parenthesised (o :: us ++ c :: rest) = some (es, rest) := by
  rw [parenthesised_eq]
  simp [expect_cons ho, expect_cons hc, S_complete hd hg (shut_kind hc (by decide) (by decide)) (below_kind hc (by decide))
    (notNext_cons (by rw [hc]; decide))]

theorem parenthesised_accept {o c : Token} {us rest : List Token} {es : List PExpr} (ho : o.kind = openParens) (hc : c.kind = closeParens)
    (hd : Derives us (.exprs es)) : ∃ es', parenthesised (o :: us ++ c :: rest) = some (es', rest) := by
  obtain ⟨es', h⟩ := S_accept (rest := c :: rest) hd (shut_kind hc (by decide) (by decide)) (below_kind hc (by decide)) (notNext_cons (by rw [hc]; decide))
  refine ⟨es', ?_⟩
  rw [parenthesised_eq]
  simp [expect_cons ho, expect_cons hc, h]

/-- The alternative of a named gate with parameters. -/
def withParams (t : Token) (ts : List Token) : Option ((PGate × List PExpr) × List Token) :=
  ifAtEnd ((parenthesised ts).bind fun x => (S x.2).bind fun y => some ((.named t (some x.1), y.1), y.2))

/-- The alternative of a named gate without parameters. -/
def withoutParams (t : Token) (ts : List Token) : Option ((PGate × List PExpr) × List Token) :=
  ifAtEnd ((S ts).bind fun y => some ((.named t none, y.1), y.2))

theorem G_named {f : Nat} {t : Token} {ts : List Token} (hk : t.kind = identifier) :
    gateInstruction (f + 1) (t :: ts) = (withParams t ts).or (withoutParams t ts) := by
  simp only [gateInstruction, hk]
  rfl

theorem G_inv {f : Nat} {t : Token} {ts : List Token} (hk : t.kind = inv) :
    gateInstruction (f + 1) (t :: ts) = (expect dot ts).bind fun ts =>
      (gateInstruction f ts).bind fun x => some ((.inv t x.1.1, x.1.2), x.2) := by
  simp only [gateInstruction, hk]
  rfl

theorem G_ctrl {f : Nat} {t : Token} {ts : List Token} (hk : t.kind = ctrl) :
    gateInstruction (f + 1) (t :: ts) = (expect dot ts).bind fun ts =>
      (gateInstruction f ts).bind fun x => some ((.ctrl t x.1.1, x.1.2), x.2) := by
  simp only [gateInstruction, hk]
  rfl

theorem G_pow {f : Nat} {t : Token} {ts : List Token} (hk : t.kind = pow) :
    gateInstruction (f + 1) (t :: ts) = (expect openParens ts).bind fun ts =>
      (E 0 ts).bind fun y => (expect closeParens y.2).bind fun ts => (expect dot ts).bind fun ts =>
      (gateInstruction f ts).bind fun x => some ((.pow t y.1 x.1.1, x.1.2), x.2) := by
  simp only [gateInstruction, hk]
  rfl

theorem withParams_sound {t : Token} {ts rest : List Token} {g : PGate} {es : List PExpr} (hk : t.kind = identifier)
    (h : withParams t ts = some ((g, es), rest)) :
    atEnd rest = true ∧ gateHasParameters g = true ∧ ∃ us vs, t :: ts = us ++ vs ++ rest ∧ DerivesGate us g ∧ Derives vs (.exprs es) ∧
      (∀ e ∈ gateExprs g ++ es, Grouped e) := by
  obtain ⟨h, hend⟩ := ifAtEnd_some.1 h
  simp only [Option.bind_eq_some_iff] at h
  obtain ⟨⟨ps, us⟩, h1, ⟨es', vs⟩, h2, h3⟩ := h
  simp at h3; obtain ⟨⟨rfl, rfl⟩, rfl⟩ := h3
  obtain ⟨o, xs, c, rfl, ho, hc, hd, hg⟩ := parenthesised_sound h1
  obtain ⟨ys, h4, hd', hg'⟩ := S_sound h2
  simp only at h4; subst h4
  refine ⟨hend, rfl, t :: o :: xs ++ [c], ys, by simp, .parameters hk ho hd hc, hd', ?_⟩
  intro e he
  simp only [gateExprs, Option.getD_some, List.mem_append] at he
  rcases he with he | he
  · exact hg e he
  · exact hg' e he

theorem withoutParams_sound {t : Token} {ts rest : List Token} {g : PGate} {es : List PExpr} (hk : t.kind = identifier)
    (h : withoutParams t ts = some ((g, es), rest)) :
    atEnd rest = true ∧ g = .named t none ∧ ∃ vs, ts = vs ++ rest ∧ Derives vs (.exprs es) ∧ (∀ e ∈ es, Grouped e) := by
  obtain ⟨h, hend⟩ := ifAtEnd_some.1 h
  simp only [Option.bind_eq_some_iff] at h
  obtain ⟨⟨es', vs⟩, h2, h3⟩ := h
  simp at h3; obtain ⟨⟨rfl, rfl⟩, rfl⟩ := h3
  obtain ⟨ys, rfl, hd', hg'⟩ := S_sound h2
  exact ⟨hend, rfl, ys, rfl, hd', hg'⟩

theorem gate_sound (f : Nat) : ∀ ts g es rest, gateInstruction f ts = some ((g, es), rest) →
    atEnd rest = true ∧ ∃ us vs, ts = us ++ vs ++ rest ∧ DerivesGate us g ∧ Derives vs (.exprs es) ∧ (∀ e ∈ gateExprs g ++ es, Grouped e) := by
  induction f with
  | zero => intro ts g es rest h; simp [gateInstruction] at h
  | succ f ih =>
    intro ts g es rest h
    cases ts with
    | nil => simp [gateInstruction] at h
    | cons t ts =>
      by_cases h1 : t.kind = inv
      · rw [G_inv h1] at h
        simp only [Option.bind_eq_some_iff] at h
        obtain ⟨us, h2, ⟨⟨g', es'⟩, rest'⟩, h3, h4⟩ := h
        simp at h4; obtain ⟨⟨rfl, rfl⟩, rfl⟩ := h4
        obtain ⟨d, rfl, hd⟩ := expect_some h2
        obtain ⟨he, xs, vs, rfl, h5, h6, h7⟩ := ih _ _ _ _ h3
        exact ⟨he, t :: d :: xs, vs, by simp, .inv h1 hd h5, h6, h7⟩
      by_cases h1 : t.kind = ctrl
      · rw [G_ctrl h1] at h
        simp only [Option.bind_eq_some_iff] at h
        obtain ⟨us, h2, ⟨⟨g', es'⟩, rest'⟩, h3, h4⟩ := h
        simp at h4; obtain ⟨⟨rfl, rfl⟩, rfl⟩ := h4
        obtain ⟨d, rfl, hd⟩ := expect_some h2
        obtain ⟨he, xs, vs, rfl, h5, h6, h7⟩ := ih _ _ _ _ h3
        exact ⟨he, t :: d :: xs, vs, by simp, .ctrl h1 hd h5, h6, h7⟩
      by_cases h1 : t.kind = pow
      · rw [G_pow h1] at h
        simp only [Option.bind_eq_some_iff] at h
        obtain ⟨us, h2, ⟨e, vs⟩, h3, ws, h4, xs, h5, ⟨⟨g', es'⟩, rest'⟩, h6, h7⟩ := h
        simp at h7; obtain ⟨⟨rfl, rfl⟩, rfl⟩ := h7
        obtain ⟨o, rfl, ho⟩ := expect_some h2
        obtain ⟨c, hc', hc⟩ := expect_some h4
        simp only at hc'; subst hc'
        obtain ⟨d, rfl, hd⟩ := expect_some h5
        obtain ⟨as, rfl, hde, hge, -, -⟩ := E_sound (by omega) h3
        obtain ⟨he, ys, vs, rfl, h8, h9, h10⟩ := ih _ _ _ _ h6
        refine ⟨he, t :: o :: as ++ c :: d :: ys, vs, by simp, .pow h1 ho hde hc hd h8, h9, ?_⟩
        intro e' he'
        simp only [gateExprs, List.cons_append, List.mem_cons] at he'
        rcases he' with rfl | he'
        · exact hge
        · exact h10 e' he'
      by_cases h1 : t.kind = identifier
      · rw [G_named h1] at h
        rw [Option.or_eq_some_iff] at h
        rcases h with h | ⟨-, h⟩
        · obtain ⟨he, -, h⟩ := withParams_sound h1 h
          exact ⟨he, h⟩
        · obtain ⟨he, rfl, vs, rfl, hd, hg⟩ := withoutParams_sound h1 h
          exact ⟨he, [t], vs, by simp, .named h1, hd, by simpa [gateExprs] using hg⟩
      · simp only [gateInstruction] at h
        simp at h

theorem gate_accept {us : List Token} {g : PGate} (h : DerivesGate us g) : ∀ f vs es rest, us.length ≤ f → Derives vs (.exprs es) →
    atEnd rest = true → ∃ g' es', gateInstruction f (us ++ vs ++ rest) = some ((g', es'), rest) ∧
      (gateHasParameters g = true → gateHasParameters g' = true) := by
  induction h with
  | @inv kw d us g hk hd hg ih =>
    intro f vs es rest hf he hend
    obtain ⟨f, rfl⟩ : ∃ k, f = k + 1 := ⟨f - 1, by simp at hf; omega⟩
    obtain ⟨g', es', h1, h2⟩ := ih f vs es rest (by simp at hf; omega) he hend
    refine ⟨.inv kw g', es', ?_, h2⟩
    simp only [List.cons_append]
    rw [G_inv hk]
    simp only [expect_cons hd, h1, Option.bind_some]
  | @ctrl kw d us g hk hd hg ih =>
    intro f vs es rest hf he hend
    obtain ⟨f, rfl⟩ : ∃ k, f = k + 1 := ⟨f - 1, by simp at hf; omega⟩
    obtain ⟨g', es', h1, h2⟩ := ih f vs es rest (by simp at hf; omega) he hend
    refine ⟨.ctrl kw g', es', ?_, h2⟩
    simp only [List.cons_append]
    rw [G_ctrl hk]
    simp only [expect_cons hd, h1, Option.bind_some]
  | @pow kw o c d us ws e g hk ho he hc hd hg ih =>
    intro f vs es rest hf hes hend
    obtain ⟨f, rfl⟩ : ∃ k, f = k + 1 := ⟨f - 1, by simp at hf; omega⟩
    obtain ⟨g', es', h1, h2⟩ := ih f vs es rest (by simp at hf; omega) hes hend
    obtain ⟨e', h3⟩ := E_accept (rest := c :: d :: (ws ++ (vs ++ rest))) he (shut_kind hc (by decide) (by decide)) (below_kind hc (by decide))
    refine ⟨.pow kw e' g', es', ?_, h2⟩
    simp only [List.cons_append, List.append_assoc] at h1 ⊢
    rw [G_pow hk]
    simp only [expect_cons ho, h3, expect_cons hc, expect_cons hd, h1, Option.bind_some]
  | @named name hn =>
    intro f vs es rest hf hes hend
    obtain ⟨f, rfl⟩ : ∃ k, f = k + 1 := ⟨f - 1, by simp at hf; omega⟩
    obtain ⟨h1, h2, h3, -⟩ := atEnd_follow hend
    obtain ⟨es', h4⟩ := S_accept hes h1 h2 h3
    have h5 : withoutParams name (vs ++ rest) = some ((.named name none, es'), rest) :=
      ifAtEnd_some.2 ⟨by simp [h4], hend⟩
    simp only [List.cons_append, List.nil_append]
    rw [G_named hn]
    cases h6 : withParams name (vs ++ rest) with
    | none => exact ⟨_, _, by simpa using h5, by simp [gateHasParameters]⟩
    | some x =>
      obtain ⟨⟨g', es''⟩, rest'⟩ := x
      obtain ⟨h7, -, us', vs', h8, h9, h10, -⟩ := withParams_sound hn h6
      have h11 := split_end (us := name :: vs) (us' := us' ++ vs') (by simpa using h8)
        (stmt_end (.gate (.named hn) hes)) (stmt_end (.gate h9 h10)) hend h7
      rw [← h11.2]
      exact ⟨g', es'', rfl, by simp [gateHasParameters]⟩
  | @parameters name o c us ps hn ho hps hc =>
    intro f vs es rest hf hes hend
    obtain ⟨f, rfl⟩ : ∃ k, f = k + 1 := ⟨f - 1, by simp at hf; omega⟩
    obtain ⟨h1, h2, h3, -⟩ := atEnd_follow hend
    obtain ⟨es', h4⟩ := S_accept hes h1 h2 h3
    obtain ⟨ps', h5⟩ := parenthesised_accept (rest := vs ++ rest) ho hc hps
    have h6 : withParams name (o :: us ++ c :: (vs ++ rest)) = some ((.named name (some ps'), es'), rest) :=
      ifAtEnd_some.2 ⟨by rw [h5]; simp [h4], hend⟩
    simp only [List.cons_append, List.append_assoc, List.nil_append] at h6 ⊢
    rw [G_named hn, h6]
    exact ⟨_, _, rfl, fun _ => rfl⟩

theorem gate_complete {us : List Token} {g : PGate} (h : DerivesGate us g) : ∀ f vs es rest, us.length ≤ f → Derives vs (.exprs es) →
    (∀ e ∈ gateExprs g ++ es, Grouped e) → atEnd rest = true →
    (gateHasParameters g = false → ¬ ∃ us' vs' g' es', us ++ vs = us' ++ vs' ∧ DerivesGate us' g' ∧ Derives vs' (.exprs es') ∧ gateHasParameters g' = true) →
    gateInstruction f (us ++ vs ++ rest) = some ((g, es), rest) := by
  induction h with
  | @inv kw d us g hk hd hg ih =>
    intro f vs es rest hf he hgr hend hno
    obtain ⟨f, rfl⟩ : ∃ k, f = k + 1 := ⟨f - 1, by simp at hf; omega⟩
    have h1 := ih f vs es rest (by simp at hf; omega) he hgr hend (fun hp ⟨us', vs', g', es', e1, e2, e3, e4⟩ =>
      hno hp ⟨kw :: d :: us', vs', .inv kw g', es', by simp [e1], .inv hk hd e2, e3, e4⟩)
    simp only [List.cons_append]
    rw [G_inv hk]
    simp only [expect_cons hd, h1, Option.bind_some]
  | @ctrl kw d us g hk hd hg ih =>
    intro f vs es rest hf he hgr hend hno
    obtain ⟨f, rfl⟩ : ∃ k, f = k + 1 := ⟨f - 1, by simp at hf; omega⟩
    have h1 := ih f vs es rest (by simp at hf; omega) he hgr hend (fun hp ⟨us', vs', g', es', e1, e2, e3, e4⟩ =>
      hno hp ⟨kw :: d :: us', vs', .ctrl kw g', es', by simp [e1], .ctrl hk hd e2, e3, e4⟩)
    simp only [List.cons_append]
    rw [G_ctrl hk]
    simp only [expect_cons hd, h1, Option.bind_some]
  | @pow kw o c d us ws e g hk ho he hc hd hg ih =>
    intro f vs es rest hf hes hgr hend hno
    obtain ⟨f, rfl⟩ : ∃ k, f = k + 1 := ⟨f - 1, by simp at hf; omega⟩
    have h1 := ih f vs es rest (by simp at hf; omega) hes (fun e he => hgr e (by simp [gateExprs] at he ⊢; exact .inr he)) hend
      (fun hp ⟨us', vs', g', es', e1, e2, e3, e4⟩ =>
      hno hp ⟨kw :: o :: us ++ c :: d :: us', vs', .pow kw e g', es', by simp [e1], .pow hk ho he hc hd e2, e3, e4⟩)
    have h3 := E_complete (rest := c :: d :: (ws ++ (vs ++ rest))) he (hgr e (by simp [gateExprs])) (shut_kind hc (by decide) (by decide)) (below_kind hc (by decide))
    simp only [List.cons_append, List.append_assoc] at h1 ⊢
    rw [G_pow hk]
    simp only [expect_cons ho, h3, expect_cons hc, expect_cons hd, h1, Option.bind_some]
  | @named name hn =>
    intro f vs es rest hf hes hgr hend hno
    obtain ⟨f, rfl⟩ : ∃ k, f = k + 1 := ⟨f - 1, by simp at hf; omega⟩
    obtain ⟨h1, h2, h3, -⟩ := atEnd_follow hend
    have h4 := S_complete hes (fun e he => hgr e (by simp [he])) h1 h2 h3
    have h5 : withoutParams name (vs ++ rest) = some ((.named name none, es), rest) :=
      ifAtEnd_some.2 ⟨by simp [h4], hend⟩
    simp only [List.cons_append, List.nil_append]
    rw [G_named hn]
    cases h6 : withParams name (vs ++ rest) with
    | none => simpa using h5
    | some x =>
      exfalso
      obtain ⟨⟨g', es''⟩, rest'⟩ := x
      obtain ⟨h7, hp, us', vs', h8, h9, h10, -⟩ := withParams_sound hn h6
      have h11 := split_end (us := name :: vs) (us' := us' ++ vs') (by simpa using h8)
        (stmt_end (.gate (.named hn) hes)) (stmt_end (.gate h9 h10)) hend h7
      exact hno rfl ⟨us', vs', g', es'', h11.1, h9, h10, hp⟩
  | @parameters name o c us ps hn ho hps hc =>
    intro f vs es rest hf hes hgr hend _
    obtain ⟨f, rfl⟩ : ∃ k, f = k + 1 := ⟨f - 1, by simp at hf; omega⟩
    obtain ⟨h1, h2, h3, -⟩ := atEnd_follow hend
    have h4 := S_complete hes (fun e he => hgr e (by simp [he])) h1 h2 h3
    have h5 := parenthesised_complete (rest := vs ++ rest) ho hc hps (fun e he => hgr e (by simp [gateExprs, he]))
    have h6 : withParams name (o :: us ++ c :: (vs ++ rest)) = some ((.named name (some ps), es), rest) :=
      ifAtEnd_some.2 ⟨by rw [h5]; simp [h4], hend⟩
    simp only [List.cons_append, List.append_assoc, List.nil_append] at h6 ⊢
    rw [G_named hn, h6]
    rfl

/-! ## Measurements -/

/-- The alternative of a measurement with parameters. -/
def mWith (kw : Token) (b : PExpr) (ts : List Token) : Option (PStmt × List Token) :=
  ifAtEnd ((parenthesised ts).bind fun x => (E 0 x.2).bind fun y => some (.measure kw (some x.1) b y.1, y.2))

/-- The alternative of a measurement without parameters. -/
def mWithout (kw : Token) (b : PExpr) (ts : List Token) : Option (PStmt × List Token) :=
  ifAtEnd ((E 0 ts).bind fun y => some (.measure kw none b y.1, y.2))

theorem M_some {ts rest : List Token} {s : PStmt} : measureInstruction ts = some (s, rest) ↔
    ∃ b eq kw us, E 0 ts = some (b, eq :: kw :: us) ∧ eq.kind = equals ∧ kw.kind = TokKind.measure ∧
      (mWith kw b us).or (mWithout kw b us) = some (s, rest) := by
  have h : measureInstruction ts = (E 0 ts).bind fun y => (expect equals y.2).bind fun us =>
      match us with
      | [] => none
      | kw :: us => if kw.kind ≠ TokKind.measure then none else (mWith kw y.1 us).or (mWithout kw y.1 us) := rfl
  rw [h]
  simp only [Option.bind_eq_some_iff]
  constructor
  · rintro ⟨⟨b, vs⟩, h1, us, h2, h3⟩
    obtain ⟨eq, h2', heq⟩ := expect_some h2
    simp only at h2'; subst h2'
    cases us with
    | nil => simp at h3
    | cons kw us =>
      simp only at h3
      split at h3
      · simp at h3
      · rename_i hk
        exact ⟨b, eq, kw, us, h1, heq, by simpa using hk, h3⟩
  · rintro ⟨b, eq, kw, us, h1, heq, hk, h3⟩
    exact ⟨⟨b, eq :: kw :: us⟩, h1, kw :: us, expect_cons heq, by simpa [hk] using h3⟩

theorem mWith_sound {kw : Token} {b : PExpr} {ts rest : List Token} {s : PStmt} (h : mWith kw b ts = some (s, rest)) :
    atEnd rest = true ∧ ∃ o us c vs ps q, ts = o :: us ++ c :: vs ++ rest ∧ s = .measure kw (some ps) b q ∧ o.kind = openParens ∧
      c.kind = closeParens ∧ Derives us (.exprs ps) ∧ Derives vs (.expr q) ∧ (∀ e ∈ ps, Grouped e) ∧ Grouped q := by
  obtain ⟨h, hend⟩ := ifAtEnd_some.1 h
  simp only [Option.bind_eq_some_iff] at h
  obtain ⟨⟨ps, us⟩, h1, ⟨q, vs⟩, h2, h3⟩ := h
  simp at h3; obtain ⟨rfl, rfl⟩ := h3
  obtain ⟨o, xs, c, rfl, ho, hc, hd, hg⟩ := parenthesised_sound h1
  obtain ⟨ys, h4, hd', hg', -, -⟩ := E_sound (by omega) h2
  simp only at h4; subst h4
  exact ⟨hend, o, xs, c, ys, ps, q, by simp, rfl, ho, hc, hd, hd', hg, hg'⟩

theorem mWithout_sound {kw : Token} {b : PExpr} {ts rest : List Token} {s : PStmt} (h : mWithout kw b ts = some (s, rest)) :
    atEnd rest = true ∧ ∃ vs q, ts = vs ++ rest ∧ s = .measure kw none b q ∧ Derives vs (.expr q) ∧ Grouped q := by
  obtain ⟨h, hend⟩ := ifAtEnd_some.1 h
  simp only [Option.bind_eq_some_iff] at h
  obtain ⟨⟨q, vs⟩, h2, h3⟩ := h
  simp at h3; obtain ⟨rfl, rfl⟩ := h3
  obtain ⟨ys, rfl, hd', hg', -, -⟩ := E_sound (by omega) h2
  exact ⟨hend, ys, q, rfl, rfl, hd', hg'⟩

theorem measure_sound {ts rest : List Token} {s : PStmt} (h : measureInstruction ts = some (s, rest)) :
    atEnd rest = true ∧ ∃ us, ts = us ++ rest ∧ DerivesStmt us s ∧ (∀ e ∈ stmtExprs s, Grouped e) := by
  obtain ⟨b, eq, kw, us, h1, heq, hk, h3⟩ := M_some.1 h
  obtain ⟨bs, rfl, hdb, hgb, -, -⟩ := E_sound (by omega) h1
  rw [Option.or_eq_some_iff] at h3
  rcases h3 with h3 | ⟨-, h3⟩
  · obtain ⟨hend, o, xs, c, vs, ps, q, rfl, rfl, ho, hc, hdp, hdq, hgp, hgq⟩ := mWith_sound h3
    refine ⟨hend, bs ++ eq :: kw :: o :: xs ++ c :: vs, by simp, .measureParameters hdb heq hk ho hdp hc hdq, ?_⟩
    intro e he
    simp only [stmtExprs, Option.getD_some, List.mem_append, List.mem_cons, List.not_mem_nil, or_false] at he
    rcases he with he | rfl | rfl
    · exact hgp e he
    · exact hgb
    · exact hgq
  · obtain ⟨hend, vs, q, rfl, rfl, hdq, hgq⟩ := mWithout_sound h3
    refine ⟨hend, bs ++ eq :: kw :: vs, by simp, .measure hdb heq hk hdq, ?_⟩
    intro e he
    simp only [stmtExprs, Option.getD_none, List.nil_append, List.mem_cons, List.not_mem_nil, or_false] at he
    rcases he with rfl | rfl
    · exact hgb
    · exact hgq

theorem mWith_accept {kw o c : Token} {b q : PExpr} {us vs rest : List Token} {ps : List PExpr} (ho : o.kind = openParens)
    (hp : Derives us (.exprs ps)) (hc : c.kind = closeParens) (hq : Derives vs (.expr q)) (hend : atEnd rest = true) :
    ∃ ps' q', mWith kw b (o :: us ++ c :: vs ++ rest) = some (.measure kw (some ps') b q', rest) := by
  obtain ⟨h1, h2, h3, -⟩ := atEnd_follow hend
  obtain ⟨q', h4⟩ := E_accept hq h1 h2
  obtain ⟨ps', h5⟩ := parenthesised_accept (rest := vs ++ rest) ho hc hp
  refine ⟨ps', q', ifAtEnd_some.2 ⟨?_, hend⟩⟩
  simp only [List.cons_append, List.append_assoc] at h5 ⊢
  rw [h5]
  simp [h4]

theorem measure_accept {us : List Token} {kw : Token} {ps : Option (List PExpr)} {b q : PExpr} (h : DerivesStmt us (.measure kw ps b q))
    {rest : List Token} (hend : atEnd rest = true) :
    ∃ s', measureInstruction (us ++ rest) = some (s', rest) ∧ (ps.isSome = true → hasParameters s' = true) := by
  obtain ⟨h1, h2, h3, -⟩ := atEnd_follow hend
  cases h with
  | @measure eq _ us vs _ _ hb heq hk hq =>
    obtain ⟨b', h4⟩ := E_accept (rest := eq :: kw :: (vs ++ rest)) hb (shut_kind heq (by decide) (by decide)) (below_kind heq (by decide))
    obtain ⟨q', h5⟩ := E_accept hq h1 h2
    have h6 : mWithout kw b' (vs ++ rest) = some (.measure kw none b' q', rest) := ifAtEnd_some.2 ⟨by simp [h5], hend⟩
    simp only [List.append_assoc, List.cons_append]
    cases h7 : mWith kw b' (vs ++ rest) with
    | none => exact ⟨_, M_some.2 ⟨b', eq, kw, _, h4, heq, hk, by rw [h7]; exact h6⟩, by simp⟩
    | some x =>
      obtain ⟨s', rest'⟩ := x
      obtain ⟨hend', o, xs, c, ws, ps', q'', h8, rfl, ho, hc, hdp, hdq, -, -⟩ := mWith_sound h7
      have h9 := split_end (us := us ++ eq :: kw :: vs) (us' := us ++ eq :: kw :: o :: xs ++ c :: ws) (by simp [h8])
        (stmt_end (.measure hb heq hk hq)) (stmt_end (.measureParameters hb heq hk ho hdp hc hdq)) hend hend'
      rw [← h9.2] at h7
      exact ⟨_, M_some.2 ⟨b', eq, kw, _, h4, heq, hk, by rw [h7]; rfl⟩, by simp⟩
  | @measureParameters eq _ o c us vs ws _ _ es hb heq hk ho he hc hq =>
    obtain ⟨b', h4⟩ := E_accept (rest := eq :: kw :: o :: (vs ++ c :: (ws ++ rest))) hb (shut_kind heq (by decide) (by decide)) (below_kind heq (by decide))
    obtain ⟨ps', q', h5⟩ := mWith_accept (kw := kw) (b := b') ho he hc hq hend
    simp only [List.append_assoc, List.cons_append] at h5 ⊢
    exact ⟨_, M_some.2 ⟨b', eq, kw, _, h4, heq, hk, by rw [h5]; rfl⟩, fun _ => rfl⟩

theorem measure_complete {us : List Token} {kw : Token} {ps : Option (List PExpr)} {b q : PExpr} (h : Chosen us (.measure kw ps b q))
    {rest : List Token} (hend : atEnd rest = true) : measureInstruction (us ++ rest) = some (.measure kw ps b q, rest) := by
  obtain ⟨h, hg, hno⟩ := h
  obtain ⟨h1, h2, h3, -⟩ := atEnd_follow hend
  cases h with
  | @measure eq _ us vs _ _ hb heq hk hq =>
    have h4 := E_complete (rest := eq :: kw :: (vs ++ rest)) hb (hg b (by simp [stmtExprs])) (shut_kind heq (by decide) (by decide)) (below_kind heq (by decide))
    have h5 := E_complete hq (hg q (by simp [stmtExprs])) h1 h2
    have h6 : mWithout kw b (vs ++ rest) = some (.measure kw none b q, rest) := ifAtEnd_some.2 ⟨by simp [h5], hend⟩
    simp only [List.append_assoc, List.cons_append]
    cases h7 : mWith kw b (vs ++ rest) with
    | none => exact M_some.2 ⟨b, eq, kw, _, h4, heq, hk, by rw [h7]; exact h6⟩
    | some x =>
      exfalso
      obtain ⟨s', rest'⟩ := x
      obtain ⟨hend', o, xs, c, ws, ps', q'', h8, rfl, ho, hc, hdp, hdq, -, -⟩ := mWith_sound h7
      have h9 := split_end (us := us ++ eq :: kw :: vs) (us' := us ++ eq :: kw :: o :: xs ++ c :: ws) (by simp [h8])
        (stmt_end (.measure hb heq hk hq)) (stmt_end (.measureParameters hb heq hk ho hdp hc hdq)) hend hend'
      exact hno rfl ⟨.measure kw (some ps') b q'', by rw [h9.1]; exact .measureParameters hb heq hk ho hdp hc hdq, rfl⟩
  | @measureParameters eq _ o c us vs ws _ _ es hb heq hk ho he hc hq =>
    have h4 := E_complete (rest := eq :: kw :: o :: (vs ++ c :: (ws ++ rest))) hb (hg b (by simp [stmtExprs])) (shut_kind heq (by decide) (by decide)) (below_kind heq (by decide))
    have h5 := E_complete hq (hg q (by simp [stmtExprs])) h1 h2
    have h6 := parenthesised_complete (rest := ws ++ rest) ho hc he (fun e he => hg e (by simp [stmtExprs, he]))
    have h7 : mWith kw b (o :: (vs ++ c :: (ws ++ rest))) = some (.measure kw (some es) b q, rest) :=
      ifAtEnd_some.2 ⟨by rw [← List.cons_append, h6]; simp [h5], hend⟩
    simp only [List.append_assoc, List.cons_append]
    exact M_some.2 ⟨b, eq, kw, _, h4, heq, hk, by rw [h7]; rfl⟩

/-! ## Statements -/

theorem statement_other {t : Token} {us : List Token} (h : t.kind ∉ [qubitType, bitType, reset, init, barrier, wait, asm]) :
    statement (t :: us) = ifAtEnd (((gateInstruction (t :: us).length (t :: us)).map fun x => (.gate x.1.1 x.1.2, x.2)).or
      (measureInstruction (t :: us))) := by
  simp only [List.mem_cons, List.not_mem_nil, or_false, not_or] at h
  obtain ⟨h1, h2, h3, h4, h5, h6, h7⟩ := h
  simp only [statement]

theorem statement_type {t : Token} {us : List Token} (h : t.kind ∈ [qubitType, bitType]) :
    statement (t :: us) = ifAtEnd (variableDefinition t us) := by
  simp only [List.mem_cons, List.not_mem_nil, or_false] at h
  rcases h with h | h <;> simp only [statement, h]

theorem statement_simple {t : Token} {us : List Token} (h : t.kind ∈ [reset, init, barrier]) :
    statement (t :: us) = ifAtEnd ((E 0 us).map fun x => (.simple t x.1, x.2)) := by
  simp only [List.mem_cons, List.not_mem_nil, or_false] at h
  rcases h with h | h | h <;> simp only [statement, h] <;> rfl

theorem statement_wait {t : Token} {us : List Token} (h : t.kind = wait) :
    statement (t :: us) = ifAtEnd ((expect openParens us).bind fun us => (E 0 us).bind fun x => (expect closeParens x.2).bind fun us =>
      (E 0 us).bind fun y => some (.wait t x.1 y.1, y.2)) := by
  simp only [statement, h]
  rfl

theorem statement_asm {t : Token} {us : List Token} (h : t.kind = asm) :
    statement (t :: us) = ifAtEnd (asmDeclaration us) := by
  simp only [statement, h]

theorem var_sound {kw : Token} {ts rest : List Token} {s : PStmt} (hk : kw.kind ∈ [qubitType, bitType])
    (h : variableDefinition kw ts = some (s, rest)) : ∃ us, kw :: ts = us ++ rest ∧ DerivesStmt us s ∧ stmtExprs s = [] := by
  unfold variableDefinition at h
  split at h
  · rename_i hb
    obtain ⟨o, us, rfl, ho⟩ := next_cons hb
    simp only [List.tail_cons] at h
    split at h
    · rename_i n c name ts
      split at h
      · rename_i hc
        obtain ⟨hn, hc, hi⟩ := hc
        simp at h; obtain ⟨rfl, rfl⟩ := h
        exact ⟨[kw, o, n, c, name], by simp, .array hk ho hn hc hi, rfl⟩
      · simp at h
    · simp at h
  · split at h
    · rename_i name ts _
      split at h
      · rename_i hi
        simp at h; obtain ⟨rfl, rfl⟩ := h
        exact ⟨[kw, name], by simp, .var hk hi, rfl⟩
      · simp at h
    · simp at h

theorem statement_sound {ts rest : List Token} {s : PStmt} (h : statement ts = some (s, rest)) :
    atEnd rest = true ∧ ∃ us, ts = us ++ rest ∧ DerivesStmt us s ∧ (∀ e ∈ stmtExprs s, Grouped e) := by
  cases ts with
  | nil => simp [statement] at h
  | cons t ts =>
    by_cases h1 : t.kind ∈ [qubitType, bitType]
    · rw [statement_type h1] at h
      obtain ⟨h, hend⟩ := ifAtEnd_some.1 h
      obtain ⟨us, h2, h3, h4⟩ := var_sound h1 h
      exact ⟨hend, us, h2, h3, by simp [h4]⟩
    by_cases h2 : t.kind ∈ [reset, init, barrier]
    · rw [statement_simple h2] at h
      obtain ⟨h, hend⟩ := ifAtEnd_some.1 h
      simp only [Option.map_eq_some_iff] at h
      obtain ⟨⟨e, us⟩, h3, h4⟩ := h
      simp at h4; obtain ⟨rfl, rfl⟩ := h4
      obtain ⟨vs, rfl, hd, hg, -, -⟩ := E_sound (by omega) h3
      exact ⟨hend, t :: vs, by simp, .simple h2 hd, by simpa [stmtExprs] using hg⟩
    by_cases h3 : t.kind = wait
    · rw [statement_wait h3] at h
      obtain ⟨h, hend⟩ := ifAtEnd_some.1 h
      simp only [Option.bind_eq_some_iff] at h
      obtain ⟨us, h4, ⟨p, vs⟩, h5, ws, h6, ⟨e, xs⟩, h7, h8⟩ := h
      simp at h8; obtain ⟨rfl, rfl⟩ := h8
      obtain ⟨o, rfl, ho⟩ := expect_some h4
      obtain ⟨c, h6', hc⟩ := expect_some h6
      simp only at h6'; subst h6'
      obtain ⟨as, rfl, hd, hg, -, -⟩ := E_sound (by omega) h5
      obtain ⟨bs, rfl, hd', hg', -, -⟩ := E_sound (by omega) h7
      exact ⟨hend, t :: o :: as ++ c :: bs, by simp, .wait h3 ho hd hc hd', by simpa [stmtExprs] using ⟨hg, hg'⟩⟩
    by_cases h4 : t.kind = asm
    · rw [statement_asm h4] at h
      obtain ⟨h, hend⟩ := ifAtEnd_some.1 h
      unfold asmDeclaration at h
      split at h
      · rename_i o name c raw ts _
        split at h
        · rename_i hh
          obtain ⟨ho, hn, hc, hr⟩ := hh
          simp at h; obtain ⟨rfl, rfl⟩ := h
          exact ⟨hend, [t, o, name, c, raw], by simp, .asm h4 ho hn hc hr, by simp [stmtExprs]⟩
        · simp at h
      · simp at h
    rw [statement_other (by simp only [List.mem_cons, List.not_mem_nil, or_false, not_or] at *; simp [*])] at h
    obtain ⟨h, hend⟩ := ifAtEnd_some.1 h
    rw [Option.or_eq_some_iff] at h
    rcases h with h | ⟨-, h⟩
    · simp only [Option.map_eq_some_iff] at h
      obtain ⟨⟨⟨g, es⟩, us⟩, h5, h6⟩ := h
      simp at h6; obtain ⟨rfl, rfl⟩ := h6
      obtain ⟨-, us, vs, h7, h8, h9, h10⟩ := gate_sound _ _ _ _ _ h5
      exact ⟨hend, us ++ vs, h7, .gate h8 h9, h10⟩
    · exact measure_sound h

theorem ifAtEnd_of {α : Type} {a : α} {ts : List Token} (h : atEnd ts = true) : ifAtEnd (some (a, ts)) = some (a, ts) :=
  ifAtEnd_some.2 ⟨rfl, h⟩

/-- The first token of a derived expression. -/
theorem derives_head {us : List Token} {x : Phrase} (h : Derives us x) :
    ∃ t ts, us = t :: ts ∧ t.kind ∈ openParens :: identifier :: booleanLiteral :: integerLiteral :: floatLiteral :: prefixOps := by
  induction h with
  | parens h _ _ _ => exact ⟨_, _, rfl, by simp [h]⟩
  | pre h _ _ => exact ⟨_, _, rfl, by simp [h]⟩
  | bin _ _ _ ih _ => obtain ⟨t, ts, rfl, h⟩ := ih; exact ⟨t, _, rfl, h⟩
  | tern _ _ _ _ _ ih _ _ => obtain ⟨t, ts, rfl, h⟩ := ih; exact ⟨t, _, rfl, h⟩
  | call0 h _ _ => exact ⟨_, _, rfl, by simp [h]⟩
  | call h _ _ _ _ => exact ⟨_, _, rfl, by simp [h]⟩
  | index h _ _ _ _ => exact ⟨_, _, rfl, by simp [h]⟩
  | atom h =>
    refine ⟨_, _, rfl, ?_⟩
    simp only [List.mem_cons, List.not_mem_nil, or_false] at h
    rcases h with h | h | h | h <;> simp [h]
  | expr1 _ ih => exact ih
  | item _ ih => exact ih
  | entry1 _ ih => exact ih
  | exprN _ _ _ ih _ => obtain ⟨t, ts, rfl, h⟩ := ih; exact ⟨t, _, rfl, h⟩
  | range _ _ _ ih _ => obtain ⟨t, ts, rfl, h⟩ := ih; exact ⟨t, _, rfl, h⟩
  | entryN _ _ _ ih _ => obtain ⟨t, ts, rfl, h⟩ := ih; exact ⟨t, _, rfl, h⟩

theorem gate_head {us : List Token} {g : PGate} (h : DerivesGate us g) :
    ∃ t ts, us = t :: ts ∧ t.kind ∈ [inv, pow, ctrl, identifier] := by
  cases h with
  | inv h _ _ => exact ⟨_, _, rfl, by simp [h]⟩
  | pow h _ _ _ _ _ => exact ⟨_, _, rfl, by simp [h]⟩
  | ctrl h _ _ => exact ⟨_, _, rfl, by simp [h]⟩
  | named h => exact ⟨_, _, rfl, by simp [h]⟩
  | parameters h _ _ _ => exact ⟨_, _, rfl, by simp [h]⟩

theorem mem_not {k : TokKind} {l m : List TokKind} (h : k ∈ l) (hl : ∀ j ∈ l, j ∉ m) : k ∉ m := hl k h

/-- The tokens of a measurement are not those of a gate. -/
theorem not_gate {us : List Token} {kw : Token} {ps : Option (List PExpr)} {b q : PExpr} (h : DerivesStmt us (.measure kw ps b q))
    {rest : List Token} (hend : atEnd rest = true) (f : Nat) : gateInstruction f (us ++ rest) = none := by
  cases hg : gateInstruction f (us ++ rest) with
  | none => rfl
  | some x =>
    exfalso
    obtain ⟨⟨g, es⟩, rest'⟩ := x
    obtain ⟨hend', us', vs', h1, h2, h3, -⟩ := gate_sound _ _ _ _ _ hg
    have h4 := (split_end h1 (stmt_end h) (stmt_end (.gate h2 h3)) hend hend').1
    have h5 : ∀ t ∈ us, t.kind ∉ foreign := by
      rw [h4]
      intro t ht
      rcases List.mem_append.1 ht with ht | ht
      · exact gate_foreign h2 t ht
      · exact derives_foreign h3 t ht
    cases h with
    | @measure eq _ _ _ _ _ _ heq _ _ => exact h5 eq (by simp) (by rw [heq]; decide)
    | @measureParameters eq _ _ _ _ _ _ _ _ _ _ heq _ _ _ _ _ => exact h5 eq (by simp) (by rw [heq]; decide)

theorem measure_head {us : List Token} {kw : Token} {ps : Option (List PExpr)} {b q : PExpr} (h : DerivesStmt us (.measure kw ps b q)) :
    ∃ t ts, us = t :: ts ∧ t.kind ∉ [qubitType, bitType, reset, init, barrier, wait, asm] := by
  cases h with
  | measure hb _ _ _ =>
    obtain ⟨t, ts, rfl, h⟩ := derives_head hb
    exact ⟨t, _, rfl, mem_not h (by decide)⟩
  | measureParameters hb _ _ _ _ _ _ =>
    obtain ⟨t, ts, rfl, h⟩ := derives_head hb
    exact ⟨t, _, rfl, mem_not h (by decide)⟩

theorem statement_measure {us rest : List Token} {kw : Token} {ps : Option (List PExpr)} {b q : PExpr} (h : DerivesStmt us (.measure kw ps b q))
    (hend : atEnd rest = true) : statement (us ++ rest) = ifAtEnd (measureInstruction (us ++ rest)) := by
  obtain ⟨t, ts, rfl, ht⟩ := measure_head h
  have := not_gate h hend (t :: ts ++ rest).length
  simp only [List.cons_append] at this ⊢
  rw [statement_other ht, this]
  rfl

theorem statement_gate {us vs rest : List Token} {g : PGate} (h : DerivesGate us g) {g' : PGate} {es' : List PExpr}
    (hr : gateInstruction (us ++ vs ++ rest).length (us ++ vs ++ rest) = some ((g', es'), rest)) (hend : atEnd rest = true) :
    statement (us ++ vs ++ rest) = some (.gate g' es', rest) := by
  obtain ⟨t, ts, rfl, ht⟩ := gate_head h
  simp only [List.cons_append] at hr ⊢
  rw [statement_other (mem_not ht (by decide)), hr]
  exact ifAtEnd_of hend

theorem statement_accept {us rest : List Token} {s : PStmt} (h : DerivesStmt us s) (hend : atEnd rest = true) :
    ∃ s', statement (us ++ rest) = some (s', rest) ∧ (hasParameters s = true → hasParameters s' = true) := by
  obtain ⟨h1, h2, h3, h4⟩ := atEnd_follow hend
  cases h with
  | @var kw name hk hn =>
    refine ⟨.var kw none name, ?_, by simp [hasParameters]⟩
    rw [List.cons_append, statement_type hk]
    simp [variableDefinition, next, hn, ifAtEnd_of hend]
  | @array kw o n c name hk ho hn hc hi =>
    refine ⟨.var kw (some (n, c)) name, ?_, by simp [hasParameters]⟩
    rw [List.cons_append, statement_type hk]
    simp [variableDefinition, next, ho, hn, hc, hi, ifAtEnd_of hend]
  | @gate us vs g es hg he =>
    obtain ⟨g', es', h5, h6⟩ := gate_accept hg (us ++ vs ++ rest).length vs es rest (by simp) he hend
    exact ⟨.gate g' es', statement_gate hg h5 hend, h6⟩
  | measure hb heq hk hq =>
    have hd := DerivesStmt.measure hb heq hk hq
    obtain ⟨s', h5, h6⟩ := measure_accept hd hend
    exact ⟨s', by rw [statement_measure hd hend, h5, ifAtEnd_of hend], by simp [hasParameters]⟩
  | measureParameters hb heq hk ho he hc hq =>
    have hd := DerivesStmt.measureParameters hb heq hk ho he hc hq
    obtain ⟨s', h5, h6⟩ := measure_accept hd hend
    exact ⟨s', by rw [statement_measure hd hend, h5, ifAtEnd_of hend], fun _ => h6 rfl⟩
  | @simple kw us e hk he =>
    obtain ⟨e', h5⟩ := E_accept he h1 h2
    refine ⟨.simple kw e', ?_, by simp [hasParameters]⟩
    rw [List.cons_append, statement_simple hk, h5]
    exact ifAtEnd_of hend
  | @wait kw o c us vs p e hk ho hp hc he =>
    obtain ⟨p', h5⟩ := E_accept (rest := c :: (vs ++ rest)) hp (shut_kind hc (by decide) (by decide)) (below_kind hc (by decide))
    obtain ⟨e', h6⟩ := E_accept he h1 h2
    refine ⟨.wait kw p' e', ?_, by simp [hasParameters]⟩
    simp only [List.cons_append, List.append_assoc]
    rw [statement_wait hk]
    simp [expect_cons ho, expect_cons hc, h5, h6, ifAtEnd_of hend]
  | @asm kw o name c raw hk ho hn hc hr =>
    refine ⟨.asm name raw, ?_, by simp [hasParameters]⟩
    rw [List.cons_append, statement_asm hk]
    simp [asmDeclaration, ho, hn, hc, hr, ifAtEnd_of hend]

theorem statement_complete {us rest : List Token} {s : PStmt} (h : Chosen us s) (hend : atEnd rest = true) :
    statement (us ++ rest) = some (s, rest) := by
  obtain ⟨h1, h2, h3, h4⟩ := atEnd_follow hend
  have hch := h
  obtain ⟨h, hg, hno⟩ := h
  cases h with
  | @var kw name hk hn =>
    rw [List.cons_append, statement_type hk]
    simp [variableDefinition, next, hn, ifAtEnd_of hend]
  | @array kw o n c name hk ho hn hc hi =>
    rw [List.cons_append, statement_type hk]
    simp [variableDefinition, next, ho, hn, hc, hi, ifAtEnd_of hend]
  | @gate us vs g es hgt he =>
    refine statement_gate hgt (gate_complete hgt (us ++ vs ++ rest).length vs es rest (by simp) he hg hend ?_) hend
    rintro hp ⟨us', vs', g', es', e1, e2, e3, e4⟩
    exact hno hp ⟨.gate g' es', by rw [e1]; exact .gate e2 e3, e4⟩
  | measure hb heq hk hq =>
    rw [statement_measure (.measure hb heq hk hq) hend, measure_complete hch hend, ifAtEnd_of hend]
  | measureParameters hb heq hk ho he hc hq =>
    rw [statement_measure (.measureParameters hb heq hk ho he hc hq) hend, measure_complete hch hend, ifAtEnd_of hend]
  | @simple kw us e hk he =>
    have h5 := E_complete he (hg e (by simp [stmtExprs])) h1 h2
    rw [List.cons_append, statement_simple hk, h5]
    exact ifAtEnd_of hend
  | @wait kw o c us vs p e hk ho hp hc he =>
    have h5 := E_complete (rest := c :: (vs ++ rest)) hp (hg p (by simp [stmtExprs])) (shut_kind hc (by decide) (by decide)) (below_kind hc (by decide))
    have h6 := E_complete he (hg e (by simp [stmtExprs])) h1 h2
    simp only [List.cons_append, List.append_assoc]
    rw [statement_wait hk]
    simp [expect_cons ho, expect_cons hc, h5, h6, ifAtEnd_of hend]
  | @asm kw o name c raw hk ho hn hc hr =>
    rw [List.cons_append, statement_asm hk]
    simp [asmDeclaration, ho, hn, hc, hr, ifAtEnd_of hend]

theorem statement_chosen {ts rest : List Token} {s : PStmt} (h : statement ts = some (s, rest)) :
    atEnd rest = true ∧ ∃ us, ts = us ++ rest ∧ Chosen us s := by
  obtain ⟨hend, us, rfl, hd, hg⟩ := statement_sound h
  refine ⟨hend, us, rfl, hd, hg, ?_⟩
  rintro hp ⟨s', hs', hp'⟩
  obtain ⟨s'', h1, h2⟩ := statement_accept hs' hend
  rw [h] at h1
  simp at h1
  subst h1
  rw [h2 hp'] at hp
  simp at hp

/-! ## Programs -/

theorem isSeparator_iff {k : TokKind} : isSeparator k = true ↔ k ∈ separatorKinds := by simp [isSeparator, separatorKinds]

theorem separators_split (ts : List Token) : ∃ seps, ts = seps ++ separators ts ∧ Separators seps := by
  induction ts with
  | nil => exact ⟨[], rfl, by simp [Separators]⟩
  | cons t ts ih =>
    simp only [separators]
    split
    · rename_i h
      obtain ⟨seps, h1, h2⟩ := ih
      refine ⟨t :: seps, by simpa using h1, ?_⟩
      intro u hu
      rcases List.mem_cons.1 hu with rfl | hu
      · exact isSeparator_iff.1 h
      · exact h2 u hu
    · exact ⟨[], rfl, by simp [Separators]⟩

theorem separators_append {seps ts : List Token} (h : Separators seps) : separators (seps ++ ts) = separators ts := by
  induction seps with
  | nil => rfl
  | cons t seps ih =>
    simp only [List.cons_append, separators]
    rw [if_pos (isSeparator_iff.2 (h t (by simp))), ih (fun u hu => h u (by simp [hu]))]

theorem separators_cons {t : Token} {ts : List Token} (h : t.kind ∉ separatorKinds) : separators (t :: ts) = t :: ts := by
  simp only [separators]
  rw [if_neg (fun hc => h (isSeparator_iff.1 hc))]

theorem separators_ne {ts : List Token} {t : Token} {us : List Token} (h : separators ts = t :: us) : t.kind ∉ separatorKinds := by
  induction ts with
  | nil => simp [separators] at h
  | cons u ts ih =>
    simp only [separators] at h
    split at h
    · exact ih h
    · rename_i hn
      simp only [List.cons.injEq] at h
      rw [← h.1]
      exact fun hc => hn (isSeparator_iff.2 hc)

theorem stmt_ne {us : List Token} {s : PStmt} (h : DerivesStmt us s) : us ≠ [] := by
  cases h with
  | gate h _ => obtain ⟨t, ts, rfl, -⟩ := gate_head h; simp
  | _ => simp

theorem block_atEnd {R : List Token → PStmt → Prop} {ts : List Token} {ss : List PStmt} (h : Block R ts ss) : atEnd ts = true := by
  rw [atEnd_iff]
  have key : ∀ (seps : List Token), Separators seps → seps ≠ [] → ∀ us, ∃ t vs, seps ++ us = t :: vs ∧ t.kind ∈ endKinds := by
    intro seps hs hne us
    cases seps with
    | nil => exact absurd rfl hne
    | cons t seps =>
      have := hs t (by simp)
      refine ⟨t, seps ++ us, rfl, ?_⟩
      simp only [separatorKinds, List.mem_cons, List.not_mem_nil, or_false] at this
      rcases this with h | h <;> simp [h, endKinds]
  cases h with
  | @nil seps e hs he =>
    by_cases hne : seps = []
    · subst hne; exact ⟨e, [], rfl, by simp [he, endKinds]⟩
    · exact key seps hs hne _
  | cons hs hne _ _ => rw [List.append_assoc]; exact key _ hs hne _

/-- `block` finds the blocks of the statements `statement` finds. -/
theorem block_sound (f : Nat) : ∀ ts ss, block f ts = some ss → Block Chosen ts ss := by
  induction f with
  | zero => intro ts ss h; simp [block] at h
  | succ f ih =>
    intro ts ss h
    simp only [block] at h
    split at h
    · simp at h
    · rename_i t us hsep
      obtain ⟨seps, h1, h2⟩ := separators_split ts
      split at h
      · rename_i he
        split at h
        · rename_i hu
          have hu : us = [] := by simpa using hu
          simp at h; subst h; subst hu
          rw [h1, hsep]
          exact .nil h2 he
        · simp at h
      · split at h
        · simp at h
        · rename_i hlen
          split at h
          · simp at h
          · rename_i s rest hst
            simp only [Option.map_eq_some_iff] at h
            obtain ⟨ss', h3, rfl⟩ := h
            obtain ⟨hend, vs, h4, h5⟩ := statement_chosen hst
            rw [h1, hsep, h4, ← List.append_assoc]
            refine .cons h2 ?_ h5 (ih _ _ h3)
            rintro rfl
            rw [List.nil_append] at h1
            exact hlen (by rw [← h1])

/-- `R` holds of one tree per token list at most, and `statement` finds it. -/
theorem block_complete {R : List Token → PStmt → Prop} (hR : ∀ us s, R us s → DerivesStmt us s) {ts : List Token} {ss : List PStmt}
    (h : Block R ts ss) : ∀ f, ts.length ≤ f → 
    (∀ us s rest, R us s → atEnd rest = true → ∃ s', statement (us ++ rest) = some (s', rest)) → 
    ∃ ss', block (f + 1) ts = some ss' := by
  induction h with
  | @nil seps e hs he =>
    intro f hf _
    refine ⟨[], ?_⟩
    simp only [block]
    rw [separators_append hs, separators_cons (by rw [he]; decide)]
    simp [he]
  | @cons seps us vs s ss hs hne hr hb ih =>
    intro f hf hst
    obtain ⟨t, us', rfl⟩ : ∃ t us', us = t :: us' := List.exists_cons_of_ne_nil (stmt_ne (hR us s hr))
    have ht := stmt_end (hR _ _ hr) t (by simp)
    obtain ⟨s', h1⟩ := hst _ _ vs hr (block_atEnd hb)
    obtain ⟨f, rfl⟩ : ∃ k, f = k + 1 := ⟨f - 1, by
      have : seps.length ≠ 0 := by simpa using hne
      simp at hf; omega⟩
    obtain ⟨ss', h2⟩ := ih f (by simp at hf ⊢; omega) hst
    refine ⟨s' :: ss', ?_⟩
    have h3 : separators (seps ++ t :: us' ++ vs) = t :: us' ++ vs := by
      rw [List.append_assoc, separators_append hs]
      exact separators_cons (fun hc => ht (by
        simp only [separatorKinds, List.mem_cons, List.not_mem_nil, or_false] at hc
        rcases hc with h | h <;> simp [h, endKinds]))
    rw [block, h3]
    have h4 : t.kind ≠ eof := fun hc => ht (by simp [hc, endKinds])
    simp only [List.cons_append] at h1 ⊢
    simp only [h4, if_false, h1, h2]
    rw [if_neg (by
      have : seps.length ≠ 0 := by simpa using hne
      simp; omega)]
    rfl

theorem block_chosen {ts : List Token} {ss : List PStmt} (h : Block Chosen ts ss) : ∀ f, ts.length ≤ f → block (f + 1) ts = some ss := by
  induction h with
  | @nil seps e hs he =>
    intro f hf
    simp only [block]
    rw [separators_append hs, separators_cons (by rw [he]; decide)]
    simp [he]
  | @cons seps us vs s ss hs hne hr hb ih =>
    intro f hf
    obtain ⟨t, us', rfl⟩ : ∃ t us', us = t :: us' := List.exists_cons_of_ne_nil (stmt_ne hr.1)
    have ht := stmt_end hr.1 t (by simp)
    have h1 := statement_complete hr (block_atEnd hb)
    obtain ⟨f, rfl⟩ : ∃ k, f = k + 1 := ⟨f - 1, by
      have : seps.length ≠ 0 := by simpa using hne
      simp at hf; omega⟩
    have h2 := ih f (by simp at hf ⊢; omega)
    have h3 : separators (seps ++ t :: us' ++ vs) = t :: us' ++ vs := by
      rw [List.append_assoc, separators_append hs]
      exact separators_cons (fun hc => ht (by
        simp only [separatorKinds, List.mem_cons, List.not_mem_nil, or_false] at hc
        rcases hc with h | h <;> simp [h, endKinds]))
    rw [block, h3]
    have h4 : t.kind ≠ eof := fun hc => ht (by simp [hc, endKinds])
    simp only [List.cons_append] at h1 ⊢
    simp only [h4, if_false, h1, h2]
    rw [if_neg (by
      have : seps.length ≠ 0 := by simpa using hne
      simp; omega)]
    rfl

theorem parse_iff (ts : List Token) (pr : PProgram) : parse ts = some pr ↔ Program Chosen ts pr := by
  constructor
  · intro h
    unfold parse at h
    split at h
    · rename_i v n us hsep
      split at h
      · rename_i hk
        simp only [Option.map_eq_some_iff] at h
        obtain ⟨ss, h1, rfl⟩ := h
        obtain ⟨seps, h2, h3⟩ := separators_split ts
        rw [h2, hsep]
        exact .mk h3 hk.1 hk.2 (block_sound _ _ _ h1)
      · simp at h
    · simp at h
  · rintro ⟨hs, hv, hn, hb⟩
    unfold parse
    rw [separators_append hs, separators_cons (by rw [hv]; decide)]
    simp [hv, hn, block_chosen hb _ (Nat.le_refl _)]

theorem parse_accept {ts : List Token} {pr : PProgram} (h : Program DerivesStmt ts pr) : ∃ pr', parse ts = some pr' := by
  obtain ⟨hs, hv, hn, hb⟩ := h
  rename_i n _
  obtain ⟨ss, h⟩ := block_complete (fun _ _ h => h) hb _ (Nat.le_refl _) (fun us s rest h1 h2 => by
    obtain ⟨s', h3, -⟩ := statement_accept h1 h2; exact ⟨s', h3⟩)
  refine ⟨⟨n, ss⟩, ?_⟩
  unfold parse
  rw [separators_append hs, separators_cons (by rw [hv]; decide)]
  simp [hv, hn, h]

end Qasm.Parser
