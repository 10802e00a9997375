import Verif.Lemmas.ParserComplete
/-!
# The parser of expressions accepts everything the grammar derives, grouped or not
-/

namespace Qasm.Parser

open TokKind Spec

/-- `primary` reads exactly these tokens. -/
def AccP (us : List Token) : Prop := ∀ rest, Shut rest → ∃ e, P (us ++ rest) = some (e, rest)

/-- `expression` reads exactly these tokens. -/
def AccE (us : List Token) : Prop := ∀ rest, Shut rest → Below 0 rest → ∃ e, E 0 (us ++ rest) = some (e, rest)

/-- Operators, each followed by an operand. -/
inductive Tail : List Token → Prop where
  | nil : Tail []
  | bin {op : Token} {us vs : List Token} {q : Nat} : prec op.kind = some q → AccP us → Tail vs → Tail (op :: (us ++ vs))
  | tern {op c : Token} {ms us vs : List Token} : op.kind = ternary → AccE ms → c.kind = colon → AccP us → Tail vs →
      Tail (op :: (ms ++ c :: (us ++ vs)))

theorem tail_append {us vs : List Token} (h : Tail us) (h' : Tail vs) : Tail (us ++ vs) := by
  induction h with
  | nil => exact h'
  | bin hq ha _ ih => simpa using Tail.bin hq ha ih
  | tern ho hm hc ha _ ih => simpa using Tail.tern ho hm hc ha ih

theorem tail_head {vs rest : List Token} (h : Tail vs) : vs = [] ∨ ∃ t us q, vs = t :: us ∧ opPrec t.kind = some q := by
  cases h with
  | nil => exact .inl rfl
  | bin hq _ _ => exact .inr ⟨_, _, _, rfl, prec_op hq⟩
  | tern ho _ _ _ _ => exact .inr ⟨_, _, 7, rfl, by simp [opPrec, ho, ternaryPrec]⟩

theorem tail_shut {vs rest : List Token} (h : Tail vs) (hs : Shut rest) : Shut (vs ++ rest) := by
  rcases tail_head (rest := rest) h with rfl | ⟨t, us, q, rfl, hq⟩
  · exact hs
  · exact opPrec_shut hq

theorem tail_L (n : Nat) : ∀ vs, vs.length ≤ n → Tail vs → ∀ p e rest, Shut rest → Below 0 rest →
    ∃ e' ws, Tail ws ∧ L p e (vs ++ rest) = some (e', ws ++ rest) ∧ Below p (ws ++ rest) ∧ ws.length ≤ vs.length := by
  induction n with
  | zero =>
    intro vs hn _ p e rest hs hb
    have : vs = [] := List.length_eq_zero_iff.1 (by omega)
    subst this
    have hb' := below_mono hb (Nat.zero_le p)
    exact ⟨e, [], .nil, L_below hb', hb', Nat.le_refl _⟩
  | succ n ih =>
    intro vs hn ht p e rest hs hb
    have next : ∀ p us vs, AccP us → Tail vs → vs.length ≤ n →
        ∃ e' ws, Tail ws ∧ E p (us ++ vs ++ rest) = some (e', ws ++ rest) ∧ ws.length ≤ vs.length := by
      intro p us vs ha ht hn
      obtain ⟨e0, h0⟩ := ha (vs ++ rest) (tail_shut ht hs)
      obtain ⟨e', ws, h1, h2, -, h4⟩ := ih vs hn ht p e0 rest hs hb
      refine ⟨e', ws, h1, ?_, h4⟩
      rw [E_eq, List.append_assoc, h0]
      exact h2
    by_cases hst : Below p (vs ++ rest)
    · exact ⟨e, vs, ht, L_below hst, hst, Nat.le_refl _⟩
    · cases ht with
      | nil => exact absurd (below_mono hb (Nat.zero_le p)) hst
      | @bin op us vs q hq ha ht =>
        simp only [List.length_cons, List.length_append] at hn
        obtain ⟨r, ws, h1, h2, h3⟩ := next (rightPrec op.kind q) us vs ha ht (by omega)
        obtain ⟨e', xs, h5, h6, h7, h8⟩ := ih ws (by omega) h1 p (.bin op e r) rest hs hb
        refine ⟨e', xs, h5, ?_, h7, by simp; omega⟩
        rw [List.cons_append, L_bin hq (Nat.not_lt.1 fun hlt => hst (below_cons fun q' hq' => by
          rw [prec_op hq] at hq'; simp at hq'; omega)), h2]
        exact h6
      | @tern op c ms us vs ho hm hc ha ht =>
        simp only [List.length_cons, List.length_append] at hn
        obtain ⟨a, h0⟩ := hm (c :: (us ++ vs ++ rest)) (shut_kind hc (by decide) (by decide)) (below_kind hc (by decide))
        obtain ⟨r, ws, h1, h2, h3⟩ := next ternaryPrec us vs ha ht (by omega)
        obtain ⟨e', xs, h5, h6, h7, h8⟩ := ih ws (by omega) h1 p (.tern op e a r) rest hs hb
        refine ⟨e', xs, h5, ?_, h7, by simp; omega⟩
        simp only [List.cons_append, List.append_assoc] at h0 h2 ⊢
        rw [L_tern ho (Nat.not_lt.1 fun hlt => hst (below_cons fun q' hq' => by
          simp [opPrec, ho] at hq'; omega)), h0]
        simp only [expect_cons hc, h2]
        exact h6

theorem accE_of {us vs : List Token} (ha : AccP us) (ht : Tail vs) : AccE (us ++ vs) := by
  intro rest hs hb
  obtain ⟨e0, h0⟩ := ha (vs ++ rest) (tail_shut ht hs)
  obtain ⟨e', ws, h1, h2, h3, -⟩ := tail_L vs.length vs (Nat.le_refl _) ht 0 e0 rest hs hb
  refine ⟨e', ?_⟩
  rw [E_eq, List.append_assoc, h0]
  simp only
  rw [h2]
  rcases tail_head (rest := rest) h1 with rfl | ⟨t, us, q, rfl, hq⟩
  · rfl
  · exact absurd (h3 t _ rfl q hq) (Nat.not_lt_zero _)

/-- What acceptance says about every kind of phrase. -/
def Accepted (us : List Token) : Phrase → Prop
  | .expr _ => ∃ us0 vs, us = us0 ++ vs ∧ AccP us0 ∧ Tail vs
  | .exprs _ => ∀ rest, Shut rest → Below 0 rest → NotNext comma rest → ∃ es, S (us ++ rest) = some (es, rest)
  | .entry _ => ∀ rest, Shut rest → Below 0 rest → NotNext colon rest → ∃ i, N (us ++ rest) = some (i, rest)
  | .entries _ => ∀ rest, Shut rest → Below 0 rest → NotNext colon rest → NotNext comma rest → ∃ is, X (us ++ rest) = some (is, rest)

theorem accepted_E {us : List Token} {e : PExpr} (h : Accepted us (.expr e)) : AccE us := by
  obtain ⟨us0, vs, rfl, ha, ht⟩ := h
  exact accE_of ha ht

theorem accepted_P {us : List Token} {e : PExpr} (h : AccP us) : Accepted us (.expr e) := ⟨us, [], by simp, h, .nil⟩

theorem accepted {us : List Token} {x : Phrase} (h : Derives us x) : Accepted us x := by
  induction h with
  | @parens o c us e ho hd hc ih =>
    refine accepted_P fun rest hs => ?_
    obtain ⟨e', h⟩ := accepted_E ih (c :: rest) (shut_kind hc (by decide) (by decide)) (below_kind hc (by decide))
    refine ⟨.parens e', ?_⟩
    simp only [List.cons_append, List.append_assoc, List.nil_append]
    rw [P_parens ho, h]
    simp [expect, hc]
  | @pre op us e hop hd ih =>
    obtain ⟨us0, vs, rfl, ha, ht⟩ := ih
    refine ⟨op :: us0, vs, by simp, ?_, ht⟩
    intro rest hs
    obtain ⟨p, hp⟩ := (prefix_iff _).1 hop
    have hpb := prefixPrec_bounds hp
    obtain ⟨e', h⟩ := ha rest hs
    refine ⟨.pre op e', ?_⟩
    rw [List.cons_append, P_pre hp, E_eq, h]
    simp only
    rw [L_below (below_mono (below_20 rest) hpb.1)]
  | @bin op us vs l r hl hop hr ihl ihr =>
    obtain ⟨us0, us1, rfl, ha, ht⟩ := ihl
    obtain ⟨vs0, vs1, rfl, ha', ht'⟩ := ihr
    obtain ⟨q, hq⟩ := (infix_iff _).1 hop
    exact ⟨us0, us1 ++ op :: (vs0 ++ vs1), by simp, ha, tail_append ht (.bin hq ha' ht')⟩
  | @tern op c us vs ws e a b he hop ha hc hb ihe iha ihb =>
    obtain ⟨us0, us1, rfl, ha, ht⟩ := ihe
    obtain ⟨vs0, vs1, rfl, ha', ht'⟩ := ihb
    exact ⟨us0, us1 ++ op :: (vs ++ c :: (vs0 ++ vs1)), by simp, ha, tail_append ht (.tern hop (accepted_E iha) hc ha' ht')⟩
  | @call0 name o c hn ho hc => exact accepted_P fun rest hs => ⟨_, P_call0 hn ho hc⟩
  | @call name o c us es hn ho hd hc ih =>
    refine accepted_P fun rest hs => ?_
    obtain ⟨es', h⟩ := ih (c :: rest) (shut_kind hc (by decide) (by decide)) (below_kind hc (by decide)) (notNext_cons (by rw [hc]; decide))
    refine ⟨.call name es', ?_⟩
    simp only [List.cons_append, List.append_assoc, List.nil_append]
    rw [P_call hn ho (derives_next hd _), h]
    simp [expect, hc]
  | @index name o c us is hn ho hd hc ih =>
    refine accepted_P fun rest hs => ?_
    obtain ⟨es', h⟩ := ih (c :: rest) (shut_kind hc (by decide) (by decide)) (below_kind hc (by decide)) (notNext_cons (by rw [hc]; decide))
      (notNext_cons (by rw [hc]; decide))
    refine ⟨.index name es', ?_⟩
    simp only [List.cons_append, List.append_assoc, List.nil_append]
    rw [P_index hn ho, h]
    simp [expect, hc]
  | @atom t ht =>
    refine accepted_P fun rest hs => ⟨.atom t, ?_⟩
    by_cases hk : t.kind = identifier
    · exact P_ident hk hs
    · exact P_literal (by simpa [hk] using ht)
  | @expr1 us e hd ih =>
    intro rest hs hb hc
    obtain ⟨e', h⟩ := accepted_E ih rest hs hb
    refine ⟨[e'], ?_⟩
    rw [S_eq, h]
    simp [expect_none hc]
  | @exprN c us vs e es hd hc hd' ih ih' =>
    intro rest hs hb hcm
    obtain ⟨e', h⟩ := accepted_E ih (c :: vs ++ rest) (shut_kind hc (by decide) (by decide)) (below_kind hc (by decide))
    obtain ⟨es', h'⟩ := ih' rest hs hb hcm
    refine ⟨e' :: es', ?_⟩
    simp only [List.cons_append, List.append_assoc] at h ⊢
    rw [S_eq, h]
    simp [expect_cons hc, h']
  | @item us e hd ih =>
    intro rest hs hb hc
    obtain ⟨e', h⟩ := accepted_E ih rest hs hb
    refine ⟨.item e', ?_⟩
    rw [N_eq, h]
    simp [expect_none hc]
  | @range c us vs a b hd hc hd' ih ih' =>
    intro rest hs hb hcm
    obtain ⟨e', h⟩ := accepted_E ih (c :: vs ++ rest) (shut_kind hc (by decide) (by decide)) (below_kind hc (by decide))
    obtain ⟨e'', h'⟩ := accepted_E ih' rest hs hb
    refine ⟨.range e' e'', ?_⟩
    simp only [List.cons_append, List.append_assoc] at h ⊢
    rw [N_eq, h]
    simp [expect_cons hc, h']
  | @entry1 us i hd ih =>
    intro rest hs hb hcl hcm
    obtain ⟨e', h⟩ := ih rest hs hb hcl
    refine ⟨[e'], ?_⟩
    rw [X_eq, h]
    simp [expect_none hcm]
  | @entryN c us vs i is hd hc hd' ih ih' =>
    intro rest hs hb hcl hcm
    obtain ⟨e', h⟩ := ih (c :: vs ++ rest) (shut_kind hc (by decide) (by decide)) (below_kind hc (by decide)) (notNext_cons (by rw [hc]; decide))
    obtain ⟨es', h'⟩ := ih' rest hs hb hcl hcm
    refine ⟨e' :: es', ?_⟩
    simp only [List.cons_append, List.append_assoc] at h ⊢
    rw [X_eq, h]
    simp [expect_cons hc, h']

theorem E_accept {us rest : List Token} {e : PExpr} (hd : Derives us (.expr e)) (hs : Shut rest) (hb : Below 0 rest) :
    ∃ e', E 0 (us ++ rest) = some (e', rest) := accepted_E (accepted hd) rest hs hb

theorem S_accept {us rest : List Token} {es : List PExpr} (hd : Derives us (.exprs es)) (hs : Shut rest) (hb : Below 0 rest)
    (hc : NotNext comma rest) : ∃ es', S (us ++ rest) = some (es', rest) := accepted hd rest hs hb hc

end Qasm.Parser
