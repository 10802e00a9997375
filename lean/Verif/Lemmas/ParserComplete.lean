import Verif.Lemmas.ParserSound
/-!
# The parser of expressions finds every grouped derivation
-/

namespace Qasm.Parser

open TokKind Spec

/-- The list does not start with `(` or `[`. -/
def Shut (ts : List Token) : Prop := ∀ t us, ts = t :: us → t.kind ≠ openParens ∧ t.kind ≠ openBracket

/-- The list does not start with a token of the type. -/
def NotNext (k : TokKind) (ts : List Token) : Prop := ∀ t us, ts = t :: us → t.kind ≠ k

theorem expect_none {k : TokKind} {ts : List Token} (h : NotNext k ts) : expect k ts = none := by
  cases ts with
  | nil => rfl
  | cons t ts => simp [expect, h t ts rfl]

theorem below_cons {n : Nat} {t : Token} {ts : List Token} (h : ∀ q, opPrec t.kind = some q → q < n) : Below n (t :: ts) := by
  intro t' us he q hq
  injection he with he1 he2
  subst he1
  exact h q hq

theorem below_mono {m n : Nat} {ts : List Token} (h : Below m ts) (hmn : m ≤ n) : Below n ts :=
  fun t us he q hq => Nat.lt_of_lt_of_le (h t us he q hq) hmn

theorem below_20 (ts : List Token) : Below 20 ts := fun t us _ q hq => by have := opPrec_bounds hq; omega

theorem shut_cons {t : Token} {ts : List Token} (h1 : t.kind ≠ openParens) (h2 : t.kind ≠ openBracket) : Shut (t :: ts) := by
  intro t' us he
  injection he with he1 he2
  subst he1
  exact ⟨h1, h2⟩

theorem notNext_cons {k : TokKind} {t : Token} {ts : List Token} (h : t.kind ≠ k) : NotNext k (t :: ts) := by
  intro t' us he
  injection he with he1 he2
  subst he1
  exact h

theorem L_below {p : Nat} {e : PExpr} {ts : List Token} (h : Below p ts) : L p e ts = some (e, ts) := by
  cases ts with
  | nil => exact L_nil p e
  | cons t ts =>
    refine L_stop (fun q hq => h t ts rfl q (prec_op hq)) (fun hk => h t ts rfl _ ?_)
    simp [opPrec, hk]

theorem opPrec_ne {k j : TokKind} {q : Nat} (hq : opPrec k = some q) (hj : opPrec j = none) : k ≠ j := by
  rintro rfl
  rw [hq] at hj
  simp at hj

theorem opPrec_shut {t : Token} {ts : List Token} {q : Nat} (hq : opPrec t.kind = some q) : Shut (t :: ts) :=
  shut_cons (opPrec_ne hq (by decide)) (opPrec_ne hq (by decide))

theorem derives_ne {us : List Token} {x : Phrase} (h : Derives us x) : us ≠ [] := by
  induction h <;> simp_all

/-- The head of a derived list is not `)`. -/
theorem derives_next {us : List Token} {x : Phrase} (h : Derives us x) : ∀ rest, next closeParens (us ++ rest) = false := by
  induction h with
  | parens h _ _ _ => simp [next, h]
  | @pre op _ _ h _ _ =>
    intro rest
    have : op.kind ≠ closeParens := by rintro he; rw [he] at h; exact absurd h (by decide)
    simp [next, this]
  | bin _ _ _ ih _ => intro rest; simpa using ih _
  | tern _ _ _ _ _ ih _ _ => intro rest; simpa using ih _
  | call0 h _ _ => simp [next, h]
  | call h _ _ _ _ => simp [next, h]
  | index h _ _ _ _ => simp [next, h]
  | @atom t h =>
    intro rest
    have : t.kind ≠ closeParens := by rintro he; rw [he] at h; exact absurd h (by decide)
    simp [next, this]
  | expr1 _ ih => exact ih
  | exprN _ _ _ ih _ => intro rest; simpa using ih _
  | item _ ih => exact ih
  | range _ _ _ ih _ => intro rest; simpa using ih _
  | entry1 _ ih => exact ih
  | entryN _ _ _ ih _ => intro rest; simpa using ih _

/-- Parsing the tokens of the expression leads to a loop that has just read the expression. -/
def Reads (us : List Token) (e : PExpr) : Prop :=
  ∀ rest, Shut rest → Below (limit e) rest →
    ∃ e0 us', P (us ++ rest) = some (e0, us') ∧ ∀ p, p ≤ topPrec e → L p e0 us' = L p e rest

theorem reads_E {us : List Token} {e : PExpr} {p : Nat} {rest : List Token} (hd : Derives us (.expr e)) (h : Reads us e)
    (hp : p ≤ topPrec e) (hs : Shut rest) (hb : Below p rest) : E p (us ++ rest) = some (e, rest) := by
  obtain ⟨e0, us', h0, h1⟩ := h rest hs (below_mono hb (Nat.le_trans hp (topPrec_le_limit hd)))
  rw [E_eq, h0]
  simp only
  rw [h1 p hp, L_below hb]

theorem reads_of_P {us : List Token} {e : PExpr} (h : ∀ rest, Shut rest → P (us ++ rest) = some (e, rest)) : Reads us e :=
  fun rest hs _ => ⟨e, rest, h rest hs, fun _ _ => rfl⟩

/-- What completeness says about every kind of phrase. -/
def Finds (us : List Token) : Phrase → Prop
  | .expr e => Grouped e → Reads us e
  | .exprs es => (∀ e ∈ es, Grouped e) → ∀ rest, Shut rest → Below 0 rest → NotNext comma rest → S (us ++ rest) = some (es, rest)
  | .entry i => GroupedEntries [i] → ∀ rest, Shut rest → Below 0 rest → NotNext colon rest → N (us ++ rest) = some (i, rest)
  | .entries is => GroupedEntries is → ∀ rest, Shut rest → Below 0 rest → NotNext colon rest → NotNext comma rest →
      X (us ++ rest) = some (is, rest)

theorem shut_kind {t : Token} {ts : List Token} {k : TokKind} (h : t.kind = k) (h1 : k ≠ openParens) (h2 : k ≠ openBracket) :
    Shut (t :: ts) := shut_cons (h ▸ h1) (h ▸ h2)

theorem below_kind {t : Token} {ts : List Token} {k : TokKind} (h : t.kind = k) (h1 : opPrec k = none) : Below 0 (t :: ts) := by
  refine below_cons ?_
  intro q hq
  rw [h, h1] at hq
  simp at hq

theorem finds {us : List Token} {x : Phrase} (h : Derives us x) : Finds us x := by
  induction h with
  | @parens o c us e ho hd hc ih =>
    intro hg
    cases hg with
    | parens hg =>
      refine reads_of_P fun rest hs => ?_
      have := reads_E (p := 0) (rest := c :: rest) hd (ih hg) (Nat.zero_le _) (shut_kind hc (by decide) (by decide)) (below_kind hc (by decide))
      simp only [List.cons_append, List.append_assoc, List.nil_append]
      rw [P_parens ho, this]
      simp [expect, hc]
  | @pre op us e hop hd ih =>
    intro hg
    cases hg with
    | pre ht hg =>
      obtain ⟨p, hp⟩ := (prefix_iff _).1 hop
      have hpb := prefixPrec_bounds hp
      refine reads_of_P fun rest hs => ?_
      have := reads_E (p := p) (rest := rest) hd (ih hg) (by rw [(topPrec_none ht).1]; omega) hs (below_mono (below_20 rest) hpb.1)
      simp only [List.cons_append]
      rw [P_pre hp, this]
  | @bin op us vs l r hl hop hr ihl ihr =>
    intro hg rest hs hb
    obtain ⟨q, hq⟩ := (infix_iff _).1 hop
    have hqb := prec_bounds hq
    rw [limit_bin hq] at hb
    have hgl : Grouped l := by cases hg <;> assumption
    have hgr : Grouped r := by cases hg <;> assumption
    have h1 : q ≤ topPrec l ∧ q < limit l ∧ rightPrec op.kind q ≤ topPrec r := by
      have hll := topPrec_le_limit hl
      rcases rightPrec_of hq with ⟨hk, e1, e2⟩ | ⟨hk, e1, e2⟩
      · cases hg with
        | left hn _ _ _ _ => exact absurd ((rightAssoc_iff hq).2 hk) hn
        | right _ ht ha _ _ =>
          have a1 := (tighter_of (prec_op hq) (derives_top hl)).1 ht
          have a2 := (asTight_of (prec_op hq) (derives_top hr)).1 ha
          omega
      · cases hg with
        | right hn _ _ _ _ => exact absurd ((rightAssoc_iff hq).1 hn) hk
        | left _ ha ht _ _ =>
          have a1 := (tighter_of (prec_op hq) (derives_top hr)).1 ht
          have a2 := (asTight_of (prec_op hq) (derives_top hl)).1 ha
          refine ⟨a2, ?_, by omega⟩
          cases htop : top l with
          | none => rw [(topPrec_none htop).2]; omega
          | some j =>
            cases hl <;> simp [top] at htop
            case bin hop' _ _ =>
              obtain ⟨q', hq'⟩ := (infix_iff _).1 hop'
              rw [topPrec_bin hq'] at a2
              rw [limit_bin hq']
              rcases rightPrec_of hq' with ⟨_, h3, h4⟩ | ⟨_, h3, h4⟩ <;> omega
            case tern hop' _ _ _ _ => rw [topPrec_tern hop'] at a2; omega
    obtain ⟨h1, h2, h3⟩ := h1
    obtain ⟨e0, us', h4, h5⟩ := ihl hgl (op :: vs ++ rest) (opPrec_shut (prec_op hq))
      (below_cons fun q' hq' => by rw [prec_op hq] at hq'; simp at hq'; omega)
    refine ⟨e0, us', by simpa using h4, ?_⟩
    intro p hp
    rw [topPrec_bin hq] at hp
    rw [h5 p (by omega), List.cons_append, L_bin hq hp, reads_E hr (ihr hgr) h3 hs hb]
  | @tern op c us vs ws e a b he hop ha hc hb ihe iha ihb =>
    intro hg rest hs hbl
    cases hg with
    | tern ht hat hge hga hgb =>
      have hop7 : opPrec op.kind = some 7 := by simp [opPrec, hop, ternaryPrec]
      have a1 := (tighter_of hop7 (derives_top he)).1 ht
      have a2 := (asTight_of hop7 (derives_top hb)).1 hat
      have hll := topPrec_le_limit he
      obtain ⟨e0, us', h4, h5⟩ := ihe hge (op :: vs ++ c :: ws ++ rest) (opPrec_shut hop7)
        (below_cons fun q' hq' => by rw [hop7] at hq'; simp at hq'; omega)
      refine ⟨e0, us', by simpa using h4, ?_⟩
      intro p hp
      rw [topPrec_tern hop] at hp
      have h6 := reads_E (p := 0) (rest := c :: ws ++ rest) ha (iha hga) (Nat.zero_le _) (shut_kind hc (by decide) (by decide)) (below_kind hc (by decide))
      have h7 := reads_E (p := ternaryPrec) hb (ihb hgb) a2 hs hbl
      rw [h5 p (by omega)]
      simp only [List.cons_append, List.append_assoc] at h6 ⊢
      rw [L_tern hop hp, h6]
      simp only [expect_cons hc, h7]
  | @call0 name o c hn ho hc =>
    intro _
    exact reads_of_P fun rest hs => P_call0 hn ho hc
  | @call name o c us es hn ho hd hc ih =>
    intro hg
    cases hg with
    | call hg =>
      refine reads_of_P fun rest hs => ?_
      simp only [List.cons_append, List.append_assoc, List.nil_append]
      rw [P_call hn ho (derives_next hd _), ih hg (c :: rest) (shut_kind hc (by decide) (by decide)) (below_kind hc (by decide))
        (notNext_cons (by rw [hc]; decide))]
      simp [expect, hc]
  | @index name o c us is hn ho hd hc ih =>
    intro hg
    cases hg with
    | index h1 h2 h3 =>
      refine reads_of_P fun rest hs => ?_
      simp only [List.cons_append, List.append_assoc, List.nil_append]
      rw [P_index hn ho, ih ⟨h1, fun a b h => ⟨h2 a b h, h3 a b h⟩⟩ (c :: rest) (shut_kind hc (by decide) (by decide)) (below_kind hc (by decide))
        (notNext_cons (by rw [hc]; decide)) (notNext_cons (by rw [hc]; decide))]
      simp [expect, hc]
  | @atom t ht =>
    intro _
    refine reads_of_P fun rest hs => ?_
    by_cases hk : t.kind = identifier
    · exact P_ident hk hs
    · exact P_literal (by simpa [hk] using ht)
  | @expr1 us e hd ih =>
    intro hg rest hs hb hc
    rw [S_eq, reads_E hd (ih (hg e (by simp))) (Nat.zero_le _) hs hb]
    simp [expect_none hc]
  | @exprN c us vs e es hd hc hd' ih ih' =>
    intro hg rest hs hb hcm
    have h1 := reads_E (p := 0) (rest := c :: vs ++ rest) hd (ih (hg e (by simp))) (Nat.zero_le _) (shut_kind hc (by decide) (by decide)) (below_kind hc (by decide))
    simp only [List.cons_append, List.append_assoc] at h1 ⊢
    rw [S_eq, h1]
    simp [expect_cons hc, ih' (fun e he => hg e (by simp [he])) rest hs hb hcm]
  | @item us e hd ih =>
    intro hg rest hs hb hc
    rw [N_eq, reads_E hd (ih (hg.1 e (by simp))) (Nat.zero_le _) hs hb]
    simp [expect_none hc]
  | @range c us vs a b hd hc hd' ih ih' =>
    intro hg rest hs hb hcm
    have hgg := hg.2 a b (by simp)
    have h1 := reads_E (p := 0) (rest := c :: vs ++ rest) hd (ih hgg.1) (Nat.zero_le _) (shut_kind hc (by decide) (by decide)) (below_kind hc (by decide))
    have h2 := reads_E (p := 0) (rest := rest) hd' (ih' hgg.2) (Nat.zero_le _) hs hb
    simp only [List.cons_append, List.append_assoc] at h1 ⊢
    rw [N_eq, h1]
    simp [expect_cons hc, h2]
  | @entry1 us i hd ih =>
    intro hg rest hs hb hcl hcm
    rw [X_eq, ih hg rest hs hb hcl]
    simp [expect_none hcm]
  | @entryN c us vs i is hd hc hd' ih ih' =>
    intro hg rest hs hb hcl hcm
    have h1 := ih ⟨fun e he => hg.1 e (by simp at he; simp [he]), fun a b he => hg.2 a b (by simp at he; simp [he])⟩ (c :: vs ++ rest)
      (shut_kind hc (by decide) (by decide)) (below_kind hc (by decide)) (notNext_cons (by rw [hc]; decide))
    simp only [List.cons_append, List.append_assoc] at h1 ⊢
    rw [X_eq, h1]
    simp [expect_cons hc, ih' ⟨fun e he => hg.1 e (by simp [he]), fun a b he => hg.2 a b (by simp [he])⟩ rest hs hb hcl hcm]

theorem E_complete {us rest : List Token} {e : PExpr} (hd : Derives us (.expr e)) (hg : Grouped e) (hs : Shut rest) (hb : Below 0 rest) :
    E 0 (us ++ rest) = some (e, rest) := reads_E hd (finds hd hg) (Nat.zero_le _) hs hb

theorem S_complete {us rest : List Token} {es : List PExpr} (hd : Derives us (.exprs es)) (hg : ∀ e ∈ es, Grouped e) (hs : Shut rest)
    (hb : Below 0 rest) (hc : NotNext comma rest) : S (us ++ rest) = some (es, rest) := finds hd hg rest hs hb hc

end Qasm.Parser
