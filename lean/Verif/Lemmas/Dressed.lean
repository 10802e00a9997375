import Verif.Lemmas.SyntacticShape
import Verif.Spec.Layout
/-!
# Trees that differ in parentheses, prefix `+` and positions
-/

namespace Qasm

open Spec TokKind

variable {F : Type}

/-! ## Tokens that differ in their position -/

theorem Spec.SameToken.rfl {t : Token} : SameToken t t := ⟨Eq.refl _, Eq.refl _⟩
theorem Spec.SameToken.symm {a b : Token} (h : SameToken a b) : SameToken b a := ⟨h.1.symm, h.2.symm⟩

theorem forall2_symm {α : Type} {R : α → α → Prop} (hr : ∀ a b, R a b → R b a) {us vs : List α} (h : Forall2 R us vs) :
    Forall2 R vs us := by
  induction h with
  | nil => exact .nil
  | cons h _ ih => exact .cons (hr _ _ h) ih

theorem forall2_append_left {α β : Type} {R : α → β → Prop} {us₁ us₂ : List α} {vs : List β} (h : Forall2 R (us₁ ++ us₂) vs) :
    ∃ vs₁ vs₂, vs = vs₁ ++ vs₂ ∧ Forall2 R us₁ vs₁ ∧ Forall2 R us₂ vs₂ := by
  induction us₁ generalizing vs with
  | nil => exact ⟨[], vs, Eq.refl _, .nil, h⟩
  | cons u us₁ ih =>
    cases h with
    | cons h1 h2 =>
      obtain ⟨v1, v2, rfl, h3, h4⟩ := ih h2
      exact ⟨_ :: v1, v2, Eq.refl _, .cons h1 h3, h4⟩

theorem forall2_cons_left {α β : Type} {R : α → β → Prop} {u : α} {us : List α} {vs : List β} (h : Forall2 R (u :: us) vs) :
    ∃ v vs', vs = v :: vs' ∧ R u v ∧ Forall2 R us vs' := by
  cases h with
  | cons h1 h2 => exact ⟨_, _, Eq.refl _, h1, h2⟩

theorem forall2_nil_left {α β : Type} {R : α → β → Prop} {vs : List β} (h : Forall2 R ([] : List α) vs) : vs = [] := by
  cases h; exact Eq.refl _

/-! ## Derivations of the same tokens at other positions -/

theorem derives_alike {us : List Token} {ph : Phrase} (h : Derives us ph) :
    ∀ vs, Forall2 SameToken us vs → ∃ ph', Derives vs ph' ∧ Dressed ph ph' := by
  induction h with
  | parens ho _ hc ih =>
    intro vs h
    obtain ⟨v1, v2, rfl, h1, h2⟩ := forall2_append_left h
    obtain ⟨o', v1, rfl, h3, h1⟩ := forall2_cons_left h1
    obtain ⟨c', v2, rfl, h4, h2⟩ := forall2_cons_left h2
    cases forall2_nil_left h2
    obtain ⟨ph', hd, ha⟩ := ih _ h1
    cases ph' with
    | expr e => exact ⟨_, .parens (h3.1 ▸ ho) hd (h4.1 ▸ hc), .parens ha⟩
    | _ => nomatch ha
  | pre hk _ ih =>
    intro vs h
    obtain ⟨o', v1, rfl, h3, h1⟩ := forall2_cons_left h
    obtain ⟨ph', hd, ha⟩ := ih _ h1
    cases ph' with
    | expr e => exact ⟨_, .pre (h3.1 ▸ hk) hd, .pre h3 ha⟩
    | _ => nomatch ha
  | bin _ hk _ ih1 ih2 =>
    intro vs h
    obtain ⟨v1, v2, rfl, h1, h2⟩ := forall2_append_left h
    obtain ⟨c', v2, rfl, h4, h2⟩ := forall2_cons_left h2
    obtain ⟨p1, hd1, ha1⟩ := ih1 _ h1
    obtain ⟨p2, hd2, ha2⟩ := ih2 _ h2
    cases p1 with
    | expr e1 =>
      cases p2 with
      | expr e2 => exact ⟨_, .bin hd1 (h4.1 ▸ hk) hd2, .bin h4 ha1 ha2⟩
      | _ => nomatch ha2
    | _ => nomatch ha1
  | tern _ hk _ hc _ ih1 ih2 ih3 =>
    intro vs h
    obtain ⟨v1, v2, rfl, h1, h2⟩ := forall2_append_left h
    obtain ⟨c', v2, rfl, h4, h2⟩ := forall2_cons_left h2
    obtain ⟨v0, v1, rfl, h0, h1⟩ := forall2_append_left h1
    obtain ⟨o', v1, rfl, h3, h1⟩ := forall2_cons_left h1
    obtain ⟨p1, hd1, ha1⟩ := ih1 _ h0
    obtain ⟨p2, hd2, ha2⟩ := ih2 _ h1
    obtain ⟨p3, hd3, ha3⟩ := ih3 _ h2
    cases p1 with
    | expr e1 =>
      cases p2 with
      | expr e2 =>
        cases p3 with
        | expr e3 => exact ⟨_, .tern hd1 (h3.1 ▸ hk) hd2 (h4.1 ▸ hc) hd3, .tern h3 ha1 ha2 ha3⟩
        | _ => nomatch ha3
      | _ => nomatch ha2
    | _ => nomatch ha1
  | call0 hn ho hc =>
    intro vs h
    obtain ⟨n, vs, rfl, h1, h⟩ := forall2_cons_left h
    obtain ⟨o, vs, rfl, h2, h⟩ := forall2_cons_left h
    obtain ⟨c, vs, rfl, h3, h⟩ := forall2_cons_left h
    cases forall2_nil_left h
    exact ⟨_, .call0 (h1.1 ▸ hn) (h2.1 ▸ ho) (h3.1 ▸ hc), .call h1 .exprs0⟩
  | call hn ho _ hc ih =>
    intro vs h
    obtain ⟨v1, v2, rfl, h6, h5⟩ := forall2_append_left h
    obtain ⟨n, v1, rfl, h1, h6⟩ := forall2_cons_left h6
    obtain ⟨o, v1, rfl, h2, h6⟩ := forall2_cons_left h6
    obtain ⟨c, v2, rfl, h3, h5⟩ := forall2_cons_left h5
    cases forall2_nil_left h5
    obtain ⟨p1, hd1, ha1⟩ := ih _ h6
    cases p1 with
    | exprs es => exact ⟨_, .call (h1.1 ▸ hn) (h2.1 ▸ ho) hd1 (h3.1 ▸ hc), .call h1 ha1⟩
    | _ => nomatch ha1
  | index hn ho _ hc ih =>
    intro vs h
    obtain ⟨v1, v2, rfl, h6, h5⟩ := forall2_append_left h
    obtain ⟨n, v1, rfl, h1, h6⟩ := forall2_cons_left h6
    obtain ⟨o, v1, rfl, h2, h6⟩ := forall2_cons_left h6
    obtain ⟨c, v2, rfl, h3, h5⟩ := forall2_cons_left h5
    cases forall2_nil_left h5
    obtain ⟨p1, hd1, ha1⟩ := ih _ h6
    cases p1 with
    | entries es => exact ⟨_, .index (h1.1 ▸ hn) (h2.1 ▸ ho) hd1 (h3.1 ▸ hc), .index h1 ha1⟩
    | _ => nomatch ha1
  | atom hk =>
    intro vs h
    obtain ⟨n, vs, rfl, h1, h⟩ := forall2_cons_left h
    cases forall2_nil_left h
    exact ⟨_, .atom (h1.1 ▸ hk), .atom h1⟩
  | expr1 _ ih =>
    intro vs h
    obtain ⟨p1, hd1, ha1⟩ := ih _ h
    cases p1 with
    | expr e => exact ⟨_, .expr1 hd1, .exprsN ha1 .exprs0⟩
    | _ => nomatch ha1
  | exprN _ hk _ ih1 ih2 =>
    intro vs h
    obtain ⟨v1, v2, rfl, h1, h2⟩ := forall2_append_left h
    obtain ⟨c', v2, rfl, h4, h2⟩ := forall2_cons_left h2
    obtain ⟨p1, hd1, ha1⟩ := ih1 _ h1
    obtain ⟨p2, hd2, ha2⟩ := ih2 _ h2
    cases p1 with
    | expr e1 =>
      cases p2 with
      | exprs e2 => exact ⟨_, .exprN hd1 (h4.1 ▸ hk) hd2, .exprsN ha1 ha2⟩
      | _ => nomatch ha2
    | _ => nomatch ha1
  | item _ ih =>
    intro vs h
    obtain ⟨p1, hd1, ha1⟩ := ih _ h
    cases p1 with
    | expr e => exact ⟨_, .item hd1, .item ha1⟩
    | _ => nomatch ha1
  | range _ hk _ ih1 ih2 =>
    intro vs h
    obtain ⟨v1, v2, rfl, h1, h2⟩ := forall2_append_left h
    obtain ⟨c', v2, rfl, h4, h2⟩ := forall2_cons_left h2
    obtain ⟨p1, hd1, ha1⟩ := ih1 _ h1
    obtain ⟨p2, hd2, ha2⟩ := ih2 _ h2
    cases p1 with
    | expr e1 =>
      cases p2 with
      | expr e2 => exact ⟨_, .range hd1 (h4.1 ▸ hk) hd2, .range ha1 ha2⟩
      | _ => nomatch ha2
    | _ => nomatch ha1
  | entry1 _ ih =>
    intro vs h
    obtain ⟨p1, hd1, ha1⟩ := ih _ h
    cases p1 with
    | entry e => exact ⟨_, .entry1 hd1, .entriesN ha1 .entries0⟩
    | _ => nomatch ha1
  | entryN _ hk _ ih1 ih2 =>
    intro vs h
    obtain ⟨v1, v2, rfl, h1, h2⟩ := forall2_append_left h
    obtain ⟨c', v2, rfl, h4, h2⟩ := forall2_cons_left h2
    obtain ⟨p1, hd1, ha1⟩ := ih1 _ h1
    obtain ⟨p2, hd2, ha2⟩ := ih2 _ h2
    cases p1 with
    | entry e1 =>
      cases p2 with
      | entries e2 => exact ⟨_, .entryN hd1 (h4.1 ▸ hk) hd2, .entriesN ha1 ha2⟩
      | _ => nomatch ha2
    | _ => nomatch ha1

theorem derives_alike_expr {us vs : List Token} {e : PExpr} (h : Derives us (.expr e)) (hv : Forall2 SameToken us vs) :
    ∃ e', Derives vs (.expr e') ∧ Dressed (.expr e) (.expr e') := by
  obtain ⟨p, hd, ha⟩ := derives_alike h vs hv
  cases p with
  | expr e => exact ⟨_, hd, ha⟩
  | _ => nomatch ha

theorem derives_alike_exprs {us vs : List Token} {es : List PExpr} (h : Derives us (.exprs es)) (hv : Forall2 SameToken us vs) :
    ∃ es', Derives vs (.exprs es') ∧ Dressed (.exprs es) (.exprs es') := by
  obtain ⟨p, hd, ha⟩ := derives_alike h vs hv
  cases p with
  | exprs e => exact ⟨_, hd, ha⟩
  | _ => nomatch ha

theorem derivesGate_alike {us : List Token} {g : PGate} (h : DerivesGate us g) :
    ∀ vs, Forall2 SameToken us vs → ∃ g', DerivesGate vs g' ∧ DressedGate g g' := by
  induction h with
  | inv hk hd _ ih =>
    intro vs h
    obtain ⟨n, vs, rfl, h1, h⟩ := forall2_cons_left h
    obtain ⟨o, vs, rfl, h2, h⟩ := forall2_cons_left h
    obtain ⟨g', hg, ha⟩ := ih _ h
    exact ⟨_, .inv (h1.1 ▸ hk) (h2.1 ▸ hd) hg, .inv h1 ha⟩
  | pow hk ho he hc hd _ ih =>
    intro vs h
    obtain ⟨v1, v2, rfl, h6, h5⟩ := forall2_append_left h
    obtain ⟨n, v1, rfl, h1, h6⟩ := forall2_cons_left h6
    obtain ⟨o, v1, rfl, h2, h6⟩ := forall2_cons_left h6
    obtain ⟨c, v2, rfl, h3, h5⟩ := forall2_cons_left h5
    obtain ⟨d, v2, rfl, h4, h5⟩ := forall2_cons_left h5
    obtain ⟨e', he', ha'⟩ := derives_alike_expr he h6
    obtain ⟨g', hg, ha⟩ := ih _ h5
    exact ⟨_, .pow (h1.1 ▸ hk) (h2.1 ▸ ho) he' (h3.1 ▸ hc) (h4.1 ▸ hd) hg, .pow h1 ha' ha⟩
  | ctrl hk hd _ ih =>
    intro vs h
    obtain ⟨n, vs, rfl, h1, h⟩ := forall2_cons_left h
    obtain ⟨o, vs, rfl, h2, h⟩ := forall2_cons_left h
    obtain ⟨g', hg, ha⟩ := ih _ h
    exact ⟨_, .ctrl (h1.1 ▸ hk) (h2.1 ▸ hd) hg, .ctrl h1 ha⟩
  | named hk =>
    intro vs h
    obtain ⟨n, vs, rfl, h1, h⟩ := forall2_cons_left h
    cases forall2_nil_left h
    exact ⟨_, .named (h1.1 ▸ hk), .named h1⟩
  | parameters hn ho he hc =>
    intro vs h
    obtain ⟨v1, v2, rfl, h6, h5⟩ := forall2_append_left h
    obtain ⟨n, v1, rfl, h1, h6⟩ := forall2_cons_left h6
    obtain ⟨o, v1, rfl, h2, h6⟩ := forall2_cons_left h6
    obtain ⟨c, v2, rfl, h3, h5⟩ := forall2_cons_left h5
    cases forall2_nil_left h5
    obtain ⟨e', he', ha'⟩ := derives_alike_exprs he h6
    exact ⟨_, .parameters (h1.1 ▸ hn) (h2.1 ▸ ho) he' (h3.1 ▸ hc), .parameters h1 ha'⟩

theorem derivesStmt_alike {us : List Token} {s : PStmt} (h : DerivesStmt us s) :
    ∀ vs, Forall2 SameToken us vs → ∃ s', DerivesStmt vs s' ∧ DressedStmt s s' := by
  intro vs hv
  cases h with
  | var hk hn =>
    obtain ⟨a, vs, rfl, h1, hv⟩ := forall2_cons_left hv
    obtain ⟨b, vs, rfl, h2, hv⟩ := forall2_cons_left hv
    cases forall2_nil_left hv
    exact ⟨_, .var (h1.1 ▸ hk) (h2.1 ▸ hn), .var h1 h2⟩
  | array hk ho hi hc hn =>
    obtain ⟨a, vs, rfl, h1, hv⟩ := forall2_cons_left hv
    obtain ⟨b, vs, rfl, h2, hv⟩ := forall2_cons_left hv
    obtain ⟨c, vs, rfl, h3, hv⟩ := forall2_cons_left hv
    obtain ⟨d, vs, rfl, h4, hv⟩ := forall2_cons_left hv
    obtain ⟨e, vs, rfl, h5, hv⟩ := forall2_cons_left hv
    cases forall2_nil_left hv
    exact ⟨_, .array (h1.1 ▸ hk) (h2.1 ▸ ho) (h3.1 ▸ hi) (h4.1 ▸ hc) (h5.1 ▸ hn), .array h1 h3 h5⟩
  | gate hg he =>
    obtain ⟨v1, v2, rfl, h1, h2⟩ := forall2_append_left hv
    obtain ⟨g', hg', ha⟩ := derivesGate_alike hg _ h1
    obtain ⟨e', he', hb⟩ := derives_alike_exprs he h2
    exact ⟨_, .gate hg' he', .gate ha hb⟩
  | measure hb he hk hq =>
    obtain ⟨v1, v2, rfl, h1, h2⟩ := forall2_append_left hv
    obtain ⟨a, v2, rfl, h3, h2⟩ := forall2_cons_left h2
    obtain ⟨b, v2, rfl, h4, h2⟩ := forall2_cons_left h2
    obtain ⟨b', hb', ha⟩ := derives_alike_expr hb h1
    obtain ⟨q', hq', ha'⟩ := derives_alike_expr hq h2
    exact ⟨_, .measure hb' (h3.1 ▸ he) (h4.1 ▸ hk) hq', .measure h4 ha ha'⟩
  | measureParameters hb he hk ho hp hc hq =>
    obtain ⟨v1, v2, rfl, h1, h2⟩ := forall2_append_left hv
    obtain ⟨d, v2, rfl, h6, h2⟩ := forall2_cons_left h2
    obtain ⟨v0, v1, rfl, h0, h1⟩ := forall2_append_left h1
    obtain ⟨a, v1, rfl, h3, h1⟩ := forall2_cons_left h1
    obtain ⟨b, v1, rfl, h4, h1⟩ := forall2_cons_left h1
    obtain ⟨c, v1, rfl, h5, h1⟩ := forall2_cons_left h1
    obtain ⟨b', hb', ha⟩ := derives_alike_expr hb h0
    obtain ⟨p', hp', ha'⟩ := derives_alike_exprs hp h1
    obtain ⟨q', hq', ha''⟩ := derives_alike_expr hq h2
    exact ⟨_, .measureParameters hb' (h3.1 ▸ he) (h4.1 ▸ hk) (h5.1 ▸ ho) hp' (h6.1 ▸ hc) hq', .measureParameters h4 ha' ha ha''⟩
  | simple hk he =>
    obtain ⟨a, vs, rfl, h1, hv⟩ := forall2_cons_left hv
    obtain ⟨b', hb', ha⟩ := derives_alike_expr he hv
    exact ⟨_, .simple (h1.1 ▸ hk) hb', .simple h1 ha⟩
  | wait hk ho hp hc he =>
    obtain ⟨v1, v2, rfl, h1, h2⟩ := forall2_append_left hv
    obtain ⟨a, v1, rfl, h3, h1⟩ := forall2_cons_left h1
    obtain ⟨b, v1, rfl, h4, h1⟩ := forall2_cons_left h1
    obtain ⟨c, v2, rfl, h5, h2⟩ := forall2_cons_left h2
    obtain ⟨b', hb', ha⟩ := derives_alike_expr hp h1
    obtain ⟨c', hc', ha'⟩ := derives_alike_expr he h2
    exact ⟨_, .wait (h3.1 ▸ hk) (h4.1 ▸ ho) hb' (h5.1 ▸ hc) hc', .wait h3 ha ha'⟩
  | asm hk ho hn hc hr =>
    obtain ⟨a, vs, rfl, h1, hv⟩ := forall2_cons_left hv
    obtain ⟨b, vs, rfl, h2, hv⟩ := forall2_cons_left hv
    obtain ⟨c, vs, rfl, h3, hv⟩ := forall2_cons_left hv
    obtain ⟨d, vs, rfl, h4, hv⟩ := forall2_cons_left hv
    obtain ⟨e, vs, rfl, h5, hv⟩ := forall2_cons_left hv
    cases forall2_nil_left hv
    exact ⟨_, .asm (h1.1 ▸ hk) (h2.1 ▸ ho) (h3.1 ▸ hn) (h4.1 ▸ hc) (h5.1 ▸ hr), .asm h3 h5⟩

/-! ## Dressing keeps the grouping -/

/-- All expressions of the phrase are grouped. -/
def GroupedPhrase : Phrase → Prop
  | .expr e => Grouped e
  | .exprs es => ∀ e ∈ es, Grouped e
  | .entry (.item e) => Grouped e
  | .entry (.range a b) => Grouped a ∧ Grouped b
  | .entries is => (∀ e, .item e ∈ is → Grouped e) ∧ (∀ a b, .range a b ∈ is → Grouped a) ∧ (∀ a b, .range a b ∈ is → Grouped b)

theorem dressed_top {e e' : PExpr} (h : Dressed (.expr e) (.expr e')) : top e' = none ∨ top e' = top e := by
  cases h with
  | bin h _ _ => right; simp [top, h.1]
  | tern h _ _ _ => right; simp [top, h.1]
  | _ => exact .inl rfl

theorem dressed_tighter {e e' : PExpr} {k k' : TokKind} (h : Dressed (.expr e) (.expr e')) (hk : k = k') (ht : Tighter e k) :
    Tighter e' k' := by
  subst hk
  intro j hj
  rcases dressed_top h with h | h
  · rw [h] at hj; cases hj
  · exact ht j (h ▸ hj)

theorem dressed_asTight {e e' : PExpr} {k k' : TokKind} (h : Dressed (.expr e) (.expr e')) (hk : k = k') (ht : AsTight e k) :
    AsTight e' k' := by
  subst hk
  intro j hj
  rcases dressed_top h with h | h
  · rw [h] at hj; cases hj
  · exact ht j (h ▸ hj)

theorem dressed_grouped {ph ph' : Phrase} (h : Dressed ph ph') (hg : GroupedPhrase ph) : GroupedPhrase ph' := by
  induction h with
  | addParens _ ih => exact Grouped.parens (ih hg)
  | addPlus _ ht _ ih => exact Grouped.pre ht (ih hg)
  | parens _ ih => cases hg with | parens hg => exact Grouped.parens (ih hg)
  | pre _ hd ih =>
    cases hg with
    | pre ht hg =>
      refine Grouped.pre ?_ (ih hg)
      rcases dressed_top hd with h | h
      · exact h
      · rw [h, ht]
  | bin hs h1 h2 ih1 ih2 =>
    cases hg with
    | left hr ha ht hl hrr =>
      exact Grouped.left (hs.1 ▸ hr) (dressed_asTight h1 hs.1 ha) (dressed_tighter h2 hs.1 ht) (ih1 hl) (ih2 hrr)
    | right hr ha ht hl hrr =>
      exact Grouped.right (hs.1 ▸ hr) (dressed_tighter h1 hs.1 ha) (dressed_asTight h2 hs.1 ht) (ih1 hl) (ih2 hrr)
  | tern hs h1 h2 h3 ih1 ih2 ih3 =>
    cases hg with
    | tern h4 h5 h6 h7 h8 =>
      exact Grouped.tern (dressed_tighter h1 hs.1 h4) (dressed_asTight h3 hs.1 h5) (ih1 h6) (ih2 h7) (ih3 h8)
  | call _ _ ih => cases hg with | call h => exact Grouped.call (ih h)
  | index _ _ ih =>
    cases hg with
    | index h1 h2 h3 =>
      have := ih ⟨h1, h2, h3⟩
      exact Grouped.index this.1 this.2.1 this.2.2
  | atom => exact Grouped.atom
  | exprs0 => exact hg
  | exprsN _ _ ih1 ih2 =>
    intro e he
    rcases List.mem_cons.1 he with rfl | he
    · exact ih1 (hg _ (List.mem_cons_self ..))
    · exact ih2 (fun e he => hg e (List.mem_cons_of_mem _ he)) e he
  | item _ ih => exact ih hg
  | range _ _ ih1 ih2 => exact ⟨ih1 hg.1, ih2 hg.2⟩
  | entries0 => exact hg
  | entriesN hi _ ih1 ih2 =>
    obtain ⟨g1, g2, g3⟩ := hg
    obtain ⟨r1, r2, r3⟩ := ih2 ⟨fun e he => g1 e (List.mem_cons_of_mem _ he), fun a b he => g2 a b (List.mem_cons_of_mem _ he),
      fun a b he => g3 a b (List.mem_cons_of_mem _ he)⟩
    cases hi with
    | item hd =>
      have h0 := ih1 (g1 _ (List.mem_cons_self ..))
      refine ⟨fun e he => ?_, fun a b he => ?_, fun a b he => ?_⟩
      · rcases List.mem_cons.1 he with he | he
        · cases he; exact h0
        · exact r1 e he
      · rcases List.mem_cons.1 he with he | he
        · cases he
        · exact r2 a b he
      · rcases List.mem_cons.1 he with he | he
        · cases he
        · exact r3 a b he
    | range hd1 hd2 =>
      have h0 := ih1 ⟨g2 _ _ (List.mem_cons_self ..), g3 _ _ (List.mem_cons_self ..)⟩
      refine ⟨fun e he => ?_, fun a b he => ?_, fun a b he => ?_⟩
      · rcases List.mem_cons.1 he with he | he
        · cases he
        · exact r1 e he
      · rcases List.mem_cons.1 he with he | he
        · cases he; exact h0.1
        · exact r2 a b he
      · rcases List.mem_cons.1 he with he | he
        · cases he; exact h0.2
        · exact r3 a b he

theorem dressed_exprs_grouped {es es' : List PExpr} (h : Dressed (.exprs es) (.exprs es')) (hg : ∀ e ∈ es, Grouped e) :
    ∀ e ∈ es', Grouped e := dressed_grouped h hg

theorem dressedGate_grouped {g g' : PGate} (h : DressedGate g g') (hg : ∀ e ∈ gateExprs g, Grouped e) :
    ∀ e ∈ gateExprs g', Grouped e := by
  induction h with
  | inv _ _ ih => exact ih hg
  | pow _ he _ ih =>
    intro e h
    rcases List.mem_cons.1 h with rfl | h
    · exact dressed_grouped he (hg _ (List.mem_cons_self ..))
    · exact ih (fun e he => hg e (List.mem_cons_of_mem _ he)) e h
  | ctrl _ _ ih => exact ih hg
  | named => exact hg
  | parameters _ he => exact dressed_exprs_grouped he hg

theorem dressedStmt_grouped {s s' : PStmt} (h : DressedStmt s s') (hg : ∀ e ∈ stmtExprs s, Grouped e) :
    ∀ e ∈ stmtExprs s', Grouped e := by
  cases h with
  | var => exact hg
  | array => exact hg
  | gate h1 h2 =>
    intro e he
    rcases List.mem_append.1 he with he | he
    · exact dressedGate_grouped h1 (fun e he => hg e (List.mem_append_left _ he)) e he
    · exact dressed_exprs_grouped h2 (fun e he => hg e (List.mem_append_right _ he)) e he
  | measure _ h1 h2 =>
    have g1 := dressed_grouped h1 (hg _ (by simp [stmtExprs]))
    have g2 := dressed_grouped h2 (hg _ (by simp [stmtExprs]))
    intro e he
    simp only [stmtExprs, Option.getD_none, List.nil_append, List.mem_cons, List.not_mem_nil, or_false] at he
    rcases he with rfl | rfl
    · exact g1
    · exact g2
  | measureParameters _ h0 h1 h2 =>
    have g0 := dressed_exprs_grouped h0 (fun e he => hg e (by simp [stmtExprs, he]))
    have g1 := dressed_grouped h1 (hg _ (by simp [stmtExprs]))
    have g2 := dressed_grouped h2 (hg _ (by simp [stmtExprs]))
    intro e he
    simp only [stmtExprs, Option.getD_some, List.mem_append, List.mem_cons, List.not_mem_nil, or_false] at he
    rcases he with he | rfl | rfl
    · exact g0 e he
    · exact g1
    · exact g2
  | simple _ h1 =>
    have g1 := dressed_grouped h1 (hg _ (by simp [stmtExprs]))
    intro e he
    simp only [stmtExprs, List.mem_cons, List.not_mem_nil, or_false] at he
    subst he; exact g1
  | wait _ h1 h2 =>
    have g1 := dressed_grouped h1 (hg _ (by simp [stmtExprs]))
    have g2 := dressed_grouped h2 (hg _ (by simp [stmtExprs]))
    intro e he
    simp only [stmtExprs, List.mem_cons, List.not_mem_nil, or_false] at he
    rcases he with rfl | rfl
    · exact g1
    · exact g2
  | asm => exact hg

theorem dressedGate_parameters {g g' : PGate} (h : DressedGate g g') : gateHasParameters g' = gateHasParameters g := by
  induction h with
  | inv _ _ ih => exact ih
  | pow _ _ _ ih => exact ih
  | ctrl _ _ ih => exact ih
  | named => rfl
  | parameters => rfl

theorem dressedStmt_parameters {s s' : PStmt} (h : DressedStmt s s') : hasParameters s' = hasParameters s := by
  cases h with
  | gate h _ => exact dressedGate_parameters h
  | _ => rfl

/-- The tree chosen for the same tokens at other positions. -/
theorem chosen_alike {us vs : List Token} {s : PStmt} (h : Chosen us s) (hv : Forall2 SameToken us vs) :
    ∃ s', Chosen vs s' ∧ DressedStmt s s' := by
  obtain ⟨hd, hg, hp⟩ := h
  obtain ⟨s', hd', ha⟩ := derivesStmt_alike hd vs hv
  refine ⟨s', ⟨hd', dressedStmt_grouped ha hg, ?_⟩, ha⟩
  rintro hn ⟨t, ht, htp⟩
  obtain ⟨t', ht', ha'⟩ := derivesStmt_alike ht us (forall2_symm (fun _ _ => SameToken.symm) hv)
  exact hp (by rw [← dressedStmt_parameters ha]; exact hn) ⟨t', ht', by rw [dressedStmt_parameters ha']; exact htp⟩

/-! ## Trees of dressed phrases -/

/-- The node without positions. -/
def stripNode : Node F → Node F
  | .expr e => .expr (stripExpr e)
  | .exprs es => .exprs (stripExprs es)
  | .entry i => .entry (stripEntry i)
  | .entries is => .entries (stripEntries is)

theorem at_exists (file : Option Str) (t : Token) : ∃ l, At file t l := ⟨_, (Syn.at_iff).2 rfl⟩

theorem spans_exists (file : Option Str) (s t : Token) : ∃ l, Spans file s t l := ⟨_, Syn.spans_typeLoc file s s t⟩


theorem dressed_expr_cases {e : PExpr} {ph : Phrase} (h : Dressed (.expr e) ph) : ∃ e', ph = .expr e' := by
  cases h <;> exact ⟨_, rfl⟩

theorem tree_dressed {stod : Str → Option F} {f : Option Str} {ph ph' : Phrase} (h : Dressed ph ph') (f' : Option Str) :
    (∀ n, Tree stod f ph n → ∃ n', Tree stod f' ph' n' ∧ stripNode n' = stripNode n) ∧
    (∀ n', Tree stod f' ph' n' → ∃ n, Tree stod f ph n ∧ stripNode n = stripNode n') := by
  induction h with
  | addParens _ ih =>
    constructor
    · intro n ht
      obtain ⟨n', h1, h2⟩ := ih.1 n ht
      cases n' with
      | expr v => exact ⟨_, .parens h1, h2⟩
      | _ => nomatch h1
    · intro n' ht
      cases ht with
      | parens ht => exact ih.2 _ ht
  | addPlus hk _ _ ih =>
    constructor
    · intro n ht
      obtain ⟨n', h1, h2⟩ := ih.1 n ht
      cases n' with
      | expr v => exact ⟨_, .plus hk h1, h2⟩
      | _ => nomatch h1
    · intro n' ht
      cases ht with
      | plus _ ht => exact ih.2 _ ht
      | pre hm _ _ => rw [hk] at hm; simp [unaryNodes] at hm
  | parens _ ih =>
    constructor
    · intro n ht
      cases ht with
      | parens ht =>
        obtain ⟨n', h1, h2⟩ := ih.1 _ ht
        cases n' with
        | expr v => exact ⟨_, .parens h1, h2⟩
        | _ => nomatch h1
    · intro n' ht
      cases ht with
      | parens ht =>
        obtain ⟨n', h1, h2⟩ := ih.2 _ ht
        cases n' with
        | expr v => exact ⟨_, .parens h1, h2⟩
        | _ => nomatch h1
  | pre hs _ ih =>
    constructor
    · intro n ht
      cases ht with
      | plus hk ht =>
        obtain ⟨n', h1, h2⟩ := ih.1 _ ht
        cases n' with
        | expr v => exact ⟨_, .plus (hs.1 ▸ hk) h1, h2⟩
        | _ => nomatch h1
      | pre hk ha ht =>
        obtain ⟨n', h1, h2⟩ := ih.1 _ ht
        obtain ⟨l, hl⟩ := at_exists f' _
        cases n' with
        | expr v =>
          simp only [stripNode, Node.expr.injEq] at h2
          exact ⟨_, .pre (hs.1 ▸ hk) hl h1, by simp [stripNode, stripExpr, h2]⟩
        | _ => nomatch h1
    · intro n ht
      cases ht with
      | plus hk ht =>
        obtain ⟨n', h1, h2⟩ := ih.2 _ ht
        cases n' with
        | expr v => exact ⟨_, .plus (hs.1 ▸ hk) h1, h2⟩
        | _ => nomatch h1
      | pre hk ha ht =>
        obtain ⟨n', h1, h2⟩ := ih.2 _ ht
        obtain ⟨l, hl⟩ := at_exists f _
        cases n' with
        | expr v =>
          simp only [stripNode, Node.expr.injEq] at h2
          exact ⟨_, .pre (hs.1 ▸ hk) hl h1, by simp [stripNode, stripExpr, h2]⟩
        | _ => nomatch h1
  | bin hs _ _ ih1 ih2 =>
    constructor
    · intro n ht
      cases ht with
      | bin hk ha ht1 ht2 =>
        obtain ⟨n1, h1, e1⟩ := ih1.1 _ ht1
        obtain ⟨n2, h2, e2⟩ := ih2.1 _ ht2
        obtain ⟨l, hl⟩ := at_exists f' _
        cases n1 with
        | expr v =>
          cases n2 with
          | expr w =>
            simp only [stripNode, Node.expr.injEq] at e1 e2
            exact ⟨_, .bin (hs.1 ▸ hk) hl h1 h2, by simp [stripNode, stripExpr, e1, e2]⟩
          | _ => nomatch h2
        | _ => nomatch h1
    · intro n ht
      cases ht with
      | bin hk ha ht1 ht2 =>
        obtain ⟨n1, h1, e1⟩ := ih1.2 _ ht1
        obtain ⟨n2, h2, e2⟩ := ih2.2 _ ht2
        obtain ⟨l, hl⟩ := at_exists f _
        cases n1 with
        | expr v =>
          cases n2 with
          | expr w =>
            simp only [stripNode, Node.expr.injEq] at e1 e2
            exact ⟨_, .bin (hs.1 ▸ hk) hl h1 h2, by simp [stripNode, stripExpr, e1, e2]⟩
          | _ => nomatch h2
        | _ => nomatch h1
  | tern hs _ _ _ ih1 ih2 ih3 =>
    constructor
    · intro n ht
      cases ht with
      | tern ha ht1 ht2 ht3 =>
        obtain ⟨n1, h1, e1⟩ := ih1.1 _ ht1
        obtain ⟨n2, h2, e2⟩ := ih2.1 _ ht2
        obtain ⟨n3, h3, e3⟩ := ih3.1 _ ht3
        obtain ⟨l, hl⟩ := at_exists f' _
        cases n1 with
        | expr v =>
          cases n2 with
          | expr w =>
            cases n3 with
            | expr x =>
              simp only [stripNode, Node.expr.injEq] at e1 e2 e3
              exact ⟨_, .tern hl h1 h2 h3, by simp [stripNode, stripExpr, e1, e2, e3]⟩
            | _ => nomatch h3
          | _ => nomatch h2
        | _ => nomatch h1
    · intro n ht
      cases ht with
      | tern ha ht1 ht2 ht3 =>
        obtain ⟨n1, h1, e1⟩ := ih1.2 _ ht1
        obtain ⟨n2, h2, e2⟩ := ih2.2 _ ht2
        obtain ⟨n3, h3, e3⟩ := ih3.2 _ ht3
        obtain ⟨l, hl⟩ := at_exists f _
        cases n1 with
        | expr v =>
          cases n2 with
          | expr w =>
            cases n3 with
            | expr x =>
              simp only [stripNode, Node.expr.injEq] at e1 e2 e3
              exact ⟨_, .tern hl h1 h2 h3, by simp [stripNode, stripExpr, e1, e2, e3]⟩
            | _ => nomatch h3
          | _ => nomatch h2
        | _ => nomatch h1
  | call hs _ ih =>
    constructor
    · intro n ht
      cases ht with
      | call ha ht =>
        obtain ⟨n1, h1, e1⟩ := ih.1 _ ht
        obtain ⟨l, hl⟩ := at_exists f' _
        cases n1 with
        | exprs v =>
          simp only [stripNode, Node.exprs.injEq] at e1
          exact ⟨_, .call hl h1, by simp [stripNode, stripExpr, e1, hs.2]⟩
        | _ => nomatch h1
    · intro n ht
      cases ht with
      | call ha ht =>
        obtain ⟨n1, h1, e1⟩ := ih.2 _ ht
        obtain ⟨l, hl⟩ := at_exists f _
        cases n1 with
        | exprs v =>
          simp only [stripNode, Node.exprs.injEq] at e1
          exact ⟨_, .call hl h1, by simp [stripNode, stripExpr, e1, hs.2]⟩
        | _ => nomatch h1
  | index hs _ ih =>
    constructor
    · intro n ht
      cases ht with
      | index ha ht =>
        obtain ⟨n1, h1, e1⟩ := ih.1 _ ht
        obtain ⟨l, hl⟩ := at_exists f' _
        cases n1 with
        | entries v =>
          simp only [stripNode, Node.entries.injEq] at e1
          exact ⟨_, .index hl h1, by simp [stripNode, stripExpr, e1, hs.2]⟩
        | _ => nomatch h1
    · intro n ht
      cases ht with
      | index ha ht =>
        obtain ⟨n1, h1, e1⟩ := ih.2 _ ht
        obtain ⟨l, hl⟩ := at_exists f _
        cases n1 with
        | entries v =>
          simp only [stripNode, Node.entries.injEq] at e1
          exact ⟨_, .index hl h1, by simp [stripNode, stripExpr, e1, hs.2]⟩
        | _ => nomatch h1
  | atom hs =>
    constructor
    · intro n ht
      cases ht with
      | ident hk _ =>
        obtain ⟨l, hl⟩ := at_exists f' _
        exact ⟨_, .ident (hs.1 ▸ hk) hl, by simp [stripNode, stripExpr, hs.2]⟩
      | true hk hx _ =>
        obtain ⟨l, hl⟩ := at_exists f' _
        exact ⟨_, .true (hs.1 ▸ hk) (hs.2 ▸ hx) hl, by simp [stripNode, stripExpr]⟩
      | false hk hx _ =>
        obtain ⟨l, hl⟩ := at_exists f' _
        exact ⟨_, .false (hs.1 ▸ hk) (hs.2 ▸ hx) hl, by simp [stripNode, stripExpr]⟩
      | int hk hx _ =>
        obtain ⟨l, hl⟩ := at_exists f' _
        exact ⟨_, .int (hs.1 ▸ hk) (hs.2 ▸ hx) hl, by simp [stripNode, stripExpr]⟩
      | float hk hx _ =>
        obtain ⟨l, hl⟩ := at_exists f' _
        exact ⟨_, .float (hs.1 ▸ hk) (hs.2 ▸ hx) hl, by simp [stripNode, stripExpr]⟩
    · intro n ht
      have hs := hs.symm
      cases ht with
      | ident hk _ =>
        obtain ⟨l, hl⟩ := at_exists f _
        exact ⟨_, .ident (hs.1 ▸ hk) hl, by simp [stripNode, stripExpr, hs.2]⟩
      | true hk hx _ =>
        obtain ⟨l, hl⟩ := at_exists f _
        exact ⟨_, .true (hs.1 ▸ hk) (hs.2 ▸ hx) hl, by simp [stripNode, stripExpr]⟩
      | false hk hx _ =>
        obtain ⟨l, hl⟩ := at_exists f _
        exact ⟨_, .false (hs.1 ▸ hk) (hs.2 ▸ hx) hl, by simp [stripNode, stripExpr]⟩
      | int hk hx _ =>
        obtain ⟨l, hl⟩ := at_exists f _
        exact ⟨_, .int (hs.1 ▸ hk) (hs.2 ▸ hx) hl, by simp [stripNode, stripExpr]⟩
      | float hk hx _ =>
        obtain ⟨l, hl⟩ := at_exists f _
        exact ⟨_, .float (hs.1 ▸ hk) (hs.2 ▸ hx) hl, by simp [stripNode, stripExpr]⟩
  | exprs0 =>
    constructor <;> intro n ht <;> cases ht <;> exact ⟨_, .exprs0, rfl⟩
  | exprsN _ _ ih1 ih2 =>
    constructor
    · intro n ht
      cases ht with
      | exprsN ht1 ht2 =>
        obtain ⟨n1, h1, e1⟩ := ih1.1 _ ht1
        obtain ⟨n2, h2, e2⟩ := ih2.1 _ ht2
        cases n1 with
        | expr v =>
          cases n2 with
          | exprs w =>
            simp only [stripNode, Node.expr.injEq, Node.exprs.injEq] at e1 e2
            exact ⟨_, .exprsN h1 h2, by simp [stripNode, stripExprs, e1, e2]⟩
          | _ => nomatch h2
        | _ => nomatch h1
    · intro n ht
      cases ht with
      | exprsN ht1 ht2 =>
        obtain ⟨n1, h1, e1⟩ := ih1.2 _ ht1
        obtain ⟨n2, h2, e2⟩ := ih2.2 _ ht2
        cases n1 with
        | expr v =>
          cases n2 with
          | exprs w =>
            simp only [stripNode, Node.expr.injEq, Node.exprs.injEq] at e1 e2
            exact ⟨_, .exprsN h1 h2, by simp [stripNode, stripExprs, e1, e2]⟩
          | _ => nomatch h2
        | _ => nomatch h1
  | item _ ih =>
    constructor
    · intro n ht
      cases ht with
      | item ht =>
        obtain ⟨n1, h1, e1⟩ := ih.1 _ ht
        cases n1 with
        | expr v =>
          simp only [stripNode, Node.expr.injEq] at e1
          exact ⟨_, .item h1, by simp [stripNode, stripEntry, e1]⟩
        | _ => nomatch h1
    · intro n ht
      cases ht with
      | item ht =>
        obtain ⟨n1, h1, e1⟩ := ih.2 _ ht
        cases n1 with
        | expr v =>
          simp only [stripNode, Node.expr.injEq] at e1
          exact ⟨_, .item h1, by simp [stripNode, stripEntry, e1]⟩
        | _ => nomatch h1
  | range _ _ ih1 ih2 =>
    constructor
    · intro n ht
      cases ht with
      | range ht1 ht2 =>
        obtain ⟨n1, h1, e1⟩ := ih1.1 _ ht1
        obtain ⟨n2, h2, e2⟩ := ih2.1 _ ht2
        cases n1 with
        | expr v =>
          cases n2 with
          | expr w =>
            simp only [stripNode, Node.expr.injEq] at e1 e2
            exact ⟨_, .range h1 h2, by simp [stripNode, stripEntry, e1, e2]⟩
          | _ => nomatch h2
        | _ => nomatch h1
    · intro n ht
      cases ht with
      | range ht1 ht2 =>
        obtain ⟨n1, h1, e1⟩ := ih1.2 _ ht1
        obtain ⟨n2, h2, e2⟩ := ih2.2 _ ht2
        cases n1 with
        | expr v =>
          cases n2 with
          | expr w =>
            simp only [stripNode, Node.expr.injEq] at e1 e2
            exact ⟨_, .range h1 h2, by simp [stripNode, stripEntry, e1, e2]⟩
          | _ => nomatch h2
        | _ => nomatch h1
  | entries0 =>
    constructor <;> intro n ht <;> cases ht <;> exact ⟨_, .entries0, rfl⟩
  | entriesN _ _ ih1 ih2 =>
    constructor
    · intro n ht
      cases ht with
      | entriesN ht1 ht2 =>
        obtain ⟨n1, h1, e1⟩ := ih1.1 _ ht1
        obtain ⟨n2, h2, e2⟩ := ih2.1 _ ht2
        cases n1 with
        | entry v =>
          cases n2 with
          | entries w =>
            simp only [stripNode, Node.entry.injEq, Node.entries.injEq] at e1 e2
            exact ⟨_, .entriesN h1 h2, by simp [stripNode, stripEntries, e1, e2]⟩
          | _ => nomatch h2
        | _ => nomatch h1
    · intro n ht
      cases ht with
      | entriesN ht1 ht2 =>
        obtain ⟨n1, h1, e1⟩ := ih1.2 _ ht1
        obtain ⟨n2, h2, e2⟩ := ih2.2 _ ht2
        cases n1 with
        | entry v =>
          cases n2 with
          | entries w =>
            simp only [stripNode, Node.entry.injEq, Node.entries.injEq] at e1 e2
            exact ⟨_, .entriesN h1 h2, by simp [stripNode, stripEntries, e1, e2]⟩
          | _ => nomatch h2
        | _ => nomatch h1

section both

variable {stod : Str → Option F} {f f' : Option Str}

/-- `R` and `R'` have the same outcomes up to positions. -/
def Outcomes {α : Type} (strip : α → α) (R R' : α → Prop) : Prop :=
  (∀ a, R a → ∃ b, R' b ∧ strip b = strip a) ∧ (∀ b, R' b → ∃ a, R a ∧ strip a = strip b)

theorem outcomes_expr {e e' : PExpr} (h : Dressed (.expr e) (.expr e')) :
    Outcomes stripExpr (fun v => Tree stod f (.expr e) (.expr v)) (fun v => Tree stod f' (.expr e') (.expr v)) := by
  obtain ⟨h1, h2⟩ := tree_dressed (stod := stod) (f := f) h f'
  constructor
  · intro a ha
    obtain ⟨n, hn, e⟩ := h1 _ ha
    cases n with
    | expr v => simp only [stripNode, Node.expr.injEq] at e; exact ⟨v, hn, e⟩
    | _ => nomatch hn
  · intro a ha
    obtain ⟨n, hn, e⟩ := h2 _ ha
    cases n with
    | expr v => simp only [stripNode, Node.expr.injEq] at e; exact ⟨v, hn, e⟩
    | _ => nomatch hn

theorem outcomes_exprs {e e' : List PExpr} (h : Dressed (.exprs e) (.exprs e')) :
    Outcomes stripExprs (fun v => Tree stod f (.exprs e) (.exprs v)) (fun v => Tree stod f' (.exprs e') (.exprs v)) := by
  obtain ⟨h1, h2⟩ := tree_dressed (stod := stod) (f := f) h f'
  constructor
  · intro a ha
    obtain ⟨n, hn, e⟩ := h1 _ ha
    cases n with
    | exprs v => simp only [stripNode, Node.exprs.injEq] at e; exact ⟨v, hn, e⟩
    | _ => nomatch hn
  · intro a ha
    obtain ⟨n, hn, e⟩ := h2 _ ha
    cases n with
    | exprs v => simp only [stripNode, Node.exprs.injEq] at e; exact ⟨v, hn, e⟩
    | _ => nomatch hn

theorem outcomes_gate {g g' : PGate} (h : DressedGate g g') :
    Outcomes stripGate (fun v => GateTree stod f g v) (fun v => GateTree stod f' g' v) := by
  induction h with
  | inv hs _ ih =>
    constructor
    · intro v hv
      cases hv with
      | inv ha hv =>
        obtain ⟨w, hw, e⟩ := ih.1 _ hv
        obtain ⟨l, hl⟩ := at_exists f' _
        exact ⟨_, .inv hl hw, by simp [stripGate, e, hs.2]⟩
    · intro v hv
      cases hv with
      | inv ha hv =>
        obtain ⟨w, hw, e⟩ := ih.2 _ hv
        obtain ⟨l, hl⟩ := at_exists f _
        exact ⟨_, .inv hl hw, by simp [stripGate, e, hs.2]⟩
  | pow hs he _ ih =>
    have he := outcomes_expr (stod := stod) (f := f) (f' := f') he
    constructor
    · intro v hv
      cases hv with
      | pow ha h1 hv =>
        obtain ⟨w, hw, e⟩ := ih.1 _ hv
        obtain ⟨x, hx, e'⟩ := he.1 _ h1
        obtain ⟨l, hl⟩ := at_exists f' _
        exact ⟨_, .pow hl hx hw, by simp [stripGate, stripExprs, e, e', hs.2]⟩
    · intro v hv
      cases hv with
      | pow ha h1 hv =>
        obtain ⟨w, hw, e⟩ := ih.2 _ hv
        obtain ⟨x, hx, e'⟩ := he.2 _ h1
        obtain ⟨l, hl⟩ := at_exists f _
        exact ⟨_, .pow hl hx hw, by simp [stripGate, stripExprs, e, e', hs.2]⟩
  | ctrl hs _ ih =>
    constructor
    · intro v hv
      cases hv with
      | ctrl ha hv =>
        obtain ⟨w, hw, e⟩ := ih.1 _ hv
        obtain ⟨l, hl⟩ := at_exists f' _
        exact ⟨_, .ctrl hl hw, by simp [stripGate, e, hs.2]⟩
    · intro v hv
      cases hv with
      | ctrl ha hv =>
        obtain ⟨w, hw, e⟩ := ih.2 _ hv
        obtain ⟨l, hl⟩ := at_exists f _
        exact ⟨_, .ctrl hl hw, by simp [stripGate, e, hs.2]⟩
  | named hs =>
    constructor
    · intro v hv
      cases hv with
      | named ha hv =>
        cases hv
        obtain ⟨l, hl⟩ := at_exists f' _
        exact ⟨_, .named hl .exprs0, by simp [stripGate, hs.2]⟩
    · intro v hv
      cases hv with
      | named ha hv =>
        cases hv
        obtain ⟨l, hl⟩ := at_exists f _
        exact ⟨_, .named hl .exprs0, by simp [stripGate, hs.2]⟩
  | parameters hs he =>
    have he := outcomes_exprs (stod := stod) (f := f) (f' := f') he
    constructor
    · intro v hv
      cases hv with
      | named ha hv =>
        obtain ⟨w, hw, e⟩ := he.1 _ hv
        obtain ⟨l, hl⟩ := at_exists f' _
        exact ⟨_, .named (ps := some _) hl hw, by simp [stripGate, e, hs.2]⟩
    · intro v hv
      cases hv with
      | named ha hv =>
        obtain ⟨w, hw, e⟩ := he.2 _ hv
        obtain ⟨l, hl⟩ := at_exists f _
        exact ⟨_, .named (ps := some _) hl hw, by simp [stripGate, e, hs.2]⟩

theorem outcomes_stmt {s s' : PStmt} (h : DressedStmt s s') :
    Outcomes stripStmt (fun v => StmtTree stod f s v) (fun v => StmtTree stod f' s' v) := by
  cases h with
  | var hk hn =>
    constructor
    · intro v hv
      cases hv with
      | var hm ha =>
        obtain ⟨l, hl⟩ := at_exists f' _
        obtain ⟨k, hk'⟩ := at_exists f' _
        exact ⟨_, .var (hk.1 ▸ hm) hl hk', by simp [stripStmt, hn.2]⟩
    · intro v hv
      cases hv with
      | var hm ha =>
        obtain ⟨l, hl⟩ := at_exists f _
        obtain ⟨k, hk'⟩ := at_exists f _
        exact ⟨_, .var (hk.1 ▸ hm) hl hk', by simp [stripStmt, hn.2]⟩
  | array hk hi hn =>
    constructor
    · intro v hv
      cases hv with
      | array hm h ha =>
        obtain ⟨l, hl⟩ := at_exists f' _
        obtain ⟨k, hk'⟩ := spans_exists f' _ _
        exact ⟨_, .array (hk.1 ▸ hm) (hi.2 ▸ h) hl hk', by simp [stripStmt, hn.2]⟩
    · intro v hv
      cases hv with
      | array hm h ha =>
        obtain ⟨l, hl⟩ := at_exists f _
        obtain ⟨k, hk'⟩ := spans_exists f _ _
        exact ⟨_, .array (hk.1 ▸ hm) (hi.symm.2 ▸ h) hl hk', by simp [stripStmt, hn.2]⟩
  | gate hg he =>
    have hg := outcomes_gate (stod := stod) (f := f) (f' := f') hg
    have he := outcomes_exprs (stod := stod) (f := f) (f' := f') he
    constructor
    · intro v hv
      cases hv with
      | gate h1 h2 =>
        obtain ⟨w, hw, e⟩ := hg.1 _ h1
        obtain ⟨x, hx, e'⟩ := he.1 _ h2
        exact ⟨_, .gate hw hx, by simp [stripStmt, e, e']⟩
    · intro v hv
      cases hv with
      | gate h1 h2 =>
        obtain ⟨w, hw, e⟩ := hg.2 _ h1
        obtain ⟨x, hx, e'⟩ := he.2 _ h2
        exact ⟨_, .gate hw hx, by simp [stripStmt, e, e']⟩
  | measure hs hb hq =>
    have hb := outcomes_expr (stod := stod) (f := f) (f' := f') hb
    have hq := outcomes_expr (stod := stod) (f := f) (f' := f') hq
    constructor
    · intro v hv
      cases hv with
      | measure ha h0 h1 h2 =>
        cases h0
        obtain ⟨w, hw, e⟩ := hb.1 _ h1
        obtain ⟨x, hx, e'⟩ := hq.1 _ h2
        obtain ⟨l, hl⟩ := at_exists f' _
        exact ⟨_, .measure (ps := none) hl .exprs0 hw hx, by simp [stripStmt, stripExprs, e, e', hs.2]⟩
    · intro v hv
      cases hv with
      | measure ha h0 h1 h2 =>
        cases h0
        obtain ⟨w, hw, e⟩ := hb.2 _ h1
        obtain ⟨x, hx, e'⟩ := hq.2 _ h2
        obtain ⟨l, hl⟩ := at_exists f _
        exact ⟨_, .measure (ps := none) hl .exprs0 hw hx, by simp [stripStmt, stripExprs, e, e', hs.2]⟩
  | measureParameters hs hp hb hq =>
    have hp := outcomes_exprs (stod := stod) (f := f) (f' := f') hp
    have hb := outcomes_expr (stod := stod) (f := f) (f' := f') hb
    have hq := outcomes_expr (stod := stod) (f := f) (f' := f') hq
    constructor
    · intro v hv
      cases hv with
      | measure ha h0 h1 h2 =>
        obtain ⟨u, hu, e''⟩ := hp.1 _ h0
        obtain ⟨w, hw, e⟩ := hb.1 _ h1
        obtain ⟨x, hx, e'⟩ := hq.1 _ h2
        obtain ⟨l, hl⟩ := at_exists f' _
        exact ⟨_, .measure (ps := some _) hl hu hw hx, by simp [stripStmt, stripExprs, e, e', e'', hs.2]⟩
    · intro v hv
      cases hv with
      | measure ha h0 h1 h2 =>
        obtain ⟨u, hu, e''⟩ := hp.2 _ h0
        obtain ⟨w, hw, e⟩ := hb.2 _ h1
        obtain ⟨x, hx, e'⟩ := hq.2 _ h2
        obtain ⟨l, hl⟩ := at_exists f _
        exact ⟨_, .measure (ps := some _) hl hu hw hx, by simp [stripStmt, stripExprs, e, e', e'', hs.2]⟩
  | simple hs hb =>
    have hb := outcomes_expr (stod := stod) (f := f) (f' := f') hb
    constructor
    · intro v hv
      cases hv with
      | simple ha h1 =>
        obtain ⟨w, hw, e⟩ := hb.1 _ h1
        obtain ⟨l, hl⟩ := at_exists f' _
        exact ⟨_, .simple hl hw, by simp [stripStmt, stripExprs, e, hs.2]⟩
    · intro v hv
      cases hv with
      | simple ha h1 =>
        obtain ⟨w, hw, e⟩ := hb.2 _ h1
        obtain ⟨l, hl⟩ := at_exists f _
        exact ⟨_, .simple hl hw, by simp [stripStmt, stripExprs, e, hs.2]⟩
  | wait hs hb hq =>
    have hb := outcomes_expr (stod := stod) (f := f) (f' := f') hb
    have hq := outcomes_expr (stod := stod) (f := f) (f' := f') hq
    constructor
    · intro v hv
      cases hv with
      | wait ha h1 h2 =>
        obtain ⟨w, hw, e⟩ := hb.1 _ h1
        obtain ⟨x, hx, e'⟩ := hq.1 _ h2
        obtain ⟨l, hl⟩ := at_exists f' _
        exact ⟨_, .wait hl hw hx, by simp [stripStmt, stripExprs, e, e', hs.2]⟩
    · intro v hv
      cases hv with
      | wait ha h1 h2 =>
        obtain ⟨w, hw, e⟩ := hb.2 _ h1
        obtain ⟨x, hx, e'⟩ := hq.2 _ h2
        obtain ⟨l, hl⟩ := at_exists f _
        exact ⟨_, .wait hl hw hx, by simp [stripStmt, stripExprs, e, e', hs.2]⟩
  | asm hn hr =>
    constructor
    · intro v hv
      cases hv with
      | asm hx => exact ⟨_, .asm (hr.2 ▸ hx), by simp [stripStmt, hn.2]⟩
    · intro v hv
      cases hv with
      | asm hx => exact ⟨_, .asm (hr.2.symm ▸ hx), by simp [stripStmt, hn.2]⟩

theorem outcomes_stmts {ss ss' : List PStmt} (h : Forall2 DressedStmt ss ss') :
    Outcomes (List.map stripStmt) (fun vs => Forall2 (StmtTree stod f) ss vs) (fun vs => Forall2 (StmtTree stod f') ss' vs) := by
  induction h with
  | nil => constructor <;> intro v hv <;> cases hv <;> exact ⟨_, .nil, rfl⟩
  | cons h _ ih =>
    have h := outcomes_stmt (stod := stod) (f := f) (f' := f') h
    constructor
    · intro v hv
      cases hv with
      | cons h1 h2 =>
        obtain ⟨w, hw, e⟩ := h.1 _ h1
        obtain ⟨ws, hws, e'⟩ := ih.1 _ h2
        exact ⟨_, .cons hw hws, by simp [e, e']⟩
    · intro v hv
      cases hv with
      | cons h1 h2 =>
        obtain ⟨w, hw, e⟩ := h.2 _ h1
        obtain ⟨ws, hws, e'⟩ := ih.2 _ h2
        exact ⟨_, .cons hw hws, by simp [e, e']⟩

theorem outcomes_program {p p' : PProgram} (h : DressedProgram p p') :
    Outcomes stripProgram (fun v => ProgramTree stod f p v) (fun v => ProgramTree stod f' p' v) := by
  obtain ⟨hv, hs⟩ := h
  have hs := outcomes_stmts (stod := stod) (f := f) (f' := f') hs
  constructor
  · intro v h
    cases h with
    | mk h1 h2 h3 =>
      obtain ⟨ws, hws, e⟩ := hs.1 _ h3
      obtain ⟨l, hl⟩ := at_exists f' p'.version
      exact ⟨_, .mk (ss := p'.statements) (hv.2 ▸ h1) hl hws, by simp [stripProgram, e]⟩
  · intro v h
    cases h with
    | mk h1 h2 h3 =>
      obtain ⟨ws, hws, e⟩ := hs.2 _ h3
      obtain ⟨l, hl⟩ := at_exists f p.version
      exact ⟨_, .mk (ss := p.statements) (hv.2.symm ▸ h1) hl hws, by simp [stripProgram, e]⟩

end both

end Qasm
