import Verif.Model.SyntacticAnalyzer
import Verif.Spec.Ast
import Verif.Props.Location
/-!
# The trees built from parse trees
-/

namespace Qasm

open Spec TokKind

variable {F : Type}

namespace Syn

/-! ## Numbers -/

theorem digit_value {c : Char} (h : Digit c) : c.toNat - 48 = digitValue c := by
  simp only [Digit, List.mem_cons, List.not_mem_nil, or_false] at h
  rcases h with h | h | h | h | h | h | h | h | h | h <;> subst h <;> decide

theorem foldl_numeral {w : Str} (h : ∀ c ∈ w, Digit c) (n : Nat) :
    w.foldl (fun n c => 10 * n + (c.toNat - 48)) n = n * 10 ^ w.length + numeral w := by
  induction w generalizing n with
  | nil => simp [numeral]
  | cons c w ih =>
    rw [List.foldl_cons, ih (fun d hd => h d (List.mem_cons_of_mem _ hd)), digit_value (h c (List.mem_cons_self ..)),
      numeral, List.length_cons, Nat.pow_succ, Nat.add_mul]
    have : 10 * n * 10 ^ w.length = n * (10 ^ w.length * 10) := by
      rw [Nat.mul_comm 10 n, Nat.mul_assoc, Nat.mul_comm 10]
    omega

theorem ofNat_toInt {n : Nat} (h : n ≤ maxInt) : (Int64.ofNat n).toInt = (n : Int) := by
  rw [Int64.toInt_ofNat_of_lt]
  simp only [maxInt] at h
  omega

theorem stoll_fits {w : Str} (h : ∀ c ∈ w, Digit c) (hf : numeral w ≤ maxInt) :
    ∃ n, stoll w = some n ∧ IntOf w n := by
  refine ⟨Int64.ofNat (numeral w), ?_, ofNat_toInt hf⟩
  have h1 := foldl_numeral h 0
  have h2 : numeral w < 2 ^ 63 := by simp only [maxInt] at hf; omega
  simp only [stoll]
  rw [h1]
  simp only [Nat.zero_mul, Nat.zero_add]
  rw [if_pos h2]

theorem stoll_large {w : Str} (h : ∀ c ∈ w, Digit c) (hf : maxInt < numeral w) : stoll w = none := by
  have h1 := foldl_numeral h 0
  have h2 : ¬ numeral w < 2 ^ 63 := by simp only [maxInt] at hf; omega
  simp only [stoll]
  rw [h1]
  simp only [Nat.zero_mul, Nat.zero_add]
  rw [if_neg h2]

theorem intOf_unique {w : Str} {m n : Int64} (h : IntOf w m) (h' : IntOf w n) : m = n :=
  Int64.toInt_inj.1 (h.trans h'.symm)

theorem intOf_fits {w : Str} {n : Int64} (h : IntOf w n) : numeral w ≤ maxInt := by
  have := Int64.toInt_lt n
  simp only [IntOf] at h
  simp only [maxInt]
  omega

/-! ## Positions -/

theorem range_same {l a b : Nat} (h : a ≤ b) : Range.mk' ⟨l, a⟩ ⟨l, b⟩ = ⟨⟨l, a⟩, ⟨l, b⟩⟩ := by
  simp only [Range.mk', Index.max, Index.lt]
  rcases Nat.lt_or_ge a b with h1 | h1
  · simp; omega
  · have : a = b := by omega
    subst this; simp

theorem at_annotation (file : Option Str) (t : Token) : At file t (annotation file t) := by
  refine ⟨_, rfl, rfl, ?_⟩
  rw [range_same (by omega)]
  exact ⟨rfl, rfl, rfl, rfl⟩

theorem at_iff {file : Option Str} {t : Token} {l : Option Loc} : At file t l ↔ l = annotation file t := by
  constructor
  · rintro ⟨⟨f, ⟨⟨a, b⟩, ⟨c, d⟩⟩⟩, rfl, h1, h2, h3, h4, h5⟩
    simp only at h1 h2 h3 h4 h5
    subst h1 h2 h3 h4 h5
    simp only [annotation, Loc.mk']
    rw [range_same (by omega)]
  · rintro rfl; exact at_annotation file t

theorem spans_typeLoc (file : Option Str) (kw n c : Token) : Spans file kw c (typeLoc file kw (some (n, c))) := by
  refine ⟨_, rfl, rfl, fun r => ?_⟩
  have hm := min_spec ⟨kw.line, kw.column + 1⟩ ⟨c.line, c.column + 1 + c.text.length⟩
  have hx := max_spec ⟨kw.line, kw.column + 1 + kw.text.length⟩ ⟨c.line, c.column + 1 + c.text.length⟩
  simp only [Includes, Covers, Loc.expandToInclude, Loc.mk']
  rw [range_same (by omega)]
  constructor
  · rintro ⟨h1, h2⟩
    have h3 := posLe_trans h1 hm.1
    have h4 := posLe_trans hx.1 h2
    have h5 : PosLe ⟨kw.line, kw.column + 1⟩ ⟨kw.line, kw.column + 1 + kw.text.length⟩ := .inr ⟨rfl, Nat.le_add_right ..⟩
    exact ⟨⟨h3, posLe_trans h5 h4⟩, ⟨posLe_trans h3 h5, h4⟩, posLe_trans h1 hm.2.1, posLe_trans hx.2.1 h2⟩
  · rintro ⟨h1, h2, h3⟩
    exact ⟨hm.2.2 _ h1.1 h3.1, hx.2.2 _ h2.2 h3.2⟩

theorem spans_unique {file : Option Str} {s t : Token} {k l : Option Loc} (h : Spans file s t k) (h' : Spans file s t l) : k = l := by
  obtain ⟨⟨f, r⟩, rfl, h1, h2⟩ := h
  obtain ⟨⟨f', r'⟩, rfl, h3, h4⟩ := h'
  simp only at h1 h2 h3 h4
  have refl : ∀ r : Range, Includes r r := fun r => ⟨posLe_refl _, posLe_refl _⟩
  have g1 := (h4 r).2 ((h2 r).1 (refl r))
  have g2 := (h2 r').2 ((h4 r').1 (refl r'))
  obtain ⟨a, b⟩ := r
  obtain ⟨a', b'⟩ := r'
  cases posLe_antisymm g1.1 g2.1
  cases posLe_antisymm g1.2 g2.2
  rw [h1, h3]

theorem annotation_fileNameOf (file : Option Str) (t : Token) : annotation (fileNameOf file) t = annotation file t := by
  rcases file with _ | ⟨_ | _⟩ <;> rfl

theorem mk'_fileNameOf (file : Option Str) (r : Range) : Loc.mk' (fileNameOf file) r = Loc.mk' file r := by
  rcases file with _ | ⟨_ | _⟩ <;> rfl

/-! ## Literals -/

theorem syntaxError_spec (file : Option Str) (line column : Nat) {m : Str} (hm : m ≠ []) :
    ∃ loc, (syntaxError file line column m).message = m ∧ (syntaxError file line column m).location = some loc
      ∧ loc.fileName = (if file = some [] then none else file)
      ∧ loc.range.first.line = line ∧ loc.range.first.column = column + 1 ∧ loc.range.last = loc.range.first := by
  refine ⟨_, ?_, rfl, rfl, ?_⟩
  · cases m with
    | nil => exact absurd rfl hm
    | cons => rfl
  · rw [range_same (by omega)]
    exact ⟨rfl, rfl, rfl⟩

theorem getInt_ok (file : Option Str) (line column : Nat) {w : Str} (h : ∀ c ∈ w, Digit c) (hf : numeral w ≤ maxInt) :
    ∃ n, getInt file line column w = .ok n ∧ IntOf w n := by
  obtain ⟨n, h1, h2⟩ := stoll_fits h hf
  exact ⟨n, by simp [getInt, h1], h2⟩

theorem getInt_err (file : Option Str) (line column : Nat) {w : Str} (h : ∀ c ∈ w, Digit c) (hf : maxInt < numeral w) :
    getInt file line column w = .err (syntaxError file line column (c!"value '" ++ w ++ c!"' is out of the INTEGER_LITERAL range")) := by
  simp [getInt, stoll_large h hf]

/-- What is known after visiting one part of a phrase: its tree, or an error for one of its tokens. -/
def Part {α : Type} (an : Antlr F) (file : Option Str) (us : List Token) (r : Res Err α) (P : α → Prop) : Prop :=
  (∃ v, r = .ok v ∧ P v ∧ ∀ t ∈ us, Representable an.stod t) ∨
  (∃ e, r = .err e ∧ (∃ t ∈ us, LiteralError an.stod file t e) ∧ ∀ v, ¬ P v)

theorem part_mono {α : Type} {an : Antlr F} {file : Option Str} {us vs : List Token} {r : Res Err α} {P : α → Prop}
    (h : Part an file us r P) (hs : ∀ t ∈ us, t ∈ vs) (hr : ∀ t ∈ vs, t ∈ us ∨ Representable an.stod t) : Part an file vs r P := by
  rcases h with ⟨v, h1, h2, h3⟩ | ⟨e, h1, ⟨t, ht, h2⟩, h3⟩
  · exact .inl ⟨v, h1, h2, fun t ht => (hr t ht).elim (h3 t) id⟩
  · exact .inr ⟨e, h1, ⟨t, hs t ht, h2⟩, h3⟩

theorem part_pure {α : Type} {an : Antlr F} {file : Option Str} {P : α → Prop} {v : α} (h : P v) :
    Part an file [] (.ok v) P := .inl ⟨v, rfl, h, by simp⟩

theorem part_bind {α β : Type} {an : Antlr F} {file : Option Str} {us vs : List Token} {r : Res Err α} {f : α → Res Err β}
    {P : α → Prop} {Q : β → Prop} (h : Part an file us r P) (hf : ∀ v, P v → Part an file vs (f v) Q)
    (hn : (∀ v, ¬ P v) → ∀ w, ¬ Q w) : Part an file (us ++ vs) (r.bind f) Q := by
  rcases h with ⟨v, rfl, h2, h3⟩ | ⟨e, rfl, ⟨t, ht, h2⟩, h3⟩
  · rcases hf v h2 with ⟨w, h4, h5, h6⟩ | ⟨e, h4, ⟨t, ht, h5⟩, h6⟩
    · refine .inl ⟨w, h4, h5, fun t ht => ?_⟩
      rcases List.mem_append.1 ht with ht | ht
      · exact h3 t ht
      · exact h6 t ht
    · exact .inr ⟨e, h4, ⟨t, List.mem_append_right _ ht, h5⟩, h6⟩
  · exact .inr ⟨e, rfl, ⟨t, List.mem_append_left _ ht, h2⟩, hn h3⟩

theorem part_last {α β : Type} {an : Antlr F} {file : Option Str} {us : List Token} {r : Res Err α} {f : α → β}
    {P : α → Prop} {Q : β → Prop} (h : Part an file us r P) (hf : ∀ v, P v → Q (f v))
    (hn : (∀ v, ¬ P v) → ∀ w, ¬ Q w) : Part an file us (r.bind fun v => .ok (f v)) Q := by
  have := part_bind h (f := fun v => .ok (f v)) (vs := []) (fun v hv => part_pure (hf v hv)) hn
  simpa using this

theorem bind_assoc {ε α β γ : Type} (r : Res ε α) (f : α → Res ε β) (g : β → Res ε γ) :
    (r.bind f).bind g = r.bind fun v => (f v).bind g := by cases r <;> rfl

/-- Two parts, visited in any order. -/
theorem part_both {α β γ : Type} {an : Antlr F} {file : Option Str} {us vs : List Token} {r : Res Err α} {r' : Res Err β}
    {f : α × β → γ} {P : α → Prop} {P' : β → Prop} {Q : γ → Prop} (o : Bool) (h : Part an file us r P) (h' : Part an file vs r' P')
    (hf : ∀ v w, P v → P' w → Q (f (v, w))) (hn : (∀ v, ¬ P v) → ∀ w, ¬ Q w) (hn' : (∀ v, ¬ P' v) → ∀ w, ¬ Q w) :
    Part an file (us ++ vs) ((Res.both o r r').bind fun x => .ok (f x)) Q := by
  cases o with
  | false =>
    simp only [Res.both, Bool.false_eq_true, if_false, bind_assoc, Res.bind_ok]
    exact part_bind h (fun v hv => part_last h' (fun w hw => hf v w hv hw) hn') hn
  | true =>
    refine part_mono (us := vs ++ us) ?_ (by simp; grind) (by simp; grind)
    simp only [Res.both, if_true, bind_assoc, Res.bind_ok]
    exact part_bind h' (fun w hw => part_last h (fun v hv => hf v w hv hw) hn) hn'

/-- Three parts, visited in any order. -/
theorem part_three {α β γ δ : Type} {an : Antlr F} {file : Option Str} {us vs ws : List Token} {r : Res Err α} {r' : Res Err β}
    {r'' : Res Err γ} {f : α × β × γ → δ} {P : α → Prop} {P' : β → Prop} {P'' : γ → Prop} {Q : δ → Prop} (o : Order3)
    (h : Part an file us r P) (h' : Part an file vs r' P') (h'' : Part an file ws r'' P'')
    (hf : ∀ u v w, P u → P' v → P'' w → Q (f (u, v, w))) (hn : (∀ v, ¬ P v) → ∀ w, ¬ Q w)
    (hn' : (∀ v, ¬ P' v) → ∀ w, ¬ Q w) (hn'' : (∀ v, ¬ P'' v) → ∀ w, ¬ Q w) :
    Part an file (us ++ (vs ++ ws)) ((Res.three o r r' r'').bind fun x => .ok (f x)) Q := by
  cases o <;> simp only [Res.three, bind_assoc, Res.bind_ok]
  · exact part_bind h (fun u hu => part_bind h' (fun v hv => part_last h'' (fun w hw => hf u v w hu hv hw) hn'') hn') hn
  · refine part_mono (us := us ++ (ws ++ vs)) ?_ (by simp; grind) (by simp; grind)
    exact part_bind h (fun u hu => part_bind h'' (fun w hw => part_last h' (fun v hv => hf u v w hu hv hw) hn') hn'') hn
  · refine part_mono (us := vs ++ (us ++ ws)) ?_ (by simp; grind) (by simp; grind)
    exact part_bind h' (fun v hv => part_bind h (fun u hu => part_last h'' (fun w hw => hf u v w hu hv hw) hn'') hn) hn'
  · refine part_mono (us := vs ++ (ws ++ us)) ?_ (by simp; grind) (by simp; grind)
    exact part_bind h' (fun v hv => part_bind h'' (fun w hw => part_last h (fun u hu => hf u v w hu hv hw) hn) hn'') hn'
  · refine part_mono (us := ws ++ (us ++ vs)) ?_ (by simp; grind) (by simp; grind)
    exact part_bind h'' (fun w hw => part_bind h (fun u hu => part_last h' (fun v hv => hf u v w hu hv hw) hn') hn) hn''
  · refine part_mono (us := ws ++ (vs ++ us)) ?_ (by simp; grind) (by simp; grind)
    exact part_bind h'' (fun w hw => part_bind h' (fun v hv => part_last h (fun u hu => hf u v w hu hv hw) hn) hn') hn''

/-- The visitors build the tree of the phrase, or report a literal of it. -/
def Visited (an : Antlr F) (file : Option Str) (us : List Token) : Phrase → Prop
  | .expr e => Part an file us (expr an file e) fun v => Tree an.stod file (.expr e) (.expr v)
  | .exprs es => Part an file us (exprs an file es) fun v => Tree an.stod file (.exprs es) (.exprs v)
  | .entry i => Part an file us (indexEntry an file i) fun v => Tree an.stod file (.entry i) (.entry v)
  | .entries is => Part an file us (indexEntries an file is) fun v => Tree an.stod file (.entries is) (.entries v)

theorem representable_of {stod : Str → Option F} {t : Token} {k : TokKind} (h : t.kind = k)
    (h1 : k ≠ integerLiteral := by decide) (h2 : k ≠ floatLiteral := by decide) (h3 : k ≠ versionNumber := by decide) :
    Representable stod t := by
  unfold Representable
  subst h
  split <;> simp_all

theorem representable_mem {stod : Str → Option F} {t : Token} {ks : List TokKind} (h : t.kind ∈ ks)
    (h1 : ∀ k ∈ ks, k ≠ integerLiteral ∧ k ≠ floatLiteral ∧ k ≠ versionNumber) : Representable stod t :=
  representable_of rfl (h1 _ h).1 (h1 _ h).2.1 (h1 _ h).2.2

theorem binOp_mem {k : TokKind} (h : k ∈ infixOps) : (k, binOp k) ∈ binaryNodes := by
  revert h; cases k <;> decide +kernel

theorem visited_atom (an : Antlr F) (file : Option Str) {t : Token}
    (hk : t.kind ∈ [identifier, booleanLiteral, integerLiteral, floatLiteral]) (hl : Lexed t) :
    Visited an file [t] (.expr (.atom t)) := by
  have hx : Text t.kind t.text := by
    rcases hl with hl | hl
    · rw [hl] at hk; exact absurd hk (by decide)
    · exact hl.1
  simp only [List.mem_cons, List.not_mem_nil, or_false] at hk
  rcases hk with hk | hk | hk | hk
  · refine .inl ⟨_, by simp only [expr, atom, hk], .ident hk (at_annotation _ _), ?_⟩
    simpa using representable_of hk
  · rw [hk] at hx
    rcases hx with hx | hx
    · refine .inl ⟨_, by simp only [expr, atom, hk, hx]; rfl, .true hk hx (at_annotation _ _), ?_⟩
      simpa using representable_of hk
    · refine .inl ⟨_, by simp only [expr, atom, hk, hx]; rfl, .false hk hx (at_annotation _ _), ?_⟩
      simpa using representable_of hk
  · rw [hk] at hx
    rcases Nat.lt_or_ge maxInt (numeral t.text) with hf | hf
    · refine .inr ⟨_, by simp only [expr, atom, hk, getInt_err file _ _ hx.2 hf]; rfl, ⟨t, by simp, ?_⟩, ?_⟩
      · obtain ⟨loc, h⟩ := syntaxError_spec file t.line t.column (m := c!"value '" ++ t.text ++ c!"' is out of the INTEGER_LITERAL range") (by simp)
        refine ⟨0, t.text, _, loc, .int hk hf, ?_⟩
        simpa using h
      · intro n h
        cases h with
        | int _ h _ => have := intOf_fits h; omega
        | _ => simp_all
    · obtain ⟨n, h1, h2⟩ := getInt_ok file t.line t.column hx.2 hf
      refine .inl ⟨_, by simp only [expr, atom, hk, h1]; rfl, .int hk h2 (at_annotation _ _), ?_⟩
      simpa [Representable, hk] using hf
  · cases hs : an.stod t.text with
    | none =>
      refine .inr ⟨_, by simp only [expr, atom, hk, getFloat, hs]; rfl, ⟨t, by simp, ?_⟩, ?_⟩
      · obtain ⟨loc, h⟩ := syntaxError_spec file t.line t.column (m := c!"value '" ++ t.text ++ c!"' is out of the FLOAT_LITERAL range") (by simp)
        refine ⟨0, t.text, _, loc, .float hk hs, ?_⟩
        simpa using h
      · intro n h
        cases h <;> simp_all
    | some x =>
      refine .inl ⟨_, by simp only [expr, atom, hk, getFloat, hs]; rfl, .float hk hs (at_annotation _ _), ?_⟩
      simp [Representable, hk, hs]


theorem visited (an : Antlr F) (file : Option Str) {us : List Token} {ph : Phrase} (hd : Derives us ph)
    (hl : ∀ t ∈ us, Lexed t) : Visited an file us ph := by
  induction hd with
  | @parens o c us e ho hd hc ih =>
    have ih := ih (fun t ht => hl t (by simp [ht]))
    refine part_mono (us := us) ?_ (by simp +contextual) ?_
    · rcases ih with ⟨v, h1, h2, h3⟩ | ⟨x, h1, h2, h3⟩
      · exact .inl ⟨v, by simp only [expr, h1], .parens h2, h3⟩
      · exact .inr ⟨x, by simp only [expr, h1], h2, fun v h => by cases h with | parens h => exact h3 _ h⟩
    · intro t ht
      simp only [List.cons_append, List.mem_cons, List.mem_append, List.not_mem_nil, or_false] at ht
      rcases ht with rfl | ht | rfl
      · exact .inr (representable_of ho)
      · exact .inl ht
      · exact .inr (representable_of hc)
  | @pre op us e ho hd ih =>
    have ih := ih (fun t ht => hl t (by simp [ht]))
    refine part_mono (us := us) ?_ (by simp +contextual) ?_
    · simp only [prefixOps, List.mem_cons, List.not_mem_nil, or_false] at ho
      rcases ho with ho | ho | ho | ho
      · simp only [Visited, expr, ho]
        refine part_last (f := fun v => v) ih (fun v h => .plus ho h) (fun h w hw => ?_)
        cases hw with
        | plus _ hw => exact h _ hw
        | pre hm => rw [ho] at hm; exact absurd hm (by simp [unaryNodes])
      all_goals
        simp only [expr, ho]
        refine part_last ih (fun v h => .pre (by simp [ho, unaryNodes]) (at_annotation _ _) h) (fun h w hw => ?_)
        cases hw with
        | plus hm => rw [ho] at hm; cases hm
        | pre _ _ hw => exact h _ hw
    · intro t ht
      rcases List.mem_cons.1 ht with rfl | ht
      · exact .inr (representable_mem ho (by decide))
      · exact .inl ht
  | @bin op us vs l r hd1 ho hd2 ih1 ih2 =>
    have ih1 := ih1 (fun t ht => hl t (by simp [ht]))
    have ih2 := ih2 (fun t ht => hl t (by simp [ht]))
    refine part_mono (us := us ++ vs) ?_ ?_ ?_
    · simp only [expr]
      refine part_both (f := fun x => Expr.bin _ _ x.1 x.2) _ ih1 ih2 (fun v w hv hw => .bin (binOp_mem ho) (at_annotation _ _) hv hw) ?_ ?_
      · intro h w hw
        cases hw with | bin _ _ hw _ => exact h _ hw
      · intro h w hw
        cases hw with | bin _ _ _ hw => exact h _ hw
    · intro t ht
      rcases List.mem_append.1 ht with ht | ht <;> simp [ht]
    · intro t ht
      simp only [List.mem_append, List.mem_cons] at ht ⊢
      rcases ht with ht | rfl | ht
      · exact .inl (.inl ht)
      · exact .inr (representable_mem ho (by decide +kernel))
      · exact .inl (.inr ht)
  | @tern op c us vs ws e a b hd1 ho hd2 hc hd3 ih1 ih2 ih3 =>
    have ih1 := ih1 (fun t ht => hl t (by simp [ht]))
    have ih2 := ih2 (fun t ht => hl t (by simp [ht]))
    have ih3 := ih3 (fun t ht => hl t (by simp [ht]))
    refine part_mono (us := us ++ (vs ++ ws)) ?_ ?_ ?_
    · simp only [expr]
      refine part_three (f := fun x => Expr.tern _ x.1 x.2.1 x.2.2) _ ih1 ih2 ih3
        (fun u v w hu hv hw => .tern (at_annotation _ _) hu hv hw) ?_ ?_ ?_
      · intro h w hw
        cases hw with | tern _ hw _ _ => exact h _ hw
      · intro h w hw
        cases hw with | tern _ _ hw _ => exact h _ hw
      · intro h w hw
        cases hw with | tern _ _ _ hw => exact h _ hw
    · intro t ht
      simp only [List.mem_append] at ht
      rcases ht with ht | ht | ht <;> simp [ht]
    · intro t ht
      simp only [List.mem_append, List.mem_cons] at ht ⊢
      rcases ht with (ht | rfl | ht) | rfl | ht
      · exact .inl (.inl ht)
      · exact .inr (representable_of ho)
      · exact .inl (.inr (.inl ht))
      · exact .inr (representable_of hc)
      · exact .inl (.inr (.inr ht))
  | @call0 name o c hn ho hc =>
    refine part_mono (us := []) ?_ (by simp) ?_
    · simp only [expr, exprs, Res.bind_ok]
      exact part_pure (.call (at_annotation _ _) .exprs0)
    · intro t ht
      simp only [List.mem_cons, List.not_mem_nil, or_false] at ht
      rcases ht with rfl | rfl | rfl
      · exact .inr (representable_of hn)
      · exact .inr (representable_of ho)
      · exact .inr (representable_of hc)
  | @call name o c us es hn ho hd hc ih =>
    have ih := ih (fun t ht => hl t (by simp [ht]))
    refine part_mono (us := us) ?_ (by simp +contextual) ?_
    · simp only [expr]
      refine part_last ih (fun v hv => .call (at_annotation _ _) hv) ?_
      intro h w hw
      cases hw with | call _ hw => exact h _ hw
    · intro t ht
      simp only [List.cons_append, List.mem_cons, List.mem_append, List.not_mem_nil, or_false] at ht
      rcases ht with rfl | rfl | ht | rfl
      · exact .inr (representable_of hn)
      · exact .inr (representable_of ho)
      · exact .inl ht
      · exact .inr (representable_of hc)
  | @index name o c us is hn ho hd hc ih =>
    have ih := ih (fun t ht => hl t (by simp [ht]))
    refine part_mono (us := us) ?_ (by simp +contextual) ?_
    · simp only [expr]
      refine part_last ih (fun v hv => .index (at_annotation _ _) hv) ?_
      intro h w hw
      cases hw with | index _ hw => exact h _ hw
    · intro t ht
      simp only [List.cons_append, List.mem_cons, List.mem_append, List.not_mem_nil, or_false] at ht
      rcases ht with rfl | rfl | ht | rfl
      · exact .inr (representable_of hn)
      · exact .inr (representable_of ho)
      · exact .inl ht
      · exact .inr (representable_of hc)
  | atom hk => exact visited_atom an file hk (hl _ (by simp))
  | @expr1 us e hd ih =>
    have ih := ih hl
    simp only [Visited, exprs, Res.bind_ok]
    refine part_last ih (fun v hv => .exprsN hv .exprs0) ?_
    intro h w hw
    cases hw with | exprsN hw _ => exact h _ hw
  | @exprN c us vs e es hd1 hc hd2 ih1 ih2 =>
    have ih1 := ih1 (fun t ht => hl t (by simp [ht]))
    have ih2 := ih2 (fun t ht => hl t (by simp [ht]))
    refine part_mono (us := us ++ vs) ?_ ?_ ?_
    · simp only [exprs]
      refine part_bind ih1 (fun v hv => part_last ih2 (fun w hw => .exprsN hv hw) ?_) ?_
      · intro h w hw
        cases hw with | exprsN _ hw => exact h _ hw
      · intro h w hw
        cases hw with | exprsN hw _ => exact h _ hw
    · intro t ht
      rcases List.mem_append.1 ht with ht | ht <;> simp [ht]
    · intro t ht
      simp only [List.mem_append, List.mem_cons] at ht ⊢
      rcases ht with ht | rfl | ht
      · exact .inl (.inl ht)
      · exact .inr (representable_of hc)
      · exact .inl (.inr ht)
  | @item us e hd ih =>
    have ih := ih hl
    simp only [Visited, indexEntry]
    refine part_last ih (fun v hv => .item hv) ?_
    intro h w hw
    cases hw with | item hw => exact h _ hw
  | @range c us vs a b hd1 hc hd2 ih1 ih2 =>
    have ih1 := ih1 (fun t ht => hl t (by simp [ht]))
    have ih2 := ih2 (fun t ht => hl t (by simp [ht]))
    refine part_mono (us := us ++ vs) ?_ ?_ ?_
    · simp only [indexEntry]
      refine part_both (f := fun x => IndexEntry.range none x.1 x.2) _ ih1 ih2 (fun v w hv hw => .range hv hw) ?_ ?_
      · intro h w hw
        cases hw with | range hw _ => exact h _ hw
      · intro h w hw
        cases hw with | range _ hw => exact h _ hw
    · intro t ht
      rcases List.mem_append.1 ht with ht | ht <;> simp [ht]
    · intro t ht
      simp only [List.mem_append, List.mem_cons] at ht ⊢
      rcases ht with ht | rfl | ht
      · exact .inl (.inl ht)
      · exact .inr (representable_of hc)
      · exact .inl (.inr ht)
  | @entry1 us i hd ih =>
    have ih := ih hl
    simp only [Visited, indexEntries, Res.bind_ok]
    refine part_last ih (fun v hv => .entriesN hv .entries0) ?_
    intro h w hw
    cases hw with | entriesN hw _ => exact h _ hw
  | @entryN c us vs i is hd1 hc hd2 ih1 ih2 =>
    have ih1 := ih1 (fun t ht => hl t (by simp [ht]))
    have ih2 := ih2 (fun t ht => hl t (by simp [ht]))
    refine part_mono (us := us ++ vs) ?_ ?_ ?_
    · simp only [indexEntries]
      refine part_bind ih1 (fun v hv => part_last ih2 (fun w hw => .entriesN hv hw) ?_) ?_
      · intro h w hw
        cases hw with | entriesN _ hw => exact h _ hw
      · intro h w hw
        cases hw with | entriesN hw _ => exact h _ hw
    · intro t ht
      rcases List.mem_append.1 ht with ht | ht <;> simp [ht]
    · intro t ht
      simp only [List.mem_append, List.mem_cons] at ht ⊢
      rcases ht with ht | rfl | ht
      · exact .inl (.inl ht)
      · exact .inr (representable_of hc)
      · exact .inl (.inr ht)

end Syn

end Qasm
