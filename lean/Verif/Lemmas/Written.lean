import Verif.Spec.Written
import Verif.Props.Layout
import Verif.Lemmas.Syntactic
import Verif.Lemmas.Literals
import Verif.Props.Syntactic
/-!
# Writing trees as text: segments followed by a blank
-/

namespace Qasm

open Spec TokKind

/-- The segment is cut off in front of a blank, whatever follows. -/
def Solid (p : TokKind × Str) : Prop :=
  (∀ s, Winner .default (p.2 ++ ' ' :: s) p.1 p.2) ∧ Skipped p.1 = false ∧ modeAfter .default p.1 = .default

/-- The segments, each followed by a blank. -/
def spell (segs : List (TokKind × Str)) : Str := segs.flatMap fun p => p.2 ++ [' ']

theorem seen_blank (s : Str) : seen (' ' :: s) = seen s := by
  exact C41_start (t := [' ']) (.blank (.inl rfl) (.nil s))

theorem seen_spell {segs : List (TokKind × Str)} (h : ∀ p ∈ segs, Solid p) (s : Str) :
    seen (spell segs ++ s) = (seen s).map (segs ++ ·) := by
  induction segs with
  | nil => simp [spell]
  | cons p segs ih =>
    obtain ⟨h1, h2, h3⟩ := h p (List.mem_cons_self ..)
    have e : spell (p :: segs) ++ s = p.2 ++ ' ' :: (spell segs ++ s) := by simp [spell]
    rw [e, Lexer.seen_cons (h1 _) h2 h3, seen_blank, ih fun q hq => h q (List.mem_cons_of_mem _ hq)]
    cases seen s <;> simp

/-! ## Solid segments -/

theorem solid_of_best {k : TokKind} {w : Str}
    (h : ((Lexer.best (Lexer.rules .default) (w ++ [' '])).map fun p => (p.1.kind, p.2)) = some (k, w.length))
    (hq : k ≠ .tripleQuote) (hk : Skipped k = false) (hm : modeAfter .default k = .default) : Solid (k, w) := by
  refine ⟨fun s => ?_, hk, hm⟩
  have := Lexer.winner_stable (x := []) (b := []) (b' := s) (by simpa using winner_eval h) hq (by simp)
  simpa using this

/-- Signs, operators and keywords. -/
theorem solid_fixed {k : TokKind} {w : Str} (h : fixedText k = some w) (hq : k ≠ .tripleQuote) (hv : k ≠ .version) : Solid (k, w) := by
  cases k <;> first
    | (cases h; done)
    | exact absurd rfl hq
    | exact absurd rfl hv
    | (cases h; exact solid_of_best (by decide +kernel) (by decide) (by decide) (by decide))

theorem solid_newLine : Solid (newLine, ['\n']) := solid_of_best (by decide +kernel) (by decide) (by decide) (by decide)

theorem solid_name {w : Str} (h : Name w) : Solid (identifier, w) := by
  refine ⟨fun s => ?_, rfl, rfl⟩
  have hk : wordKind w = identifier := by
    rw [Lexer.wordKind_not_mem fun k hk => h.2.1 (List.mem_map_of_mem hk)]
    simp [h.2.2.1, h.2.2.2]
  have := Lexer.word_winner (s := ' ' :: s) h.1 (by intro c hc; cases hc; exact ⟨by simp [Letter], by simp [Digit]⟩)
  rwa [hk] at this

theorem solid_bool (b : Bool) : Solid (booleanLiteral, if b then c!"true" else c!"false") := by
  cases b <;> exact solid_of_best (by decide +kernel) (by decide) (by decide) (by decide)

theorem solid_int {w : Str} (h : Digits w) : Solid (integerLiteral, w) :=
  ⟨fun s => Lexer.number_winner h (by intro c hc; cases hc; exact ⟨by simp [Digit], by decide⟩), rfl, rfl⟩

theorem solid_raw {u : Str} (h : ¬ c!"'''" <:+: u ++ c!"''") : Solid (rawTextString, c!"'''" ++ u ++ c!"'''") :=
  ⟨fun _ => Lexer.raw_winner h, rfl, rfl⟩

/-- The text of a float literal starts with a digit or a point. -/
theorem float_head {w : Str} (h : Text .floatLiteral w) : ∃ c u, w = c :: u ∧ (Digit c ∨ c = '.') := by
  obtain ⟨a, b, e, rfl, ha, -, -, -⟩ := h
  cases a with
  | nil => exact ⟨'.', b ++ e, rfl, .inr rfl⟩
  | cons c a => exact ⟨c, a ++ '.' :: b ++ e, rfl, .inl (ha c (by simp))⟩

theorem text_point {k : TokKind} {u : Str} (hk : k ∈ order .default) (h : Text k ('.' :: u)) : k = .dot ∨ k = .floatLiteral := by
  cases k with
  | dot => exact .inl rfl
  | floatLiteral => exact .inr rfl
  | whiteSpace => rcases h.2 '.' (by simp) with h | h <;> cases h
  | versionWhiteSpace => simp [order] at hk
  | versionNumber => simp [order] at hk
  | singleLineComment => obtain ⟨v, he, _⟩ := h; cases he
  | multiLineComment => obtain ⟨v, he⟩ := h; cases he
  | newLine => rcases h with h | h <;> cases h
  | rawTextString => obtain ⟨_, he⟩ := h; cases he
  | identifier =>
    obtain ⟨d, v, he, hd, _⟩ := h
    obtain ⟨rfl, _⟩ := List.cons.inj he
    simp [Letter] at hd
  | booleanLiteral => rcases h with h | h <;> cases h
  | integerLiteral => exact absurd (h.2 '.' (by simp)) (by simp [Digit])
  | eof => simp [order] at hk
  | _ => cases h

theorem float_not_digits {w : Str} (h : Text .floatLiteral w) : '.' ∈ w ∧ w ≠ ['.'] := by
  obtain ⟨a, b, e, rfl, -, -, hne, -⟩ := h
  refine ⟨by simp, fun he => ?_⟩
  cases a with
  | nil =>
    simp only [List.nil_append, List.cons_append, List.cons.injEq, true_and, List.append_eq_nil_iff] at he
    rcases hne with h | h
    · exact h rfl
    · exact h he.1
  | cons c a => simp at he

theorem solid_float {w : Str} (h : Text .floatLiteral w) : Solid (floatLiteral, w) := by
  refine ⟨fun s => ?_, rfl, rfl⟩
  obtain ⟨c, u, hw, hc⟩ := float_head h
  obtain ⟨hp, hd⟩ := float_not_digits h
  refine Lexer.winner_of ((order .default).takeWhile (· ≠ .floatLiteral)) [.identifier, .rawTextString] rfl
    (Lexer.candidate_of_text (by simp [EndsEarly]) h (List.prefix_append _ _)) ?_
  rintro k hk v ⟨hv, hpre, -⟩
  have hkind : k = .integerLiteral ∨ k = .floatLiteral ∨ k = .dot := by
    cases v with
    | nil => exact absurd rfl (Lexer.text_ne_nil hv)
    | cons d v =>
      have hdc : d = c := by
        obtain ⟨t, ht⟩ := hpre
        rw [hw] at ht
        exact (List.cons.inj ht).1
      subst hdc
      rcases hc with hc | rfl
      · rcases Lexer.text_digit hk hc hv with h | h <;> simp [h]
      · rcases text_point hk hv with h | h <;> simp [h]
  have hsp : ' ' ∉ v := by
    intro hm
    have := Lexer.text_space hk hv hm
    rcases hkind with rfl | rfl | rfl <;> simp at this
  have hle : v <+: w := by
    rcases Lexer.prefix_cases hpre with h | ⟨x, rfl, hx, hp⟩
    · exact h
    · cases x with
      | nil => exact absurd rfl hx
      | cons d x =>
        obtain ⟨t, ht⟩ := hp
        have := (List.cons.inj ht).1
        subst this
        simp at hsp
  refine ⟨fun hpre' => ?_, hle.length_le⟩
  rcases Nat.lt_or_ge v.length w.length with h | h
  · exact h
  · have : v = w := hle.eq_of_length_le h
    subst this
    rcases hkind with rfl | rfl | rfl
    · exact absurd (hv.2 _ hp) (by simp [Digit])
    · exact absurd hpre' (by decide)
    · exact absurd (Option.some.inj hv).symm hd

/-! ## Numbers -/

theorem numeral_snoc (w : Str) (c : Char) : numeral (w ++ [c]) = numeral w * 10 + digitValue c := by
  induction w with
  | nil => simp [numeral]
  | cons d w ih =>
    rw [List.cons_append, numeral, numeral, ih]
    simp only [List.length_append, List.length_cons, List.length_nil, Nat.zero_add, Nat.pow_succ, Nat.add_mul, Nat.mul_assoc, Nat.add_assoc]

theorem digit_exists (n : Nat) (h : n < 10) : ∃ c, Digit c ∧ digitValue c = n := by
  match n, h with
  | 0, _ => exact ⟨'0', by simp [Digit], by decide⟩
  | 1, _ => exact ⟨'1', by simp [Digit], by decide⟩
  | 2, _ => exact ⟨'2', by simp [Digit], by decide⟩
  | 3, _ => exact ⟨'3', by simp [Digit], by decide⟩
  | 4, _ => exact ⟨'4', by simp [Digit], by decide⟩
  | 5, _ => exact ⟨'5', by simp [Digit], by decide⟩
  | 6, _ => exact ⟨'6', by simp [Digit], by decide⟩
  | 7, _ => exact ⟨'7', by simp [Digit], by decide⟩
  | 8, _ => exact ⟨'8', by simp [Digit], by decide⟩
  | 9, _ => exact ⟨'9', by simp [Digit], by decide⟩

/-- Every number has a text. -/
theorem numeral_exists (n : Nat) : ∃ w, Digits w ∧ numeral w = n := by
  induction n using Nat.strongRecOn with
  | _ n ih =>
    obtain ⟨c, hc, hv⟩ := digit_exists (n % 10) (Nat.mod_lt _ (by omega))
    by_cases h : n < 10
    · exact ⟨[c], ⟨by simp, by simpa using hc⟩, by simp [numeral, hv]; omega⟩
    · obtain ⟨w, hw, he⟩ := ih (n / 10) (by omega)
      refine ⟨w ++ [c], ⟨by simp, ?_⟩, ?_⟩
      · intro d hd
        rcases List.mem_append.1 hd with hd | hd
        · exact hw.2 d hd
        · simp at hd; exact hd ▸ hc
      · rw [numeral_snoc, he, hv]; omega

theorem intOf_exists {n : Int64} (h : 0 ≤ n.toInt) : ∃ w, Digits w ∧ IntOf w n := by
  obtain ⟨w, hw, he⟩ := numeral_exists n.toInt.toNat
  exact ⟨w, hw, by unfold IntOf; rw [he]; omega⟩

/-! ## Expressions -/

variable {F : Type}

/-- Kind and text of a token. -/
def kt (t : Token) : TokKind × Str := (t.kind, t.text)

/-- The tokens are those of a text for the node. -/
def Built (stod : Str → Option F) (file : Option Str) (ts : List Token) : Node F → Prop
  | .expr e => ∃ p v, Derives ts (.expr p) ∧ Grouped p ∧ top p = none ∧ Tree stod file (.expr p) (.expr v) ∧ stripExpr v = stripExpr e
  | .exprs es => ∃ ps vs, (es ≠ [] → Derives ts (.exprs ps)) ∧ (es = [] → ts = [] ∧ ps = []) ∧ (∀ p ∈ ps, Grouped p)
      ∧ (∀ p ∈ ps, opensParens p = false) ∧ Tree stod file (.exprs ps) (.exprs vs) ∧ stripExprs vs = stripExprs es
  | .entry i => ∃ p v, Derives ts (.entry p) ∧ (∀ e, p = .item e → Grouped e) ∧ (∀ a b, p = .range a b → Grouped a ∧ Grouped b)
      ∧ Tree stod file (.entry p) (.entry v) ∧ stripEntry v = stripEntry i
  | .entries is => ∃ ps vs, (is ≠ [] → Derives ts (.entries ps)) ∧ (is = [] → ts = [] ∧ ps = [])
      ∧ (∀ e, .item e ∈ ps → Grouped e) ∧ (∀ a b, .range a b ∈ ps → Grouped a ∧ Grouped b)
      ∧ Tree stod file (.entries ps) (.entries vs) ∧ stripEntries vs = stripEntries is

/-- The segments write the node. -/
def Writes (stod : Str → Option F) (segs : List (TokKind × Str)) (n : Node F) : Prop :=
  (∀ p ∈ segs, Solid p) ∧ ∀ file ts, ts.map kt = segs → Built stod file ts n

theorem map_split {ts : List Token} {a b : List (TokKind × Str)} (h : ts.map kt = a ++ b) :
    ∃ us vs, ts = us ++ vs ∧ us.map kt = a ∧ vs.map kt = b := by
  obtain ⟨us, vs, h1, h2, h3⟩ := List.map_eq_append_iff.1 h
  exact ⟨us, vs, h1, h2, h3⟩

theorem map_first {ts : List Token} {k : TokKind} {w : Str} {b : List (TokKind × Str)} (h : ts.map kt = (k, w) :: b) :
    ∃ t vs, ts = t :: vs ∧ t.kind = k ∧ t.text = w ∧ vs.map kt = b := by
  obtain ⟨t, vs, h1, h2, h3⟩ := List.map_eq_cons_iff.1 h
  exact ⟨t, vs, h1, congrArg Prod.fst h2, congrArg Prod.snd h2, h3⟩

theorem tighter_of_none {p : PExpr} {k : TokKind} (h : top p = none) : Tighter p k := by
  intro j hj; rw [h] at hj; cases hj

theorem asTight_of_none {p : PExpr} {k : TokKind} (h : top p = none) : AsTight p k := by
  intro j hj; rw [h] at hj; cases hj

theorem solid_cons {p : TokKind × Str} {l : List (TokKind × Str)} (h : Solid p) (hl : ∀ q ∈ l, Solid q) :
    ∀ q ∈ p :: l, Solid q := by
  intro q hq
  rcases List.mem_cons.1 hq with rfl | hq
  · exact h
  · exact hl q hq

theorem solid_append {a b : List (TokKind × Str)} (h : ∀ q ∈ a, Solid q) (hl : ∀ q ∈ b, Solid q) :
    ∀ q ∈ a ++ b, Solid q := by
  intro q hq
  rcases List.mem_append.1 hq with hq | hq
  · exact h q hq
  · exact hl q hq

theorem solid_nil : ∀ q ∈ ([] : List (TokKind × Str)), Solid q := by simp

theorem solid_openParens : Solid (openParens, c!"(") := solid_fixed rfl (by decide) (by decide)
theorem solid_closeParens : Solid (closeParens, c!")") := solid_fixed rfl (by decide) (by decide)
theorem solid_openBracket : Solid (openBracket, c!"[") := solid_fixed rfl (by decide) (by decide)
theorem solid_closeBracket : Solid (closeBracket, c!"]") := solid_fixed rfl (by decide) (by decide)
theorem solid_comma : Solid (comma, c!",") := solid_fixed rfl (by decide) (by decide)
theorem solid_colon : Solid (colon, c!":") := solid_fixed rfl (by decide) (by decide)
theorem solid_plus : Solid (plus, c!"+") := solid_fixed rfl (by decide) (by decide)
theorem solid_ternary : Solid (ternary, c!"?") := solid_fixed rfl (by decide) (by decide)

theorem unary_text (u : UnOp) : ∃ k w, (k, u) ∈ unaryNodes ∧ k ∈ prefixOps ∧ Solid (k, w) := by
  cases u
  · exact ⟨minus, _, by decide, by decide, solid_fixed rfl (by decide) (by decide)⟩
  · exact ⟨bitwiseNot, _, by decide, by decide, solid_fixed rfl (by decide) (by decide)⟩
  · exact ⟨logicalNot, _, by decide, by decide, solid_fixed rfl (by decide) (by decide)⟩

theorem binary_text (u : BinOp) : ∃ k w, (k, u) ∈ binaryNodes ∧ k ∈ infixOps ∧ Solid (k, w) := by
  have h : ∃ k, (k, u) ∈ binaryNodes := by
    cases u <;> simp [binaryNodes]
  obtain ⟨k, hk⟩ := h
  have : ∀ q ∈ binaryNodes, q.1 ∈ infixOps ∧ (fixedText q.1).isSome ∧ q.1 ≠ tripleQuote ∧ q.1 ≠ version := by decide
  obtain ⟨h1, h2, h3, h4⟩ := this _ hk
  obtain ⟨w, hw⟩ := Option.isSome_iff_exists.1 h2
  exact ⟨k, w, hk, h1, solid_fixed hw h3 h4⟩

/-- Every writable node is written by some segments. -/
theorem writes_of {stod : Str → Option F} {n : Node F} (h : Writable stod n) : ∃ segs, Writes stod segs n := by
  induction h with
  | @bool l b =>
    refine ⟨[(booleanLiteral, if b then c!"true" else c!"false")], solid_cons (solid_bool b) solid_nil, fun file ts hts => ?_⟩
    obtain ⟨t, vs, rfl, hk, ht, hvs⟩ := map_first hts
    obtain rfl := List.map_eq_nil_iff.1 hvs
    obtain ⟨l', hl'⟩ := at_exists file t
    refine ⟨.atom t, .boolLit l' b, .atom (by simp [hk]), .atom, rfl, ?_, by simp [stripExpr]⟩
    cases b
    · exact .false hk (by simpa using ht) hl'
    · exact .true hk (by simpa using ht) hl'
  | @int l n hn =>
    obtain ⟨w, hw, hi⟩ := intOf_exists hn
    refine ⟨[(integerLiteral, w)], solid_cons (solid_int hw) solid_nil, fun file ts hts => ?_⟩
    obtain ⟨t, vs, rfl, hk, rfl, hvs⟩ := map_first hts
    obtain rfl := List.map_eq_nil_iff.1 hvs
    obtain ⟨l', hl'⟩ := at_exists file t
    exact ⟨.atom t, .intLit l' n, .atom (by simp [hk]), .atom, rfl, .int hk hi hl', by simp [stripExpr]⟩
  | @float l w x hw hx =>
    refine ⟨[(floatLiteral, w)], solid_cons (solid_float hw) solid_nil, fun file ts hts => ?_⟩
    obtain ⟨t, vs, rfl, hk, rfl, hvs⟩ := map_first hts
    obtain rfl := List.map_eq_nil_iff.1 hvs
    obtain ⟨l', hl'⟩ := at_exists file t
    exact ⟨.atom t, .floatLit l' x, .atom (by simp [hk]), .atom, rfl, .float hk hx hl', by simp [stripExpr]⟩
  | @ident l n hn =>
    refine ⟨[(identifier, n)], solid_cons (solid_name hn) solid_nil, fun file ts hts => ?_⟩
    obtain ⟨t, vs, rfl, hk, rfl, hvs⟩ := map_first hts
    obtain rfl := List.map_eq_nil_iff.1 hvs
    obtain ⟨l', hl'⟩ := at_exists file t
    exact ⟨.atom t, .ident l' t.text, .atom (by simp [hk]), .atom, rfl, .ident hk hl', by simp [stripExpr]⟩
  | @index l l' n is hn hne _ ih =>
    obtain ⟨segs, hs, ih⟩ := ih
    refine ⟨(identifier, n) :: (openBracket, c!"[") :: (segs ++ [(closeBracket, c!"]")]),
      solid_cons (solid_name hn) (solid_cons solid_openBracket (solid_append hs (solid_cons solid_closeBracket solid_nil))),
      fun file ts hts => ?_⟩
    obtain ⟨t, ts, rfl, hk, rfl, hts'⟩ := map_first hts
    obtain ⟨o, ts, rfl, ho, -, hts⟩ := map_first hts'
    obtain ⟨us, ts, rfl, hus, hts⟩ := map_split hts
    obtain ⟨c, ts, rfl, hc, -, hts⟩ := map_first hts
    obtain rfl := List.map_eq_nil_iff.1 hts
    obtain ⟨ps, vs, h1, -, h3, h4, h5, h6⟩ := ih file us hus
    obtain ⟨l', hl'⟩ := at_exists file t
    exact ⟨.index t ps, .index l' (.ident none t.text) vs, .index hk ho (h1 hne) hc,
      .index h3 (fun a b h => (h4 a b h).1) (fun a b h => (h4 a b h).2), rfl, .index hl' h5, by simp [stripExpr, h6]⟩
  | @call l n es hn _ ih =>
    obtain ⟨segs, hs, ih⟩ := ih
    refine ⟨(identifier, n) :: (openParens, c!"(") :: (segs ++ [(closeParens, c!")")]),
      solid_cons (solid_name hn) (solid_cons solid_openParens (solid_append hs (solid_cons solid_closeParens solid_nil))),
      fun file ts hts => ?_⟩
    obtain ⟨t, ts, rfl, hk, rfl, hts'⟩ := map_first hts
    obtain ⟨o, ts, rfl, ho, -, hts⟩ := map_first hts'
    obtain ⟨us, ts, rfl, hus, hts⟩ := map_split hts
    obtain ⟨c, ts, rfl, hc, -, hts⟩ := map_first hts
    obtain rfl := List.map_eq_nil_iff.1 hts
    obtain ⟨ps, vs, h1, h2, h3, -, h5, h6⟩ := ih file us hus
    obtain ⟨l', hl'⟩ := at_exists file t
    refine ⟨.call t ps, .call l' t.text vs, ?_, .call h3, rfl, .call hl' h5, by simp [stripExpr, h6]⟩
    by_cases he : es = []
    · obtain ⟨rfl, rfl⟩ := h2 he
      exact .call0 hk ho hc
    · exact .call hk ho (h1 he) hc
  | @un l o e _ ih =>
    obtain ⟨segs, hs, ih⟩ := ih
    obtain ⟨k, w, hk, hp, hsol⟩ := unary_text o
    refine ⟨(k, w) :: segs, solid_cons hsol hs, fun file ts hts => ?_⟩
    obtain ⟨t, ts, rfl, rfl, rfl, hts'⟩ := map_first hts
    obtain ⟨p, v, h1, h2, h3, h4, h5⟩ := ih file ts hts'
    obtain ⟨l', hl'⟩ := at_exists file t
    exact ⟨.pre t p, .un l' o v, .pre hp h1, .pre h3 h2, rfl, .pre hk hl' h4, by simp [stripExpr, h5]⟩
  | @bin l o a b _ _ iha ihb =>
    obtain ⟨sa, hsa, iha⟩ := iha
    obtain ⟨sb, hsb, ihb⟩ := ihb
    obtain ⟨k, w, hk, hp, hsol⟩ := binary_text o
    refine ⟨(openParens, c!"(") :: (sa ++ (k, w) :: (sb ++ [(closeParens, c!")")])),
      solid_cons solid_openParens (solid_append hsa (solid_cons hsol (solid_append hsb (solid_cons solid_closeParens solid_nil)))),
      fun file ts hts => ?_⟩
    obtain ⟨o', ts, rfl, ho, -, hts⟩ := map_first hts
    obtain ⟨us, ts, rfl, hus, hts⟩ := map_split hts
    obtain ⟨t, ts, rfl, rfl, rfl, hts'⟩ := map_first hts
    obtain ⟨us', ts, rfl, hus', hts⟩ := map_split hts'
    obtain ⟨c, ts, rfl, hc, -, hts⟩ := map_first hts
    obtain rfl := List.map_eq_nil_iff.1 hts
    obtain ⟨p, v, h1, h2, h3, h4, h5⟩ := iha file us hus
    obtain ⟨p', v', h1', h2', h3', h4', h5'⟩ := ihb file us' hus'
    obtain ⟨l', hl'⟩ := at_exists file t
    refine ⟨.parens (.bin t p p'), .bin l' o v v', ?_, .parens ?_, rfl, .parens (.bin hk hl' h4 h4'), by simp [stripExpr, h5, h5']⟩
    · have := Derives.parens ho (.bin h1 hp h1') hc
      simpa using this
    · by_cases hr : t.kind ∈ rightAssociative
      · exact .right hr (tighter_of_none h3) (asTight_of_none h3') h2 h2'
      · exact .left hr (asTight_of_none h3) (tighter_of_none h3') h2 h2'
  | @tern l c a b _ _ _ ihc iha ihb =>
    obtain ⟨sc, hsc, ihc⟩ := ihc
    obtain ⟨sa, hsa, iha⟩ := iha
    obtain ⟨sb, hsb, ihb⟩ := ihb
    refine ⟨(openParens, c!"(") :: (sc ++ (ternary, c!"?") :: (sa ++ (colon, c!":") :: (sb ++ [(closeParens, c!")")]))),
      solid_cons solid_openParens (solid_append hsc (solid_cons solid_ternary (solid_append hsa (solid_cons solid_colon
        (solid_append hsb (solid_cons solid_closeParens solid_nil)))))), fun file ts hts => ?_⟩
    obtain ⟨o', ts, rfl, ho, -, hts⟩ := map_first hts
    obtain ⟨us, ts, rfl, hus, hts⟩ := map_split hts
    obtain ⟨t, ts, rfl, ht, -, hts⟩ := map_first hts
    obtain ⟨us', ts, rfl, hus', hts⟩ := map_split hts
    obtain ⟨t', ts, rfl, ht', -, hts⟩ := map_first hts
    obtain ⟨us'', ts, rfl, hus'', hts⟩ := map_split hts
    obtain ⟨z, ts, rfl, hz, -, hts⟩ := map_first hts
    obtain rfl := List.map_eq_nil_iff.1 hts
    obtain ⟨p, v, h1, h2, h3, h4, h5⟩ := ihc file us hus
    obtain ⟨p', v', h1', h2', h3', h4', h5'⟩ := iha file us' hus'
    obtain ⟨p'', v'', h1'', h2'', h3'', h4'', h5''⟩ := ihb file us'' hus''
    obtain ⟨l', hl'⟩ := at_exists file t
    refine ⟨.parens (.tern t p p' p''), .tern l' v v' v'', ?_, .parens (.tern (tighter_of_none h3) (asTight_of_none h3'') h2 h2' h2''),
      rfl, .parens (.tern hl' h4 h4' h4''), by simp [stripExpr, h5, h5', h5'']⟩
    have := Derives.parens ho (.tern h1 ht h1' ht' h1'') hz
    simpa using this
  | exprs0 =>
    refine ⟨[], solid_nil, fun file ts hts => ?_⟩
    obtain rfl := List.map_eq_nil_iff.1 hts
    exact ⟨[], [], fun h => absurd rfl h, fun _ => ⟨rfl, rfl⟩, by simp, by simp, .exprs0, rfl⟩
  | @exprsN e es _ _ ih ihs =>
    obtain ⟨segs, hs, ih⟩ := ih
    obtain ⟨segs', hs', ihs⟩ := ihs
    by_cases he : es = []
    · subst he
      refine ⟨(plus, c!"+") :: segs, solid_cons solid_plus hs, fun file ts hts => ?_⟩
      obtain ⟨t, ts, rfl, ht, -, hts⟩ := map_first hts
      obtain ⟨p, v, h1, h2, h3, h4, h5⟩ := ih file ts hts
      refine ⟨[.pre t p], [v], fun _ => .expr1 (.pre (by simp [ht, prefixOps]) h1), fun h => (nomatch h), ?_, ?_,
        .exprsN (.plus ht h4) .exprs0, by simp [stripExprs, h5]⟩
      · simpa using Grouped.pre h3 h2
      · simp [opensParens]
    · refine ⟨(plus, c!"+") :: (segs ++ (comma, c!",") :: segs'),
        solid_cons solid_plus (solid_append hs (solid_cons solid_comma hs')), fun file ts hts => ?_⟩
      obtain ⟨t, ts, rfl, ht, -, hts⟩ := map_first hts
      obtain ⟨us, ts, rfl, hus, hts⟩ := map_split hts
      obtain ⟨c, ts, rfl, hc, -, hts⟩ := map_first hts
      obtain ⟨p, v, h1, h2, h3, h4, h5⟩ := ih file us hus
      obtain ⟨ps, vs, g1, -, g3, g4, g5, g6⟩ := ihs file ts hts
      refine ⟨.pre t p :: ps, v :: vs, fun _ => ?_, fun h => (nomatch h), ?_, ?_, .exprsN (.plus ht h4) g5, by simp [stripExprs, h5, g6]⟩
      · have := Derives.exprN (.pre (op := t) (by simp [ht, prefixOps]) h1) hc (g1 he)
        simpa using this
      · intro q hq
        rcases List.mem_cons.1 hq with rfl | hq
        · exact .pre h3 h2
        · exact g3 q hq
      · intro q hq
        rcases List.mem_cons.1 hq with rfl | hq
        · rfl
        · exact g4 q hq
  | item _ ih =>
    obtain ⟨segs, hs, ih⟩ := ih
    refine ⟨segs, hs, fun file ts hts => ?_⟩
    obtain ⟨p, v, h1, h2, h3, h4, h5⟩ := ih file ts hts
    exact ⟨.item p, .item none v, .item h1, fun e h => by cases h; exact h2, fun a b h => (nomatch h), .item h4, by simp [stripEntry, h5]⟩
  | range _ _ ih ih' =>
    obtain ⟨segs, hs, ih⟩ := ih
    obtain ⟨segs', hs', ih'⟩ := ih'
    refine ⟨segs ++ (colon, c!":") :: segs', solid_append hs (solid_cons solid_colon hs'), fun file ts hts => ?_⟩
    obtain ⟨us, ts, rfl, hus, hts⟩ := map_split hts
    obtain ⟨c, ts, rfl, hc, -, hts⟩ := map_first hts
    obtain ⟨p, v, h1, h2, h3, h4, h5⟩ := ih file us hus
    obtain ⟨p', v', h1', h2', h3', h4', h5'⟩ := ih' file ts hts
    exact ⟨.range p p', .range none v v', .range h1 hc h1', fun e h => (nomatch h), fun a b h => by cases h; exact ⟨h2, h2'⟩,
      .range h4 h4', by simp [stripEntry, h5, h5']⟩
  | entries0 =>
    refine ⟨[], solid_nil, fun file ts hts => ?_⟩
    obtain rfl := List.map_eq_nil_iff.1 hts
    exact ⟨[], [], fun h => absurd rfl h, fun _ => ⟨rfl, rfl⟩, by simp, by simp, .entries0, rfl⟩
  | @entriesN i is _ _ ih ihs =>
    obtain ⟨segs, hs, ih⟩ := ih
    obtain ⟨segs', hs', ihs⟩ := ihs
    by_cases he : is = []
    · subst he
      refine ⟨segs, hs, fun file ts hts => ?_⟩
      obtain ⟨p, v, h1, h2, h3, h4, h5⟩ := ih file ts hts
      exact ⟨[p], [v], fun _ => .entry1 h1, fun h => (nomatch h), fun e h => h2 e (List.mem_singleton.1 h).symm,
        fun a b h => h3 a b (List.mem_singleton.1 h).symm, .entriesN h4 .entries0, by simp [stripEntries, h5]⟩
    · refine ⟨segs ++ (comma, c!",") :: segs', solid_append hs (solid_cons solid_comma hs'), fun file ts hts => ?_⟩
      obtain ⟨us, ts, rfl, hus, hts⟩ := map_split hts
      obtain ⟨c, ts, rfl, hc, -, hts⟩ := map_first hts
      obtain ⟨p, v, h1, h2, h3, h4, h5⟩ := ih file us hus
      obtain ⟨ps, vs, g1, -, g3, g4, g5, g6⟩ := ihs file ts hts
      refine ⟨p :: ps, v :: vs, fun _ => .entryN h1 hc (g1 he), fun h => (nomatch h), ?_, ?_, .entriesN h4 g5, by simp [stripEntries, h5, g6]⟩
      · intro e hq
        rcases List.mem_cons.1 hq with h | hq
        · exact h2 e h.symm
        · exact g3 e hq
      · intro a b hq
        rcases List.mem_cons.1 hq with h | hq
        · exact h3 a b h.symm
        · exact g4 a b hq

end Qasm
