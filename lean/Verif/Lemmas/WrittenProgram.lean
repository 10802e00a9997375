import Verif.Lemmas.Written
/-!
# Writing gates, statements and programs
-/

namespace Qasm

open Spec TokKind

variable {F : Type}

/-- The tokens are those of a text for the gate. -/
def BuiltGate (stod : Str → Option F) (file : Option Str) (ts : List Token) (g : Gate F) : Prop :=
  ∃ p v, DerivesGate ts p ∧ (∀ e ∈ gateExprs p, Grouped e) ∧ GateTree stod file p v ∧ stripGate v = stripGate g

theorem stripExprs_eq_nil {es : List (Expr F)} (h : stripExprs es = []) : es = [] := by
  cases es with
  | nil => rfl
  | cons e es => simp [stripExprs] at h

theorem writes_gate {stod : Str → Option F} {g : Gate F} (h : WritableGate stod g) :
    ∃ segs, (∀ p ∈ segs, Solid p) ∧ ∀ file ts, ts.map kt = segs → BuiltGate stod file ts g := by
  have fixed {k : TokKind} {w : Str} (h : fixedText k = some w) (hq : k ≠ .tripleQuote := by decide) (hv : k ≠ .version := by decide) :
    Solid (k, w) := solid_fixed h hq hv
  induction h with
  | @named l n ps hn hp =>
    obtain ⟨segs, hs, ih⟩ := writes_of hp
    by_cases he : ps = []
    · subst he
      refine ⟨[(identifier, n)], solid_cons (solid_name hn) solid_nil, fun file ts hts => ?_⟩
      obtain ⟨t, vs, rfl, hk, rfl, hvs⟩ := map_first hts
      obtain rfl := List.map_eq_nil_iff.1 hvs
      obtain ⟨l', hl'⟩ := at_exists file t
      exact ⟨.named t none, .mk l' [] t.text none [], .named hk, by simp [gateExprs], .named hl' .exprs0, by simp [stripGate]⟩
    · refine ⟨(identifier, n) :: (openParens, c!"(") :: (segs ++ [(closeParens, c!")")]),
        solid_cons (solid_name hn) (solid_cons solid_openParens (solid_append hs (solid_cons solid_closeParens solid_nil))),
        fun file ts hts => ?_⟩
      obtain ⟨t, ts, rfl, hk, rfl, hts'⟩ := map_first hts
      obtain ⟨o, ts, rfl, ho, -, hts⟩ := map_first hts'
      obtain ⟨us, ts, rfl, hus, hts⟩ := map_split hts
      obtain ⟨c, ts, rfl, hc, -, hts⟩ := map_first hts
      obtain rfl := List.map_eq_nil_iff.1 hts
      obtain ⟨qs, vs, h1, -, h3, -, h5, h6⟩ := ih file us hus
      obtain ⟨l', hl'⟩ := at_exists file t
      exact ⟨.named t (some qs), .mk l' [] t.text none vs, .parameters hk ho (h1 he) hc, h3, .named hl' h5, by simp [stripGate, h6]⟩
  | @inv l g _ ih =>
    obtain ⟨segs, hs, ih⟩ := ih
    refine ⟨(TokKind.inv, c!"inv") :: (dot, c!".") :: segs, solid_cons (fixed rfl) (solid_cons (fixed rfl) hs), fun file ts hts => ?_⟩
    obtain ⟨t, ts, rfl, hk, ht, hts⟩ := map_first hts
    obtain ⟨d, ts, rfl, hd, -, hts⟩ := map_first hts
    obtain ⟨p, v, h1, h2, h3, h4⟩ := ih file ts hts
    obtain ⟨l', hl'⟩ := at_exists file t
    exact ⟨.inv t p, .mk l' [] t.text (some v) [], .inv hk hd h1, h2, .inv hl' h3, by simp [stripGate, h4, ht]⟩
  | @pow l g e he _ ih =>
    obtain ⟨segs, hs, ih⟩ := ih
    obtain ⟨segs', hs', he⟩ := writes_of he
    refine ⟨(TokKind.pow, c!"pow") :: (openParens, c!"(") :: (segs' ++ (closeParens, c!")") :: (dot, c!".") :: segs),
      solid_cons (fixed rfl) (solid_cons solid_openParens (solid_append hs' (solid_cons solid_closeParens (solid_cons (fixed rfl) hs)))),
      fun file ts hts => ?_⟩
    obtain ⟨t, ts, rfl, hk, ht, hts⟩ := map_first hts
    obtain ⟨o, ts, rfl, ho, -, hts⟩ := map_first hts
    obtain ⟨us, ts, rfl, hus, hts⟩ := map_split hts
    obtain ⟨c, ts, rfl, hc, -, hts⟩ := map_first hts
    obtain ⟨d, ts, rfl, hd, -, hts⟩ := map_first hts
    obtain ⟨p, v, h1, h2, h3, h4⟩ := ih file ts hts
    obtain ⟨q, w, g1, g2, -, g4, g5⟩ := he file us hus
    obtain ⟨l', hl'⟩ := at_exists file t
    refine ⟨.pow t q p, .mk l' [] t.text (some v) [w], .pow hk ho g1 hc hd h1, ?_, .pow hl' g4 h3, by simp [stripGate, stripExprs, h4, ht, g5]⟩
    intro x hx
    rcases List.mem_cons.1 hx with rfl | hx
    · exact g2
    · exact h2 x hx
  | @ctrl l g _ ih =>
    obtain ⟨segs, hs, ih⟩ := ih
    refine ⟨(TokKind.ctrl, c!"ctrl") :: (dot, c!".") :: segs, solid_cons (fixed rfl) (solid_cons (fixed rfl) hs), fun file ts hts => ?_⟩
    obtain ⟨t, ts, rfl, hk, ht, hts⟩ := map_first hts
    obtain ⟨d, ts, rfl, hd, -, hts⟩ := map_first hts
    obtain ⟨p, v, h1, h2, h3, h4⟩ := ih file ts hts
    obtain ⟨l', hl'⟩ := at_exists file t
    exact ⟨.ctrl t p, .mk l' [] t.text (some v) [], .ctrl hk hd h1, h2, .ctrl hl' h3, by simp [stripGate, h4, ht]⟩

/-! ## Statements -/

/-- The tokens are those of a text for the statement. -/
def BuiltStmt (stod : Str → Option F) (file : Option Str) (ts : List Token) (s : Stmt F) : Prop :=
  ∃ p v, Chosen ts p ∧ StmtTree stod file p v ∧ stripStmt v = stripStmt s

theorem chosen_of {ts : List Token} {p : PStmt} (h : DerivesStmt ts p) (hg : ∀ e ∈ stmtExprs p, Grouped e) (hn : ¬ Doubtful p) :
    Chosen ts p :=
  ⟨h, hg, fun hp ⟨_, hs', hp'⟩ => hn (doubtful_of h hp hs' hp')⟩

theorem writes_stmt {stod : Str → Option F} {s : Stmt F} (h : WritableStmt stod s) :
    ∃ segs, (∀ p ∈ segs, Solid p) ∧ ∀ file ts, ts.map kt = segs → BuiltStmt stod file ts s := by
  have fixed {k : TokKind} {w : Str} (h : fixedText k = some w) (hq : k ≠ .tripleQuote := by decide) (hv : k ≠ .version := by decide) :
    Solid (k, w) := solid_fixed h hq hv
  cases h with
  | @var l l' _ n t size hn ht hs =>
    obtain ⟨k, hk, hk', hsol⟩ : ∃ k, (k, t) ∈ typeNodes ∧ k ∈ [qubitType, bitType] ∧ Solid (k, t) := by
      rcases ht with rfl | rfl
      · exact ⟨qubitType, by decide, by decide, fixed rfl⟩
      · exact ⟨bitType, by decide, by decide, fixed rfl⟩
    cases size with
    | none =>
      refine ⟨[(k, t), (identifier, n)], solid_cons hsol (solid_cons (solid_name hn) solid_nil), fun file ts hts => ?_⟩
      obtain ⟨kw, ts, rfl, rfl, -, hts⟩ := map_first hts
      obtain ⟨name, ts, rfl, hi, rfl, hts'⟩ := map_first hts
      obtain rfl := List.map_eq_nil_iff.1 hts'
      obtain ⟨l2, hl2⟩ := at_exists file name
      obtain ⟨l3, hl3⟩ := at_exists file kw
      exact ⟨.var kw none name, _, chosen_of (.var hk' hi) (by simp [stmtExprs]) (by simp [Doubtful]), .var hk hl2 hl3, by simp [stripStmt]⟩
    | some m =>
      obtain ⟨w, hw, hi⟩ := intOf_exists (hs m rfl)
      refine ⟨[(k, t), (openBracket, c!"["), (integerLiteral, w), (closeBracket, c!"]"), (identifier, n)],
        solid_cons hsol (solid_cons solid_openBracket (solid_cons (solid_int hw) (solid_cons solid_closeBracket
          (solid_cons (solid_name hn) solid_nil)))), fun file ts hts => ?_⟩
      obtain ⟨kw, ts, rfl, rfl, -, hts⟩ := map_first hts
      obtain ⟨o, ts, rfl, ho, -, hts⟩ := map_first hts
      obtain ⟨d, ts, rfl, hd, rfl, hts'⟩ := map_first hts
      obtain ⟨c, ts, rfl, hc, -, hts⟩ := map_first hts'
      obtain ⟨name, ts, rfl, hn', rfl, hnil⟩ := map_first hts
      obtain rfl := List.map_eq_nil_iff.1 hnil
      obtain ⟨l2, hl2⟩ := at_exists file name
      obtain ⟨l3, hl3⟩ := spans_exists file kw c
      exact ⟨.var kw (some (d, c)) name, _, chosen_of (.array hk' ho hd hc hn') (by simp [stmtExprs]) (by simp [Doubtful]),
        .array hk hi hl2 hl3, by simp [stripStmt]⟩
  | @gate l g es hg hne he =>
    obtain ⟨segs, hs, ihg⟩ := writes_gate hg
    obtain ⟨segs', hs', ihe⟩ := writes_of he
    refine ⟨segs ++ segs', solid_append hs hs', fun file ts hts => ?_⟩
    obtain ⟨us, ts, rfl, hus, hts⟩ := map_split hts
    obtain ⟨p, v, h1, h2, h3, h4⟩ := ihg file us hus
    obtain ⟨qs, vs, g1, -, g3, g4, g5, g6⟩ := ihe file ts hts
    refine ⟨.gate p qs, _, chosen_of (.gate h1 (g1 hne)) ?_ ?_, .gate h3 g5, by simp [stripStmt, h4, g6]⟩
    · intro x hx
      rcases List.mem_append.1 hx with hx | hx
      · exact h2 x hx
      · exact g3 x hx
    · rintro ⟨-, e, he, ho⟩
      rw [g4 e (List.mem_of_mem_head? he)] at ho
      cases ho
  | @measure l b q ps hb hq hp =>
    obtain ⟨sb, hsb, ihb⟩ := writes_of hb
    obtain ⟨sq, hsq, ihq⟩ := writes_of hq
    obtain ⟨sp, hsp, ihp⟩ := writes_of hp
    by_cases hne : ps = []
    · subst hne
      refine ⟨sb ++ (equals, c!"=") :: (TokKind.measure, c!"measure") :: (plus, c!"+") :: sq,
        solid_append hsb (solid_cons (fixed rfl) (solid_cons (fixed rfl) (solid_cons solid_plus hsq))), fun file ts hts => ?_⟩
      obtain ⟨us, ts, rfl, hus, hts⟩ := map_split hts
      obtain ⟨eq, ts, rfl, heq, -, hts⟩ := map_first hts
      obtain ⟨kw, ts, rfl, hkw, hkt, hts⟩ := map_first hts
      obtain ⟨t, ts, rfl, ht, -, hts⟩ := map_first hts
      obtain ⟨p, v, h1, h2, h3, h4, h5⟩ := ihb file us hus
      obtain ⟨p', v', h1', h2', h3', h4', h5'⟩ := ihq file ts hts
      obtain ⟨l2, hl2⟩ := at_exists file kw
      refine ⟨.measure kw none p (.pre t p'), _, chosen_of (.measure h1 heq hkw (.pre (by simp [ht, prefixOps]) h1')) ?_ (by simp [Doubtful, opensParens]),
        .measure hl2 .exprs0 h4 (.plus ht h4'), by simp [stripStmt, stripExprs, h5, h5', hkt]⟩
      intro x hx
      simp only [stmtExprs, Option.getD_none, List.nil_append, List.mem_cons, List.not_mem_nil, or_false] at hx
      rcases hx with rfl | rfl
      · exact h2
      · exact .pre h3' h2'
    · refine ⟨sb ++ (equals, c!"=") :: (TokKind.measure, c!"measure") :: (openParens, c!"(") :: (sp ++ (closeParens, c!")") :: sq),
        solid_append hsb (solid_cons (fixed rfl) (solid_cons (fixed rfl) (solid_cons solid_openParens (solid_append hsp
          (solid_cons solid_closeParens hsq))))), fun file ts hts => ?_⟩
      obtain ⟨us, ts, rfl, hus, hts⟩ := map_split hts
      obtain ⟨eq, ts, rfl, heq, -, hts⟩ := map_first hts
      obtain ⟨kw, ts, rfl, hkw, hkt, hts⟩ := map_first hts
      obtain ⟨o, ts, rfl, ho, -, hts⟩ := map_first hts
      obtain ⟨us', ts, rfl, hus', hts⟩ := map_split hts
      obtain ⟨c, ts, rfl, hc, -, hts⟩ := map_first hts
      obtain ⟨p, v, h1, h2, h3, h4, h5⟩ := ihb file us hus
      obtain ⟨p', v', h1', h2', h3', h4', h5'⟩ := ihq file ts hts
      obtain ⟨qs, vs, g1, -, g3, g4, g5, g6⟩ := ihp file us' hus'
      obtain ⟨l2, hl2⟩ := at_exists file kw
      refine ⟨.measure kw (some qs) p p', _, chosen_of ?_ ?_ (by simp [Doubtful]), .measure hl2 g5 h4 h4', by simp [stripStmt, stripExprs, h5, h5', g6, hkt]⟩
      · have := DerivesStmt.measureParameters h1 heq hkw ho (g1 hne) hc h1'
        simpa using this
      · intro x hx
        simp only [stmtExprs, Option.getD_some, List.mem_append, List.mem_cons, List.not_mem_nil, or_false] at hx
        rcases hx with hx | rfl | rfl
        · exact g3 x hx
        · exact h2
        · exact h2'
  | @simple l n e hn he =>
    obtain ⟨se, hse, ihe⟩ := writes_of he
    obtain ⟨k, hk, hsol⟩ : ∃ k, k ∈ [reset, init, barrier] ∧ Solid (k, n) := by
      rcases hn with rfl | rfl | rfl
      · exact ⟨reset, by decide, fixed rfl⟩
      · exact ⟨init, by decide, fixed rfl⟩
      · exact ⟨barrier, by decide, fixed rfl⟩
    refine ⟨(k, n) :: se, solid_cons hsol hse, fun file ts hts => ?_⟩
    obtain ⟨kw, ts, rfl, rfl, hkt, hts⟩ := map_first hts
    obtain ⟨p, v, h1, h2, h3, h4, h5⟩ := ihe file ts hts
    obtain ⟨l2, hl2⟩ := at_exists file kw
    exact ⟨.simple kw p, _, chosen_of (.simple hk h1) (by simpa [stmtExprs] using h2) (by simp [Doubtful]), .simple hl2 h4,
      by simp [stripStmt, stripExprs, h5, hkt]⟩
  | @wait l q e hq he =>
    obtain ⟨sq, hsq, ihq⟩ := writes_of hq
    obtain ⟨se, hse, ihe⟩ := writes_of he
    refine ⟨(TokKind.wait, c!"wait") :: (openParens, c!"(") :: (sq ++ (closeParens, c!")") :: se),
      solid_cons (fixed rfl) (solid_cons solid_openParens (solid_append hsq (solid_cons solid_closeParens hse))), fun file ts hts => ?_⟩
    obtain ⟨kw, ts, rfl, hk, hkt, hts⟩ := map_first hts
    obtain ⟨o, ts, rfl, ho, -, hts⟩ := map_first hts
    obtain ⟨us, ts, rfl, hus, hts⟩ := map_split hts
    obtain ⟨c, ts, rfl, hc, -, hts⟩ := map_first hts
    obtain ⟨p, v, h1, h2, h3, h4, h5⟩ := ihq file us hus
    obtain ⟨p', v', h1', h2', h3', h4', h5'⟩ := ihe file ts hts
    obtain ⟨l2, hl2⟩ := at_exists file kw
    exact ⟨.wait kw p p', _, chosen_of (.wait hk ho h1 hc h1') (by simpa [stmtExprs] using ⟨h2, h2'⟩) (by simp [Doubtful]),
      .wait hl2 h4 h4', by simp [stripStmt, stripExprs, h5, h5', hkt]⟩
  | @asm l n code hn hcode =>
    refine ⟨[(TokKind.asm, c!"asm"), (openParens, c!"("), (identifier, n), (closeParens, c!")"), (rawTextString, c!"'''" ++ code ++ c!"'''")],
      solid_cons (fixed rfl) (solid_cons solid_openParens (solid_cons (solid_name hn) (solid_cons solid_closeParens
        (solid_cons (solid_raw hcode) solid_nil)))), fun file ts hts => ?_⟩
    obtain ⟨kw, ts, rfl, hk, -, hts⟩ := map_first hts
    obtain ⟨o, ts, rfl, ho, -, hts⟩ := map_first hts
    obtain ⟨name, ts, rfl, hi, rfl, hts'⟩ := map_first hts
    obtain ⟨c, ts, rfl, hc, -, hts⟩ := map_first hts'
    obtain ⟨raw, ts, rfl, hr, hrt, hts⟩ := map_first hts
    obtain rfl := List.map_eq_nil_iff.1 hts
    exact ⟨.asm name raw, _, chosen_of (.asm hk ho hi hc hr) (by simp [stmtExprs]) (by simp [Doubtful]), .asm hrt, by simp [stripStmt]⟩

/-! ## The version -/

theorem text_version {v : Str} (h : Text .versionNumber v) : ' ' ∉ v := by
  intro hm
  have := Lexer.text_space (m := .versionStatement) (k := .versionNumber) (by decide) h hm
  simp at this

theorem version_winner {w : Str} (hw : Text .versionNumber w) (s : Str) :
    Winner .versionStatement (w ++ ' ' :: s) .versionNumber w := by
  refine Lexer.winner_of [.versionWhiteSpace] [] rfl (Lexer.candidate_of_text (by simp [EndsEarly]) hw (List.prefix_append _ _)) ?_
  rintro k hk v ⟨hv, hpre, -⟩
  have hd : ∀ c, w.head? = some c → Digit c := by
    intro c hc
    rcases hw with h | ⟨a, b, rfl, ha, -⟩
    · exact h.2 c (List.mem_of_mem_head? hc)
    · cases a with
      | nil => exact absurd rfl ha.1
      | cons d a => cases hc; exact ha.2 c (by simp)
  have hne : w ≠ [] := Lexer.text_ne_nil hw
  simp only [order, List.mem_cons, List.not_mem_nil, or_false] at hk
  rcases hk with rfl | rfl
  · exfalso
    cases w with
    | nil => exact hne rfl
    | cons c w =>
      cases v with
      | nil => exact hv.1 rfl
      | cons d v =>
        obtain ⟨rfl, -⟩ := List.cons_prefix_cons.1 hpre
        have := hd _ rfl
        rcases hv.2 d (by simp) with rfl | rfl <;> simp [Digit] at this
  · refine ⟨fun h => by simp at h, ?_⟩
    rcases Lexer.prefix_cases hpre with h | ⟨x, rfl, hx, hp⟩
    · exact h.length_le
    · cases x with
      | nil => exact absurd rfl hx
      | cons d x =>
        obtain ⟨rfl, -⟩ := List.cons_prefix_cons.1 hp
        exact absurd (by simp) (text_version hv)

theorem blank_winner_version {w : Str} (hw : Text .versionNumber w) (s : Str) :
    Winner .versionStatement (' ' :: (w ++ s)) .versionWhiteSpace [' '] := by
  have hd : ∀ c, (w ++ s).head? = some c → Digit c := by
    intro c hc
    rcases hw with h | ⟨a, b, rfl, ha, -⟩
    · cases w with
      | nil => exact absurd rfl h.1
      | cons d w => cases hc; exact h.2 c (by simp)
    · cases a with
      | nil => exact absurd rfl ha.1
      | cons d a => cases hc; exact ha.2 c (by simp)
  refine Lexer.winner_of [] [.versionNumber] rfl
    (Lexer.candidate_of_text (by simp [EndsEarly]) (w := [' ']) ⟨by simp, by simp⟩ ⟨w ++ s, rfl⟩) ?_
  rintro k hk v ⟨hv, hpre, -⟩
  refine ⟨fun h => by simp at h, ?_⟩
  simp only [order, List.mem_cons, List.not_mem_nil, or_false] at hk
  rcases hk with rfl | rfl
  · cases v with
    | nil => simp
    | cons d v =>
      obtain ⟨rfl, hp⟩ := List.cons_prefix_cons.1 hpre
      cases v with
      | nil => simp
      | cons e v =>
        obtain ⟨t, ht⟩ := hp
        have := hd e (by rw [← ht]; rfl)
        rcases hv.2 e (by simp) with rfl | rfl <;> simp [Digit] at this
  · cases v with
    | nil => simp
    | cons d v =>
      obtain ⟨rfl, hp⟩ := List.cons_prefix_cons.1 hpre
      exact absurd (by simp) (text_version hv)

theorem seen_version {w : Str} (hw : Text .versionNumber w) (s : Str) :
    seen (c!"version" ++ ' ' :: (w ++ ' ' :: s)) = (seen s).map ([(version, c!"version"), (versionNumber, w)] ++ ·) := by
  obtain ⟨sb, m', rest, hb, hf⟩ := Lexer.cut_exists .default s
  obtain ⟨s1, h1, hv1⟩ := Lexer.cut_blank (.inl rfl) hb hf
  have hver : Winner .default (c!"version" ++ (' ' :: (w ++ ' ' :: s))) .version c!"version" := by
    have := Lexer.word_winner (w := c!"version") (s := ' ' :: (w ++ ' ' :: s))
      ⟨'v', c!"ersion", rfl, by simp [Letter], by intro d hd; left; left; revert d; decide⟩
      (by intro c hc; cases hc; exact ⟨by simp [Letter], by simp [Digit]⟩)
    exact this
  have h : Cut .default (c!"version" ++ (' ' :: (w ++ ' ' :: s))) ((.version, c!"version") :: (.versionWhiteSpace, [' ']) :: (.versionNumber, w) :: s1) m' rest :=
    .cons hver (.cons (w := [' ']) (blank_winner_version hw _) (.cons (version_winner hw s) h1))
  rw [Lexer.seen_of_cut h hf, Lexer.seen_of_cut hb hf]
  have : Lexer.visible ((TokKind.version, c!"version") :: (.versionWhiteSpace, [' ']) :: (.versionNumber, w) :: s1)
      = [(.version, c!"version"), (.versionNumber, w)] ++ Lexer.visible sb := by
    rw [← hv1]; simp [Lexer.visible, Skipped]
  rw [this]
  by_cases hr : rest = [] <;> simp [hr]

/-! ## Programs -/

theorem writes_block {stod : Str → Option F} {ss : List (Stmt F)} (h : ∀ s ∈ ss, WritableStmt stod s) :
    ∃ segs, (∀ p ∈ segs, Solid p) ∧ ∀ file ts, ts.map kt = segs ++ [(eof, c!"<EOF>")] →
      ∃ ps vs, Block Chosen ts ps ∧ Forall2 (StmtTree stod file) ps vs ∧ vs.map stripStmt = ss.map stripStmt := by
  induction ss with
  | nil =>
    refine ⟨[], solid_nil, fun file ts hts => ?_⟩
    obtain ⟨t, ts, rfl, hk, -, hts⟩ := map_first hts
    obtain rfl := List.map_eq_nil_iff.1 hts
    exact ⟨[], [], .nil (seps := []) (by simp [Separators]) hk, .nil, rfl⟩
  | cons s ss ih =>
    obtain ⟨segs, hs, ihs⟩ := ih fun x hx => h x (List.mem_cons_of_mem _ hx)
    obtain ⟨segs', hs', ih'⟩ := writes_stmt (h s (List.mem_cons_self ..))
    refine ⟨(newLine, ['\n']) :: (segs' ++ segs), solid_cons solid_newLine (solid_append hs' hs), fun file ts hts => ?_⟩
    rw [List.cons_append, List.append_assoc] at hts
    obtain ⟨t, ts, rfl, hk, -, hts⟩ := map_first hts
    obtain ⟨us, ts, rfl, hus, hts⟩ := map_split hts
    obtain ⟨ps, vs, h1, h2, h3⟩ := ihs file ts hts
    obtain ⟨p, v, g1, g2, g3⟩ := ih' file us hus
    exact ⟨p :: ps, v :: vs, .cons (seps := [t]) (by simp [Separators, hk, separatorKinds]) (by simp) g1 h1, .cons g2 h2, by simp [h3, g3]⟩

theorem takeWhile_digits {w : Str} (h : ∀ c ∈ w, Digit c) (v : Str) : (w ++ '.' :: v).takeWhile (· ≠ '.') = w := by
  induction w with
  | nil => simp
  | cons c w ih =>
    have : c ≠ '.' := fun he => by have := h c (by simp); rw [he] at this; simp [Digit] at this
    simp only [List.cons_append]
    rw [List.takeWhile_cons_of_pos (by simpa using this), ih fun d hd => h d (List.mem_cons_of_mem _ hd)]

theorem takeWhile_pure {w : Str} (h : ∀ c ∈ w, Digit c) : w.takeWhile (· ≠ '.') = w := by
  induction w with
  | nil => simp
  | cons c w ih =>
    have : c ≠ '.' := fun he => by have := h c (by simp); rw [he] at this; simp [Digit] at this
    rw [List.takeWhile_cons_of_pos (by simpa using this), ih fun d hd => h d (List.mem_cons_of_mem _ hd)]

theorem version_text {ns : List Int64} (hl : ns.length = 1 ∨ ns.length = 2) (h : ∀ n ∈ ns, 0 ≤ n.toInt) :
    ∃ w, Text .versionNumber w ∧ Forall2 IntOf (components w) ns := by
  match ns, hl with
  | [a], _ =>
    obtain ⟨w, hw, hi⟩ := intOf_exists (h a (by simp))
    refine ⟨w, .inl hw, ?_⟩
    have : components w = [w] := by
      simp only [components, takeWhile_pure hw.2]
      rw [if_neg (by simp)]
    rw [this]
    exact .cons hi .nil
  | [a, b], _ =>
    obtain ⟨w, hw, hi⟩ := intOf_exists (h a (by simp))
    obtain ⟨w', hw', hi'⟩ := intOf_exists (h b (by simp))
    refine ⟨w ++ '.' :: w', .inr ⟨w, w', rfl, hw, hw'⟩, ?_⟩
    have : components (w ++ '.' :: w') = [w, w'] := by
      have e : (w ++ '.' :: w').drop (w.length + 1) = w' := by
        rw [← List.drop_drop]; simp
      simp only [components, takeWhile_digits hw.2, e]
      rw [if_pos (by simp)]
    rw [this]
    exact .cons hi (.cons hi' .nil)

theorem writes_program {stod : Str → Option F} {p : ProgramAst F} (h : WritableProgram stod p) :
    ∃ text, ∀ file, ∃ ts pr q, Lexer.lex text = .ok ts ∧ Program Chosen ts pr ∧ ProgramTree stod file pr q ∧ stripProgram q = stripProgram p := by
  obtain ⟨hl, hn, hs⟩ := h
  obtain ⟨w, hw, hc⟩ := version_text hl hn
  obtain ⟨segs, hsol, hb⟩ := writes_block hs
  have h0 : seen [] = some [(eof, c!"<EOF>")] := by
    have := Lexer.seen_of_cut (.nil .default []) (.inl rfl); simpa [Lexer.visible] using this
  have hseen : seen (c!"version" ++ ' ' :: (w ++ ' ' :: (spell segs ++ []))) =
      some ((version, c!"version") :: (versionNumber, w) :: (segs ++ [(eof, c!"<EOF>")])) := by
    rw [seen_version hw, seen_spell hsol, h0]; simp
  refine ⟨c!"version" ++ ' ' :: (w ++ ' ' :: (spell segs ++ [])), fun file => ?_⟩
  obtain ⟨ts, hts, hm⟩ := lex_of_seen hseen
  obtain ⟨v, ts, rfl, hv, -, hm⟩ := map_first hm
  obtain ⟨n, ts, rfl, hk, rfl, hm'⟩ := map_first hm
  obtain ⟨ps, vs, h1, h2, h3⟩ := hb file ts hm'
  obtain ⟨l, hl'⟩ := at_exists file n
  exact ⟨_, ⟨n, ps⟩, ⟨⟨p.version.items, l⟩, ⟨vs, none⟩, none⟩, hts, .mk (seps := []) (by simp [Separators]) hv hk h1, .mk hc hl' h2,
    by simp [stripProgram, h3]⟩

end Qasm
