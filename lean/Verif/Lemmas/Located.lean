import Verif.Spec.Located
import Verif.Lemmas.WrittenOnly
/-!
# The nodes of a tree stand where they say
-/

namespace Qasm

open Spec TokKind Syn

variable {F : Type} {stod : Str → Option F} {file : Option Str} {text : Str}

/-- The token stands in the text where it says. -/
def Stands (text : Str) (t : Token) : Prop :=
  t.kind = eof ∨ ∃ before after, text = before ++ t.text ++ after ∧ t.line = lineAfter before ∧ t.column = columnAfter before

/-- What is known of a token of the text. -/
def Placed (text : Str) (t : Token) : Prop := Lexed t ∧ Stands text t

theorem placed {ts : List Token} (h : Lexer.lex text = .ok ts) : ∀ t ∈ ts, Placed text t := by
  obtain ⟨_, _, _, _, _, hl⟩ := lexed h
  intro t ht
  refine ⟨hl t ht, ?_⟩
  obtain ⟨segs, m, hc, hcov, rfl⟩ := (C39_tokens text ts).1 h
  rcases List.mem_append.1 ht with ht | ht
  · obtain ⟨x, after, he, h1, h2⟩ := tokensOf_pos ht
    simp only [List.nil_append] at he h1 h2
    exact .inr ⟨x, after, by rw [← hcov, he], h1, h2⟩
  · simp only [List.mem_cons, List.not_mem_nil, or_false] at ht
    subst ht
    exact .inl rfl

theorem columnAfter_append {b w : Str} (h : '\n' ∉ w) : columnAfter (b ++ w) = columnAfter b + w.length := by
  induction w generalizing b with
  | nil => simp
  | cons c w ih =>
    have hc : c ≠ '\n' := fun e => h (e ▸ List.mem_cons_self ..)
    have : b ++ c :: w = (b ++ [c]) ++ w := by simp
    rw [this, ih fun e => h (List.mem_cons_of_mem _ e), Lexer.columnAfter_snoc, if_neg hc]
    simp only [List.length_cons]; omega

theorem lineAfter_append {b w : Str} (h : '\n' ∉ w) : lineAfter (b ++ w) = lineAfter b := by
  simp [lineAfter, List.count_append, List.count_eq_zero_of_not_mem h]

theorem pos_append (b w : Str) : PosLe ⟨lineAfter b, columnAfter b⟩ ⟨lineAfter (b ++ w), columnAfter (b ++ w)⟩ := by
  induction w generalizing b with
  | nil => simpa using posLe_refl _
  | cons c w ih =>
    have : b ++ c :: w = (b ++ [c]) ++ w := by simp
    rw [this]
    refine posLe_trans ?_ (ih _)
    rw [Lexer.columnAfter_snoc, Lexer.lineAfter_snoc]
    by_cases hc : c = '\n'
    · exact .inl (by simp [hc])
    · exact .inr (by simp [hc])

/-- The two tokens stand in the text in this order. -/
def Apart (text : Str) (s t : Token) : Prop :=
  t.kind = eof ∨ ∃ before between after, text = before ++ s.text ++ between ++ t.text ++ after ∧
    s.line = lineAfter before ∧ s.column = columnAfter before ∧
    t.line = lineAfter (before ++ s.text ++ between) ∧ t.column = columnAfter (before ++ s.text ++ between)

theorem tokensOf_apart (before : Str) (segs : List (TokKind × Str)) :
    (tokensOf before segs).Pairwise (Apart (before ++ covered segs)) := by
  induction segs generalizing before with
  | nil => exact .nil
  | cons p segs ih =>
    obtain ⟨k, w⟩ := p
    have e : before ++ covered ((k, w) :: segs) = before ++ w ++ covered segs := by simp [covered]
    rw [tokensOf, e]
    split
    · exact ih _
    · refine List.pairwise_cons.2 ⟨fun t ht => ?_, ih _⟩
      obtain ⟨x, after, h1, h2, h3⟩ := tokensOf_pos ht
      exact .inr ⟨before, x, after, h1, rfl, rfl, h2, h3⟩

theorem apart {ts : List Token} (h : Lexer.lex text = .ok ts) : ts.Pairwise (Apart text) := by
  obtain ⟨segs, m, hc, hcov, rfl⟩ := (C39_tokens text ts).1 h
  refine List.pairwise_append.2 ⟨?_, List.pairwise_singleton .., fun s _ t ht => ?_⟩
  · have := tokensOf_apart [] segs
    rwa [List.nil_append, hcov] at this
  · rw [List.mem_singleton.1 ht]; exact .inl rfl

theorem spanAt {s t : Token} (h : Apart text s t) {l : Option Loc} (hs : Spans file s t l) (hk : t.kind ≠ eof) (hn : '\n' ∉ s.text) :
    SpanAt text file s.text t.text l := by
  rcases h with h | ⟨before, between, after, h1, h2, h3, h4, h5⟩
  · exact absurd h hk
  · obtain ⟨⟨f, ⟨a, b⟩⟩, rfl, hf, hr⟩ := hs
    refine ⟨before, between, after, _, h1, rfl, hf, ?_⟩
    rw [h2, h3, h4, h5] at hr
    have g := (hr ⟨a, b⟩).1 ⟨posLe_refl _, posLe_refl _⟩
    have p1 : PosLe ⟨lineAfter before, columnAfter before + 1 + s.text.length⟩
        ⟨lineAfter (before ++ s.text ++ between), columnAfter (before ++ s.text ++ between) + 1 + t.text.length⟩ := by
      have := pos_append (before ++ s.text) between
      simp only [PosLe, lineAfter_append hn, columnAfter_append hn] at this ⊢
      omega
    have p0 : PosLe ⟨lineAfter before, columnAfter before + 1⟩ ⟨lineAfter before, columnAfter before + 1 + s.text.length⟩ :=
      .inr ⟨rfl, Nat.le_add_right ..⟩
    have g' := (hr ⟨_, _⟩).2 ⟨⟨posLe_refl _, posLe_trans p0 p1⟩, ⟨p0, p1⟩, ⟨posLe_trans p0 p1, posLe_refl _⟩⟩
    exact ⟨posLe_antisymm g.1.1 g'.1, posLe_antisymm g'.2 g.2.2.2⟩

theorem wordAt {t : Token} (h : Placed text t) {l : Option Loc} (ha : At file t l) (hk : t.kind ≠ eof) : WordAt text file t.text l := by
  rcases h.2 with h | ⟨before, after, h1, h2, h3⟩
  · exact absurd h hk
  · obtain ⟨⟨f, ⟨⟨a, b⟩, ⟨c, d⟩⟩⟩, rfl, h4, h5, h6, h7, h8⟩ := ha
    refine ⟨Lexer.text_ne_nil (lexed_text h.1 rfl hk), before, after, _, h1, rfl, h4, ?_, ?_⟩
    · simp only [Index.mk.injEq]
      simp only at h5 h6
      exact ⟨h5.trans h2, by rw [h6, h3]⟩
    · simp only [Index.mk.injEq]
      simp only at h7 h8
      exact ⟨h7.trans h2, by rw [h8, h3]⟩

theorem wordAt_of {t : Token} (h : Placed text t) {l : Option Loc} (ha : At file t l) {k : TokKind} (hk : t.kind = k)
    (hne : k ≠ eof := by decide) : WordAt text file t.text l := wordAt h ha (hk ▸ hne)

theorem wordAt_fixed {t : Token} (h : Placed text t) {l : Option Loc} (ha : At file t l) {k : TokKind} {w : Str} (hk : t.kind = k)
    (hw : fixedText k = some w) (hne : k ≠ eof := by decide)
    (hT : ∀ v, Text k v → fixedText k = some v := by exact fun v h => h) : WordAt text file w l := by
  have := wordAt h ha (hk ▸ hne)
  rwa [lexed_fixed h.1 hk hw hne hT] at this

theorem unary_fixed {k : TokKind} {u : UnOp} (h : (k, u) ∈ unaryNodes) :
    fixedText k = some (unarySymbol u) ∧ k ≠ eof ∧ ∀ v, Text k v → fixedText k = some v := by
  simp only [unaryNodes, List.mem_cons, List.not_mem_nil, or_false, Prod.mk.injEq] at h
  rcases h with ⟨rfl, rfl⟩ | ⟨rfl, rfl⟩ | ⟨rfl, rfl⟩ <;> exact ⟨rfl, by decide, fun v h => h⟩

theorem binary_fixed {k : TokKind} {u : BinOp} (h : (k, u) ∈ binaryNodes) :
    fixedText k = some (binarySymbol u) ∧ k ≠ eof ∧ ∀ v, Text k v → fixedText k = some v := by
  simp only [binaryNodes, List.mem_cons, List.not_mem_nil, or_false, Prod.mk.injEq] at h
  rcases h with ⟨rfl, rfl⟩ | ⟨rfl, rfl⟩ | ⟨rfl, rfl⟩ | ⟨rfl, rfl⟩ | ⟨rfl, rfl⟩ | ⟨rfl, rfl⟩ | ⟨rfl, rfl⟩ | ⟨rfl, rfl⟩ | ⟨rfl, rfl⟩ | ⟨rfl, rfl⟩ |
    ⟨rfl, rfl⟩ | ⟨rfl, rfl⟩ | ⟨rfl, rfl⟩ | ⟨rfl, rfl⟩ | ⟨rfl, rfl⟩ | ⟨rfl, rfl⟩ | ⟨rfl, rfl⟩ | ⟨rfl, rfl⟩ | ⟨rfl, rfl⟩ | ⟨rfl, rfl⟩ <;>
    exact ⟨rfl, by decide, fun v h => h⟩

theorem located_of {us : List Token} {ph : Phrase} (hd : Derives us ph) (hl : ∀ t ∈ us, Placed text t) {n : Node F}
    (h : Tree stod file ph n) : Located stod text file n := by
  induction hd generalizing n with
  | parens _ _ _ ih => cases h with | parens h => exact ih (fun t ht => hl t (by simp [ht])) h
  | pre _ _ ih =>
    cases h with
    | plus _ h => exact ih (fun t ht => hl t (by simp [ht])) h
    | pre hu ha h =>
      obtain ⟨h1, h2, h3⟩ := unary_fixed hu
      exact .un (wordAt_fixed (hl _ (by simp)) ha rfl h1 h2 h3) (ih (fun t ht => hl t (by simp [ht])) h)
  | bin _ _ _ ih1 ih2 =>
    cases h with
    | bin hu ha h1 h2 =>
      obtain ⟨g1, g2, g3⟩ := binary_fixed hu
      exact .bin (wordAt_fixed (hl _ (by simp)) ha rfl g1 g2 g3) (ih1 (fun t ht => hl t (by simp [ht])) h1)
        (ih2 (fun t ht => hl t (by simp [ht])) h2)
  | tern _ hq _ _ _ ih1 ih2 ih3 =>
    cases h with
    | tern ha h1 h2 h3 =>
      exact .tern (wordAt_fixed (hl _ (by simp)) ha hq rfl) (ih1 (fun t ht => hl t (by simp [ht])) h1)
        (ih2 (fun t ht => hl t (by simp [ht])) h2) (ih3 (fun t ht => hl t (by simp [ht])) h3)
  | call0 hn =>
    cases h with
    | call ha h => cases h; exact .call (wordAt_of (hl _ (by simp)) ha hn) .exprs0
  | call hn _ _ _ ih =>
    cases h with
    | call ha h => exact .call (wordAt_of (hl _ (by simp)) ha hn) (ih (fun t ht => hl t (by simp [ht])) h)
  | index hn _ hd _ ih =>
    cases h with
    | index ha h => exact .index (wordAt_of (hl _ (by simp)) ha hn) (ih (fun t ht => hl t (by simp [ht])) h)
  | atom hk =>
    have hl' := hl _ (List.mem_singleton.2 rfl)
    cases h with
    | ident hk ha => exact .ident (wordAt_of hl' ha hk)
    | true hk ht ha => exact .true (ht ▸ wordAt_of hl' ha hk)
    | false hk ht ha => exact .false (ht ▸ wordAt_of hl' ha hk)
    | int hk hi ha => exact .int (wordAt_of hl' ha hk) (lexed_text hl'.1 hk (by decide)) hi
    | float hk hx ha => exact .float (wordAt_of hl' ha hk) (lexed_text hl'.1 hk (by decide)) hx
  | expr1 _ ih => cases h with | exprsN h1 h2 => cases h2; exact .exprsN (ih hl h1) .exprs0
  | exprN _ _ _ ih1 ih2 =>
    cases h with
    | exprsN h1 h2 => exact .exprsN (ih1 (fun t ht => hl t (by simp [ht])) h1) (ih2 (fun t ht => hl t (by simp [ht])) h2)
  | item _ ih => cases h with | item h => exact .item (ih hl h)
  | range _ _ _ ih1 ih2 =>
    cases h with
    | range h1 h2 => exact .range (ih1 (fun t ht => hl t (by simp [ht])) h1) (ih2 (fun t ht => hl t (by simp [ht])) h2)
  | entry1 _ ih => cases h with | entriesN h1 h2 => cases h2; exact .entriesN (ih hl h1) .entries0
  | entryN _ _ _ ih1 ih2 =>
    cases h with
    | entriesN h1 h2 => exact .entriesN (ih1 (fun t ht => hl t (by simp [ht])) h1) (ih2 (fun t ht => hl t (by simp [ht])) h2)

theorem locatedGate_of {us : List Token} {g : PGate} (hd : DerivesGate us g) (hl : ∀ t ∈ us, Placed text t) {v : Gate F}
    (h : GateTree stod file g v) : LocatedGate stod text file v := by
  induction hd generalizing v with
  | @inv kw d us g hk _ _ ih =>
    cases h with
    | inv ha h =>
      exact .modifier (by rw [lexed_fixed (hl kw (by simp)).1 hk (w := c!"inv") rfl]; simp) (wordAt_of (hl _ (by simp)) ha hk) .exprs0
        (ih (fun t ht => hl t (by simp [ht])) h)
  | @pow kw o c d us vs e g hk _ he _ _ _ ih =>
    cases h with
    | pow ha he' h =>
      exact .modifier (by rw [lexed_fixed (hl kw (by simp)).1 hk (w := c!"pow") rfl]; simp) (wordAt_of (hl _ (by simp)) ha hk)
        (.exprsN (located_of he (fun t ht => hl t (by simp [ht])) he') .exprs0) (ih (fun t ht => hl t (by simp [ht])) h)
  | @ctrl kw d us g hk _ _ ih =>
    cases h with
    | ctrl ha h =>
      exact .modifier (by rw [lexed_fixed (hl kw (by simp)).1 hk (w := c!"ctrl") rfl]; simp) (wordAt_of (hl _ (by simp)) ha hk) .exprs0
        (ih (fun t ht => hl t (by simp [ht])) h)
  | named hn =>
    cases h with
    | named ha h => cases h; exact .named (wordAt_of (hl _ (by simp)) ha hn) .exprs0
  | parameters hn ho hd hc =>
    cases h with
    | named ha h => exact .named (wordAt_of (hl _ (by simp)) ha hn) (located_of hd (fun t ht => hl t (by simp [ht])) h)

theorem type_text {t : Token} (h : Lexed t) {typ : Str} (ht : (t.kind, typ) ∈ typeNodes) : t.text = typ := by
  simp only [typeNodes, List.mem_cons, List.not_mem_nil, or_false, Prod.mk.injEq] at ht
  rcases ht with ⟨hk, rfl⟩ | ⟨hk, rfl⟩
  · exact lexed_fixed h hk rfl
  · exact lexed_fixed h hk rfl

theorem type_newline {k : TokKind} {typ : Str} (ht : (k, typ) ∈ typeNodes) : '\n' ∉ typ := by
  simp only [typeNodes, List.mem_cons, List.not_mem_nil, or_false, Prod.mk.injEq] at ht
  rcases ht with ⟨-, rfl⟩ | ⟨-, rfl⟩ <;> decide

theorem locatedStmt_of {us : List Token} {s : PStmt} (hd : DerivesStmt us s) (hl : ∀ t ∈ us, Placed text t)
    (hp : us.Pairwise (Apart text)) {v : Stmt F} (h : StmtTree stod file s v) : LocatedStmt stod text file v := by
  cases hd with
  | var hk hn =>
    cases h with
    | var ht ha hb =>
      have hkw := hl _ (List.mem_cons_self ..)
      refine .var (wordAt_of (hl _ (by simp)) ha hn) ?_
      rw [← type_text hkw.1 ht]
      exact wordAt hkw hb fun e => by rw [e] at hk; simp at hk
  | @array kw o n c name _ _ _ hc hn =>
    cases h with
    | array ht hi ha hb =>
      refine .array (wordAt_of (hl _ (by simp)) ha hn) ?_
      rw [← type_text (hl kw (by simp)).1 ht, ← lexed_fixed (hl c (by simp)).1 hc rfl]
      refine spanAt ((List.pairwise_cons.1 hp).1 c (by simp)) hb (by rw [hc]; decide) ?_
      rw [type_text (hl kw (by simp)).1 ht]
      exact type_newline ht
  | gate hg he =>
    cases h with
    | @gate _ _ v _ hg' he' =>
      have h1 := locatedGate_of hg (fun t ht => hl t (by simp [ht])) hg'
      have h2 := located_of he (fun t ht => hl t (by simp [ht])) he'
      obtain ⟨l, as, name, g, ps⟩ := v
      exact .gate h1 h2
  | @measure eq kw us vs b q hb he hk hq =>
    cases h with
    | measure ha h1 h2 h3 =>
      cases h1
      exact .nonGate (by rw [lexed_fixed (hl kw (by simp)).1 hk (w := c!"measure") rfl]; simp) (wordAt_of (hl _ (by simp)) ha hk)
        (.exprsN (located_of hb (fun t ht => hl t (by simp [ht])) h2) (.exprsN (located_of hq (fun t ht => hl t (by simp [ht])) h3) .exprs0))
        .exprs0
  | @measureParameters eq kw o c us vs ws b q es hb he hk ho hes hc hq =>
    cases h with
    | measure ha h1 h2 h3 =>
      exact .nonGate (by rw [lexed_fixed (hl kw (by simp)).1 hk (w := c!"measure") rfl]; simp) (wordAt_of (hl _ (by simp)) ha hk)
        (.exprsN (located_of hb (fun t ht => hl t (by simp [ht])) h2) (.exprsN (located_of hq (fun t ht => hl t (by simp [ht])) h3) .exprs0))
        (located_of hes (fun t ht => hl t (by simp [ht])) h1)
  | @simple kw us e hk he =>
    cases h with
    | simple ha h =>
      have hlk := hl kw (by simp)
      have he' := located_of he (fun t ht => hl t (by simp [ht])) h
      simp only [List.mem_cons, List.not_mem_nil, or_false] at hk
      rcases hk with hk | hk | hk <;>
        exact .nonGate (by rw [lexed_fixed hlk.1 hk rfl]; simp) (wordAt_of hlk ha hk) (.exprsN he' .exprs0) .exprs0
  | @wait kw o c us vs p e hk ho hd hc he =>
    cases h with
    | wait ha h1 h2 =>
      exact .nonGate (by rw [lexed_fixed (hl kw (by simp)).1 hk (w := c!"wait") rfl]; simp) (wordAt_of (hl _ (by simp)) ha hk)
        (.exprsN (located_of he (fun t ht => hl t (by simp [ht])) h2) .exprs0)
        (.exprsN (located_of hd (fun t ht => hl t (by simp [ht])) h1) .exprs0)
  | asm => cases h with | asm => exact .asm

theorem locatedBlock_of {ts : List Token} {ss : List PStmt} (hb : Block DerivesStmt ts ss)
    (hl : ∀ t ∈ ts, Placed text t) (hp : ts.Pairwise (Apart text)) {vs : List (Stmt F)} (h : Forall2 (StmtTree stod file) ss vs) :
    ∀ v ∈ vs, LocatedStmt stod text file v := by
  induction hb generalizing vs with
  | nil => cases h; simp
  | cons _ _ hd _ ih =>
    cases h with
    | cons h1 h2 =>
      intro v hv
      rcases List.mem_cons.1 hv with rfl | hv
      · exact locatedStmt_of hd (fun t ht => hl t (by simp [ht])) (hp.sublist (by simp)) h1
      · exact ih (fun t ht => hl t (by simp [ht])) (hp.sublist (List.sublist_append_right ..)) h2 v hv

theorem locatedProgram_of {ts : List Token} {pr : PProgram} (hp : Program DerivesStmt ts pr)
    (hl : ∀ t ∈ ts, Placed text t) (hap : ts.Pairwise (Apart text)) {p : ProgramAst F} (h : ProgramTree stod file pr p) : LocatedProgram stod text file p := by
  obtain ⟨_, _, hv, hb⟩ := hp
  cases h with
  | mk hc ha h =>
    exact ⟨⟨_, wordAt_of (hl _ (by simp)) ha hv, lexed_text (hl _ (by simp)).1 hv (by decide), hc⟩, rfl, rfl,
      locatedBlock_of hb (fun t ht => hl t (by simp [ht])) (hap.sublist (((List.sublist_cons_self ..).trans (List.sublist_cons_self ..)).trans (List.sublist_append_right ..))) h⟩

/-! ## All locations of a tree -/

/-- The locations of a node. -/
def nodeLocs : Node F → List (Option Loc)
  | .expr e => exprLocs e
  | .exprs es => exprsLocs es
  | .entry i => entriesLocs [i]
  | .entries is => entriesLocs is

/-- No location, or that of a word. -/
def Somewhere (text : Str) (file : Option Str) (l : Option Loc) : Prop := l = none ∨ ∃ w, WordAt text file w l

theorem located_locs {n : Node F} (h : Located stod text file n) : ∀ l ∈ nodeLocs n, Somewhere text file l := by
  induction h with
  | true h | false h | ident h => simpa [nodeLocs, exprLocs, Somewhere] using Or.inr ⟨_, h⟩
  | int h | float h => simpa [nodeLocs, exprLocs, Somewhere] using Or.inr ⟨_, h⟩
  | index h _ ih =>
    simp only [nodeLocs, exprLocs, List.mem_cons, List.mem_append, List.cons_append, List.nil_append] at ih ⊢
    rintro l (rfl | rfl | h')
    · exact .inr ⟨_, h⟩
    · exact .inl rfl
    · exact ih l h'
  | call h _ ih =>
    simp only [nodeLocs, exprLocs, List.mem_cons] at ih ⊢
    rintro l (rfl | h')
    · exact .inr ⟨_, h⟩
    · exact ih l h'
  | un h _ ih =>
    simp only [nodeLocs, exprLocs, List.mem_cons] at ih ⊢
    rintro l (rfl | h')
    · exact .inr ⟨_, h⟩
    · exact ih l h'
  | bin h _ _ ih1 ih2 =>
    simp only [nodeLocs, exprLocs, List.mem_cons, List.mem_append] at ih1 ih2 ⊢
    rintro l (rfl | h' | h')
    · exact .inr ⟨_, h⟩
    · exact ih1 l h'
    · exact ih2 l h'
  | tern h _ _ _ ih1 ih2 ih3 =>
    simp only [nodeLocs, exprLocs, List.mem_cons, List.mem_append] at ih1 ih2 ih3 ⊢
    rintro l (rfl | (h' | h') | h')
    · exact .inr ⟨_, h⟩
    · exact ih1 l h'
    · exact ih2 l h'
    · exact ih3 l h'
  | exprs0 => simp [nodeLocs, exprsLocs]
  | exprsN _ _ ih1 ih2 =>
    simp only [nodeLocs, exprsLocs, List.mem_append] at ih1 ih2 ⊢
    rintro l (h' | h')
    · exact ih1 l h'
    · exact ih2 l h'
  | item _ ih =>
    simp only [nodeLocs, entriesLocs, List.mem_cons, List.append_nil] at ih ⊢
    rintro l (rfl | h')
    · exact .inl rfl
    · exact ih l h'
  | range _ _ ih1 ih2 =>
    simp only [nodeLocs, entriesLocs, List.mem_cons, List.mem_append, List.cons_append, List.append_nil] at ih1 ih2 ⊢
    rintro l (rfl | h' | h')
    · exact .inl rfl
    · exact ih1 l h'
    · exact ih2 l h'
  | entries0 => simp [nodeLocs, entriesLocs]
  | @entriesN i is _ _ ih1 ih2 =>
    intro l h'
    cases i <;>
    · simp only [nodeLocs, entriesLocs, List.mem_append, List.append_nil] at ih1 ih2 h'
      rcases h' with h' | h'
      · exact ih1 l (by simpa using h')
      · exact ih2 l h'

theorem locatedGate_locs {g : Gate F} (h : LocatedGate stod text file g) : ∀ l ∈ gateLocs g, Somewhere text file l := by
  induction h with
  | named h hs =>
    simp only [gateLocs, List.mem_cons]
    rintro l (rfl | h')
    · exact .inr ⟨_, h⟩
    · exact located_locs hs l h'
  | modifier _ h hs _ ih =>
    simp only [gateLocs, List.mem_cons, List.mem_append, List.cons_append]
    rintro l (rfl | h' | h')
    · exact .inr ⟨_, h⟩
    · exact ih l h'
    · exact located_locs hs l h'

theorem locatedGate_own {l : Option Loc} {as : List (AnnotationData F)} {name : Str} {g : Option (Gate F)} {ps : List (Expr F)}
    (h : LocatedGate stod text file (.mk l as name g ps)) : WordAt text file name l := by
  cases h <;> assumption

theorem locatedStmt_locs {s : Stmt F} (h : LocatedStmt stod text file s) : ∀ l ∈ stmtLocs s, Somewhere text file l := by
  cases h with
  | var h => simpa [stmtLocs, Somewhere] using Or.inr ⟨_, h⟩
  | array h => simpa [stmtLocs, Somewhere] using Or.inr ⟨_, h⟩
  | gate h hs =>
    simp only [stmtLocs, List.mem_cons, List.mem_append, List.cons_append]
    rintro l (rfl | h' | h')
    · exact .inr ⟨_, locatedGate_own h⟩
    · exact locatedGate_locs h l h'
    · exact located_locs hs l h'
  | nonGate _ h hs hs' =>
    simp only [stmtLocs, List.mem_cons, List.mem_append, List.cons_append]
    rintro l (rfl | h' | h')
    · exact .inr ⟨_, h⟩
    · exact located_locs hs l h'
    · exact located_locs hs' l h'
  | asm => simp [stmtLocs, Somewhere]

/-- Only assembly declarations have no location. -/
theorem locatedStmt_loc {s : Stmt F} (h : LocatedStmt stod text file s) :
    s.loc.isSome ∨ ∃ l as name code, s = .asm l as name code := by
  have some : ∀ {w : Str} {l : Option Loc}, WordAt text file w l → l.isSome := by
    rintro _ _ ⟨_, _, _, _, _, rfl, _⟩; rfl
  cases h with
  | var h => exact .inl (some h)
  | array h => exact .inl (some h)
  | gate h => exact .inl (some (locatedGate_own h))
  | nonGate _ h => exact .inl (some h)
  | asm => exact .inr ⟨_, _, _, _, rfl⟩

end Qasm
