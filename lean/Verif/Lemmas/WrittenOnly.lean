import Verif.Lemmas.WrittenProgram
import Verif.Lemmas.SyntacticShape
/-!
# Trees of texts are trees of the language
-/

namespace Qasm

open Spec TokKind Syn

variable {F : Type} {stod : Str → Option F} {file : Option Str}

theorem name_of {t : Token} (h : Lexed t) (hk : t.kind = identifier) : Name t.text := by
  rcases h with h | ⟨h, h'⟩
  · rw [hk] at h; cases h
  · rw [hk] at h
    exact ⟨h, h' hk⟩

theorem nonneg_of {w : Str} {n : Int64} (h : IntOf w n) : 0 ≤ n.toInt := by
  unfold IntOf at h; omega

theorem exprs_ne {us : List Token} {es : List PExpr} (h : Derives us (.exprs es)) : es ≠ [] := by
  cases h <;> simp

theorem entries_ne {us : List Token} {is : List PEntry} (h : Derives us (.entries is)) : is ≠ [] := by
  cases h <;> simp

theorem writable_of {us : List Token} {ph : Phrase} (hd : Derives us ph) (hl : ∀ t ∈ us, Lexed t) {n : Node F}
    (h : Tree stod file ph n) : Writable stod n := by
  induction hd generalizing n with
  | parens _ _ _ ih => cases h with | parens h => exact ih (fun t ht => hl t (by simp [ht])) h
  | pre _ _ ih =>
    cases h with
    | plus _ h => exact ih (fun t ht => hl t (by simp [ht])) h
    | pre _ _ h => exact .un (ih (fun t ht => hl t (by simp [ht])) h)
  | bin _ _ _ ih1 ih2 =>
    cases h with
    | bin _ _ h1 h2 => exact .bin (ih1 (fun t ht => hl t (by simp [ht])) h1) (ih2 (fun t ht => hl t (by simp [ht])) h2)
  | tern _ _ _ _ _ ih1 ih2 ih3 =>
    cases h with
    | tern _ h1 h2 h3 =>
      exact .tern (ih1 (fun t ht => hl t (by simp [ht])) h1) (ih2 (fun t ht => hl t (by simp [ht])) h2)
        (ih3 (fun t ht => hl t (by simp [ht])) h3)
  | call0 hn =>
    cases h with
    | call _ h => cases h; exact .call (name_of (hl _ (by simp)) hn) .exprs0
  | call hn _ _ _ ih =>
    cases h with
    | call _ h => exact .call (name_of (hl _ (by simp)) hn) (ih (fun t ht => hl t (by simp [ht])) h)
  | index hn _ hd _ ih =>
    cases h with
    | index _ h =>
      refine .index (name_of (hl _ (by simp)) hn) ?_ (ih (fun t ht => hl t (by simp [ht])) h)
      have := entries_ne hd
      cases h with
      | entries0 => exact absurd rfl this
      | entriesN => simp
  | atom hk =>
    have hl' := hl _ (List.mem_singleton.2 rfl)
    cases h with
    | ident hk => exact .ident (name_of hl' hk)
    | true => exact .bool
    | false => exact .bool
    | int _ hi => exact .int (nonneg_of hi)
    | float hk hx => exact .float (lexed_text hl' hk (by decide)) hx
  | expr1 _ ih => cases h with | exprsN h1 h2 => cases h2; exact .exprsN (ih hl h1) .exprs0
  | exprN _ _ _ ih1 ih2 =>
    cases h with
    | exprsN h1 h2 => exact .exprsN (ih1 (fun t ht => hl t (by simp [ht])) h1) (ih2 (fun t ht => hl t (by simp [ht])) h2)
  | item _ ih => cases h with | item h => exact .item (ih hl h)
  | range _ _ _ ih1 ih2 =>
    cases h with
    | range h1 h2 => exact .range (ih1 (fun t ht => hl t (by simp [ht])) h1) (ih2 (fun t ht => hl t (by simp [ht])) h2)
  | entry1 _ ih => cases h with | entriesN h1 h2 => cases h2; exact .entriesN (ih hl h1) .entries0
  | entryN _ _ _ ih1 ih2 =>
    cases h with
    | entriesN h1 h2 => exact .entriesN (ih1 (fun t ht => hl t (by simp [ht])) h1) (ih2 (fun t ht => hl t (by simp [ht])) h2)

theorem writableGate_of {us : List Token} {g : PGate} (hd : DerivesGate us g) (hl : ∀ t ∈ us, Lexed t) {v : Gate F}
    (h : GateTree stod file g v) : WritableGate stod v := by
  induction hd generalizing v with
  | @inv kw d us g hk _ _ ih =>
    cases h with
    | inv _ h =>
      rw [lexed_fixed (hl kw (by simp)) hk (w := c!"inv") rfl]
      exact .inv (ih (fun t ht => hl t (by simp [ht])) h)
  | @pow kw o c d us vs e g hk _ he _ _ _ ih =>
    cases h with
    | pow _ he' h =>
      rw [lexed_fixed (hl kw (by simp)) hk (w := c!"pow") rfl]
      exact .pow (writable_of he (fun t ht => hl t (by simp [ht])) he') (ih (fun t ht => hl t (by simp [ht])) h)
  | @ctrl kw d us g hk _ _ ih =>
    cases h with
    | ctrl _ h =>
      rw [lexed_fixed (hl kw (by simp)) hk (w := c!"ctrl") rfl]
      exact .ctrl (ih (fun t ht => hl t (by simp [ht])) h)
  | named hn =>
    cases h with
    | named _ h => cases h; exact .named (name_of (hl _ (by simp)) hn) .exprs0
  | parameters hn ho hd hc =>
    cases h with
    | named _ h => exact .named (name_of (hl _ (by simp)) hn) (writable_of hd (fun t ht => hl t (by simp [ht])) h)

/-- What is known of a token that was cut off: a raw string is as short as possible. -/
def Fine (t : Token) : Prop := Lexed t ∧ (t.kind = rawTextString → ∃ s, Candidate .rawTextString s t.text)

theorem raw_code {s code : Str} (h : Candidate .rawTextString s (c!"'''" ++ code ++ c!"'''")) : ¬ c!"'''" <:+: code ++ c!"''" := by
  rintro ⟨a, b, hab⟩
  obtain ⟨-, hp, hmin⟩ := h
  have hpre : c!"'''" ++ a ++ c!"'''" <+: c!"'''" ++ code ++ c!"'''" := by
    refine ⟨b ++ c!"'", ?_⟩
    have : (a ++ c!"'''" ++ b) ++ c!"'" = code ++ c!"''" ++ c!"'" := by rw [hab]
    simpa using this
  have h1 := hmin (.inr rfl) _ ⟨a, rfl⟩ (hpre.trans hp)
  have h2 := congrArg List.length hab
  simp only [List.length_append, List.length_cons, List.length_nil] at h1 h2
  omega

theorem writableStmt_of {us : List Token} {s : PStmt} (hd : DerivesStmt us s) (hf : ∀ t ∈ us, Fine t) {v : Stmt F}
    (h : StmtTree stod file s v) : WritableStmt stod v := by
  have hl : ∀ t ∈ us, Lexed t := fun t ht => (hf t ht).1
  have typ : ∀ {k : TokKind} {t : Str}, (k, t) ∈ typeNodes → t = c!"qubit" ∨ t = c!"bit" := by
    intro k t ht
    simp only [typeNodes, List.mem_cons, List.not_mem_nil, or_false, Prod.mk.injEq] at ht
    rcases ht with ⟨-, h⟩ | ⟨-, h⟩
    · exact .inl h
    · exact .inr h
  cases hd with
  | var _ hn => cases h with | var ht => exact .var (name_of (hl _ (by simp)) hn) (typ ht) nofun
  | array _ _ _ _ hn =>
    cases h with
    | array ht hi => exact .var (name_of (hl _ (by simp)) hn) (typ ht) fun s hs => by cases hs; exact nonneg_of hi
  | gate hg he =>
    cases h with
    | gate hg' he' =>
      refine .gate (writableGate_of hg (fun t ht => hl t (by simp [ht])) hg') ?_ (writable_of he (fun t ht => hl t (by simp [ht])) he')
      have := exprs_ne he
      cases he' with
      | exprs0 => exact absurd rfl this
      | exprsN => simp
  | @measure eq kw us vs b q hb he hk hq =>
    cases h with
    | measure _ h1 h2 h3 =>
      rw [lexed_fixed (hl kw (by simp)) hk (w := c!"measure") rfl]
      cases h1
      exact .measure (writable_of hb (fun t ht => hl t (by simp [ht])) h2) (writable_of hq (fun t ht => hl t (by simp [ht])) h3) .exprs0
  | @measureParameters eq kw o c us vs ws b q es hb he hk ho hes hc hq =>
    cases h with
    | measure _ h1 h2 h3 =>
      rw [lexed_fixed (hl kw (by simp)) hk (w := c!"measure") rfl]
      exact .measure (writable_of hb (fun t ht => hl t (by simp [ht])) h2) (writable_of hq (fun t ht => hl t (by simp [ht])) h3)
        (writable_of hes (fun t ht => hl t (by simp [ht])) h1)
  | @simple kw us e hk he =>
    cases h with
    | simple _ h =>
      refine .simple ?_ (writable_of he (fun t ht => hl t (by simp [ht])) h)
      have hlk := hl kw (by simp)
      simp only [List.mem_cons, List.not_mem_nil, or_false] at hk
      rcases hk with hk | hk | hk
      · exact .inl (lexed_fixed hlk hk rfl)
      · exact .inr (.inl (lexed_fixed hlk hk rfl))
      · exact .inr (.inr (lexed_fixed hlk hk rfl))
  | @wait kw o c us vs p e hk ho hp hc he =>
    cases h with
    | wait _ h1 h2 =>
      rw [lexed_fixed (hl kw (by simp)) hk (w := c!"wait") rfl]
      exact .wait (writable_of hp (fun t ht => hl t (by simp [ht])) h1) (writable_of he (fun t ht => hl t (by simp [ht])) h2)
  | @asm kw o name c raw hk ho hn hc hr =>
    cases h with
    | asm ht =>
      obtain ⟨s, hs⟩ := (hf raw (by simp)).2 hr
      rw [ht] at hs
      exact .asm (name_of (hl _ (by simp)) hn) (raw_code hs)

theorem writableBlock_of {ts : List Token} {ss : List PStmt} (hb : Block DerivesStmt ts ss)
    (hl : ∀ t ∈ ts, Fine t) {vs : List (Stmt F)} (h : Forall2 (StmtTree stod file) ss vs) : ∀ v ∈ vs, WritableStmt stod v := by
  induction hb generalizing vs with
  | nil => cases h; simp
  | cons _ _ hd _ ih =>
    cases h with
    | cons h1 h2 =>
      intro v hv
      rcases List.mem_cons.1 hv with rfl | hv
      · exact writableStmt_of hd (fun t ht => hl t (by simp [ht])) h1
      · exact ih (fun t ht => hl t (by simp [ht])) h2 v hv

theorem writableProgram_of {ts : List Token} {pr : PProgram} (hp : Program DerivesStmt ts pr)
    (hl : ∀ t ∈ ts, Fine t) {p : ProgramAst F} (h : ProgramTree stod file pr p) : WritableProgram stod p := by
  obtain ⟨_, _, _, hb⟩ := hp
  cases h with
  | mk hc _ h =>
    refine ⟨?_, fun n hn => ?_, writableBlock_of hb (fun t ht => hl t (by simp [ht])) h⟩
    · rw [← forall2_length hc]
      simp only [components]
      split
      · exact .inr rfl
      · exact .inl rfl
    · obtain ⟨w, hw⟩ := forall2_right hc n hn
      exact nonneg_of hw.2

theorem cut_fine {m m' : Lexer.Mode} {s rest : Str} {segs : List (TokKind × Str)} (h : Cut m s segs m' rest) (before : Str) :
    ∀ t ∈ tokensOf before segs, t.kind = rawTextString → ∃ s, Candidate .rawTextString s t.text := by
  induction h generalizing before with
  | nil => simp [tokensOf]
  | @cons m m' k w s rest segs hw _ ih =>
    intro t ht
    simp only [tokensOf] at ht
    split at ht
    · exact ih _ t ht
    · rcases List.mem_cons.1 ht with rfl | ht
      · intro hk
        simp only at hk
        subst hk
        obtain ⟨_, _, _, hc, _⟩ := hw
        exact ⟨_, hc⟩
      · exact ih _ t ht

theorem fine {s : Str} {ts : List Token} (h : Lexer.lex s = .ok ts) : ∀ t ∈ ts, Fine t := by
  obtain ⟨_, _, _, _, _, hl⟩ := lexed h
  intro t ht
  refine ⟨hl t ht, fun hk => ?_⟩
  obtain ⟨segs, m, hc, -, rfl⟩ := (C39_tokens s ts).1 h
  rcases List.mem_append.1 ht with ht | ht
  · exact cut_fine hc [] t ht hk
  · simp only [List.mem_cons, List.not_mem_nil, or_false] at ht
    subst ht
    cases hk

/-! ## Positions do not matter -/

/-- The node without positions. -/
def stripNodeA : Node F → Node F
  | .expr e => .expr (stripExpr e)
  | .exprs es => .exprs (stripExprs es)
  | .entry i => .entry (stripEntry i)
  | .entries is => .entries (stripEntries is)

theorem writable_strip {n : Node F} (h : Writable stod n) {n' : Node F} (e : stripNodeA n' = stripNodeA n) : Writable stod n' := by
  induction h generalizing n' with
  | bool => rcases n' with (⟨⟩ | _) | _ | _ | _ <;> simp [stripNodeA, stripExpr] at e <;> exact .bool
  | int hn => rcases n' with (⟨⟩ | _) | _ | _ | _ <;> simp [stripNodeA, stripExpr] at e <;> exact .int (e ▸ hn)
  | float hw hx => rcases n' with (⟨⟩ | _) | _ | _ | _ <;> simp [stripNodeA, stripExpr] at e <;> exact .float hw (e ▸ hx)
  | ident hn => rcases n' with (⟨⟩ | _) | _ | _ | _ <;> simp [stripNodeA, stripExpr] at e <;> exact .ident (e ▸ hn)
  | @index l l' n is hn hne _ ih =>
    rcases n' with (⟨⟩ | _) | _ | _ | _ <;> simp [stripNodeA, stripExpr] at e
    rename_i l2 x is'
    obtain ⟨e1, e2⟩ := e
    cases x <;> simp [stripExpr] at e1
    subst e1
    refine .index hn ?_ (ih (n' := .entries is') (by simp [stripNodeA, e2]))
    rintro rfl
    cases is with
    | nil => exact hne rfl
    | cons => simp [stripEntries] at e2
  | call hn _ ih =>
    rcases n' with (⟨⟩ | _) | _ | _ | _ <;> simp [stripNodeA, stripExpr] at e
    exact .call (e.1 ▸ hn) (ih (by simp [stripNodeA, e.2]))
  | un _ ih =>
    rcases n' with (⟨⟩ | _) | _ | _ | _ <;> simp [stripNodeA, stripExpr] at e
    exact .un (ih (by simp [stripNodeA, e.2]))
  | bin _ _ ih1 ih2 =>
    rcases n' with (⟨⟩ | _) | _ | _ | _ <;> simp [stripNodeA, stripExpr] at e
    exact .bin (ih1 (by simp [stripNodeA, e.2.1])) (ih2 (by simp [stripNodeA, e.2.2]))
  | tern _ _ _ ih1 ih2 ih3 =>
    rcases n' with (⟨⟩ | _) | _ | _ | _ <;> simp [stripNodeA, stripExpr] at e
    exact .tern (ih1 (by simp [stripNodeA, e.1])) (ih2 (by simp [stripNodeA, e.2.1])) (ih3 (by simp [stripNodeA, e.2.2]))
  | exprs0 =>
    rcases n' with _ | (_ | _) | _ | _ <;> simp [stripNodeA, stripExprs] at e
    exact .exprs0
  | exprsN _ _ ih1 ih2 =>
    rcases n' with _ | (_ | _) | _ | _ <;> simp [stripNodeA, stripExprs] at e
    exact .exprsN (ih1 (by simp [stripNodeA, e.1])) (ih2 (by simp [stripNodeA, e.2]))
  | item _ ih =>
    rcases n' with _ | _ | (_ | _) | _ <;> simp [stripNodeA, stripEntry] at e
    exact .item (ih (by simp [stripNodeA, e]))
  | range _ _ ih1 ih2 =>
    rcases n' with _ | _ | (_ | _) | _ <;> simp [stripNodeA, stripEntry] at e
    exact .range (ih1 (by simp [stripNodeA, e.1])) (ih2 (by simp [stripNodeA, e.2]))
  | entries0 =>
    rcases n' with _ | _ | _ | (_ | _) <;> simp [stripNodeA, stripEntries] at e
    exact .entries0
  | entriesN _ _ ih1 ih2 =>
    rcases n' with _ | _ | _ | (_ | _) <;> simp [stripNodeA, stripEntries] at e
    exact .entriesN (ih1 (by simp [stripNodeA, e.1])) (ih2 (by simp [stripNodeA, e.2]))

theorem writable_exprs {es es' : List (Expr F)} (h : Writable stod (.exprs es)) (e : stripExprs es' = stripExprs es) :
    Writable stod (.exprs es') := writable_strip h (by simp [stripNodeA, e])

theorem writable_expr {x x' : Expr F} (h : Writable stod (.expr x)) (e : stripExpr x' = stripExpr x) : Writable stod (.expr x') :=
  writable_strip h (by simp [stripNodeA, e])

theorem stripExprs_nil {es : List (Expr F)} : stripExprs es = [] ↔ es = [] := by
  cases es <;> simp [stripExprs]

theorem stripExprs_one {es : List (Expr F)} {x : Expr F} (h : stripExprs es = [x]) : ∃ y, es = [y] ∧ stripExpr y = x := by
  cases es with
  | nil => simp [stripExprs] at h
  | cons y es => simp [stripExprs, stripExprs_nil] at h; exact ⟨y, by simp [h.2], h.1⟩

theorem stripExprs_two {es : List (Expr F)} {x x' : Expr F} (h : stripExprs es = [x, x']) :
    ∃ y y', es = [y, y'] ∧ stripExpr y = x ∧ stripExpr y' = x' := by
  cases es with
  | nil => simp [stripExprs] at h
  | cons y es =>
    simp only [stripExprs, List.cons.injEq] at h
    obtain ⟨y', rfl, h'⟩ := stripExprs_one h.2
    exact ⟨y, y', rfl, h.1, h'⟩

theorem writableGate_strip {g : Gate F} (h : WritableGate stod g) {g' : Gate F} (e : stripGate g' = stripGate g) : WritableGate stod g' := by
  induction h generalizing g' with
  | named hn hp =>
    rcases g' with ⟨l, as, n, _ | g, ps⟩ <;> simp [stripGate] at e
    obtain ⟨rfl, rfl, e⟩ := e
    exact .named hn (writable_exprs hp e)
  | inv _ ih =>
    rcases g' with ⟨l, as, n, _ | g, ps⟩ <;> simp [stripGate, stripExprs, stripExprs_nil] at e
    obtain ⟨rfl, rfl, e, rfl⟩ := e
    exact .inv (ih e)
  | pow he _ ih =>
    rcases g' with ⟨l, as, n, _ | g, ps⟩ <;> simp [stripGate, stripExprs] at e
    obtain ⟨rfl, rfl, e, e'⟩ := e
    obtain ⟨y, rfl, hy⟩ := stripExprs_one e'
    exact .pow (writable_expr he hy) (ih e)
  | ctrl _ ih =>
    rcases g' with ⟨l, as, n, _ | g, ps⟩ <;> simp [stripGate, stripExprs, stripExprs_nil] at e
    obtain ⟨rfl, rfl, e, rfl⟩ := e
    exact .ctrl (ih e)

theorem writableStmt_strip {s : Stmt F} (h : WritableStmt stod s) {s' : Stmt F} (e : stripStmt s' = stripStmt s) : WritableStmt stod s' := by
  cases h with
  | var hn ht hs =>
    rcases s' with ⟨l, as, ⟨n, l'⟩, ⟨t, sz, k⟩⟩ | _ | _ | _ <;> simp [stripStmt] at e
    obtain ⟨rfl, rfl, rfl, rfl⟩ := e
    exact .var hn ht hs
  | gate hg hne he =>
    rcases s' with _ | ⟨l, as, g, es⟩ | _ | _ <;> simp [stripStmt] at e
    obtain ⟨rfl, e1, e2⟩ := e
    refine .gate (writableGate_strip hg e1) ?_ (writable_exprs he e2)
    rintro rfl
    exact hne (stripExprs_nil.1 (by simpa [stripExprs] using e2.symm))
  | measure hb hq hp =>
    rcases s' with _ | _ | ⟨l, as, n, es, ps⟩ | _ <;> simp [stripStmt, stripExprs] at e
    obtain ⟨rfl, rfl, e1, e2⟩ := e
    obtain ⟨y, y', rfl, h1, h2⟩ := stripExprs_two e1
    exact .measure (writable_expr hb h1) (writable_expr hq h2) (writable_exprs hp e2)
  | simple hn he =>
    rcases s' with _ | _ | ⟨l, as, n, es, ps⟩ | _ <;> simp [stripStmt, stripExprs, stripExprs_nil] at e
    obtain ⟨rfl, rfl, e1, rfl⟩ := e
    obtain ⟨y, rfl, h1⟩ := stripExprs_one e1
    exact .simple hn (writable_expr he h1)
  | wait hp he =>
    rcases s' with _ | _ | ⟨l, as, n, es, ps⟩ | _ <;> simp [stripStmt, stripExprs] at e
    obtain ⟨rfl, rfl, e1, e2⟩ := e
    obtain ⟨y, rfl, h1⟩ := stripExprs_one e1
    obtain ⟨y', rfl, h2⟩ := stripExprs_one e2
    exact .wait (writable_expr hp h2) (writable_expr he h1)
  | asm hn hc =>
    rcases s' with _ | _ | _ | ⟨l, as, n, c⟩ <;> simp [stripStmt] at e
    obtain ⟨rfl, rfl, rfl⟩ := e
    exact .asm hn hc

theorem writableProgram_strip {p q : ProgramAst F} (h : WritableProgram stod p) (e : stripProgram q = stripProgram p) :
    WritableProgram stod q := by
  simp only [stripProgram, ProgramAst.mk.injEq, VersionAst.mk.injEq, BlockAst.mk.injEq, and_true] at e
  obtain ⟨e1, e2⟩ := e
  refine ⟨e1 ▸ h.1, e1 ▸ h.2.1, fun s hs => ?_⟩
  have hm : stripStmt s ∈ p.block.statements.map stripStmt := e2 ▸ List.mem_map_of_mem hs
  obtain ⟨s0, h0, he⟩ := List.mem_map.1 hm
  exact writableStmt_strip (h.2.2 s0 h0) he.symm

end Qasm
