import Verif.Lemmas.SyntacticProgram
/-!
# The trees of parsed programs are well-formed and of the shape the semantic analyser expects
-/

namespace Qasm

open Spec TokKind

variable {F : Type}

namespace Syn

mutual
theorem shaped_of_wf : (e : Expr F) → wfExpr e = true → ShapedExpr e
  | .boolLit .., _ | .intLit .., _ | .floatLit .., _ | .ident .., _ => by simp [ShapedExpr]
  | .index _ e is, h => by
    simp only [wfExpr, Bool.and_eq_true, Bool.not_eq_true'] at h
    exact ⟨by rintro rfl; simp at h, shaped_of_wf e h.1.1, shapedEntries_of_wf is h.2⟩
  | .call _ _ args, h => by
    simp only [wfExpr] at h
    exact shapedExprs_of_wf args h
  | .un _ _ e, h => by
    simp only [wfExpr] at h
    exact shaped_of_wf e h
  | .bin _ _ a b, h => by
    simp only [wfExpr, Bool.and_eq_true] at h
    exact ⟨shaped_of_wf a h.1, shaped_of_wf b h.2⟩
  | .tern _ a b c, h => by
    simp only [wfExpr, Bool.and_eq_true] at h
    exact ⟨shaped_of_wf a h.1.1, shaped_of_wf b h.1.2, shaped_of_wf c h.2⟩
theorem shapedExprs_of_wf : (es : List (Expr F)) → wfExprs es = true → ShapedExprs es
  | [], _ => trivial
  | e :: es, h => by
    simp only [wfExprs, Bool.and_eq_true] at h
    exact ⟨shaped_of_wf e h.1, shapedExprs_of_wf es h.2⟩
theorem shapedEntries_of_wf : (is : List (IndexEntry F)) → wfEntries is = true → ShapedEntries is
  | [], _ => trivial
  | .item _ e :: is, h => by
    simp only [wfEntries, wfEntry, Bool.and_eq_true] at h
    exact ⟨shaped_of_wf e h.1, shapedEntries_of_wf is h.2⟩
  | .range _ a b :: is, h => by
    simp only [wfEntries, wfEntry, Bool.and_eq_true] at h
    exact ⟨shaped_of_wf a h.1.1, shaped_of_wf b h.1.2, shapedEntries_of_wf is h.2⟩
end

theorem shaped_mem {es : List (Expr F)} (h : wfExprs es = true) : ∀ e ∈ es, ShapedExpr e := by
  induction es with
  | nil => simp
  | cons e es ih =>
    simp only [wfExprs, Bool.and_eq_true] at h
    intro x hx
    rcases List.mem_cons.1 hx with rfl | hx
    · exact shaped_of_wf _ h.1
    · exact ih h.2 x hx

/-- Well-formedness of what a phrase denotes; a derived index list is not empty. -/
def WfNode : Node F → Prop
  | .expr e => wfExpr e = true
  | .exprs es => wfExprs es = true
  | .entry i => wfEntry i = true
  | .entries is => is ≠ [] ∧ wfEntries is = true

theorem wf_tree {stod : Str → Option F} {file : Option Str} {us : List Token} {ph : Phrase} (hd : Derives us ph) {n : Node F}
    (h : Tree stod file ph n) : WfNode n := by
  induction hd generalizing n with
  | parens _ _ _ ih => cases h with | parens h => exact ih h
  | pre _ _ ih =>
    cases h with
    | plus _ h => exact ih h
    | pre _ _ h => have := ih h; simpa [WfNode, wfExpr] using this
  | bin _ _ _ ih1 ih2 =>
    cases h with
    | bin _ _ h1 h2 =>
      have := ih1 h1; have := ih2 h2
      simp_all [WfNode, wfExpr]
  | tern _ _ _ _ _ ih1 ih2 ih3 =>
    cases h with
    | tern _ h1 h2 h3 =>
      have := ih1 h1; have := ih2 h2; have := ih3 h3
      simp_all [WfNode, wfExpr]
  | call0 => cases h with | call _ h => cases h; rfl
  | call _ _ _ _ ih => cases h with | call _ h => have := ih h; simpa [WfNode, wfExpr] using this
  | index _ _ _ _ ih =>
    cases h with
    | index _ h =>
      have := ih h
      simp only [WfNode] at this
      simp [WfNode, wfExpr, this]
  | atom => cases h <;> rfl
  | expr1 _ ih =>
    cases h with
    | exprsN h1 h2 => cases h2; have := ih h1; simpa [WfNode, wfExprs] using this
  | exprN _ _ _ ih1 ih2 =>
    cases h with
    | exprsN h1 h2 =>
      have := ih1 h1; have := ih2 h2
      simp_all [WfNode, wfExprs]
  | item _ ih => cases h with | item h => have := ih h; simpa [WfNode, wfEntry] using this
  | range _ _ _ ih1 ih2 =>
    cases h with
    | range h1 h2 =>
      have := ih1 h1; have := ih2 h2
      simp_all [WfNode, wfEntry]
  | entry1 _ ih =>
    cases h with
    | entriesN h1 h2 => cases h2; have := ih h1; simpa [WfNode, wfEntries] using this
  | entryN _ _ _ ih1 ih2 =>
    cases h with
    | entriesN h1 h2 =>
      have := ih1 h1; have := ih2 h2
      simp_all [WfNode, wfEntries]

/-- What holds of the gates of parsed programs. -/
def GoodGate (g : Gate F) : Prop := wfGate g = true ∧ ShapedGate g ∧ PlainGate g

theorem plain_annotations {g : Gate F} (h : PlainGate g) : ShapedGateAnnotations g := by
  match g with
  | .mk _ as _ none _ => simp only [PlainGate] at h; subst h; simp [ShapedGateAnnotations, ShapedAnnotations]
  | .mk _ as _ (some g) _ =>
    simp only [PlainGate] at h
    obtain ⟨rfl, h⟩ := h
    exact ⟨by simp [ShapedAnnotations], plain_annotations h⟩

theorem not_keyword {w : Str} (h : w ∉ keywords.map (·.1)) : w ∉ modifiers ∧ w ∉ nonGates := by
  have key : ∀ v ∈ modifiers ++ nonGates, v ∈ keywords.map (·.1) := by decide +kernel
  exact ⟨fun hm => h (key w (List.mem_append_left _ hm)), fun hm => h (key w (List.mem_append_right _ hm))⟩

theorem lexed_fixed {t : Token} (h : Lexed t) {k : TokKind} {w : Str} (hk : t.kind = k) (hw : fixedText k = some w)
    (hne : k ≠ eof := by decide) (hT : ∀ v, Text k v → fixedText k = some v := by exact fun v h => h) : t.text = w := by
  have := hT _ (lexed_text h hk hne)
  rw [hw] at this
  exact (Option.some.inj this).symm

theorem lexed_identifier {t : Token} (h : Lexed t) (hk : t.kind = identifier) : t.text ∉ modifiers ∧ t.text ∉ nonGates := by
  rcases h with h | ⟨_, h⟩
  · rw [hk] at h; cases h
  · exact not_keyword (h hk).1

theorem good_gate {stod : Str → Option F} {file : Option Str} {us : List Token} {g : PGate} (hd : DerivesGate us g)
    (hl : ∀ t ∈ us, Lexed t) {v : Gate F} (h : GateTree stod file g v) : GoodGate v := by
  induction hd generalizing v with
  | @inv kw d us g hk _ _ ih =>
    cases h with
    | inv _ h =>
      obtain ⟨h1, h2, h3⟩ := ih (fun t ht => hl t (by simp [ht])) h
      have hw : kw.text = c!"inv" := lexed_fixed (hl kw (by simp)) hk rfl
      rw [hw]
      exact ⟨by simp [wfGate, wfAnnotations, wfExprs, h1], ⟨by decide, h2⟩, rfl, h3⟩
  | @pow kw o c d us vs e g hk _ he _ _ _ ih =>
    cases h with
    | pow _ he' h =>
      obtain ⟨h1, h2, h3⟩ := ih (fun t ht => hl t (by simp [ht])) h
      have hw : kw.text = c!"pow" := lexed_fixed (hl kw (by simp)) hk rfl
      have hwf := wf_tree he he'
      simp only [WfNode] at hwf
      rw [hw]
      exact ⟨by simp [wfGate, wfAnnotations, wfExprs, h1, hwf], ⟨by decide, h2⟩, rfl, h3⟩
  | @ctrl kw d us g hk _ _ ih =>
    cases h with
    | ctrl _ h =>
      obtain ⟨h1, h2, h3⟩ := ih (fun t ht => hl t (by simp [ht])) h
      have hw : kw.text = c!"ctrl" := lexed_fixed (hl kw (by simp)) hk rfl
      rw [hw]
      exact ⟨by simp [wfGate, wfAnnotations, wfExprs, h1], ⟨by decide, h2⟩, rfl, h3⟩
  | @named name hn =>
    cases h with
    | named _ h =>
      cases h
      exact ⟨rfl, lexed_identifier (hl name (by simp)) hn, rfl⟩
  | @parameters name o c us es hn ho hd hc =>
    cases h with
    | named _ h =>
      have := wf_tree hd h
      simp only [WfNode] at this
      exact ⟨by simpa [wfGate, wfAnnotations] using this, lexed_identifier (hl name (by simp)) hn, rfl⟩

/-- What holds of the statements of parsed programs. -/
def GoodStmt (s : Stmt F) : Prop := wfStmt s = true ∧ ShapedStmt s ∧ PlainStmt s

theorem shaped_nil : ShapedAnnotations ([] : List (AnnotationData F)) := by simp [ShapedAnnotations]

theorem wf_opt {stod : Str → Option F} {file : Option Str} {us : List Token} {ps : Option (List PExpr)} (hd : OptDerives us ps)
    {vs : List (Expr F)} (h : Tree stod file (.exprs (ps.getD [])) (.exprs vs)) : wfExprs vs = true := by
  cases ps with
  | none => cases h; rfl
  | some es =>
    obtain ⟨_, _, _, _, _, hd, _⟩ := hd
    exact wf_tree hd h

theorem good_measure {stod : Str → Option F} {file : Option Str} {us vs ws : List Token} {kw : Token} {ps : Option (List PExpr)} {b q : PExpr}
    (hb : Derives us (.expr b)) (hk : kw.kind = TokKind.measure) (hps : OptDerives vs ps)
    (hq : Derives ws (.expr q)) (hl : Lexed kw) {v : Stmt F} (h : StmtTree stod file (.measure kw ps b q) v) : GoodStmt v := by
  cases h with
  | measure _ h1 h2 h3 =>
    have h1 := wf_opt hps h1
    have h2 := wf_tree hb h2
    have h3 := wf_tree hq h3
    simp only [WfNode] at h2 h3
    have hw : kw.text = c!"measure" := lexed_fixed hl hk rfl
    rw [hw]
    refine ⟨by simp [wfStmt, wfAnnotations, wfExprs, h1, h2, h3], ⟨shaped_nil, by decide, fun h => absurd h (by decide), ?_⟩, rfl⟩
    exact shaped_mem (by simp [wfExprs, h2, h3])

theorem good_stmt {stod : Str → Option F} {file : Option Str} {us : List Token} {s : PStmt} (hd : DerivesStmt us s)
    (hl : ∀ t ∈ us, Lexed t) {v : Stmt F} (h : StmtTree stod file s v) : GoodStmt v := by
  cases hd with
  | var => cases h; exact ⟨rfl, shaped_nil, rfl⟩
  | array => cases h; exact ⟨rfl, shaped_nil, rfl⟩
  | gate hg he =>
    cases h with
    | gate hg' he' =>
      obtain ⟨h1, h2, h3⟩ := good_gate hg (fun t ht => hl t (by simp [ht])) hg'
      have h4 := wf_tree he he'
      simp only [WfNode] at h4
      exact ⟨by simp [wfStmt, wfAnnotations, h1, h4], ⟨shaped_nil, h2, plain_annotations h3, shaped_mem h4⟩, rfl, h3⟩
  | measure hb he hk hq => exact good_measure (vs := []) (ps := none) hb hk rfl hq (hl _ (by simp)) h
  | measureParameters hb he hk ho hes hc hq =>
    exact good_measure (ps := some _) hb hk ⟨_, _, _, rfl, ho, hes, hc⟩ hq (hl _ (by simp)) h
  | @simple kw us e hk he =>
    cases h with
    | simple _ h =>
      have h := wf_tree he h
      simp only [WfNode] at h
      have hw : kw.text ∈ [c!"reset", c!"init", c!"barrier"] := by
        have hlk := hl kw (by simp)
        simp only [List.mem_cons, List.not_mem_nil, or_false] at hk ⊢
        rcases hk with hk | hk | hk
        · exact .inl (lexed_fixed hlk hk rfl)
        · exact .inr (.inl (lexed_fixed hlk hk rfl))
        · exact .inr (.inr (lexed_fixed hlk hk rfl))
      have h1 : kw.text ∈ nonGates ∧ kw.text ≠ c!"wait" := by
        revert hw
        generalize kw.text = w
        intro hw
        simp only [List.mem_cons, List.not_mem_nil, or_false] at hw
        rcases hw with rfl | rfl | rfl <;> decide
      refine ⟨by simp [wfStmt, wfAnnotations, wfExprs, h], ⟨shaped_nil, h1.1, fun hw => absurd hw h1.2, ?_⟩, rfl⟩
      exact shaped_mem (by simp [wfExprs, h])
  | @wait kw o c us vs p e hk ho hp hc he =>
    cases h with
    | wait _ h1 h2 =>
      have h1 := wf_tree hp h1
      have h2 := wf_tree he h2
      simp only [WfNode] at h1 h2
      have hw : kw.text = c!"wait" := lexed_fixed (hl kw (by simp)) hk rfl
      rw [hw]
      refine ⟨by simp [wfStmt, wfAnnotations, wfExprs, h1, h2], ⟨shaped_nil, by decide, fun _ => by simp, ?_⟩, rfl⟩
      exact shaped_mem (by simp [wfExprs, h2])
  | asm => cases h; exact ⟨rfl, shaped_nil, rfl⟩

theorem good_block {stod : Str → Option F} {file : Option Str} {ts : List Token} {ss : List PStmt} (hb : Block DerivesStmt ts ss)
    (hl : ∀ t ∈ ts, Lexed t) {vs : List (Stmt F)} (h : Forall2 (StmtTree stod file) ss vs) : ∀ v ∈ vs, GoodStmt v := by
  induction hb generalizing vs with
  | nil => cases h; simp
  | cons _ _ hd _ ih =>
    cases h with
    | cons h1 h2 =>
      intro v hv
      rcases List.mem_cons.1 hv with rfl | hv
      · exact good_stmt hd (fun t ht => hl t (by simp [ht])) h1
      · exact ih (fun t ht => hl t (by simp [ht])) h2 v hv

/-- Trees of parsed programs are well-formed, of the expected shape and without annotations. -/
theorem good_program {stod : Str → Option F} {file : Option Str} {ts : List Token} {pr : PProgram} (hp : Program DerivesStmt ts pr)
    (hl : ∀ t ∈ ts, Lexed t) {p : ProgramAst F} (h : ProgramTree stod file pr p) :
    wellFormed p = true ∧ ShapedProgram p ∧ PlainProgram p := by
  obtain ⟨_, _, _, hb⟩ := hp
  cases h with
  | mk _ _ h =>
    have := good_block hb (fun t ht => hl t (by simp [ht])) h
    exact ⟨by simpa [wellFormed] using fun s hs => (this s hs).1, fun s hs => (this s hs).2.1, fun s hs => (this s hs).2.2⟩

/-! ## The outcome of parsing -/

theorem at_fileNameOf {file : Option Str} {t : Token} {l : Option Loc} : At (fileNameOf file) t l ↔ At file t l := by
  rw [at_iff, at_iff, annotation_fileNameOf]

theorem fileName_same (file : Option Str) :
    (if fileNameOf file = some [] then none else fileNameOf file) = (if file = some [] then none else file) := by
  rcases file with _ | ⟨_ | _⟩ <;> rfl

theorem tree_file {stod : Str → Option F} {f g : Option Str} (hfg : ∀ t l, At f t l → At g t l) {ph : Phrase} {n : Node F}
    (h : Tree stod f ph n) : Tree stod g ph n := by
  induction h with
  | parens _ ih => exact .parens ih
  | plus hk _ ih => exact .plus hk ih
  | pre hm ha _ ih => exact .pre hm (hfg _ _ ha) ih
  | bin hm ha _ _ ih1 ih2 => exact .bin hm (hfg _ _ ha) ih1 ih2
  | tern ha _ _ _ ih1 ih2 ih3 => exact .tern (hfg _ _ ha) ih1 ih2 ih3
  | call ha _ ih => exact .call (hfg _ _ ha) ih
  | index ha _ ih => exact .index (hfg _ _ ha) ih
  | ident hk ha => exact .ident hk (hfg _ _ ha)
  | true hk hx ha => exact .true hk hx (hfg _ _ ha)
  | false hk hx ha => exact .false hk hx (hfg _ _ ha)
  | int hk hx ha => exact .int hk hx (hfg _ _ ha)
  | float hk hx ha => exact .float hk hx (hfg _ _ ha)
  | exprs0 => exact .exprs0
  | exprsN _ _ ih1 ih2 => exact .exprsN ih1 ih2
  | item _ ih => exact .item ih
  | range _ _ ih1 ih2 => exact .range ih1 ih2
  | entries0 => exact .entries0
  | entriesN _ _ ih1 ih2 => exact .entriesN ih1 ih2

theorem gateTree_file {stod : Str → Option F} {f g : Option Str} (hfg : ∀ t l, At f t l → At g t l) {p : PGate} {v : Gate F}
    (h : GateTree stod f p v) : GateTree stod g p v := by
  induction h with
  | inv ha _ ih => exact .inv (hfg _ _ ha) ih
  | pow ha he _ ih => exact .pow (hfg _ _ ha) (tree_file hfg he) ih
  | ctrl ha _ ih => exact .ctrl (hfg _ _ ha) ih
  | named ha he => exact .named (hfg _ _ ha) (tree_file hfg he)

theorem spans_file {f g : Option Str} (hfg : ∀ t l, At f t l → At g t l) {s t : Token} {l : Option Loc} (h : Spans f s t l) :
    Spans g s t l := by
  obtain ⟨loc, h1, h2, h3⟩ := h
  obtain ⟨k, hk, g1, -⟩ := hfg s _ (at_annotation f s)
  obtain ⟨k', hk', g2, -⟩ := at_annotation f s
  rw [hk] at hk'
  cases hk'
  exact ⟨loc, h1, by rw [h2, ← g2, g1], h3⟩

theorem stmtTree_file {stod : Str → Option F} {f g : Option Str} (hfg : ∀ t l, At f t l → At g t l) {s : PStmt} {v : Stmt F}
    (h : StmtTree stod f s v) : StmtTree stod g s v := by
  cases h with
  | var hm ha hk => exact .var hm (hfg _ _ ha) (hfg _ _ hk)
  | array hm hi ha hk => exact .array hm hi (hfg _ _ ha) (spans_file hfg hk)
  | gate hg he => exact .gate (gateTree_file hfg hg) (tree_file hfg he)
  | measure ha h1 h2 h3 => exact .measure (hfg _ _ ha) (tree_file hfg h1) (tree_file hfg h2) (tree_file hfg h3)
  | simple ha h1 => exact .simple (hfg _ _ ha) (tree_file hfg h1)
  | wait ha h1 h2 => exact .wait (hfg _ _ ha) (tree_file hfg h1) (tree_file hfg h2)
  | asm hx => exact .asm hx

theorem programTree_file {stod : Str → Option F} {f g : Option Str} (hfg : ∀ t l, At f t l → At g t l) {p : PProgram} {v : ProgramAst F}
    (h : ProgramTree stod f p v) : ProgramTree stod g p v := by
  cases h with
  | mk h1 h2 h3 =>
    refine .mk h1 (hfg _ _ h2) ?_
    clear h1 h2
    induction h3 with
    | nil => exact .nil
    | cons h _ ih => exact .cons (stmtTree_file hfg h) ih

theorem programTree_fileNameOf {stod : Str → Option F} {file : Option Str} {p : PProgram} {v : ProgramAst F} :
    ProgramTree stod (fileNameOf file) p v ↔ ProgramTree stod file p v :=
  ⟨programTree_file fun _ _ => at_fileNameOf.1, programTree_file fun _ _ => at_fileNameOf.2⟩

theorem literalError_fileNameOf {stod : Str → Option F} {file : Option Str} {t : Token} {e : Err}
    (h : LiteralError stod (fileNameOf file) t e) : LiteralError stod file t e := by
  obtain ⟨o, w, typ, loc, h1, h2, h3, h4, h5⟩ := h
  exact ⟨o, w, typ, loc, h1, h2, h3, by rw [h4, fileName_same], h5⟩

/-- All that can happen to a text: it is not in the language, one of its literals is not representable, or
its tree is delivered. -/
theorem parseString_cases (an : Antlr F) (text : Str) (file : Option Str) :
    (parseString an text file = .ok ⟨none, [listenerError (fileNameOf file) (an.diagnosis text)]⟩
      ∧ ∀ ts pr, Lexer.lex text = .ok ts → ¬ Program DerivesStmt ts pr) ∨
    (∃ ts pr, Lexer.lex text = .ok ts ∧ Program Chosen ts pr ∧
      ((∃ e, parseString an text file = .ok ⟨none, [e]⟩ ∧ (∃ t ∈ ts, LiteralError an.stod file t e)
          ∧ ∀ p, ¬ ProgramTree an.stod file pr p) ∨
        (∃ p, parseString an text file = .ok ⟨some p, []⟩ ∧ ProgramTree an.stod file pr p ∧ (∀ t ∈ ts, Representable an.stod t)
          ∧ ShapedProgram p ∧ PlainProgram p))) := by
  cases hlex : Lexer.lex text with
  | error q =>
    refine .inl ⟨by simp [parseString, scan, hlex], ?_⟩
    intro ts pr h; cases h
  | ok ts =>
    obtain ⟨us, x, -, -, -, hl⟩ := lexed hlex
    cases hp : Parser.parse ts with
    | none =>
      refine .inl ⟨by simp [parseString, scan, hlex, hp], ?_⟩
      intro ts' pr h hd
      cases h
      obtain ⟨pr', h⟩ := (C45_accepts ts).2 ⟨pr, hd⟩
      rw [hp] at h; cases h
    | some pr =>
      right
      have hd := C45_derivation ts pr hp
      refine ⟨ts, pr, rfl, (C45_tree ts pr).1 hp, ?_⟩
      rcases program_visited an (fileNameOf file) hd hl with ⟨p, h1, h2, h3⟩ | ⟨e, h1, ⟨t, ht, h2⟩, h3⟩
      · right
        obtain ⟨h4, h5, h6⟩ := good_program hd hl h2
        refine ⟨p, by simp [parseString, scan, hlex, hp, h1, h4], programTree_fileNameOf.1 h2, h3, h5, h6⟩
      · left
        refine ⟨e, by simp [parseString, scan, hlex, hp, h1], ⟨t, ht, literalError_fileNameOf h2⟩, ?_⟩
        intro p h
        exact h3 p (programTree_fileNameOf.2 h)

end Syn

end Qasm
