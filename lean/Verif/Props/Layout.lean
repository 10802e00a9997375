import Verif.Lemmas.Pieces
import Verif.Props.Lexer
import Verif.Props.Syntactic
/-!
# Properties C46 and C47: layout

Parentheses, prefix `+` and statement separators leave no trace in the AST. The notions used here are in
`Spec/Layout`; `stripProgram` is a program without positions.
-/

namespace Qasm

open Spec TokKind Parser Syn

variable {F : Type}

/-! ## C46: parentheses and prefix plus -/

/-- C46. If the parser reads `us` as the expression `e`, it reads `( us )` as an expression with the same AST. -/
theorem C46_parens {us rest : List Token} {e : PExpr} (h : Derives us (.expr e)) (hg : Grouped e) {o c t : Token}
    (ho : o.kind = openParens) (hc : c.kind = closeParens) (ht : t.kind ∉ openParens :: openBracket :: levels.flatten) :
    expression (us ++ t :: rest) = some (e, t :: rest) ∧
      ∃ e', expression (o :: us ++ [c] ++ t :: rest) = some (e', t :: rest) ∧
        ∀ (stod : Str → Option F) (file : Option Str) v, Tree stod file (.expr e') v ↔ Tree stod file (.expr e) v := by
  refine ⟨C44_reads h hg ht, .parens e, C44_reads (.parens ho h hc) (.parens hg) ht, fun stod file v => ?_⟩
  constructor
  · intro hv; cases hv with | parens hv => exact hv
  · intro hv
    cases v with
    | expr v => exact .parens hv
    | _ => nomatch hv

/-- The expression with a prefix operator put before its first token. -/
def prefixed (op : Token) : PExpr → PExpr
  | .bin o l r => .bin o (prefixed op l) r
  | .tern o c a b => .tern o (prefixed op c) a b
  | e => .pre op e

theorem prefixed_top (op : Token) (e : PExpr) : top (prefixed op e) = top e := by
  cases e <;> rfl

theorem prefixed_derives {op : Token} (hop : op.kind ∈ prefixOps) {us : List Token} {ph : Phrase} (h : Derives us ph) :
    ∀ e, ph = .expr e → Derives (op :: us) (.expr (prefixed op e)) := by
  induction h with
  | bin _ hk hr ih _ => rintro _ ⟨⟩; exact .bin (us := op :: _) (ih _ rfl) hk hr
  | tern _ hk ha hc hb ih _ _ => rintro _ ⟨⟩; exact .tern (us := op :: _) (ih _ rfl) hk ha hc hb
  | parens h1 h2 h3 _ => rintro _ ⟨⟩; exact .pre hop (.parens h1 h2 h3)
  | pre h1 h2 _ => rintro _ ⟨⟩; exact .pre hop (.pre h1 h2)
  | call0 h1 h2 h3 => rintro _ ⟨⟩; exact .pre hop (.call0 h1 h2 h3)
  | call h1 h2 h3 h4 _ => rintro _ ⟨⟩; exact .pre hop (.call h1 h2 h3 h4)
  | index h1 h2 h3 h4 _ => rintro _ ⟨⟩; exact .pre hop (.index h1 h2 h3 h4)
  | atom h => rintro _ ⟨⟩; exact .pre hop (.atom h)
  | expr1 => intro _ h; cases h
  | exprN => intro _ h; cases h
  | item => intro _ h; cases h
  | range => intro _ h; cases h
  | entry1 => intro _ h; cases h
  | entryN => intro _ h; cases h

theorem prefixed_grouped (op : Token) {e : PExpr} (h : Grouped e) : Grouped (prefixed op e) := by
  have ht : ∀ e k, Tighter e k → Tighter (prefixed op e) k := fun e k h j hj => h j (by rw [← prefixed_top op]; exact hj)
  have ha : ∀ e k, AsTight e k → AsTight (prefixed op e) k := fun e k h j hj => h j (by rw [← prefixed_top op]; exact hj)
  induction h with
  | left h1 h2 h3 _ h5 ih _ => exact .left h1 (ha _ _ h2) h3 ih h5
  | right h1 h2 h3 _ h5 ih _ => exact .right h1 (ht _ _ h2) h3 ih h5
  | tern h1 h2 _ h4 h5 ih _ _ => exact .tern (ht _ _ h1) h2 ih h4 h5
  | parens h _ => exact .pre rfl (.parens h)
  | pre h1 h2 _ => exact .pre rfl (.pre h1 h2)
  | call h _ => exact .pre rfl (.call h)
  | index h1 h2 h3 _ _ _ => exact .pre rfl (.index h1 h2 h3)
  | atom => exact .pre rfl .atom

theorem prefixed_tree {op : Token} (hop : op.kind = plus) (stod : Str → Option F) (file : Option Str) {e : PExpr} (h : Grouped e) :
    ∀ v, Tree stod file (.expr (prefixed op e)) v ↔ Tree stod file (.expr e) v := by
  have one : ∀ e v, Tree stod file (.expr (.pre op e)) v ↔ Tree stod file (.expr e) v := by
    intro e v
    constructor
    · intro hv
      cases hv with
      | plus _ hv => exact hv
      | pre hm _ _ => rw [hop] at hm; simp [unaryNodes] at hm
    · intro hv
      cases v with
      | expr v => exact .plus hop hv
      | _ => nomatch hv
  have bins : ∀ o l r v, (∀ v, Tree stod file (.expr (prefixed op l)) v ↔ Tree stod file (.expr l) v) →
      (Tree stod file (.expr (.bin o (prefixed op l) r)) v ↔ Tree stod file (.expr (.bin o l r)) v) := by
    intro o l r v hl
    constructor <;> intro hv <;> cases hv with
    | bin h1 h2 h3 h4 => first | exact .bin h1 h2 ((hl _).1 h3) h4 | exact .bin h1 h2 ((hl _).2 h3) h4
  induction h with
  | left _ _ _ _ _ ih _ => exact fun v => bins _ _ _ v ih
  | right _ _ _ _ _ ih _ => exact fun v => bins _ _ _ v ih
  | tern _ _ _ _ _ ih _ _ =>
    intro v
    constructor <;> intro hv <;> cases hv with
    | tern h1 h2 h3 h4 => first | exact .tern h1 ((ih _).1 h2) h3 h4 | exact .tern h1 ((ih _).2 h2) h3 h4
  | parens => exact one _
  | pre => exact one _
  | call => exact one _
  | index => exact one _
  | atom => exact one _

/-- C46. If the parser reads `us` as the expression `e`, it reads `+ us` as an expression with the same AST. -/
theorem C46_plus {us rest : List Token} {e : PExpr} (h : Derives us (.expr e)) (hg : Grouped e) {op t : Token}
    (hop : op.kind = plus) (ht : t.kind ∉ openParens :: openBracket :: levels.flatten) :
    expression (us ++ t :: rest) = some (e, t :: rest) ∧
      ∃ e', expression (op :: us ++ t :: rest) = some (e', t :: rest) ∧
        ∀ (stod : Str → Option F) (file : Option Str) v, Tree stod file (.expr e') v ↔ Tree stod file (.expr e) v :=
  ⟨C44_reads h hg ht, prefixed op e,
    C44_reads (prefixed_derives (by simp [hop, prefixOps]) h e rfl) (prefixed_grouped op hg) ht,
    fun stod file v => prefixed_tree hop stod file hg v⟩

/-! Inside programs. -/

theorem opensParens_expr {us : List Token} {ph : Phrase} (h : Derives us ph) {o : Token} (ho : us.head? = some o)
    (hk : o.kind = openParens) : match ph with
      | .expr e => opensParens e = true
      | .exprs es => ∃ e, es.head? = some e ∧ opensParens e = true
      | _ => True := by
  induction h with
  | parens => rfl
  | pre hop =>
    simp at ho; subst ho; rw [hk] at hop; exact absurd hop (by decide)
  | bin h1 _ _ ih _ =>
    refine ih ?_
    obtain ⟨t, ts, rfl, -⟩ := derives_head h1
    exact ho
  | tern h1 _ _ _ _ ih _ _ =>
    refine ih ?_
    obtain ⟨t, ts, rfl, -⟩ := derives_head h1
    exact ho
  | call0 hn => simp at ho; subst ho; rw [hk] at hn; cases hn
  | call hn => simp at ho; subst ho; rw [hk] at hn; cases hn
  | index hn => simp at ho; subst ho; rw [hk] at hn; cases hn
  | atom hm => simp at ho; subst ho; rw [hk] at hm; exact absurd hm (by decide)
  | expr1 _ ih => exact ⟨_, rfl, ih ho⟩
  | exprN h1 _ _ ih _ =>
    refine ⟨_, rfl, ih ?_⟩
    obtain ⟨t, ts, rfl, -⟩ := derives_head h1
    exact ho
  | _ => trivial

theorem gate_reading {us : List Token} {g : PGate} (h : DerivesGate us g) (hn : gateHasParameters g = false) :
    ∀ (us' : List Token) (g' : PGate) (vs vs' : List Token), DerivesGate us' g' → gateHasParameters g' = true →
      us ++ vs = us' ++ vs' → ∃ o, vs.head? = some o ∧ o.kind = openParens := by
  induction h with
  | inv hk _ _ ih =>
    intro us' g' vs vs' h' hp e
    cases h' with
    | inv _ _ h' =>
      simp only [List.cons_append, List.cons.injEq] at e
      exact ih hn _ _ vs vs' h' hp e.2.2
    | pow hk' => simp only [List.cons_append, List.append_assoc, List.cons.injEq] at e; rw [← e.1, hk] at hk'; cases hk'
    | ctrl hk' => simp only [List.cons_append, List.cons.injEq] at e; rw [← e.1, hk] at hk'; cases hk'
    | named hk' => simp only [List.cons_append, List.cons.injEq] at e; rw [← e.1, hk] at hk'; cases hk'
    | parameters hk' => simp only [List.cons_append, List.append_assoc, List.cons.injEq] at e; rw [← e.1, hk] at hk'; cases hk'
  | ctrl hk _ _ ih =>
    intro us' g' vs vs' h' hp e
    cases h' with
    | ctrl _ _ h' =>
      simp only [List.cons_append, List.cons.injEq] at e
      exact ih hn _ _ vs vs' h' hp e.2.2
    | pow hk' => simp only [List.cons_append, List.append_assoc, List.cons.injEq] at e; rw [← e.1, hk] at hk'; cases hk'
    | inv hk' => simp only [List.cons_append, List.cons.injEq] at e; rw [← e.1, hk] at hk'; cases hk'
    | named hk' => simp only [List.cons_append, List.cons.injEq] at e; rw [← e.1, hk] at hk'; cases hk'
    | parameters hk' => simp only [List.cons_append, List.append_assoc, List.cons.injEq] at e; rw [← e.1, hk] at hk'; cases hk'
  | @pow kw o c d us ws ex g hk ho he hc hd _ ih =>
    intro us' g' vs vs' h' hp e
    cases h' with
    | @pow kw' o' c' d' us' ws' ex' g' hk' ho' he' hc' hd' h' =>
      simp only [List.cons_append, List.append_assoc, List.cons.injEq] at e
      obtain ⟨-, -, e⟩ := e
      obtain ⟨x, hx, hg⟩ := C44_exists he
      obtain ⟨x', hx', hg'⟩ := C44_exists he'
      have r1 := C44_reads (t := c) (rest := d :: (ws ++ vs)) hx hg (by rw [hc]; decide)
      have r2 := C44_reads (t := c') (rest := d' :: (ws' ++ vs')) hx' hg' (by rw [hc']; decide)
      rw [e, r2] at r1
      simp only [Option.some.injEq, Prod.mk.injEq, List.cons.injEq] at r1
      exact ih hn _ _ vs vs' h' hp r1.2.2.2.symm
    | ctrl hk' => simp only [List.cons_append, List.append_assoc, List.cons.injEq] at e; rw [← e.1, hk] at hk'; cases hk'
    | inv hk' => simp only [List.cons_append, List.append_assoc, List.cons.injEq] at e; rw [← e.1, hk] at hk'; cases hk'
    | named hk' => simp only [List.cons_append, List.append_assoc, List.cons.injEq] at e; rw [← e.1, hk] at hk'; cases hk'
    | parameters hk' => simp only [List.cons_append, List.append_assoc, List.cons.injEq] at e; rw [← e.1, hk] at hk'; cases hk'
  | named hk =>
    intro us' g' vs vs' h' hp e
    cases h' with
    | named => cases hp
    | parameters _ ho _ _ =>
      simp only [List.cons_append, List.append_assoc, List.cons.injEq, List.nil_append] at e
      exact ⟨_, by rw [e.2]; rfl, ho⟩
    | inv hk' => simp only [List.cons_append, List.append_assoc, List.cons.injEq] at e; rw [← e.1, hk] at hk'; cases hk'
    | pow hk' => simp only [List.cons_append, List.append_assoc, List.cons.injEq] at e; rw [← e.1, hk] at hk'; cases hk'
    | ctrl hk' => simp only [List.cons_append, List.append_assoc, List.cons.injEq] at e; rw [← e.1, hk] at hk'; cases hk'
  | parameters => cases hn

theorem split_equals {us us' vs vs' : List Token} {a a' : Token} (hu : ∀ t ∈ us, t.kind ∉ foreign) (hu' : ∀ t ∈ us', t.kind ∉ foreign)
    (ha : a.kind = equals) (ha' : a'.kind = equals) (h : us ++ a :: vs = us' ++ a' :: vs') : vs = vs' := by
  induction us generalizing us' with
  | nil =>
    cases us' with
    | nil => exact (List.cons.inj h).2
    | cons u us' =>
      have := (List.cons.inj h).1
      exact absurd (hu' u (List.mem_cons_self ..)) (by rw [← this, ha]; decide)
  | cons u us ih =>
    cases us' with
    | nil =>
      have := (List.cons.inj h).1
      exact absurd (hu u (List.mem_cons_self ..)) (by rw [this, ha']; decide)
    | cons u' us' =>
      exact ih (fun t ht => hu t (List.mem_cons_of_mem _ ht)) (fun t ht => hu' t (List.mem_cons_of_mem _ ht)) (List.cons.inj h).2

theorem gateStmt_foreign {us : List Token} {g : PGate} {es : List PExpr} (h : DerivesStmt us (.gate g es)) : ∀ t ∈ us, t.kind ∉ foreign := by
  cases h with
  | gate h1 h2 =>
    intro t ht
    rcases List.mem_append.1 ht with ht | ht
    · exact gate_foreign h1 t ht
    · exact derives_foreign h2 t ht

theorem measureStmt_foreign {us : List Token} {kw : Token} {ps : Option (List PExpr)} {b q : PExpr} (h : DerivesStmt us (.measure kw ps b q)) :
    ∃ t ∈ us, t.kind = equals := by
  cases h with
  | measure _ he _ _ => exact ⟨_, by simp, he⟩
  | measureParameters _ he _ _ _ _ _ => exact ⟨_, by simp, he⟩

/-- Where the tokens of a statement without parameters can also be read with parameters. -/
theorem doubtful_of {us : List Token} {s s' : PStmt} (h : DerivesStmt us s) (hn : hasParameters s = false)
    (h' : DerivesStmt us s') (hp : hasParameters s' = true) : Doubtful s := by
  have head : ∀ t ts, us = t :: ts → t.kind ∉ [qubitType, bitType, reset, init, barrier, wait, asm] := by
    intro t ts e
    cases s' with
    | gate g es =>
      cases h' with
      | gate h1 _ =>
        obtain ⟨t', ts', rfl, hk⟩ := gate_head h1
        have := (List.cons.inj e).1
        rw [← this]
        exact mem_not hk (by decide)
    | measure kw ps b q =>
      obtain ⟨t', ts', rfl, hk⟩ := measure_head h'
      have := (List.cons.inj e).1
      rw [← this]
      exact hk
    | _ => cases hp
  cases s with
  | var kw size name =>
    cases h with
    | var hk => exact absurd (head _ _ rfl) (fun hc => hc (by
        simp only [List.mem_cons, List.not_mem_nil, or_false] at hk
        rcases hk with hk | hk <;> simp [hk]))
    | array hk => exact absurd (head _ _ rfl) (fun hc => hc (by
        simp only [List.mem_cons, List.not_mem_nil, or_false] at hk
        rcases hk with hk | hk <;> simp [hk]))
  | simple kw e =>
    cases h with
    | simple hk => exact absurd (head _ _ rfl) (fun hc => hc (by
        simp only [List.mem_cons, List.not_mem_nil, or_false] at hk
        rcases hk with hk | hk | hk <;> simp [hk]))
  | wait kw p e =>
    cases h with
    | wait hk => exact absurd (head _ _ rfl) (fun hc => hc (by simp [hk]))
  | asm name raw =>
    cases h with
    | asm hk => exact absurd (head _ _ rfl) (fun hc => hc (by simp [hk]))
  | gate g es =>
    have hf := gateStmt_foreign h
    cases s' with
    | gate g' es' =>
      cases h with
      | gate h1 h2 =>
        generalize hus : (_ ++ _ : List Token) = us at h'
        cases h' with
        | gate h1' h2' =>
          obtain ⟨o, ho, hk⟩ := gate_reading h1 hn _ _ _ _ h1' hp hus
          exact ⟨hn, opensParens_expr h2 ho hk⟩
    | measure kw ps b q =>
      obtain ⟨t, ht, hk⟩ := measureStmt_foreign h'
      exact absurd (hf t ht) (by rw [hk]; decide)
    | _ => cases hp
  | measure kw ps b q =>
    cases s' with
    | gate g' es' =>
      obtain ⟨t, ht, hk⟩ := measureStmt_foreign h
      exact absurd (gateStmt_foreign h' t ht) (by rw [hk]; decide)
    | measure kw' ps' b' q' =>
      cases h with
      | measureParameters => cases hn
      | measure hb he hk hq =>
        generalize hus : (_ ++ _ : List Token) = us at h'
        cases h' with
        | measure => cases hp
        | measureParameters hb' he' hk' ho' hp' hc' hq' =>
          have e := split_equals (derives_foreign hb) (derives_foreign hb') he he' (by simpa using hus)
          simp only [List.cons_append, List.cons.injEq] at e
          have := opensParens_expr hq (o := _) (by rw [e.2]; rfl) ho'
          exact this
    | _ => cases hp

/-- C46. In a whole program: put any subexpressions in parentheses or a `+` before them. The parser reads the new tokens
as the dressed program, provided they do not start with parentheses right after a gate name or `measure`. -/
theorem C46_program {ts ts' : List Token} {pr pr' : PProgram} (h : parse ts = some pr) (hd : DressedProgram pr pr')
    (h' : Program DerivesStmt ts' pr') (hn : ∀ s ∈ pr'.statements, ¬ Doubtful s) : parse ts' = some pr' := by
  rw [C45_tree] at h ⊢
  have hg : ∀ s ∈ pr.statements, ∀ e ∈ stmtExprs s, Grouped e := by
    obtain ⟨_, _, _, hb⟩ := h
    intro s hs
    obtain ⟨us, hu⟩ := block_all hb s hs
    exact hu.2.1
  obtain ⟨-, hd⟩ := hd
  obtain ⟨h1, h2, h3, hb⟩ := h'
  refine .mk h1 h2 h3 ?_
  dsimp only at hd hn
  generalize pr.statements = ss at hg hd
  clear h h1 h2 h3
  induction hb generalizing ss with
  | nil a b => exact .nil a b
  | cons a b c _ ih =>
    cases hd with
    | cons hd1 hd2 =>
      refine .cons a b ⟨c, dressedStmt_grouped hd1 (hg _ (List.mem_cons_self ..)), ?_⟩
        (ih (fun s hs => hn s (List.mem_cons_of_mem _ hs)) _ (fun s hs => hg s (List.mem_cons_of_mem _ hs)) hd2)
      rintro hp ⟨s', hs', hp'⟩
      exact hn _ (List.mem_cons_self ..) (doubtful_of c hp hs' hp')

/-- `reset a-b` and `reset (a)-(+b)`. -/
example : let v : Token := ⟨version, c!"version", 1, 0⟩; let n : Token := ⟨versionNumber, c!"3", 1, 8⟩
    let s : Token := ⟨semicolon, c!";", 1, 9⟩; let r : Token := ⟨reset, c!"reset", 1, 10⟩
    let a : Token := ⟨identifier, c!"a", 1, 16⟩; let m : Token := ⟨minus, c!"-", 1, 17⟩
    let b : Token := ⟨identifier, c!"b", 1, 18⟩; let o : Token := ⟨openParens, c!"(", 1, 19⟩
    let c : Token := ⟨closeParens, c!")", 1, 20⟩; let q : Token := ⟨plus, c!"+", 1, 21⟩
    let e : Token := ⟨eof, c!"<EOF>", 1, 22⟩
    parse [v, n, s, r, a, m, b, e] = some ⟨n, [.simple r (.bin m (.atom a) (.atom b))]⟩ ∧
    parse [v, n, s, r, o, a, c, m, o, q, b, c, e] = some ⟨n, [.simple r (.bin m (.parens (.atom a)) (.parens (.pre q (.atom b))))]⟩ := by
  intro v n s r a m b o c q e
  have h : parse [v, n, s, r, a, m, b, e] = some ⟨n, [.simple r (.bin m (.atom a) (.atom b))]⟩ := rfl
  refine ⟨h, C46_program h ⟨⟨rfl, rfl⟩, .cons (.simple ⟨rfl, rfl⟩ (.bin ⟨rfl, rfl⟩ (.addParens (.atom ⟨rfl, rfl⟩))
    (.addParens (.addPlus rfl rfl (.atom ⟨rfl, rfl⟩))))) .nil⟩ ?_ ?_⟩
  · refine .mk (seps := []) (by simp [Separators]) rfl rfl (.cons (seps := [s]) (us := [r, o, a, c, m, o, q, b, c])
      (by simp [Separators, s, separatorKinds]) (by simp) ?_ (.nil (seps := []) (by simp [Separators]) rfl))
    exact .simple (by simp [r]) (.bin (us := [o, a, c]) (.parens (us := [a]) rfl (.atom (by decide)) rfl) (by decide)
      (.parens (us := [q, b]) rfl (.pre (by decide) (.atom (by decide))) rfl))
  · simp [Doubtful]

/-- C46. A text and the same text with such parentheses and `+` have the same AST, up to positions; or neither has one. -/
theorem C46_text (an : Antlr F) (text text' : Str) (file file' : Option Str) {ts ts' : List Token} {pr pr' : PProgram}
    (hl : Lexer.lex text = .ok ts) (hl' : Lexer.lex text' = .ok ts')
    (h : parse ts = some pr) (hd : DressedProgram pr pr')
    (h' : Program DerivesStmt ts' pr') (hn : ∀ s ∈ pr'.statements, ¬ Doubtful s) :
    (∀ p, parseString an text file = .ok ⟨some p, []⟩ →
        ∃ p', parseString an text' file' = .ok ⟨some p', []⟩ ∧ stripProgram p' = stripProgram p) ∧
    (∀ p', parseString an text' file' = .ok ⟨some p', []⟩ →
        ∃ p, parseString an text file = .ok ⟨some p, []⟩ ∧ stripProgram p = stripProgram p') := by
  have c := (C45_tree _ _).1 h
  have c' := (C45_tree _ _).1 (C46_program h hd h' hn)
  obtain ⟨o1, o2⟩ := outcomes_program (stod := an.stod) (f := file) (f' := file') hd
  constructor
  · intro p hp
    obtain ⟨ts1, pr1, e1, e2, e3⟩ := (C48_ast an text file p).1 hp
    rw [hl] at e1; cases e1
    cases C45_unique c e2
    obtain ⟨p', h1, h2⟩ := o1 p e3
    exact ⟨p', (C48_ast an text' file' p').2 ⟨ts', pr', hl', c', h1⟩, h2⟩
  · intro p hp
    obtain ⟨ts1, pr1, e1, e2, e3⟩ := (C48_ast an text' file' p).1 hp
    rw [hl'] at e1; cases e1
    cases C45_unique c' e2
    obtain ⟨p', h1, h2⟩ := o2 p e3
    exact ⟨p', (C48_ast an text file p').2 ⟨ts, pr, hl, c, h1⟩, h2⟩

/-- The AST of a text with its positions removed, for the examples. -/
def Sample.stripped (text : Str) : Option (ProgramAst Int) :=
  match parseString Sample.antlr text none with
  | .ok ⟨some p, []⟩ => some (stripProgram p)
  | _ => none

/-- The number of parameters of the gates in a program. -/
def Sample.parameterCounts (p : ProgramAst Int) : List Nat := p.block.statements.map fun s =>
  match s with
  | .gate _ _ (.mk _ _ _ _ ps) _ => ps.length
  | _ => 0

theorem Sample.parsed {text : Str} {p : ProgramAst Int} (h : Sample.stripped text = some p) :
    ∃ q, parseString Sample.antlr text none = .ok ⟨some q, []⟩ ∧ stripProgram q = p := by
  unfold Sample.stripped at h
  split at h
  · rename_i q hq
    exact ⟨q, hq, Option.some.inj h⟩
  · cases h

/-- C46 does not hold right after a gate name: `X a - b` and `X (a) - b` are both accepted, with different ASTs. In the
second, `a` is a parameter and `-b` the operand. -/
theorem C46_first_operand_refuted : ∃ (an : Antlr Int) (p p' : ProgramAst Int),
    parseString an c!"version 3;X a - b" none = .ok ⟨some p, []⟩ ∧
    parseString an c!"version 3;X (a) - b" none = .ok ⟨some p', []⟩ ∧ stripProgram p ≠ stripProgram p' := by
  have h1 : (Sample.stripped c!"version 3;X a - b").map Sample.parameterCounts = some [0] := by decide +kernel
  have h2 : (Sample.stripped c!"version 3;X (a) - b").map Sample.parameterCounts = some [1] := by decide +kernel
  obtain ⟨q, hq, c1⟩ := Option.map_eq_some_iff.1 h1
  obtain ⟨q', hq', c2⟩ := Option.map_eq_some_iff.1 h2
  obtain ⟨p, e, rfl⟩ := Sample.parsed hq
  obtain ⟨p', e', rfl⟩ := Sample.parsed hq'
  refine ⟨_, p, p', e, e', fun h => ?_⟩
  rw [h, c2] at c1
  cases c1

/-! ## C47: separators -/

theorem no_eof (m : Lexer.Mode) : eof ∉ Spec.order m := by cases m <;> decide

theorem lex_ends {s : Str} {ts : List Token} (h : Lexer.lex s = .ok ts) :
    ∃ us e, ts = us ++ [e] ∧ e.kind = eof ∧ ∀ t ∈ us, t.kind ≠ eof := by
  obtain ⟨segs, m, hc, -, rfl⟩ := (C39_tokens s ts).1 h
  refine ⟨_, _, rfl, rfl, ?_⟩
  have key : ∀ (m m' : Lexer.Mode) (s r : Str) (segs : List (TokKind × Str)), Cut m s segs m' r → ∀ b, ∀ t ∈ tokensOf b segs, t.kind ≠ eof := by
    intro m m' s r segs hc
    induction hc with
    | nil => intro b t ht; simp [tokensOf] at ht
    | cons hw _ ih =>
      intro b t ht
      simp only [tokensOf] at ht
      split at ht
      · exact ih _ t ht
      · rcases List.mem_cons.1 ht with rfl | ht
        · rintro rfl
          exact no_eof _ (Lexer.winner_mem hw)
        · exact ih _ t ht
  exact key _ _ _ _ _ hc []

/-- C47. Two texts whose tokens between separators are the same have the same AST up to positions, or neither has one. -/
theorem C47_same_statements (an : Antlr F) (text text' : Str) (file file' : Option Str) {us us' : List (TokKind × Str)}
    (h : seen text = some us) (h' : seen text' = some us') (hp : statementsSeen us = statementsSeen us') :
    (∀ p, parseString an text file = .ok ⟨some p, []⟩ →
        ∃ p', parseString an text' file' = .ok ⟨some p', []⟩ ∧ stripProgram p' = stripProgram p) ∧
    (∀ p', parseString an text' file' = .ok ⟨some p', []⟩ →
        ∃ p, parseString an text file = .ok ⟨some p, []⟩ ∧ stripProgram p = stripProgram p') := by
  have half : ∀ (text text' : Str) (file file' : Option Str) (us us' : List (TokKind × Str)), seen text = some us → seen text' = some us' →
      statementsSeen us = statementsSeen us' → ∀ p, parseString an text file = .ok ⟨some p, []⟩ →
        ∃ p', parseString an text' file' = .ok ⟨some p', []⟩ ∧ stripProgram p' = stripProgram p := by
    intro text text' file file' us us' h h' hp p hpp
    obtain ⟨ts, hl, rfl⟩ := lex_of_seen h
    obtain ⟨ts', hl', rfl⟩ := lex_of_seen h'
    obtain ⟨ts1, pr, e1, hc, ht⟩ := (C48_ast an text file p).1 hpp
    rw [hl] at e1; cases e1
    obtain ⟨us, e, rfl, he, hu⟩ := lex_ends hl
    obtain ⟨us', e', rfl, he', hu'⟩ := lex_ends hl'
    have flat : ∀ (us : List Token) (e : Token), e.kind = eof → (∀ t ∈ us, t.kind ≠ eof) →
        statementsSeen ((us ++ [e]).map fun t => (t.kind, t.text)) = (pieces isSep us).map (List.map fun t => (t.kind, t.text)) := by
      intro us e he hu
      unfold statementsSeen
      rw [← pieces_map (p := isSep) (q := fun p => separatorKinds.contains p.1) (fun a => rfl)]
      congr 1
      rw [List.map_append, List.filter_append, List.filter_eq_self.2]
      · simp [he]
      · intro x hx
        obtain ⟨t, ht, rfl⟩ := List.mem_map.1 hx
        simp [hu t ht]
    rw [flat us e he hu, flat us' e' he' hu'] at hp
    obtain ⟨pr', hc', hd⟩ := program_same_pieces he' hp hc
    obtain ⟨p', h1, h2⟩ := (outcomes_program (stod := an.stod) (f := file) (f' := file') hd).1 p ht
    exact ⟨p', (C48_ast an text' file' p').2 ⟨_, pr', hl', hc', h1⟩, h2⟩
  exact ⟨half _ _ _ _ _ _ h h' hp, half _ _ _ _ _ _ h' h hp.symm⟩

/-- The texts of separators and blanks. -/
def gapTexts : List Str := [c!";", c!"\n", c!"\r\n", c!" ", c!"\t"]

/-- The tokens of a run of separators and blanks. -/
def gapTokens (rs : List Str) : List (TokKind × Str) := rs.filterMap fun r =>
  if r = c!";" then some (semicolon, r) else if r = c!"\n" ∨ r = c!"\r\n" then some (newLine, r) else none

theorem seen_gap {rs : List Str} (h : ∀ r ∈ rs, r ∈ gapTexts) (b : Str) : seen (rs.flatten ++ b) = (seen b).map (gapTokens rs ++ ·) := by
  induction rs with
  | nil => simp [gapTokens]
  | cons r rs ih =>
    have ih := ih (fun r hr => h r (List.mem_cons_of_mem _ hr))
    have hr := h r (List.mem_cons_self ..)
    simp only [gapTexts, List.mem_cons, List.not_mem_nil, or_false] at hr
    rw [List.flatten_cons, List.append_assoc]
    rcases hr with rfl | rfl | rfl | rfl | rfl
    · rw [Lexer.seen_cons (Lexer.semicolon_winner _) rfl rfl, ih]
      cases seen b <;> simp [gapTokens]
    · rw [Lexer.seen_cons (Lexer.newline_winner _) rfl rfl, ih]
      cases seen b <;> simp [gapTokens]
    · rw [Lexer.seen_cons (Lexer.crlf_winner _) rfl rfl, ih]
      cases seen b <;> simp [gapTokens]
    · rw [C41_start (t := c!" ") (.blank (.inl rfl) (.nil _)), ih]
      cases seen b <;> simp [gapTokens]
    · rw [C41_start (t := c!"\t") (.blank (.inr rfl) (.nil _)), ih]
      cases seen b <;> simp [gapTokens]

/-- Two texts with the same statements seen. -/
example : ∃ us us', seen c!"version 3;qubit q;X q" = some us ∧ seen c!"\n;version 3\n\nqubit q\r\n ;X q;\n" = some us'
    ∧ statementsSeen us = statementsSeen us' ∧ us ≠ us' ∧ (statementsSeen us).length = 3 :=
  ⟨[(version, c!"version"), (versionNumber, c!"3"), (semicolon, c!";"), (qubitType, c!"qubit"), (identifier, c!"q"),
      (semicolon, c!";"), (identifier, c!"X"), (identifier, c!"q"), (eof, c!"<EOF>")],
   [(newLine, c!"\n"), (semicolon, c!";"), (version, c!"version"), (versionNumber, c!"3"), (newLine, c!"\n"), (newLine, c!"\n"),
      (qubitType, c!"qubit"), (identifier, c!"q"), (newLine, c!"\r\n"), (semicolon, c!";"), (identifier, c!"X"), (identifier, c!"q"),
      (semicolon, c!";"), (newLine, c!"\n"), (eof, c!"<EOF>")],
   by decide +kernel, by decide +kernel, by decide +kernel, by decide +kernel, by decide +kernel⟩

theorem gapTokens_sep (rs : List Str) : ∀ x ∈ gapTokens rs, separatorKinds.contains x.1 = true := by
  intro x hx
  simp only [gapTokens, List.mem_filterMap] at hx
  obtain ⟨r, -, hr⟩ := hx
  split at hr
  · cases hr; rfl
  · split at hr
    · cases hr; rfl
    · cases hr

theorem gapTokens_eof (rs : List Str) : (gapTokens rs).filter (fun p => p.1 != eof) = gapTokens rs := by
  rw [List.filter_eq_self]
  intro x hx
  have := gapTokens_sep rs x hx
  cases hk : x.1 <;> simp_all [separatorKinds]

theorem gapTokens_ne {rs : List Str} (h : ∃ r ∈ rs, r ∈ [c!";", c!"\n", c!"\r\n"]) : gapTokens rs ≠ [] := by
  obtain ⟨r, hr, hm⟩ := h
  have : ∃ x, x ∈ gapTokens rs := by
    simp only [List.mem_cons, List.not_mem_nil, or_false] at hm
    simp only [gapTokens, List.mem_filterMap]
    rcases hm with rfl | rfl | rfl
    · exact ⟨_, _, hr, rfl⟩
    · exact ⟨_, _, hr, rfl⟩
    · exact ⟨_, _, hr, rfl⟩
  obtain ⟨x, hx⟩ := this
  rintro h
  rw [h] at hx
  cases hx

/-- C47. After a blank, any run of separators and blanks with at least one separator can be replaced by any other. -/
theorem C47_between (an : Antlr F) (file file' : Option Str) {a b b' : Str} {segs : List (TokKind × Str)}
    (hcut : Cut .default (a ++ ' ' :: b) segs .default (' ' :: b)) (hclosed : Closed segs) {rs rs' : List Str}
    (hr : ∀ r ∈ rs, r ∈ gapTexts) (hr' : ∀ r ∈ rs', r ∈ gapTexts)
    (hs : ∃ r ∈ rs, r ∈ [c!";", c!"\n", c!"\r\n"]) (hs' : ∃ r ∈ rs', r ∈ [c!";", c!"\n", c!"\r\n"]) (p : ProgramAst F)
    (h : parseString an (a ++ ' ' :: (rs.flatten ++ b')) file = .ok ⟨some p, []⟩) :
    ∃ p', parseString an (a ++ ' ' :: (rs'.flatten ++ b')) file' = .ok ⟨some p', []⟩ ∧ stripProgram p' = stripProgram p := by
  obtain ⟨ts, pr, hl, -⟩ := (C48_ast an _ file p).1 h
  have e1 := Lexer.seen_context hcut hclosed (b' := rs.flatten ++ b')
  have e2 := Lexer.seen_context hcut hclosed (b' := rs'.flatten ++ b')
  rw [seen_gap hr] at e1
  rw [seen_gap hr'] at e2
  cases hb : seen b' with
  | none =>
    rw [hb] at e1
    simp [seen, hl] at e1
  | some us =>
    rw [hb] at e1 e2
    simp only [Option.map_some] at e1 e2
    refine (C47_same_statements an _ _ file file' e1 e2 ?_).1 p h
    unfold statementsSeen
    simp only [List.filter_append, gapTokens_eof]
    exact pieces_replace (gapTokens_sep _) (gapTokens_sep _) (gapTokens_ne hs) (gapTokens_ne hs')

/-- C47. Separators and blanks before the version make no difference. -/
theorem C47_start (an : Antlr F) (file file' : Option Str) {b : Str} {rs rs' : List Str}
    (hr : ∀ r ∈ rs, r ∈ gapTexts) (hr' : ∀ r ∈ rs', r ∈ gapTexts) (p : ProgramAst F)
    (h : parseString an (rs.flatten ++ b) file = .ok ⟨some p, []⟩) :
    ∃ p', parseString an (rs'.flatten ++ b) file' = .ok ⟨some p', []⟩ ∧ stripProgram p' = stripProgram p := by
  obtain ⟨ts, pr, hl, -⟩ := (C48_ast an _ file p).1 h
  have e1 := seen_gap hr b
  have e2 := seen_gap hr' b
  cases hb : seen b with
  | none =>
    rw [hb] at e1
    simp [seen, hl] at e1
  | some us =>
    rw [hb] at e1 e2
    simp only [Option.map_some] at e1 e2
    refine (C47_same_statements an _ _ file file' e1 e2 ?_).1 p h
    unfold statementsSeen
    simp only [List.filter_append, gapTokens_eof]
    rw [pieces_seps (gapTokens_sep _), pieces_seps (gapTokens_sep _)]

/-- C47. Separators and blanks at the end make no difference. -/
theorem C47_end (an : Antlr F) (file file' : Option Str) {a b : Str} {segs : List (TokKind × Str)}
    (hcut : Cut .default (a ++ ' ' :: b) segs .default (' ' :: b)) (hclosed : Closed segs) {rs rs' : List Str}
    (hr : ∀ r ∈ rs, r ∈ gapTexts) (hr' : ∀ r ∈ rs', r ∈ gapTexts) (p : ProgramAst F)
    (h : parseString an (a ++ ' ' :: rs.flatten) file = .ok ⟨some p, []⟩) :
    ∃ p', parseString an (a ++ ' ' :: rs'.flatten) file' = .ok ⟨some p', []⟩ ∧ stripProgram p' = stripProgram p := by
  have hb : seen [] = some [(.eof, c!"<EOF>")] := by decide +kernel
  have e1 := Lexer.seen_context hcut hclosed (b' := rs.flatten)
  have e2 := Lexer.seen_context hcut hclosed (b' := rs'.flatten)
  have g1 := seen_gap hr []
  have g2 := seen_gap hr' []
  rw [List.append_nil, hb] at g1 g2
  rw [g1] at e1
  rw [g2] at e2
  simp only [Option.map_some] at e1 e2
  refine (C47_same_statements an _ _ file file' e1 e2 ?_).1 p h
  unfold statementsSeen
  simp only [List.filter_append, gapTokens_eof]
  simp only [List.filter_cons, List.filter_nil, bne_self_eq_false, Bool.false_eq_true, if_false, List.append_nil]
  rw [pieces_end (gapTokens_sep _), pieces_end (gapTokens_sep _)]

/-- C41. White space and comments between tokens make no difference to the AST, up to positions. -/
theorem C41_ast (an : Antlr F) (file file' : Option Str) {a b t : Str} {segs : List (TokKind × Str)}
    (hcut : Cut .default (a ++ ' ' :: b) segs .default (' ' :: b)) (hclosed : Closed segs) (ht : Trivia t b) (p : ProgramAst F) :
    (parseString an (a ++ ' ' :: b) file = .ok ⟨some p, []⟩ →
        ∃ p', parseString an (a ++ ' ' :: (t ++ b)) file' = .ok ⟨some p', []⟩ ∧ stripProgram p' = stripProgram p) ∧
    (parseString an (a ++ ' ' :: (t ++ b)) file' = .ok ⟨some p, []⟩ →
        ∃ p', parseString an (a ++ ' ' :: b) file = .ok ⟨some p', []⟩ ∧ stripProgram p' = stripProgram p) := by
  have e := C41_trivia hcut hclosed ht
  cases hs : seen (a ++ ' ' :: b) with
  | none =>
    constructor
    · intro h
      obtain ⟨ts, pr, hl, -⟩ := (C48_ast an _ file p).1 h
      simp [seen, hl] at hs
    · intro h
      obtain ⟨ts, pr, hl, -⟩ := (C48_ast an _ file' p).1 h
      rw [hs] at e
      simp [seen, hl] at e
  | some us =>
    have := C47_same_statements an _ _ file file' hs (by rw [e]; exact hs) rfl
    exact ⟨this.1 p, this.2 p⟩

end Qasm
