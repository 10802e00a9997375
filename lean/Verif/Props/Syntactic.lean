import Verif.Lemmas.SyntacticShape
import Verif.Lemmas.Literals
import Verif.Lemmas.Asm
import Verif.Props.Program
/-!
# Properties of parsing texts (C43, C48, C53) and of analysing texts (C01, C04)

`Syn.parseString an text file` is the call `parse_string(text, file)`, `Syn.analyzeString fo an a text file` the call
`a.analyze_string(text, file)`. The trees that texts denote are described in `Spec/Ast`.
-/

namespace Qasm

open Spec Sem Syn

variable {F : Type}

/-! ## C48: a failed parse has exactly one error and no AST -/

/-- C48. Parsing a text always returns: an AST and no errors, or no AST and exactly one error. -/
theorem C48_outcome (an : Antlr F) (text : Str) (file : Option Str) :
    (∃ p, parseString an text file = .ok ⟨some p, []⟩) ∨ ∃ e, parseString an text file = .ok ⟨none, [e]⟩ := by
  rcases parseString_cases an text file with ⟨h, -⟩ | ⟨ts, pr, -, -, ⟨e, h, -⟩ | ⟨p, h, -⟩⟩
  · exact .inr ⟨_, h⟩
  · exact .inr ⟨_, h⟩
  · exact .inl ⟨_, h⟩

/-- C48. Which texts give an AST, and which AST: the tree of the text's tokens. -/
theorem C48_ast (an : Antlr F) (text : Str) (file : Option Str) (p : ProgramAst F) :
    parseString an text file = .ok ⟨some p, []⟩ ↔
      ∃ ts pr, Lexer.lex text = .ok ts ∧ Program Chosen ts pr ∧ ProgramTree an.stod file pr p := by
  rcases parseString_cases an text file with ⟨h, hn⟩ | ⟨ts, pr, hl, hp, ⟨e, h, -, hn⟩ | ⟨q, h, ht, -⟩⟩
  · rw [h]
    refine ⟨fun h => by simp at h, ?_⟩
    rintro ⟨ts, pr, hl, hp, -⟩
    exact absurd (program_mono (fun _ _ h => h.1) hp) (hn ts pr hl)
  · rw [h]
    refine ⟨fun h => by simp at h, ?_⟩
    rintro ⟨ts', pr', hl', hp', ht⟩
    rw [hl] at hl'; cases hl'
    cases C45_unique hp hp'
    exact absurd ht (hn p)
  · rw [h]
    constructor
    · intro h
      simp only [Res.ok.injEq, Result.mk.injEq, Option.some.injEq, and_true] at h
      subst h
      exact ⟨ts, pr, hl, hp, ht⟩
    · rintro ⟨ts', pr', hl', hp', ht'⟩
      rw [hl] at hl'; cases hl'
      cases C45_unique hp hp'
      rw [programTree_unique ht' ht]

/-- C48. What the one error is: that of the error listener if the text is not in the language, otherwise
that of a literal without representable value. The listener's error holds the message and the place ANTLR reports, and
the name of the file. -/
theorem C48_error (an : Antlr F) (text : Str) (file : Option Str) (e : Err)
    (h : parseString an text file = .ok ⟨none, [e]⟩) :
    ((¬ ∃ ts pr, Lexer.lex text = .ok ts ∧ Program DerivesStmt ts pr) ∧
        ((an.diagnosis text).message ≠ [] → e.message = (an.diagnosis text).message) ∧ ∃ loc, e.location = some loc ∧
          loc.fileName = (if file = some [] then none else file) ∧
          loc.range.first = ⟨(an.diagnosis text).line, (an.diagnosis text).column + 1⟩ ∧
          loc.range.last = ⟨(an.diagnosis text).line,
            (an.diagnosis text).column + 1 + (((an.diagnosis text).offending.map fun w => (utf8 w).length).getD 0)⟩) ∨
      ∃ ts pr, Lexer.lex text = .ok ts ∧ Program Chosen ts pr ∧ ∃ t ∈ ts, LiteralError an.stod file t e := by
  rcases parseString_cases an text file with ⟨h', hn⟩ | ⟨ts, pr, hl, hp, ⟨e', h', ht, -⟩ | ⟨q, h', -⟩⟩
  · rw [h'] at h
    simp only [Res.ok.injEq, Result.mk.injEq, List.cons.injEq, and_true, true_and] at h
    subst h
    refine .inl ⟨fun ⟨ts, pr, hl, hp⟩ => hn ts pr hl hp, ?_, _, rfl, ?_, ?_, ?_⟩
    · intro hm; simp [listenerError, Err.mkRange, Err.normMsg, hm]
    · exact fileName_same file
    · rfl
    · cases hd : (an.diagnosis text).offending <;> simp [Loc.mk', Range.mk', hd, Index.max, Index.lt]; intro h; omega
  · rw [h'] at h
    simp only [Res.ok.injEq, Result.mk.injEq, List.cons.injEq, and_true, true_and] at h
    subst h
    exact .inr ⟨ts, pr, hl, hp, ht⟩
  · rw [h'] at h; simp at h

/-- C48. Parsing a file: like parsing its content, unless there is no such file. -/
theorem C48_file (an : Antlr F) (path : Str) (name : Option Str) :
    (∀ text, parseFile an (some text) path name = parseString an text name) ∧
      ∃ e, parseFile an none path name = .err e ∧ e.message = c!"FileAntlrScanner couldn't access file '" ++ path ++ c!"'." :=
  ⟨fun _ => rfl, _, rfl, rfl⟩

/-- C48. Analysing a file: like analysing its content under the name of the file, unless there is no such file. -/
theorem C48_analyze_file (fo : FloatOps F) (an : Antlr F) (a : Analyzer F) (path : Str) :
    (∀ text, analyzeFile fo an a (some text) path = analyzeString fo an a text (some path)) ∧
      ∃ e, analyzeFile fo an a none path = .err e ∧ e.message = c!"FileAntlrScanner couldn't access file '" ++ path ++ c!"'." :=
  ⟨fun _ => rfl, _, rfl, rfl⟩

/-! ## C43: integer literals denote their decimal value or are rejected -/

/-- C43. A text of the language is accepted exactly if all its literals are representable: integers, array
sizes and version components up to 2^63-1, and floats according to `std::stod`. -/
theorem C43_accepted (an : Antlr F) (text : Str) (file : Option Str) (ts : List Token) (pr : PProgram)
    (hl : Lexer.lex text = .ok ts) (hp : Program Chosen ts pr) :
    (∃ p, parseString an text file = .ok ⟨some p, []⟩) ↔ ∀ t ∈ ts, Representable an.stod t := by
  rcases parseString_cases an text file with ⟨h, hn⟩ | ⟨ts', pr', hl', hp', ⟨e, h, ⟨t, ht, hf⟩, -⟩ | ⟨q, h, -, hr, -⟩⟩
  · exact absurd (program_mono (fun _ _ h => h.1) hp) (hn ts pr hl)
  · rw [hl] at hl'; cases hl'
    rw [h]
    refine ⟨fun ⟨p, h⟩ => by simp at h, fun hr => ?_⟩
    exfalso
    obtain ⟨o, w, typ, _, hf, -⟩ := hf
    have hr := hr t ht
    cases hf with
    | int hk hw => simp only [Representable, hk] at hr; omega
    | float hk hw => simp [Representable, hk, hw] at hr
    | major hk hc hw => simp only [Representable, hk, hc] at hr; have := hr _ (List.mem_cons_self ..); omega
    | minor hk hc hw => simp only [Representable, hk, hc] at hr; have := hr w (by simp); omega
  · rw [hl] at hl'; cases hl'
    exact ⟨fun _ => hr, fun _ => ⟨q, h⟩⟩

/-- C43. Otherwise there is one error, which quotes a literal that is not representable and points to it. -/
theorem C43_rejected (an : Antlr F) (text : Str) (file : Option Str) (ts : List Token) (pr : PProgram)
    (hl : Lexer.lex text = .ok ts) (hp : Program Chosen ts pr) (hr : ∃ t ∈ ts, ¬ Representable an.stod t) :
    ∃ e, parseString an text file = .ok ⟨none, [e]⟩ ∧ ∃ t ∈ ts, LiteralError an.stod file t e := by
  rcases parseString_cases an text file with ⟨h, hn⟩ | ⟨ts', pr', hl', hp', ⟨e, h, ht, -⟩ | ⟨q, h, -, hr', -⟩⟩
  · exact absurd (program_mono (fun _ _ h => h.1) hp) (hn ts pr hl)
  · rw [hl] at hl'; cases hl'
    exact ⟨e, h, ht⟩
  · rw [hl] at hl'; cases hl'
    obtain ⟨t, ht, hn⟩ := hr
    exact absurd (hr' t ht) hn

/-- C43. What the tree of an integer literal is: an integer of the value the digits denote. -/
theorem C43_value (an : Antlr F) (file : Option Str) (t : Token) (hk : t.kind = .integerLiteral) (v : Expr F)
    (h : Tree an.stod file (.expr (.atom t)) (.expr v)) : ∃ l n, v = .intLit l n ∧ n.toInt = (numeral t.text : Int) := by
  cases h with
  | int _ hx ha => exact ⟨_, _, rfl, hx⟩
  | _ => simp_all

/-- C43. A run of digits after a blank that is not followed by a digit or a point is one integer literal, however
long it is. -/
theorem C43_token {a b b' w : Str} {segs : List (TokKind × Str)}
    (hcut : Cut .default (a ++ ' ' :: b) segs .default (' ' :: b)) (hclosed : Closed segs)
    (hw : Digits w) (hb : ∀ c, b'.head? = some c → ¬ Digit c ∧ c ≠ '.') :
    seen (a ++ ' ' :: (w ++ b')) = (seen b').map fun us => segs.filter (fun p => !Skipped p.1) ++ (.integerLiteral, w) :: us := by
  rw [Lexer.seen_context hcut hclosed, Lexer.seen_cons (Lexer.number_winner hw hb) rfl rfl]
  cases seen b' <;> simp [Lexer.visible]

/-- The winner at a place, by evaluation. -/
theorem winner_eval {m : Lexer.Mode} {u s : Str} {k : TokKind}
    (h : ((Lexer.best (Lexer.rules m) (u ++ s)).map fun p => (p.1.kind, p.2)) = some (k, u.length)) : Winner m (u ++ s) k u := by
  cases hb : Lexer.best (Lexer.rules m) (u ++ s) with
  | none => rw [hb] at h; cases h
  | some p =>
    rw [hb] at h
    simp only [Option.map_some, Option.some.injEq, Prod.mk.injEq] at h
    have := (Lexer.best_winner hb).2.2.2
    rw [h.1, h.2] at this
    simpa using this

/-- The tokens of a text, up to positions, give the tokens. -/
theorem lex_of_seen {s : Str} {us : List (TokKind × Str)} (h : seen s = some us) :
    ∃ ts, Lexer.lex s = .ok ts ∧ ts.map (fun t => (t.kind, t.text)) = us := by
  unfold seen at h
  cases hl : Lexer.lex s with
  | error => rw [hl] at h; cases h
  | ok ts => rw [hl] at h; exact ⟨ts, rfl, Option.some.inj h⟩

theorem map_cons {t : Token} {ts : List Token} {k : TokKind} {w : Str} {us : List (TokKind × Str)}
    (h : (t :: ts).map (fun t => (t.kind, t.text)) = (k, w) :: us) :
    (∃ l c, t = ⟨k, w, l, c⟩) ∧ ts.map (fun t => (t.kind, t.text)) = us := by
  simp only [List.map_cons, List.cons.injEq, Prod.mk.injEq] at h
  obtain ⟨⟨h1, h2⟩, h3⟩ := h
  exact ⟨⟨t.line, t.column, by rw [← h1, ← h2]⟩, h3⟩

theorem map_cons' {ts : List Token} {k : TokKind} {w : Str} {us : List (TokKind × Str)}
    (h : ts.map (fun t => (t.kind, t.text)) = (k, w) :: us) :
    ∃ l c ts', ts = ⟨k, w, l, c⟩ :: ts' ∧ ts'.map (fun t => (t.kind, t.text)) = us := by
  cases ts with
  | nil => cases h
  | cons t ts =>
    obtain ⟨⟨l, c, rfl⟩, h'⟩ := map_cons h
    exact ⟨l, c, ts, rfl, h'⟩

/-- The segments of `version 3;qubit[`. -/
def sizeContext : List (TokKind × Str) :=
  [(.version, c!"version"), (.versionWhiteSpace, c!" "), (.versionNumber, c!"3"), (.semicolon, c!";"), (.qubitType, c!"qubit"),
   (.openBracket, c!"[")]

theorem sizeContext_cut : Cut .default (c!"version 3;qubit[" ++ ' ' :: []) sizeContext .default (' ' :: []) :=
  .cons (w := c!"version") (winner_eval (by decide +kernel)) <|
  .cons (w := c!" ") (winner_eval (m := .versionStatement) (by decide +kernel)) <|
  .cons (w := c!"3") (winner_eval (m := .versionStatement) (by decide +kernel)) <|
  .cons (w := c!";") (winner_eval (m := .default) (by decide +kernel)) <|
  .cons (w := c!"qubit") (winner_eval (m := .default) (by decide +kernel)) <|
  .cons (w := c!"[") (winner_eval (m := .default) (by decide +kernel)) (.nil _ _)

/-- C43. From digits to value, for all runs of digits: `version 3;qubit[ w]q` declares a register of that size, or is
rejected with one error that quotes the digits. -/
theorem C43_digits (an : Antlr F) (file : Option Str) (w : Str) (hw : Digits w) :
    (numeral w ≤ maxInt → ∃ p l k n, parseString an (c!"version 3;qubit[ " ++ w ++ c!"]q") file = .ok ⟨some p, []⟩
      ∧ p.block.statements = [.var l [] ⟨c!"q", none⟩ ⟨c!"qubit", some n, k⟩] ∧ n.toInt = (numeral w : Int)) ∧
    (maxInt < numeral w → ∃ e, parseString an (c!"version 3;qubit[ " ++ w ++ c!"]q") file = .ok ⟨none, [e]⟩
      ∧ e.message = c!"value '" ++ w ++ c!"' is out of the INTEGER_LITERAL range") := by
  have hs := C43_token (b' := c!"]q") sizeContext_cut (by simp [Closed, sizeContext]) hw (by simp [Digit])
  have hr : seen c!"]q" = some [(.closeBracket, c!"]"), (.identifier, c!"q"), (.eof, c!"<EOF>")] := by decide +kernel
  rw [hr] at hs
  have e1 : c!"version 3;qubit[ " ++ w ++ c!"]q" = c!"version 3;qubit[" ++ ' ' :: (w ++ c!"]q") := by simp
  rw [← e1] at hs
  obtain ⟨ts, hl, hm0⟩ := lex_of_seen hs
  obtain ⟨l1, c1, ts, rfl, hm1⟩ := map_cons' hm0
  obtain ⟨l2, c2, ts, rfl, hm2⟩ := map_cons' hm1
  obtain ⟨l3, c3, ts, rfl, hm3⟩ := map_cons' hm2
  obtain ⟨l4, c4, ts, rfl, hm4⟩ := map_cons' hm3
  obtain ⟨l5, c5, ts, rfl, hm5⟩ := map_cons' hm4
  obtain ⟨l6, c6, ts, rfl, hm6⟩ := map_cons' hm5
  obtain ⟨l7, c7, ts, rfl, hm7⟩ := map_cons' hm6
  obtain ⟨l8, c8, ts, rfl, hm8⟩ := map_cons' hm7
  obtain ⟨l9, c9, ts, rfl, hm9⟩ := map_cons' hm8
  have : ts = [] := by simpa using hm9
  subst this
  have hp : Program Chosen _ _ := (C45_tree _ _).1 (rfl : Parser.parse
    [⟨.version, c!"version", l1, c1⟩, ⟨.versionNumber, c!"3", l2, c2⟩, ⟨.semicolon, c!";", l3, c3⟩, ⟨.qubitType, c!"qubit", l4, c4⟩,
     ⟨.openBracket, c!"[", l5, c5⟩, ⟨.integerLiteral, w, l6, c6⟩, ⟨.closeBracket, c!"]", l7, c7⟩, ⟨.identifier, c!"q", l8, c8⟩,
     ⟨.eof, c!"<EOF>", l9, c9⟩] = some ⟨⟨.versionNumber, c!"3", l2, c2⟩,
       [.var ⟨.qubitType, c!"qubit", l4, c4⟩ (some (⟨.integerLiteral, w, l6, c6⟩, ⟨.closeBracket, c!"]", l7, c7⟩)) ⟨.identifier, c!"q", l8, c8⟩]⟩)
  constructor
  · intro hf
    obtain ⟨p, hpp⟩ := (C43_accepted an _ file _ _ hl hp).2 (by
      simp only [List.mem_cons, List.not_mem_nil, or_false, forall_eq_or_imp, forall_eq, Representable, true_and, and_true]
      exact ⟨by decide, hf⟩)
    obtain ⟨ts', pr', hl', hp', ht⟩ := (C48_ast an _ file p).1 hpp
    rw [hl] at hl'; cases hl'
    cases C45_unique hp hp'
    cases ht with
    | mk _ _ hst =>
      cases hst with
      | cons hst hn =>
        cases hn
        cases hst with
        | array ht hi ha _ =>
          simp [typeNodes] at ht
          subst ht
          exact ⟨_, _, _, _, hpp, rfl, hi⟩
  · intro hf
    obtain ⟨e, hpp, t, ht, o, v, typ, loc, hfa, hmsg, -⟩ := C43_rejected an _ file _ _ hl hp ⟨⟨.integerLiteral, w, l6, c6⟩, by simp, by
      simp only [Representable]; omega⟩
    refine ⟨e, hpp, ?_⟩
    rw [hmsg]
    simp only [List.mem_cons, List.not_mem_nil, or_false] at ht
    rcases ht with rfl | rfl | rfl | rfl | rfl | rfl | rfl | rfl | rfl <;> cases hfa <;> try contradiction
    · next hk hc hx =>
      exact absurd hx (by rw [(List.cons.inj hc).1.symm]; show ¬ maxInt < numeral c!"3"; decide)
    · next hk hc hx => simp [components] at hc
    · simp

/-- A front end for the examples: it reads no floating-point literals. -/
def Sample.antlr : Antlr Int := ⟨fun _ => none, fun _ => c!"no viable alternative", fun _ => false, ⟨fun _ => false, .abc, false⟩⟩

/-- The largest integer literal is accepted; the next number is not. -/
example : (∃ p l k n, parseString Sample.antlr c!"version 3;qubit[ 9223372036854775807]q" none = .ok ⟨some p, []⟩
      ∧ p.block.statements = [.var l [] ⟨c!"q", none⟩ ⟨c!"qubit", some n, k⟩] ∧ n.toInt = 9223372036854775807) ∧
    (∃ e, parseString Sample.antlr c!"version 3;qubit[ 9223372036854775808]q" none = .ok ⟨none, [e]⟩
      ∧ e.message = c!"value '9223372036854775808' is out of the INTEGER_LITERAL range") :=
  ⟨(C43_digits Sample.antlr none c!"9223372036854775807" (by simp [Digits, Digit])).1 (by decide),
   (C43_digits Sample.antlr none c!"9223372036854775808" (by simp [Digits, Digit])).2 (by decide)⟩

/-- If several literals are out of range, the order in which the compiler evaluates arguments decides which is reported. -/
example : (match parseString Sample.antlr c!"version 3;Rx(9223372036854775808+9223372036854775809)q" none with
      | .ok r => r.errors.map Err.message | _ => []) = [c!"value '9223372036854775808' is out of the INTEGER_LITERAL range"] ∧
    (match parseString { Sample.antlr with order := ⟨fun _ => true, .cba, true⟩ }
        c!"version 3;Rx(9223372036854775808+9223372036854775809)q" none with
      | .ok r => r.errors.map Err.message | _ => []) = [c!"value '9223372036854775809' is out of the INTEGER_LITERAL range"] := by
  decide +kernel

/-! ## C53: assembly code is delivered verbatim -/

/-- C53. A text between triple quotes after a blank is one token, whatever it contains, as long as it does not contain the
closing quotes. -/
theorem C53_token {a b b' code : Str} {segs : List (TokKind × Str)}
    (hcut : Cut .default (a ++ ' ' :: b) segs .default (' ' :: b)) (hclosed : Closed segs)
    (hcode : ¬ c!"'''" <:+: code ++ c!"''") :
    seen (a ++ ' ' :: (c!"'''" ++ code ++ c!"'''" ++ b'))
      = (seen b').map fun us => segs.filter (fun p => !Skipped p.1) ++ (.rawTextString, c!"'''" ++ code ++ c!"'''") :: us := by
  rw [Lexer.seen_context hcut hclosed, Lexer.seen_cons (Lexer.raw_winner hcode) rfl rfl]
  cases seen b' <;> simp [Lexer.visible]

/-- The tokens of the assembly declarations: backend name and quoted text. -/
def asmTokens (ss : List PStmt) : List (Token × Token) := ss.filterMap fun
  | .asm name raw => some (name, raw)
  | _ => none

/-- C53. The AST holds, for every assembly declaration and in order, the name and exactly the text between the quotes. -/
theorem C53_parsed (an : Antlr F) (text : Str) (file : Option Str) (p : ProgramAst F)
    (h : parseString an text file = .ok ⟨some p, []⟩) :
    ∃ ts pr, Lexer.lex text = .ok ts ∧ Program Chosen ts pr ∧
      Forall2 (fun (t : Token × Token) (c : Str × Str) => c.1 = t.1.text ∧ t.2.text = c!"'''" ++ c.2 ++ c!"'''")
        (asmTokens pr.statements) (asmsOf p.block.statements) := by
  obtain ⟨ts, pr, hl, hp, ht⟩ := (C48_ast an text file p).1 h
  refine ⟨ts, pr, hl, hp, ?_⟩
  cases ht with
  | mk _ _ hst =>
    dsimp only
    clear h hl hp
    induction hst with
    | nil => exact .nil
    | cons h _ ih =>
      cases h with
      | asm hx => exact .cons ⟨rfl, hx⟩ ih
      | _ => exact ih

/-- C53. The analysis delivers all assembly declarations, in order, with name and code as they are; none of them is among
the rejected statements. -/
theorem C53_delivered (fo : FloatOps F) (v : Version) (a : Analyzer F) (ha : Analyzer.default fo v = .ok a)
    (p : ProgramAst F) (hs : ShapedProgram p) (hp : PlainProgram p) (a' : Analyzer F) (r : Result (SProgram F))
    (h : analyze fo a p = .ok (a', r)) :
    ∃ root bad, r.root = some root ∧ Analysis fo [] 0 p.block.statements root.variables root.block.statements bad ∧
      asmsOfS root.block.statements = asmsOf p.block.statements ∧ asmsOf bad = [] := by
  obtain ⟨root, _, _, bad, h1, _, _, h2, _⟩ := C02_one_error_per_statement fo v a ha p hs hp a' r h
  exact ⟨root, bad, h1, h2, analysis_asms h2 hp⟩

/-- C53. The code is never analysed: with other code, the analysis gives the same errors and the same program but for the
code. -/
theorem C53_not_analysed (fo : FloatOps F) {a : Analyzer F} (ha : ∃ s, a.scopes = [s]) {p : ProgramAst F} {ss : List (Stmt F)}
    (hs : Forall2 SameButCode p.block.statements ss) (a1 : Analyzer F) (root : SProgram F) (errs : List Err)
    (h : analyze fo a p = .ok (a1, ⟨some root, errs⟩)) :
    ∃ a2 ts, analyze fo a { p with block := ⟨ss, p.block.loc⟩ } = .ok (a2, ⟨some { root with block := ⟨ts, root.block.loc⟩ }, errs⟩) ∧
      Forall2 SameButCodeS root.block.statements ts := by
  have := analyze_same fo ha hs
  rw [h] at this
  cases hr : analyze fo a { p with block := ⟨ss, p.block.loc⟩ } with
  | ok x =>
    obtain ⟨a2, ⟨_ | q, e⟩⟩ := x
    · rw [hr] at this; exact this.elim
    · rw [hr] at this
      obtain ⟨rfl, ts, rfl, hts⟩ := this
      exact ⟨a2, ts, rfl, hts⟩
  | err e => exact e.elim
  | exn m => rw [hr] at this; exact this.elim
  | ub => rw [hr] at this; exact this.elim

/-- The segments of `version 3;asm(X)`. -/
def asmContext : List (TokKind × Str) :=
  [(.version, c!"version"), (.versionWhiteSpace, c!" "), (.versionNumber, c!"3"), (.semicolon, c!";"), (.asm, c!"asm"),
   (.openParens, c!"("), (.identifier, c!"X"), (.closeParens, c!")")]

theorem asmContext_cut : Cut .default (c!"version 3;asm(X)" ++ ' ' :: []) asmContext .default (' ' :: []) :=
  .cons (w := c!"version") (winner_eval (by decide +kernel)) <|
  .cons (w := c!" ") (winner_eval (m := .versionStatement) (by decide +kernel)) <|
  .cons (w := c!"3") (winner_eval (m := .versionStatement) (by decide +kernel)) <|
  .cons (w := c!";") (winner_eval (m := .default) (by decide +kernel)) <|
  .cons (w := c!"asm") (winner_eval (m := .default) (by decide +kernel)) <|
  .cons (w := c!"(") (winner_eval (m := .default) (by decide +kernel)) <|
  .cons (w := c!"X") (winner_eval (m := .default) (by decide +kernel)) <|
  .cons (w := c!")") (winner_eval (m := .default) (by decide +kernel)) (.nil _ _)

/-- C53. From text to AST, for all code: the declaration holds the code. -/
theorem C53_text (an : Antlr F) (file : Option Str) (code : Str) (hcode : ¬ c!"'''" <:+: code ++ c!"''") :
    ∃ p l, parseString an (c!"version 3;asm(X) '''" ++ code ++ c!"'''") file = .ok ⟨some p, []⟩ ∧
      p.block.statements = [.asm l [] c!"X" code] := by
  have hs := C53_token (b' := []) asmContext_cut (by simp [Closed, asmContext]) hcode
  have hr : seen [] = some [(.eof, c!"<EOF>")] := by decide +kernel
  rw [hr] at hs
  have e1 : c!"version 3;asm(X) '''" ++ code ++ c!"'''"
      = c!"version 3;asm(X)" ++ ' ' :: (c!"'''" ++ code ++ c!"'''" ++ []) := by simp
  rw [← e1] at hs
  obtain ⟨ts, hl, hm0⟩ := lex_of_seen hs
  obtain ⟨l1, c1, ts, rfl, hm1⟩ := map_cons' hm0
  obtain ⟨l2, c2, ts, rfl, hm2⟩ := map_cons' hm1
  obtain ⟨l3, c3, ts, rfl, hm3⟩ := map_cons' hm2
  obtain ⟨l4, c4, ts, rfl, hm4⟩ := map_cons' hm3
  obtain ⟨l5, c5, ts, rfl, hm5⟩ := map_cons' hm4
  obtain ⟨l6, c6, ts, rfl, hm6⟩ := map_cons' hm5
  obtain ⟨l7, c7, ts, rfl, hm7⟩ := map_cons' hm6
  obtain ⟨l8, c8, ts, rfl, hm8⟩ := map_cons' hm7
  obtain ⟨l9, c9, ts, rfl, hm9⟩ := map_cons' hm8
  have : ts = [] := by simpa using hm9
  subst this
  have hp : Program Chosen _ _ := (C45_tree _ _).1 (rfl : Parser.parse
    [⟨.version, c!"version", l1, c1⟩, ⟨.versionNumber, c!"3", l2, c2⟩, ⟨.semicolon, c!";", l3, c3⟩, ⟨.asm, c!"asm", l4, c4⟩,
     ⟨.openParens, c!"(", l5, c5⟩, ⟨.identifier, c!"X", l6, c6⟩, ⟨.closeParens, c!")", l7, c7⟩,
     ⟨.rawTextString, c!"'''" ++ code ++ c!"'''", l8, c8⟩,
     ⟨.eof, c!"<EOF>", l9, c9⟩] = some ⟨⟨.versionNumber, c!"3", l2, c2⟩,
       [.asm ⟨.identifier, c!"X", l6, c6⟩ ⟨.rawTextString, c!"'''" ++ code ++ c!"'''", l8, c8⟩]⟩)
  obtain ⟨p, hpp⟩ := (C43_accepted an _ file _ _ hl hp).2 (by
      simp only [List.mem_cons, List.not_mem_nil, or_false, forall_eq_or_imp, forall_eq, Representable, true_and, and_true]
      decide)
  obtain ⟨ts', pr', hl', hp', ht⟩ := (C48_ast an _ file p).1 hpp
  rw [hl] at hl'; cases hl'
  cases C45_unique hp hp'
  cases ht with
  | mk _ _ hst =>
    cases hst with
    | cons hst hn =>
      cases hn
      cases hst with
      | asm hx =>
        have := List.append_cancel_left (List.append_cancel_right hx)
        subst this
        exact ⟨_, _, hpp, rfl⟩

/-- Quotes, comment markers and line ends in the code are part of the code. -/
example : ∃ p l, parseString Sample.antlr c!"version 3;asm(X) ''' '' /* \" ; version 7\n '''" none = .ok ⟨some p, []⟩
    ∧ p.block.statements = [.asm l [] c!"X" c!" '' /* \" ; version 7\n "] := by
  simpa using C53_text Sample.antlr none c!" '' /* \" ; version 7\n " (by decide)

/-! ## Analysis of texts -/

/-- C04. If the text has a parse error, the analysis returns that error and nothing else, and the analyser is left as it is. -/
theorem C04_text (fo : FloatOps F) (an : Antlr F) (a : Analyzer F) (text : Str) (file : Option Str) (e : Err)
    (h : parseString an text file = .ok ⟨none, [e]⟩) : analyzeString fo an a text file = .ok (a, ⟨none, [e]⟩) := by
  simp [analyzeString, h, analyzeParse, Res.mapErr]

/-- C01. A text is analysed without errors exactly if it is a text of the language whose tree is a valid program. -/
theorem C01_text (fo : FloatOps F) (v : Version) (a : Analyzer F) (ha : Analyzer.default fo v = .ok a) (an : Antlr F)
    (text : Str) (file : Option Str) :
    (∃ a' r, analyzeString fo an a text file = .ok (a', r) ∧ r.errors = []) ↔
      ∃ ts pr p, Lexer.lex text = .ok ts ∧ Program Chosen ts pr ∧ ProgramTree an.stod file pr p ∧ ∃ vs ss, Valid fo v p vs ss := by
  have key : ∀ p, ShapedProgram p → (parseString an text file = .ok ⟨some p, []⟩) →
      ((∃ a' r, analyzeString fo an a text file = .ok (a', r) ∧ r.errors = []) ↔ ∃ vs ss, Valid fo v p vs ss) := by
    intro p hsh h
    rw [← C01_valid_iff fo v a ha p hsh]
    simp only [analyzeString, h, Res.bind_ok, analyzeParse, List.isEmpty_nil, Bool.not_true, Bool.false_eq_true, if_false]
    cases analyze fo a p with
    | err e => exact e.elim
    | _ => simp [Res.mapErr]
  rcases parseString_cases an text file with ⟨h, hn⟩ | ⟨ts, pr, hl, hp, ⟨e, h, -, hn⟩ | ⟨q, h, ht, -, hsh, -⟩⟩
  · rw [show (∃ a' r, analyzeString fo an a text file = .ok (a', r) ∧ r.errors = []) ↔ False by
      rw [C04_text fo an a text file _ h]; simp]
    refine ⟨False.elim, ?_⟩
    rintro ⟨ts, pr, p, hl, hp, -⟩
    exact absurd (program_mono (fun _ _ h => h.1) hp) (hn ts pr hl)
  · rw [show (∃ a' r, analyzeString fo an a text file = .ok (a', r) ∧ r.errors = []) ↔ False by
      rw [C04_text fo an a text file _ h]; simp]
    refine ⟨False.elim, ?_⟩
    rintro ⟨ts', pr', p, hl', hp', ht', -⟩
    rw [hl] at hl'; cases hl'
    cases C45_unique hp hp'
    exact absurd ht' (hn p)
  · rw [key q hsh h]
    constructor
    · exact fun hv => ⟨ts, pr, q, hl, hp, ht, hv⟩
    · rintro ⟨ts', pr', p, hl', hp', ht', hv⟩
      rw [hl] at hl'; cases hl'
      cases C45_unique hp hp'
      cases programTree_unique ht ht'
      exact hv

/-- The trees of texts meet the conditions under which the other properties of the analysis are stated. -/
theorem C48_shaped (an : Antlr F) (text : Str) (file : Option Str) (p : ProgramAst F)
    (h : parseString an text file = .ok ⟨some p, []⟩) : ShapedProgram p ∧ PlainProgram p := by
  rcases parseString_cases an text file with ⟨h', -⟩ | ⟨ts, pr, -, -, ⟨e, h', -⟩ | ⟨q, h', -, -, hs⟩⟩
  · rw [h'] at h; simp at h
  · rw [h'] at h; simp at h
  · rw [h'] at h
    simp only [Res.ok.injEq, Result.mk.injEq, Option.some.injEq, and_true] at h
    subst h
    exact hs

end Qasm
