import Verif.Spec.Size
import Verif.Lemmas.Size
import Verif.Lemmas.Accept
import Verif.Props.Program
import Verif.Props.Parser
import Verif.Props.Syntactic
/-!
# C95: how large results are
-/

namespace Qasm

open Spec Syn Sem

variable {F : Type} {fo : FloatOps F}

/-- C95. A text has at most as many tokens as characters, apart from the end of the file. -/
theorem C95_tokens {text : Str} {ts : List Token} (h : Lexer.lex text = .ok ts) : ts.length ≤ text.length + 1 := by
  obtain ⟨segs, m', rest, hc, he | ⟨hne, hs⟩⟩ := Lexer.cut_exists .default text
  · subst he
    rw [Lexer.lex_of_cut hc] at h
    cases h
    have a := Size.tokens_length segs []
    have b := Size.cut_length hc
    simp only [List.length_append, List.length_cons, List.length_nil]
    omega
  · rw [Lexer.lex_of_stuck hc hne hs] at h
    cases h

/-- C95. The syntax tree of a text has no more nodes than the text has characters. -/
theorem C95_syntax (an : Antlr F) {text : Str} {file : Option Str} {p : ProgramAst F} {es : List Err}
    (h : parseString an text file = .ok ⟨some p, es⟩) : programSize p ≤ text.length := by
  have h : parseString an text file = .ok ⟨some p, []⟩ := by
    rcases C48_outcome an text file with ⟨q, h'⟩ | ⟨e, h'⟩ <;> rw [h'] at h <;> cases h
    exact h'
  obtain ⟨ts, pr, hl, hp, ht⟩ := (C48_ast an text file p).1 h
  have a := Size.program_size (program_mono (fun _ _ h => h.1) hp) ht
  have b := C95_tokens hl
  omega

namespace Size

theorem stmts_length (ss : List (Stmt F)) : ss.length ≤ stmtsSize ss := by
  induction ss with
  | nil => simp
  | cons s ss ih =>
    have : 1 ≤ stmtSize s := by
      cases s with
      | var _ _ _ t => obtain ⟨_, _ | _, _⟩ := t <;> simp [stmtSize]
      | _ => simp [stmtSize] <;> omega
    simp only [stmtsSize, List.map_cons, List.sum_cons, List.length_cons] at *
    omega

theorem forall2_length {α β : Type} {R : α → β → Prop} {xs : List α} {ys : List β} (h : Forall2 R xs ys) : xs.length = ys.length := by
  induction h with
  | nil => rfl
  | cons _ _ ih => simp [ih]

/-- What an analysis of a text returns: a parse error, or the result of the analysis of the tree. -/
theorem text_cases (an : Antlr F) {a a' : Analyzer F} {text : Str} {file : Option Str} {r : Result (SProgram F)}
    (h : analyzeString fo an a text file = .ok (a', r)) :
    (∃ e, r = ⟨none, [e]⟩) ∨ ∃ p, parseString an text file = .ok ⟨some p, []⟩ ∧ analyze fo a p = .ok (a', r) := by
  unfold analyzeString at h
  rcases C48_outcome an text file with ⟨p, hp⟩ | ⟨e, hp⟩ <;> rw [hp] at h
  · refine .inr ⟨p, hp, ?_⟩
    simp only [Res.bind_ok, analyzeParse, List.isEmpty_nil, Bool.not_true, Bool.false_eq_true, if_false] at h
    revert h
    cases analyze fo a p <;> simp [Res.mapErr]
  · refine .inl ⟨e, ?_⟩
    simp only [Res.bind_ok, analyzeParse, List.isEmpty_cons, Bool.not_false, if_true, Res.mapErr] at h
    cases h
    rfl

end Size

/-- C95. An analysis reports at most one error per character (and one for the empty text). -/
theorem C95_errors {v : Version} {a : Analyzer F} (ha : Analyzer.default fo v = .ok a) (an : Antlr F) {text : Str} {file : Option Str}
    {a' : Analyzer F} {r : Result (SProgram F)} (h : analyzeString fo an a text file = .ok (a', r)) : r.errors.length ≤ max 1 text.length := by
  rcases Size.text_cases an h with ⟨e, rfl⟩ | ⟨p, hp, h⟩
  · simp only [List.length_cons, List.length_nil]; omega
  · obtain ⟨hs, hpl⟩ := C48_shaped an text file p hp
    obtain ⟨root, verrs, errs, bad, -, h1, h2, h3, h4⟩ := C02_one_error_per_statement fo v a ha p hs hpl a' r h
    have a1 := (C02_counts fo _ _ _ _ _ _ h3).1.length_le
    have a2 := Size.forall2_length h4
    have a3 := Size.stmts_length p.block.statements
    have a4 := C95_syntax an hp
    have a5 : verrs.length ≤ 1 := by
      rcases h2 with ⟨rfl, -⟩ | ⟨e, rfl, -⟩ <;> simp
    rw [h1, List.length_append]
    simp only [programSize] at a4
    omega

/-- C95. The result of an analysis has at most `m` times as many nodes as the text has characters, if no register has more than `m`
elements. -/
theorem C95_registers {v : Version} {a : Analyzer F} (ha : Analyzer.default fo v = .ok a) (an : Antlr F) {text : Str} {file : Option Str}
    {p : ProgramAst F} (hp : parseString an text file = .ok ⟨some p, []⟩) {m : Nat} (hm : 1 ≤ m) (hr : RegistersUpTo p m) {a' : Analyzer F}
    {root : SProgram F} {es : List Err} (h : analyzeString fo an a text file = .ok (a', ⟨some root, es⟩)) : treeSize root ≤ text.length * m := by
  rcases Size.text_cases an h with ⟨e, he⟩ | ⟨q, hq, h⟩
  · cases he
  · rw [hp] at hq; cases hq
    obtain ⟨hs, hpl⟩ := C48_shaped an text file p hp
    obtain ⟨root', _, _, bad, h0, -, -, h3, -⟩ := C02_one_error_per_statement fo v a ha p hs hpl a' _ h
    cases h0
    have a1 := Size.analysis_size h3 hm hpl (.inr ⟨by simp, hr⟩)
    have a2 := Nat.mul_le_mul_right m (C95_syntax an hp)
    simp only [programSize, Nat.add_mul] at a2
    simp only [treeSize]
    omega

/-- C95. If no operand has an index range, the result of an analysis has no more nodes than the text has characters. The full property has
no such condition: see `C95_refuted`. -/
theorem C95_result_partial {v : Version} {a : Analyzer F} (ha : Analyzer.default fo v = .ok a) (an : Antlr F) {text : Str} {file : Option Str}
    {p : ProgramAst F} (hp : parseString an text file = .ok ⟨some p, []⟩) (hr : NoRanges p) {a' : Analyzer F}
    {root : SProgram F} {es : List Err} (h : analyzeString fo an a text file = .ok (a', ⟨some root, es⟩)) : treeSize root ≤ text.length := by
  rcases Size.text_cases an h with ⟨e, he⟩ | ⟨q, hq, h⟩
  · cases he
  · rw [hp] at hq; cases hq
    obtain ⟨hs, hpl⟩ := C48_shaped an text file p hp
    obtain ⟨root', _, _, bad, h0, -, -, h3, -⟩ := C02_one_error_per_statement fo v a ha p hs hpl a' _ h
    cases h0
    have a1 := Size.analysis_size (m := 1) h3 (by omega) hpl (.inl hr)
    have a2 := C95_syntax an hp
    simp only [programSize, treeSize] at *
    omega

namespace Sample

/-- A gate on almost all elements of a very large register. -/
def hugeText : Str := c!"version 3.0;qubit[9223372036854775806]q;X q[0:9223372036854775805]"

/-- The tree of the text, positions aside. -/
def isHuge : ProgramAst Int → Bool
  | ⟨⟨[v, w], _⟩, ⟨[.var _ [] ⟨x, _⟩ ⟨t, some n, _⟩,
      .gate _ [] (.mk _ [] g none []) [.index _ (.ident _ y) [.range _ (.intLit _ i) (.intLit _ j)]]], _⟩, _⟩ =>
    v = 3 && w = 0 && x = c!"q" && t = c!"qubit" && n = 9223372036854775806 && g = c!"X" && y = c!"q" && i = 0 && j = 9223372036854775805
  | _ => false

theorem isHuge_iff {p : ProgramAst Int} (h : isHuge p = true) : ∃ l0 l1 l2 l3 l4 l5 l6 l7 l8 l9,
    p.version.items = [3, 0] ∧ p.block.statements = [.var l1 [] ⟨c!"q", l0⟩ ⟨c!"qubit", some 9223372036854775806, l2⟩,
      .gate l3 [] (.mk l9 [] c!"X" none []) [.index l4 (.ident l7 c!"q") [.range l8 (.intLit l5 0) (.intLit l6 9223372036854775805)]]] := by
  unfold isHuge at h
  split at h
  · simp only [Bool.and_eq_true, decide_eq_true_eq] at h
    obtain ⟨⟨⟨⟨⟨⟨⟨⟨rfl, rfl⟩, rfl⟩, rfl⟩, rfl⟩, rfl⟩, rfl⟩, rfl⟩, rfl⟩ := h
    exact ⟨_, _, _, _, _, _, _, _, _, _, rfl, rfl⟩
  · cases h

theorem huge_parses : ∃ p, parseString Sample.antlr hugeText none = .ok ⟨some p, []⟩ ∧ isHuge p = true := by
  have h : (match parseString Sample.antlr hugeText none with | .ok ⟨some p, []⟩ => isHuge p | _ => false) = true := by decide +kernel
  split at h
  · rename_i p hp
    exact ⟨p, hp, h⟩
  · cases h

end Sample

/-- C95. In general no such bound holds: a text of less than 70 characters has a result with more than 2 ^ 62 nodes. -/
theorem C95_refuted : ∃ (a a' : Analyzer Int) (root : SProgram Int), Analyzer.default Sample.fo [3, 0] = .ok a ∧
    analyzeString Sample.fo Sample.antlr a Sample.hugeText none = .ok (a', ⟨some root, []⟩) ∧
    Sample.hugeText.length < 70 ∧ 2 ^ 62 < treeSize root := by
  obtain ⟨a, ha⟩ := Sample.default30
  obtain ⟨p, hp, hh⟩ := Sample.huge_parses
  obtain ⟨l0, l1, l2, l3, l4, l5, l6, l7, l8, l9, hv, hb⟩ := Sample.isHuge_iff hh
  obtain ⟨hs, -⟩ := C48_shaped _ _ _ _ hp
  have hi : (0 : Int64).toInt ≤ (9223372036854775805 : Int64).toInt := by decide
  obtain ⟨is, his⟩ := rangeList_exists l8 hi
  have hlen : is.length = 9223372036854775806 := by
    have := congrArg List.length his.2.1
    simp only [List.length_map, List.length_range] at this
    rw [this]
    decide
  have hin : ∀ i ∈ is, 0 ≤ i.1.toInt ∧ i.1.toInt < (9223372036854775806 : Int64).toInt := by
    intro i hi
    have : i.1.toInt ∈ is.map fun i => i.1.toInt := List.mem_map.2 ⟨i, hi, rfl⟩
    rw [his.2.1] at this
    obtain ⟨n, hn, e⟩ := List.mem_map.1 this
    have hn := List.mem_range.1 hn
    have e0 : (0 : Int64).toInt = 0 := by decide
    have e1 : (9223372036854775805 : Int64).toInt = 9223372036854775805 := by decide
    have e2 : (9223372036854775806 : Int64).toInt = 9223372036854775806 := by decide
    rw [← e, e0, e2]
    rw [e0, e1] at hn
    omega
  let x : VarLink := ⟨0, c!"q", ⟨.qubitArray, 9223372036854775806⟩⟩
  have hk : kindOf (ValueNode.indexRef x is : ValueNode Int) = some .qubitArray := by
    match is, hlen with
    | _ :: _ :: _, _ => rfl
  have hx : EvalIndices Sample.fo [x] [.range l8 (.intLit l5 0) (.intLit l6 9223372036854775805)] (is ++ []) :=
    .cons (.range (c := .int 0) (d := .int 9223372036854775805) (.intLit l5 0) (.same (.int 0)) (.intLit l6 9223372036854775805) (.same (.int 9223372036854775805)) his) .nil
  rw [List.append_nil] at hx
  have he : Eval Sample.fo [x] (.index l4 (.ident l7 c!"q") [.range l8 (.intLit l5 0) (.intLit l6 9223372036854775805)]) (.indexRef x is) :=
    .index (.ident (.var rfl (by simp) rfl)) (.inl rfl) hx hin
  have hi : InstrOk Sample.fo [x] (.gate l3 [] (.mk l9 [] c!"X" none []) [.index l4 (.ident l7 c!"q") [.range l8 (.intLit l5 0) (.intLit l6 9223372036854775805)]])
      (.gate (refOf c!"X" [.qubitArray]) (.mk c!"X" none [] [] l9) [⟨.indexRef x is, l4⟩] [] l3) :=
    .gate (.named (n := 1) (ks := []) (by decide) .nil .nil) (.cons ⟨rfl, he⟩ .nil) rfl (.cons ⟨hk, .inr rfl⟩ .nil) (by simp) .nil
  have hval : Valid Sample.fo [3, 0] p [⟨0, c!"q", ⟨.qubitArray, 9223372036854775806⟩, [], l0⟩]
      [.gate (refOf c!"X" [.qubitArray]) (.mk c!"X" none [] [] l9) [⟨.indexRef x is, l4⟩] [] l3] := by
    refine ⟨⟨by rw [hv]; decide, fun _ => by rw [hv]⟩, ?_⟩
    rw [hb]
    exact .decl (.qubits (by decide)) ⟨by show c!"q" ∉ reserved; decide, by simp⟩ .nil (.instr hi .nil)
  obtain ⟨a', h⟩ := valid_accepts ha hs hval
  have e : ∀ r, analyze Sample.fo a p = .ok (a', r) → analyzeString Sample.fo Sample.antlr a Sample.hugeText none = .ok (a', r) := by
    intro r hr
    simp only [analyzeString, hp, Res.bind_ok, analyzeParse, List.isEmpty_nil, Bool.not_true, Bool.false_eq_true, if_false, hr, Res.mapErr]
  refine ⟨a, a', _, ha, e _ h, by decide, ?_⟩
  simp only [treeSize, List.map_cons, List.map_nil, List.sum_cons, List.sum_nil, instrSize, valuesSize, valueSize, hlen]
  omega

namespace Sample

/-- The number of characters of a text, the sizes of its trees and the number of errors. -/
def sizes (text : Str) : Option (Nat × Nat × Nat × Nat) :=
  match Analyzer.default Sample.fo [3, 0], parseString Sample.antlr text none with
  | .ok a, .ok ⟨some p, []⟩ =>
    match analyzeString Sample.fo Sample.antlr a text none with
    | .ok (_, ⟨some r, es⟩) => some (text.length, programSize p, treeSize r, es.length)
    | _ => none
  | _, _ => none

/-- A gate on all elements of a register of ten. -/
def tenText : Str := c!"version 3;qubit[10]q;X q[0:9]"

/-- The same for two of them, and a statement with an error. -/
def twoText : Str := c!"version 3;qubit[10]q;X q[0,9];Y r"

end Sample

/-- The tree of the result may be larger than the syntax tree, but not without index ranges. -/
example : Sample.sizes Sample.tenText = some (29, 13, 17, 0) ∧
    Sample.sizes Sample.twoText = some (33, 17, 9, 1) := by decide +kernel

namespace Sample

/-- There are no ranges, as a test. -/
def rangeless (p : ProgramAst Int) : Bool :=
  p.block.statements.all fun s => (operandExprs s).all fun e =>
    match e with
    | .index _ _ ixs => ixs.all fun x => match x with | .item _ _ => true | _ => false
    | _ => true

theorem rangeless_iff {p : ProgramAst Int} (h : rangeless p = true) : NoRanges p := by
  intro s hs e he
  have := List.all_eq_true.1 (List.all_eq_true.1 h s hs) e he
  cases e with
  | index l e ixs =>
    intro x hx
    have := List.all_eq_true.1 this x hx
    cases x with
    | item l e => exact ⟨l, e, rfl⟩
    | range => cases this
  | _ => trivial

/-- The registers are small, as a test. -/
def upToTen (p : ProgramAst Int) : Bool :=
  p.block.statements.all fun s => match s with | .var _ _ _ ⟨_, some n, _⟩ => n.toInt ≤ 10 | _ => true

theorem upToTen_iff {p : ProgramAst Int} (h : upToTen p = true) : RegistersUpTo p 10 := by
  intro l as name typ n k hs
  have := List.all_eq_true.1 h _ hs
  simpa using this

/-- A text is parsed, and the tree passes the test. -/
def passes (text : Str) (f : ProgramAst Int → Bool) : Bool :=
  match parseString Sample.antlr text none with
  | .ok ⟨some p, []⟩ => f p
  | _ => false

theorem passes_iff {text : Str} {f : ProgramAst Int → Bool} (h : passes text f = true) :
    ∃ p, parseString Sample.antlr text none = .ok ⟨some p, []⟩ ∧ f p = true := by
  unfold passes at h
  split at h
  · rename_i p hp
    exact ⟨p, hp, h⟩
  · cases h

end Sample

/-- The text without ranges meets the conditions, and so does the other one if registers of ten elements are allowed. -/
example : (∃ p, parseString Sample.antlr Sample.twoText none = .ok ⟨some p, []⟩ ∧ NoRanges p) ∧
    ∃ p, parseString Sample.antlr Sample.tenText none = .ok ⟨some p, []⟩ ∧ RegistersUpTo p 10 := by
  obtain ⟨p, h1, h2⟩ := Sample.passes_iff (text := Sample.twoText) (f := Sample.rangeless) (by decide +kernel)
  obtain ⟨q, h3, h4⟩ := Sample.passes_iff (text := Sample.tenText) (f := Sample.upToTen) (by decide +kernel)
  exact ⟨⟨p, h1, Sample.rangeless_iff h2⟩, q, h3, Sample.upToTen_iff h4⟩

end Qasm
