import Verif.Lemmas.ParserProgram
/-!
# Properties C44 and C45: the parser

The grammar and the grouping these theorems refer to are in `Spec/Grammar`.
-/

namespace Qasm

open Spec TokKind Parser

theorem block_mono {R Q : List Token → PStmt → Prop} (h : ∀ us s, R us s → Q us s) {ts : List Token} {ss : List PStmt}
    (hb : Block R ts ss) : Block Q ts ss := by
  induction hb with
  | nil hs he => exact .nil hs he
  | cons hs hn hr _ ih => exact .cons hs hn (h _ _ hr) ih

theorem program_mono {R Q : List Token → PStmt → Prop} (h : ∀ us s, R us s → Q us s) {ts : List Token} {pr : PProgram}
    (hp : Program R ts pr) : Program Q ts pr := by
  obtain ⟨hs, hv, hn, hb⟩ := hp
  exact .mk hs hv hn (block_mono h hb)

theorem block_all {R : List Token → PStmt → Prop} {ts : List Token} {ss : List PStmt} (hb : Block R ts ss) :
    ∀ s ∈ ss, ∃ us, R us s := by
  induction hb with
  | nil => simp
  | cons _ _ hr _ ih =>
    intro s hs
    rcases List.mem_cons.1 hs with rfl | hs
    · exact ⟨_, hr⟩
    · exact ih s hs

/-! ## C45: the parser accepts exactly the grammar -/

/-- A token list is parsed if and only if the grammar derives it. -/
theorem C45_accepts (ts : List Token) : (∃ pr, parse ts = some pr) ↔ ∃ pr, Program DerivesStmt ts pr := by
  constructor
  · rintro ⟨pr, h⟩
    exact ⟨pr, program_mono (fun _ _ h => h.1) ((parse_iff ts pr).1 h)⟩
  · rintro ⟨pr, h⟩
    exact parse_accept h

/-- The tree the parser returns is a derivation of exactly these tokens. -/
theorem C45_derivation (ts : List Token) (pr : PProgram) (h : parse ts = some pr) : Program DerivesStmt ts pr :=
  program_mono (fun _ _ h => h.1) ((parse_iff ts pr).1 h)

/-- Which of the derivations it is: the one grouped by precedence and, where the tokens can be read both
ways, with parameters. -/
theorem C45_tree (ts : List Token) (pr : PProgram) : parse ts = some pr ↔ Program Chosen ts pr := parse_iff ts pr

/-- The language prescribes at most one tree per token list. -/
theorem C45_unique {ts : List Token} {pr pr' : PProgram} (h : Program Chosen ts pr) (h' : Program Chosen ts pr') : pr = pr' := by
  have h1 := (parse_iff ts pr).2 h
  rw [(parse_iff ts pr').2 h'] at h1
  exact (Option.some.inj h1).symm

/-- Whatever the grammar derives has a tree of that kind. -/
theorem C45_exists {ts : List Token} {pr : PProgram} (h : Program DerivesStmt ts pr) : ∃ pr', Program Chosen ts pr' := by
  obtain ⟨pr', h⟩ := parse_accept h
  exact ⟨pr', (parse_iff ts pr').1 h⟩

/-! ## C44: expressions are grouped by precedence, unambiguously -/

/-- All expressions of a parsed program are grouped by precedence. -/
theorem C44_grouped {ts : List Token} {pr : PProgram} (h : parse ts = some pr) :
    ∀ s ∈ pr.statements, ∀ e ∈ stmtExprs s, Grouped e := by
  obtain ⟨_, _, _, hb⟩ := (parse_iff ts pr).1 h
  intro s hs
  obtain ⟨us, hu⟩ := block_all hb s hs
  exact hu.2.1

/-- No token list has two groupings. -/
theorem C44_unique {us : List Token} {e e' : PExpr} (h : Derives us (.expr e)) (h' : Derives us (.expr e'))
    (hg : Grouped e) (hg' : Grouped e') : e = e' := by
  have h1 := E_complete (rest := []) h hg (by intro t us h; simp at h) (by intro t us h; simp at h)
  have h2 := E_complete (rest := []) h' hg' (by intro t us h; simp at h) (by intro t us h; simp at h)
  rw [h1] at h2
  simpa using h2

/-- Every derivation has a grouping: some grouped expression has the same tokens. -/
theorem C44_exists {us : List Token} {e : PExpr} (h : Derives us (.expr e)) : ∃ e', Derives us (.expr e') ∧ Grouped e' := by
  obtain ⟨e', h1⟩ := E_accept (rest := []) h (by intro t us h; simp at h) (by intro t us h; simp at h)
  obtain ⟨vs, h2, h3, h4, -, -⟩ := E_sound (by omega) h1
  simp only [List.append_nil] at h2
  subst h2
  exact ⟨e', h3, h4⟩

/-- The rule `expression` reads a grouped expression up to a token that cannot continue it. -/
theorem C44_reads {us rest : List Token} {e : PExpr} (h : Derives us (.expr e)) (hg : Grouped e) {t : Token}
    (ht : t.kind ∉ openParens :: openBracket :: levels.flatten) : expression (us ++ t :: rest) = some (e, t :: rest) := by
  refine E_complete h hg (shut_cons ?_ ?_) (below_cons ?_)
  · exact fun hc => ht (by simp [hc])
  · exact fun hc => ht (by simp [hc])
  · intro q hq
    obtain ⟨m, hm⟩ := level_of_opPrec hq
    refine absurd ?_ ht
    refine List.mem_cons_of_mem _ (List.mem_cons_of_mem _ ?_)
    have hall : ∀ k m, level k = some m → k ∈ levels.flatten := by
      intro k m h
      have h' : level k ≠ none := by simp [h]
      revert h'
      clear h
      cases k <;> decide +kernel
    exact hall _ _ hm

section pairs

variable {a b c x y t : Token}

/-- Two operators in a row: `a x b y c` is `(a x b) y c` if `x` binds tighter than `y`, or as tight and they
group to the left. -/
theorem C44_left (ha : a.kind = identifier) (hb : b.kind = identifier) (hc : c.kind = identifier)
    (hx : x.kind ∈ infixOps) (hy : y.kind ∈ infixOps) {m n : Nat} (hm : level x.kind = some m) (hn : level y.kind = some n)
    (h : m < n ∨ m = n ∧ y.kind ≠ power) {rest : List Token} (ht : t.kind ∉ openParens :: openBracket :: levels.flatten) :
    expression ([a, x, b, y, c] ++ t :: rest) = some (.bin y (.bin x (.atom a) (.atom b)) (.atom c), t :: rest) := by
  have hd : Derives [a, x, b, y, c] (.expr (.bin y (.bin x (.atom a) (.atom b)) (.atom c))) :=
    .bin (us := [a, x, b]) (.bin (us := [a]) (.atom (by simp [ha])) hx (.atom (by simp [hb]))) hy (.atom (by simp [hc]))
  have hat : ∀ (z : Token) k, Tighter (.atom z) k ∧ AsTight (.atom z) k := by
    intro z k; constructor <;> intro j hj <;> simp [top] at hj
  have hgx : Grouped (.bin x (.atom a) (.atom b)) := by
    by_cases hr : x.kind ∈ rightAssociative
    · exact .right hr (hat _ _).1 (hat _ _).2 .atom .atom
    · exact .left hr (hat _ _).2 (hat _ _).1 .atom .atom
  refine C44_reads hd ?_ ht
  by_cases hr : y.kind ∈ rightAssociative
  · refine .right hr ?_ (hat _ _).2 hgx .atom
    intro j hj
    simp only [top, Option.some.injEq] at hj
    subst hj
    refine ⟨m, n, hm, hn, ?_⟩
    have hp : y.kind = power := by
      simp only [rightAssociative, List.mem_cons, List.not_mem_nil, or_false] at hr
      rcases hr with hr | hr
      · exact hr
      · rw [hr] at hy; exact absurd hy (by decide +kernel)
    rcases h with h | ⟨-, h⟩
    · exact h
    · exact absurd hp h
  · refine .left hr ?_ (hat _ _).1 hgx .atom
    intro j hj
    simp only [top, Option.some.injEq] at hj
    subst hj
    exact ⟨m, n, hm, hn, by omega⟩

/-- It is `a x (b y c)` if `y` binds tighter than `x`, or both are `**`. -/
theorem C44_right (ha : a.kind = identifier) (hb : b.kind = identifier) (hc : c.kind = identifier)
    (hx : x.kind ∈ infixOps) (hy : y.kind ∈ infixOps) {m n : Nat} (hm : level x.kind = some m) (hn : level y.kind = some n)
    (h : n < m ∨ x.kind = power ∧ y.kind = power) {rest : List Token} (ht : t.kind ∉ openParens :: openBracket :: levels.flatten) :
    expression ([a, x, b, y, c] ++ t :: rest) = some (.bin x (.atom a) (.bin y (.atom b) (.atom c)), t :: rest) := by
  have hd : Derives [a, x, b, y, c] (.expr (.bin x (.atom a) (.bin y (.atom b) (.atom c)))) :=
    .bin (us := [a]) (.atom (by simp [ha])) hx (.bin (us := [b]) (.atom (by simp [hb])) hy (.atom (by simp [hc])))
  have hat : ∀ (z : Token) k, Tighter (.atom z) k ∧ AsTight (.atom z) k := by
    intro z k; constructor <;> intro j hj <;> simp [top] at hj
  have hgy : Grouped (.bin y (.atom b) (.atom c)) := by
    by_cases hr : y.kind ∈ rightAssociative
    · exact .right hr (hat _ _).1 (hat _ _).2 .atom .atom
    · exact .left hr (hat _ _).2 (hat _ _).1 .atom .atom
  refine C44_reads hd ?_ ht
  by_cases hr : x.kind ∈ rightAssociative
  · refine .right hr (hat _ _).1 ?_ .atom hgy
    intro j hj
    simp only [top, Option.some.injEq] at hj
    subst hj
    refine ⟨n, m, hn, hm, ?_⟩
    rcases h with h | ⟨h1, h2⟩
    · omega
    · rw [h1] at hm; rw [h2] at hn; rw [hm] at hn; simp at hn; omega
  · refine .left hr (hat _ _).2 ?_ .atom hgy
    intro j hj
    simp only [top, Option.some.injEq] at hj
    subst hj
    refine ⟨n, m, hn, hm, ?_⟩
    rcases h with h | ⟨h1, h2⟩
    · exact h
    · exact absurd (by simp [h1, rightAssociative]) hr

end pairs

/-! ## The hypotheses can be met -/

/-- The tokens of a text, without their positions. -/
def tokensFor (s : Str) : List Token :=
  match Lexer.lex s with
  | .ok ts => ts.map fun t => { t with line := 0, column := 0 }
  | .error _ => []

/-- A program with most of the syntax is parsed, hence derived by the grammar. -/
example : (parse (tokensFor c!"version 3.0;qubit[2] q\nbit b;ctrl.pow(1/2).X q[0],q[1]\nb=measure q[0]; wait(3) q;asm(a)'''x'''\n")).isSome = true := by
  decide +kernel

/-- What the grammar does not derive is not parsed: an operator without operand, a statement right after the version. -/
example : (parse (tokensFor c!"version 3;X q+")).isNone = true ∧ (parse (tokensFor c!"version 3 X q")).isNone = true
    ∧ (parse (tokensFor c!"version 3; X q Y q")).isNone = true := by
  decide +kernel

/-- A writing of expressions that shows how they are grouped. -/
def written : PExpr → Str
  | .bin op l r => c!"(" ++ written l ++ op.text ++ written r ++ c!")"
  | .tern _ c t f => c!"(" ++ written c ++ c!"?" ++ written t ++ c!":" ++ written f ++ c!")"
  | .pre op e => c!"(" ++ op.text ++ written e ++ c!")"
  | .atom t => t.text
  | _ => c!"_"

/-- Precedence and associativity at work. -/
example : (parse (tokensFor c!"version 3;reset -a-b-c*d**e**f?g:h")).map (fun p => p.statements.flatMap fun s => (stmtExprs s).map written)
    = some [c!"((((-a)-b)-(c*(d**(e**f))))?g:h)"] := by
  decide +kernel

/-- Where both readings are possible, the parenthesised list is the parameters; where only one is, that one. -/
example : (parse (tokensFor c!"version 3;X (a) - b")).map (fun p => p.statements.map hasParameters) = some [true]
    ∧ (parse (tokensFor c!"version 3;X (a) * b")).map (fun p => p.statements.map hasParameters) = some [false] := by
  decide +kernel

/-- The grammar alone is ambiguous: `a - b - c` also has a derivation that is not grouped. -/
example : ∃ us e e', Derives us (.expr e) ∧ Derives us (.expr e') ∧ e ≠ e' ∧ Grouped e ∧ ¬ Grouped e' := by
  let v : Str → Token := fun n => ⟨identifier, n, 0, 0⟩
  let m : Token := ⟨minus, c!"-", 0, 0⟩
  have hm : m.kind ∈ infixOps := by decide +kernel
  have ha : ∀ n, Derives [v n] (.expr (.atom (v n))) := fun n => .atom (by simp [v])
  have h1 : Derives [v c!"a", m, v c!"b", m, v c!"c"] (.expr (.bin m (.bin m (.atom (v c!"a")) (.atom (v c!"b"))) (.atom (v c!"c")))) :=
    .bin (us := [_, _, _]) (.bin (us := [_]) (ha _) hm (ha _)) hm (ha _)
  have h2 : Derives [v c!"a", m, v c!"b", m, v c!"c"] (.expr (.bin m (.atom (v c!"a")) (.bin m (.atom (v c!"b")) (.atom (v c!"c"))))) :=
    .bin (us := [_]) (ha _) hm (.bin (us := [_]) (ha _) hm (ha _))
  refine ⟨_, _, _, h1, h2, ?_, ?_, ?_⟩
  · intro h; injection h with _ h _; cases h
  · refine .left (by decide +kernel) ?_ (by intro j hj; simp [top] at hj) (.left (by decide +kernel) ?_ ?_ .atom .atom) .atom
    · intro j hj
      simp only [top, Option.some.injEq] at hj
      subst hj
      exact ⟨2, 2, by decide +kernel, by decide +kernel, by omega⟩
    · intro j hj; simp [top] at hj
    · intro j hj; simp [top] at hj
  · intro h
    cases h with
    | left _ _ ht _ _ =>
      obtain ⟨a, b, e1, e2, e3⟩ := ht minus rfl
      rw [e1] at e2
      simp at e2
      omega
    | right hr _ _ _ _ => exact absurd hr (by decide +kernel)

end Qasm
