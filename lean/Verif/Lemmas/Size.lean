import Verif.Spec.Size
import Verif.Spec.Ast
import Verif.Spec.Lexer
import Verif.Lemmas.Lexer
import Verif.Lemmas.Operand
import Verif.Lemmas.Instr
/-!
# Helper lemmas: sizes
-/

namespace Qasm.Size

open Spec

variable {F : Type} {fo : FloatOps F} {stod : Str → Option F} {file : Option Str}

/-! ## Tokens -/

theorem tokens_length (segs : List (TokKind × Str)) : ∀ before, (tokensOf before segs).length ≤ segs.length := by
  induction segs with
  | nil => intro _; simp [tokensOf]
  | cons x segs ih =>
    intro before
    obtain ⟨k, w⟩ := x
    simp only [tokensOf]
    split
    · exact Nat.le_succ_of_le (ih _)
    · simp only [List.length_cons]
      exact Nat.succ_le_succ (ih _)

theorem cut_length {m m' : Lexer.Mode} {s rest : Str} {segs : List (TokKind × Str)} (h : Cut m s segs m' rest) : segs.length ≤ s.length := by
  induction h with
  | nil => simp
  | cons hw _ ih =>
    have := List.length_pos_iff.2 (Lexer.winner_ne_nil hw)
    simp only [List.length_cons, List.length_append]
    omega

/-! ## Syntax trees -/

/-- The size of a node of the syntax tree, with the tokens needed around it. -/
def nodeSize : Node F → Nat
  | .expr e => exprSize e
  | .exprs es => exprsSize es
  | .entry x => entriesSize [x]
  | .entries xs => entriesSize xs

/-- One more for entries: an entry is followed by a comma or the closing bracket. -/
def extra : Phrase → Nat
  | .expr _ | .exprs _ => 0
  | .entry _ | .entries _ => 1

theorem tree_size {ts : List Token} {ph : Phrase} (h : Derives ts ph) : ∀ {n : Node F}, Tree stod file ph n → nodeSize n ≤ ts.length + extra ph := by
  induction h with
  | parens _ _ _ ih =>
    intro n h; cases h with | parens h => have := ih h; simp [nodeSize, extra] at *; omega
  | pre _ _ ih =>
    intro n h
    cases h with
    | plus _ h => have := ih h; simp [nodeSize, extra] at *; omega
    | pre _ _ h => have := ih h; simp [nodeSize, extra, exprSize] at *; omega
  | bin _ _ _ ih1 ih2 =>
    intro n h; cases h with | bin _ _ h1 h2 => have := ih1 h1; have := ih2 h2; simp [nodeSize, extra, exprSize] at *; omega
  | tern _ _ _ _ _ ih1 ih2 ih3 =>
    intro n h; cases h with | tern _ h1 h2 h3 => have := ih1 h1; have := ih2 h2; have := ih3 h3; simp [nodeSize, extra, exprSize] at *; omega
  | call0 _ _ _ =>
    intro n h; cases h with | call _ h => cases h; simp [nodeSize, extra, exprSize, exprsSize]
  | call _ _ _ _ ih =>
    intro n h; cases h with | call _ h => have := ih h; simp [nodeSize, extra, exprSize] at *; omega
  | index _ _ _ _ ih =>
    intro n h; cases h with | index _ h => have := ih h; simp [nodeSize, extra, exprSize] at *; omega
  | atom _ => intro n h; cases h <;> simp [nodeSize, extra, exprSize]
  | expr1 _ ih =>
    intro n h; cases h with | exprsN h1 h2 => cases h2; have := ih h1; simp [nodeSize, extra, exprsSize] at *; omega
  | exprN _ _ _ ih1 ih2 =>
    intro n h; cases h with | exprsN h1 h2 => have := ih1 h1; have := ih2 h2; simp [nodeSize, extra, exprsSize] at *; omega
  | item _ ih => intro n h; cases h with | item h => have := ih h; simp [nodeSize, extra, entriesSize] at *; omega
  | range _ _ _ ih1 ih2 =>
    intro n h; cases h with | range h1 h2 => have := ih1 h1; have := ih2 h2; simp [nodeSize, extra, entriesSize] at *; omega
  | entry1 _ ih =>
    intro n h; cases h with | entriesN h1 h2 => cases h2; have := ih h1; simpa [nodeSize, extra] using this
  | entryN _ _ _ ih1 ih2 =>
    intro n h
    cases h with
    | @entriesN _ _ v vs h1 h2 =>
      have a := ih1 h1
      have b := ih2 h2
      have : entriesSize (v :: vs) = entriesSize [v] + entriesSize vs := by cases v <;> simp [entriesSize] <;> omega
      simp [nodeSize, extra] at *; omega

theorem gate_size {ts : List Token} {g : PGate} (h : DerivesGate ts g) : ∀ {v : Gate F}, GateTree stod file g v → gateSize v ≤ ts.length := by
  induction h with
  | inv _ _ _ ih => intro v h; cases h with | inv _ h => have := ih h; simp [gateSize, exprsSize] at *; omega
  | pow _ _ he _ _ _ ih =>
    intro v h; cases h with | pow _ h1 h2 => have := ih h2; have := tree_size he h1; simp [gateSize, exprsSize, nodeSize, extra] at *; omega
  | ctrl _ _ _ ih => intro v h; cases h with | ctrl _ h => have := ih h; simp [gateSize, exprsSize] at *; omega
  | named _ => intro v h; cases h with | named _ h => cases h; simp [gateSize, exprsSize]
  | parameters _ _ he _ => intro v h; cases h with | named _ h => have := tree_size he h; simp [gateSize, nodeSize, extra] at *; omega

theorem stmt_size {ts : List Token} {s : PStmt} (h : DerivesStmt ts s) {v : Stmt F} (ht : StmtTree stod file s v) : stmtSize v ≤ ts.length + 1 := by
  cases h with
  | var _ _ => cases ht; simp [stmtSize]
  | array _ _ _ _ _ => cases ht; simp [stmtSize]
  | gate h1 h2 =>
    cases ht with | gate a b => have := gate_size h1 a; have := tree_size h2 b; simp [stmtSize, nodeSize, extra] at *; omega
  | measure h1 _ _ h2 =>
    cases ht with
    | measure _ a b c =>
      cases a
      have := tree_size h1 b; have := tree_size h2 c; simp [stmtSize, nodeSize, extra, exprsSize] at *; omega
  | measureParameters h1 _ _ _ h2 _ h3 =>
    cases ht with
    | measure _ a b c =>
      have := tree_size h1 b; have := tree_size h2 a; have := tree_size h3 c; simp [stmtSize, nodeSize, extra, exprsSize] at *; omega
  | simple _ h => cases ht with | simple _ a => have := tree_size h a; simp [stmtSize, nodeSize, extra, exprsSize] at *; omega
  | wait _ _ h1 _ h2 =>
    cases ht with | wait _ a b => have := tree_size h1 a; have := tree_size h2 b; simp [stmtSize, nodeSize, extra, exprsSize] at *; omega
  | asm _ _ _ _ _ => cases ht; simp [stmtSize]

theorem block_size {ts : List Token} {ss : List PStmt} (h : Block DerivesStmt ts ss) :
    ∀ {vs : List (Stmt F)}, Forall2 (StmtTree stod file) ss vs → stmtsSize vs + 1 ≤ ts.length := by
  induction h with
  | nil _ _ => intro vs h; cases h; simp [stmtsSize]
  | @cons seps us vs s ss _ hne hs _ ih =>
    intro vs h
    cases h with
    | cons h1 h2 =>
      have a := stmt_size hs h1
      have b := ih h2
      have := List.length_pos_iff.2 hne
      simp [stmtsSize] at *; omega

theorem program_size {ts : List Token} {pr : PProgram} (h : Program DerivesStmt ts pr) {p : ProgramAst F} (ht : ProgramTree stod file pr p) :
    programSize p + 1 ≤ ts.length := by
  cases h with
  | mk _ _ _ hb =>
    cases ht with
    | mk _ _ h => have := block_size hb h; simp [programSize]; omega

/-! ## Semantic trees -/

theorem const_size (c : Const F) : valueSize c.node = 1 := by cases c <;> rfl

theorem expr_pos (e : Expr F) : 1 ≤ exprSize e := by cases e <;> simp [exprSize] <;> omega

theorem range_length {l : Option Loc} {i j : Int64} {is : List (Int64 × Option Loc)} {n : Nat} (h : RangeList l i j is)
    (hi : ∀ x ∈ is, 0 ≤ x.1.toInt ∧ x.1.toInt < n) : is.length ≤ n := by
  obtain ⟨h1, h2, -⟩ := h
  have hl := congrArg List.length h2
  simp only [List.length_map, List.length_range] at hl
  have first : i.toInt ∈ is.map (fun x => x.1.toInt) := by
    rw [h2]; exact List.mem_map.2 ⟨0, by simp; omega, by simp⟩
  have last : j.toInt ∈ is.map (fun x => x.1.toInt) := by
    rw [h2]; exact List.mem_map.2 ⟨(j.toInt - i.toInt).toNat, by simp; omega, by omega⟩
  obtain ⟨x, hx, e⟩ := List.mem_map.1 first
  obtain ⟨y, hy, e'⟩ := List.mem_map.1 last
  have := hi x hx
  have := hi y hy
  omega

/-- What bounds the elements of a reference: it has no ranges, or its register has at most `m` elements. -/
def Within (m : Nat) (D : List VarLink) (e : Expr F) : Prop := 1 ≤ m ∧ (NoRange e ∨ ∀ x ∈ D, x.typ.size.toInt ≤ m)

theorem indices_length {D : List VarLink} {m n : Nat} (hm : 1 ≤ m) :
    ∀ {xs : List (IndexEntry F)} {is : List (Int64 × Option Loc)}, EvalIndices fo D xs is →
      ((∀ x ∈ xs, ∃ l e, x = .item l e) ∨ n ≤ m) → (∀ i ∈ is, 0 ≤ i.1.toInt ∧ i.1.toInt < n) → is.length ≤ xs.length * m
  | _, _, .nil, _, _ => by simp
  | _, _, .cons (x := x) (is := is) (js := js) h1 h2, hr, hi => by
    have a := indices_length (n := n) hm h2 (hr.imp_left fun h y hy => h y (by simp [hy])) fun i h => hi i (by simp [h])
    have b : is.length ≤ m := by
      cases h1 with
      | item _ _ => simpa using hm
      | range _ _ _ _ h =>
        rcases hr with hr | hr
        · obtain ⟨_, _, h⟩ := hr (.range _ _ _) (List.mem_cons_self ..); cases h
        · exact Nat.le_trans (range_length h fun i h => hi i (by simp [h])) hr
    simp only [List.length_append, List.length_cons, Nat.add_mul, Nat.one_mul]
    omega

theorem entries_length (xs : List (IndexEntry F)) : xs.length ≤ entriesSize xs := by
  induction xs with
  | nil => simp
  | cons x xs ih => cases x <;> simp [entriesSize] <;> omega

theorem denotes_size {D : List VarLink} {name : Str} {n : ValueNode F} (h : Denotes fo D name n) : valueSize n = 1 := by
  cases h with
  | const _ => exact const_size _
  | var _ _ _ => rfl

theorem value_size {D : List VarLink} {m : Nat} {e : Expr F} {n : ValueNode F} (h : Eval fo D e n) (hw : Within m D e) :
    valueSize n ≤ exprSize e * m := by
  have hm := hw.1
  have one : ∀ k, k = 1 → k ≤ exprSize e * m := fun k hk => by rw [hk]; exact Nat.mul_pos (expr_pos e) hm
  cases h with
  | boolLit | intLit | floatLit => exact one _ rfl
  | ident h => exact one _ (denotes_size h)
  | call _ _ => exact one _ (const_size _)
  | un _ _ => exact one _ (const_size _)
  | bin _ _ _ => exact one _ (const_size _)
  | tern _ _ _ _ => exact one _ (const_size _)
  | @index l e ixs x is h1 h2 h3 h4 =>
    have key : is.length ≤ ixs.length * m := by
      refine indices_length (n := x.typ.size.toInt.toNat) hm h3 ?_ fun i hi => ⟨(h4 i hi).1, by have := h4 i hi; omega⟩
      refine hw.2.imp (fun h => h) fun h => ?_
      have : x ∈ D := eval_variable h1
      have := h x this
      omega
    have := expr_pos e
    have := entries_length ixs
    have : 1 + is.length ≤ (1 + ixs.length) * m := by rw [Nat.add_mul, Nat.one_mul]; omega
    refine Nat.le_trans this (Nat.mul_le_mul_right m ?_)
    simp only [exprSize]; omega

theorem forall2_sum {α β : Type} {R : α → β → Prop} {f : α → Nat} {g : β → Nat} {m : Nat} {xs : List α} {ys : List β} (h : Forall2 R xs ys)
    (hr : ∀ x ∈ xs, ∀ y, R x y → g y ≤ f x * m) : (ys.map g).sum ≤ (xs.map f).sum * m := by
  induction h with
  | nil => simp
  | cons h1 _ ih =>
    have := hr _ (by simp) _ h1
    have := ih fun x hx => hr x (by simp [hx])
    simp only [List.map_cons, List.sum_cons, Nat.add_mul]
    omega

theorem exprs_sum (es : List (Expr F)) : exprsSize es = (es.map exprSize).sum := by
  induction es with
  | nil => rfl
  | cons e es ih => simp [exprsSize, ih]

theorem values_size {D : List VarLink} {m : Nat} {es : List (Expr F)} {vs : List (Value F)} (h : EvalAll fo D es vs)
    (hw : ∀ e ∈ es, Within m D e) : valuesSize vs ≤ exprsSize es * m := by
  rw [exprs_sum]
  exact forall2_sum h fun e he v hv => value_size hv.2 (hw e he)

theorem parameters_size {D : List VarLink} {ps : List (Expr F)} {ks : List Kind} {vs : List (Value F)} (h : EvalParams fo D ps ks vs) :
    valuesSize vs ≤ exprsSize ps := by
  induction h with
  | nil => simp [valuesSize]
  | @cons e es k ks vs c c' _ _ _ ih =>
    have := expr_pos e
    have : valueSize c'.node = 1 := const_size c'
    simp only [valuesSize, exprsSize, List.map_cons, List.sum_cons] at *
    omega

theorem none_size {D : List VarLink} {sas : List (SAnnotation F)} (h : EvalAnnotations fo D [] sas) : annotationsSize sas = 0 := by
  cases h; rfl

theorem gateOk_size {D : List VarLink} {g : Gate F} {n : Nat} {s : SGate F} (h : GateOk fo D g n s) : PlainGate g → sgateSize s ≤ gateSize g := by
  induction h with
  | named _ h2 h3 =>
    intro hp
    have hp : _ = [] := hp
    subst hp
    have := parameters_size h2
    simp only [sgateSize, gateSize, none_size h3]
    omega
  | inv _ h2 ih =>
    rintro ⟨rfl, hp⟩
    have := ih hp
    simp only [sgateSize, gateSize, none_size h2, valuesSize, List.map_nil, List.sum_nil, exprsSize]
    omega
  | pow _ h2 h3 ih =>
    rintro ⟨rfl, hp⟩
    have := ih hp
    have := parameters_size h2
    simp only [sgateSize, gateSize, none_size h3]
    omega
  | ctrl _ h2 ih =>
    rintro ⟨rfl, hp⟩
    have := ih hp
    simp only [sgateSize, gateSize, none_size h2, valuesSize, List.map_nil, List.sum_nil, exprsSize]
    omega

theorem le_mul {k m : Nat} (h : 1 ≤ m) : k ≤ k * m := Nat.le_mul_of_pos_right k h

theorem instr_size {D : List VarLink} {m : Nat} {s : Stmt F} {t : SStatement F} (h : InstrOk fo D s t) (hp : PlainStmt s) (hm : 1 ≤ m)
    (hw : ∀ e ∈ operandExprs s, Within m D e) : instrSize t ≤ stmtSize s * m := by
  cases h with
  | @gate l as g es n s vs ks sas h1 h2 _ _ _ h3 =>
    obtain ⟨rfl, hp⟩ := hp
    have a := gateOk_size h1 hp
    have b := values_size h2 hw
    have c := le_mul (k := 1 + gateSize g) hm
    simp only [instrSize, stmtSize, none_size h3, Nat.add_mul _ (exprsSize es)]
    omega
  | @measure l as b q ps n k kn km vs sas h1 _ h2 _ _ h3 h4 =>
    have hp : as = [] := hp
    subst hp
    have a := value_size h1 (hw b (by simp [operandExprs]))
    have c := value_size h2 (hw q (by simp [operandExprs]))
    have d : valuesSize vs ≤ exprsSize ps := h3.elim parameters_size parameters_size
    have e := le_mul (k := 1 + exprsSize ps) hm
    simp only [instrSize, stmtSize, none_size h4, valuesSize, List.map_cons, List.map_nil, List.sum_cons, List.sum_nil, exprsSize, Nat.add_mul] at *
    omega
  | @simple l as name q k _ sas _ h1 _ h2 =>
    have hp : as = [] := hp
    subst hp
    have a := value_size h1 (hw q (by simp [operandExprs]))
    simp only [instrSize, stmtSize, none_size h2, valuesSize, List.map_cons, List.map_nil, List.sum_cons, List.sum_nil, exprsSize, Nat.add_mul] at *
    omega
  | @wait l as q ps k _ vs sas h1 _ h2 h3 =>
    have hp : as = [] := hp
    subst hp
    have a := value_size h1 (hw q (by simp [operandExprs]))
    have d := parameters_size h2
    have e := le_mul (k := 1 + exprsSize ps) hm
    simp only [instrSize, stmtSize, none_size h3, valuesSize, List.map_cons, List.map_nil, List.sum_cons, List.sum_nil, exprsSize, Nat.add_mul] at *
    omega
  | asm h =>
    have hp : _ = [] := hp
    subst hp
    simp only [instrSize, stmtSize, none_size h]
    omega

/-- Each operand of the statement is bounded, or the statement declares no register with more than `m` elements. -/
theorem analysis_size {D : List VarLink} {u m : Nat} {ss : List (Stmt F)} {vs : List (SVariable F)} {ts : List (SStatement F)}
    {bad : List (Stmt F)} (h : Analysis fo D u ss vs ts bad) (hm : 1 ≤ m) : (∀ s ∈ ss, PlainStmt s) →
    ((∀ s ∈ ss, ∀ e ∈ operandExprs s, NoRange e) ∨
      (∀ x ∈ D, x.typ.size.toInt ≤ m) ∧ ∀ l as name typ n k, Stmt.var l as name ⟨typ, some n, k⟩ ∈ ss → n.toInt ≤ m) →
    (vs.map fun x => 2 + annotationsSize x.annotations).sum + (ts.map instrSize).sum ≤ stmtsSize ss * m := by
  have varSize : ∀ l as name typ, 2 ≤ stmtSize (F := F) (.var l as name typ) * m := by
    intro l as name typ
    obtain ⟨_, _ | _, _⟩ := typ <;> simp only [stmtSize] <;> omega
  induction h with
  | nil => intro _ _; simp [stmtsSize]
  | @decl D u l as name typ ss t sas vs ts bad h1 h2 h3 h4 ih =>
    intro hp hb
    have hp' : as = [] := hp (.var l as name typ) (by simp)
    subst hp'
    have := ih (fun s hs => hp s (by simp [hs])) (hb.imp (fun h s hs => h s (by simp [hs])) fun h => ⟨?_, fun l as name typ n k hn => h.2 l as name typ n k (by simp [hn])⟩)
    · have := varSize l [] name typ
      simp only [stmtsSize, List.map_cons, List.sum_cons, none_size h3, Nat.add_mul] at *
      omega
    · intro x hx
      rcases List.mem_cons.1 hx with rfl | hx
      · cases h1 with
        | qubit | bit => have : (1 : Int64).toInt = 1 := by decide
                         show (1 : Int64).toInt ≤ m; omega
        | qubits _ | bits _ => exact h.2 _ _ _ _ _ _ (List.mem_cons_self ..)
      · exact h.1 x hx
  | @instr D u s ss t vs ts bad h1 _ ih =>
    intro hp hb
    have a := ih (fun s hs => hp s (by simp [hs])) (hb.imp (fun h s hs => h s (by simp [hs])) fun h => ⟨h.1, fun l as name typ n k hn => h.2 l as name typ n k (by simp [hn])⟩)
    have b := instr_size h1 (hp s (by simp)) hm fun e he => ⟨hm, hb.imp (fun h => h s (by simp) e he) fun h => h.1⟩
    simp only [stmtsSize, List.map_cons, List.sum_cons, Nat.add_mul] at *
    omega
  | @badType D u l as name typ ss vs ts bad _ _ ih =>
    intro hp hb
    have a := ih (fun s hs => hp s (by simp [hs])) (hb.imp (fun h s hs => h s (by simp [hs])) fun h => ⟨h.1, fun l as name typ n k hn => h.2 l as name typ n k (by simp [hn])⟩)
    simp only [stmtsSize, List.map_cons, List.sum_cons, Nat.add_mul] at *
    omega
  | @redeclared D u l as name typ ss t sas vs ts bad h1 h2 h3 h4 ih =>
    intro hp hb
    have hp' : as = [] := hp (.var l as name typ) (by simp)
    subst hp'
    have a := ih (fun s hs => hp s (by simp [hs])) (hb.imp (fun h s hs => h s (by simp [hs])) fun h => ⟨h.1, fun l as name typ n k hn => h.2 l as name typ n k (by simp [hn])⟩)
    have := varSize l [] name typ
    simp only [stmtsSize, List.map_cons, List.sum_cons, none_size h3, Nat.add_mul] at *
    omega
  | @badInstr D u s ss vs ts bad _ _ _ _ ih =>
    intro hp hb
    have a := ih (fun s hs => hp s (by simp [hs])) (hb.imp (fun h s hs => h s (by simp [hs])) fun h => ⟨h.1, fun l as name typ n k hn => h.2 l as name typ n k (by simp [hn])⟩)
    simp only [stmtsSize, List.map_cons, List.sum_cons, Nat.add_mul] at *
    omega

end Qasm.Size
