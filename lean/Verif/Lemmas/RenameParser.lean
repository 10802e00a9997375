import Verif.Spec.Rename
import Verif.Lemmas.ParserFuel
/-!
# Helper lemmas: the parser looks at the types of tokens only
-/

namespace Qasm

open Spec TokKind Parser

variable {f : Token → Token}

mutual
/-- The tree with changed tokens. -/
def mapE (f : Token → Token) : PExpr → PExpr
  | .parens e => .parens (mapE f e)
  | .pre op e => .pre (f op) (mapE f e)
  | .bin op a b => .bin (f op) (mapE f a) (mapE f b)
  | .tern op c a b => .tern (f op) (mapE f c) (mapE f a) (mapE f b)
  | .call n es => .call (f n) (mapEs f es)
  | .index n is => .index (f n) (mapIs f is)
  | .atom t => .atom (f t)
/-- The trees with changed tokens. -/
def mapEs (f : Token → Token) : List PExpr → List PExpr
  | [] => []
  | e :: es => mapE f e :: mapEs f es
/-- The entry with changed tokens. -/
def mapI (f : Token → Token) : PEntry → PEntry
  | .item e => .item (mapE f e)
  | .range a b => .range (mapE f a) (mapE f b)
/-- The entries with changed tokens. -/
def mapIs (f : Token → Token) : List PEntry → List PEntry
  | [] => []
  | i :: is => mapI f i :: mapIs f is
end

/-- The gate with changed tokens. -/
def mapG (f : Token → Token) : PGate → PGate
  | .inv kw g => .inv (f kw) (mapG f g)
  | .pow kw e g => .pow (f kw) (mapE f e) (mapG f g)
  | .ctrl kw g => .ctrl (f kw) (mapG f g)
  | .named n ps => .named (f n) (ps.map (mapEs f))

/-- The statement with changed tokens. -/
def mapS (f : Token → Token) : PStmt → PStmt
  | .var kw size name => .var (f kw) (size.map fun s => (f s.1, f s.2)) (f name)
  | .gate g es => .gate (mapG f g) (mapEs f es)
  | .measure kw ps b q => .measure (f kw) (ps.map (mapEs f)) (mapE f b) (mapE f q)
  | .simple kw e => .simple (f kw) (mapE f e)
  | .wait kw p e => .wait (f kw) (mapE f p) (mapE f e)
  | .asm name raw => .asm (f name) (f raw)

/-- The program with changed tokens. -/
def mapP (f : Token → Token) (p : PProgram) : PProgram := ⟨f p.version, p.statements.map (mapS f)⟩

/-- What was read and what is left, with changed tokens. -/
def both {α β : Type} (f : Token → Token) (g : α → β) (x : α × List Token) : β × List Token := (g x.1, x.2.map f)

variable (hf : ∀ t, (f t).kind = t.kind)
include hf

theorem expect_map (k : TokKind) (ts : List Token) : expect k (ts.map f) = (expect k ts).map (List.map f) := by
  cases ts with
  | nil => rfl
  | cons t ts => simp only [List.map_cons, expect, hf]; split <;> rfl

theorem next_map (k : TokKind) (ts : List Token) : next k (ts.map f) = next k ts := by
  cases ts with
  | nil => rfl
  | cons t ts => simp only [List.map_cons, next, hf]

/-- The functions of the expression parser with changed tokens. -/
structure Natural (f : Token → Token) (n : Nat) : Prop where
  expr : ∀ p ts, expr n p (ts.map f) = (expr n p ts).map (both f (mapE f))
  primary : ∀ ts, primary n (ts.map f) = (primary n ts).map (both f (mapE f))
  loop : ∀ p e ts, loop n p (mapE f e) (ts.map f) = (loop n p e ts).map (both f (mapE f))
  exprList : ∀ ts, exprList n (ts.map f) = (exprList n ts).map (both f (mapEs f))
  indexEntry : ∀ ts, indexEntry n (ts.map f) = (indexEntry n ts).map (both f (mapI f))
  indexList : ∀ ts, indexList n (ts.map f) = (indexList n ts).map (both f (mapIs f))

theorem primary_map {n : Nat} (ih : Natural f n) (ts : List Token) :
    primary (n + 1) (ts.map f) = (primary (n + 1) ts).map (both f (mapE f)) := by
  cases ts with
  | nil => rfl
  | cons t ts =>
    simp only [List.map_cons, primary, hf]
    cases hk : t.kind
    case openParens =>
      simp only [ih.expr]
      cases expr n 0 ts with
      | none => rfl
      | some x =>
        simp only [Option.map_some, both, expect_map hf]
        cases expect closeParens x.2 <;> simp [both, mapE]
    case identifier =>
      simp only
      cases ts with
      | nil => rfl
      | cons o us =>
        simp only [List.map_cons, hf, next_map hf]
        split
        · split
          · simp [both, mapE, mapEs]
          · simp only [ih.exprList]
            cases exprList n us with
            | none => rfl
            | some x =>
              simp only [Option.map_some, both, expect_map hf]
              cases expect closeParens x.2 <;> simp [both, mapE]
        · split
          · simp only [ih.indexList]
            cases indexList n us with
            | none => rfl
            | some x =>
              simp only [Option.map_some, both, expect_map hf]
              cases expect closeBracket x.2 <;> simp [both, mapE]
          · simp [both, mapE]
    all_goals simp only [prefixPrec, ih.expr]
    all_goals first
      | rfl
      | (cases expr n _ ts <;> rfl)

theorem loop_map {n : Nat} (ih : Natural f n) (p : Nat) (e : PExpr) (ts : List Token) :
    loop (n + 1) p (mapE f e) (ts.map f) = (loop (n + 1) p e ts).map (both f (mapE f)) := by
  cases ts with
  | nil => rfl
  | cons t ts =>
    simp only [List.map_cons, loop, hf]
    cases prec t.kind with
    | some q =>
      simp only
      split
      · simp only [ih.expr]
        cases expr n (rightPrec t.kind q) ts with
        | none => rfl
        | some x => exact ih.loop p (.bin t e x.1) x.2
      · rfl
    | none =>
      simp only
      split
      · simp only [ih.expr]
        cases expr n 0 ts with
        | none => rfl
        | some x =>
          simp only [Option.map_some, both, expect_map hf]
          cases expect colon x.2 with
          | none => rfl
          | some us =>
            simp only [Option.map_some, ih.expr]
            cases expr n ternaryPrec us with
            | none => rfl
            | some y => exact ih.loop p (.tern t e x.1 y.1) y.2
      · rfl

theorem natural (n : Nat) : Natural f n := by
  induction n with
  | zero => exact ⟨fun _ _ => rfl, fun _ => rfl, fun _ _ _ => rfl, fun _ => rfl, fun _ => rfl, fun _ => rfl⟩
  | succ n ih =>
    refine ⟨fun p ts => ?_, primary_map hf ih, loop_map hf ih, fun ts => ?_, fun ts => ?_, fun ts => ?_⟩
    · simp only [Parser.expr, ih.primary]
      cases primary n ts with
      | none => rfl
      | some x => exact ih.loop p x.1 x.2
    · simp only [Parser.exprList, ih.expr]
      cases expr n 0 ts with
      | none => rfl
      | some x =>
        simp only [Option.map_some, both, expect_map hf]
        cases expect comma x.2 with
        | none => rfl
        | some us =>
          simp only [Option.map_some, ih.exprList]
          cases exprList n us <;> rfl
    · simp only [Parser.indexEntry, ih.expr]
      cases expr n 0 ts with
      | none => rfl
      | some x =>
        simp only [Option.map_some, both, expect_map hf]
        cases expect colon x.2 with
        | none => rfl
        | some us =>
          simp only [Option.map_some, ih.expr]
          cases expr n 0 us <;> rfl
    · simp only [Parser.indexList, ih.indexEntry]
      cases indexEntry n ts with
      | none => rfl
      | some x =>
        simp only [Option.map_some, both, expect_map hf]
        cases expect comma x.2 with
        | none => rfl
        | some us =>
          simp only [Option.map_some, ih.indexList]
          cases indexList n us <;> rfl

theorem expression_map (ts : List Token) : expression (ts.map f) = (expression ts).map (both f (mapE f)) := by
  simp only [expression, List.length_map, (natural hf _).expr]

theorem expressions_map (ts : List Token) : expressions (ts.map f) = (expressions ts).map (both f (mapEs f)) := by
  simp only [expressions, List.length_map, (natural hf _).exprList]

theorem atEnd_map (ts : List Token) : atEnd (ts.map f) = atEnd ts := by
  cases ts with
  | nil => rfl
  | cons t ts => simp only [List.map_cons, atEnd, hf]

theorem ifAtEnd_map {α β : Type} {g : α → β} {x : Option (α × List Token)} {y : Option (β × List Token)} (h : y = x.map (both f g)) :
    ifAtEnd y = (ifAtEnd x).map (both f g) := by
  subst h
  cases x with
  | none => rfl
  | some x =>
    simp only [Option.map_some, both, ifAtEnd, atEnd_map hf]
    split <;> rfl

omit hf in
theorem bind_map {α α' β β' : Type} {x : Option α} {x' : Option α'} {g : α → α'} {k : α → Option β} {k' : α' → Option β'} {h : β → β'}
    (hx : x' = x.map g) (hk : ∀ a, k' (g a) = (k a).map h) : (x' >>= k') = (x >>= k).map h := by
  subst hx
  cases x with
  | none => rfl
  | some a => exact hk a

omit hf in
theorem or_map {α β : Type} {g : α → β} {x y : Option α} {x' y' : Option β} (hx : x' = x.map g) (hy : y' = y.map g) :
    x'.or y' = (x.or y).map g := by
  subst hx hy
  cases x <;> rfl

theorem parenthesised_map (ts : List Token) : parenthesised (ts.map f) = (parenthesised ts).map (both f (mapEs f)) := by
  unfold parenthesised
  refine bind_map (expect_map hf _ ts) fun us => ?_
  refine bind_map (expressions_map hf us) fun x => ?_
  refine bind_map (expect_map hf _ x.2) fun vs => ?_
  rfl

theorem gateInstruction_map (n : Nat) (ts : List Token) :
    gateInstruction n (ts.map f) = (gateInstruction n ts).map (both f fun x => (mapG f x.1, mapEs f x.2)) := by
  induction n generalizing ts with
  | zero => rfl
  | succ n ih =>
    cases ts with
    | nil => rfl
    | cons t ts =>
      simp only [List.map_cons, gateInstruction, hf]
      cases hk : t.kind
      case inv =>
        refine bind_map (expect_map hf _ ts) fun us => ?_
        refine bind_map (ih us) fun x => ?_
        rfl
      case ctrl =>
        refine bind_map (expect_map hf _ ts) fun us => ?_
        refine bind_map (ih us) fun x => ?_
        rfl
      case pow =>
        refine bind_map (expect_map hf _ ts) fun us => ?_
        refine bind_map (expression_map hf us) fun x => ?_
        refine bind_map (expect_map hf _ x.2) fun us => ?_
        refine bind_map (expect_map hf _ us) fun us => ?_
        refine bind_map (ih us) fun x => ?_
        rfl
      case identifier =>
        refine or_map (ifAtEnd_map hf ?_) (ifAtEnd_map hf ?_)
        · refine bind_map (parenthesised_map hf ts) fun x => ?_
          refine bind_map (expressions_map hf x.2) fun x => ?_
          rfl
        · refine bind_map (expressions_map hf ts) fun x => ?_
          rfl
      all_goals rfl

theorem measureInstruction_map (ts : List Token) : measureInstruction (ts.map f) = (measureInstruction ts).map (both f (mapS f)) := by
  unfold measureInstruction
  refine bind_map (expression_map hf ts) fun x => ?_
  refine bind_map (expect_map hf _ x.2) fun us => ?_
  cases us with
  | nil => rfl
  | cons kw us =>
    simp only [List.map_cons, hf]
    split
    · rfl
    · refine or_map (ifAtEnd_map hf ?_) (ifAtEnd_map hf ?_)
      · refine bind_map (parenthesised_map hf us) fun x => ?_
        refine bind_map (expression_map hf x.2) fun x => ?_
        rfl
      · refine bind_map (expression_map hf us) fun x => ?_
        rfl

theorem variableDefinition_map (kw : Token) (ts : List Token) :
    variableDefinition (f kw) (ts.map f) = (variableDefinition kw ts).map (both f (mapS f)) := by
  unfold variableDefinition
  rw [next_map hf]
  split
  · rw [← List.map_tail]
    match ts.tail with
    | n :: c :: name :: us => simp only [List.map_cons, hf]; split <;> rfl
    | [n, c] => rfl
    | [n] => rfl
    | [] => rfl
  · cases ts with
    | nil => rfl
    | cons name us => simp only [List.map_cons, hf]; split <;> rfl

theorem asmDeclaration_map (ts : List Token) : asmDeclaration (ts.map f) = (asmDeclaration ts).map (both f (mapS f)) := by
  match ts with
  | o :: name :: c :: raw :: us => simp only [List.map_cons, asmDeclaration, hf]; split <;> rfl
  | [o, n, c] => rfl
  | [n, c] => rfl
  | [n] => rfl
  | [] => rfl

theorem statement_map (ts : List Token) : statement (ts.map f) = (statement ts).map (both f (mapS f)) := by
  cases ts with
  | nil => rfl
  | cons t us =>
    simp only [List.map_cons, statement, hf]
    refine ifAtEnd_map hf ?_
    have hs : Option.map (fun x : PExpr × List Token => (PStmt.simple (f t) x.1, x.2)) (expression (us.map f))
        = (Option.map (fun x : PExpr × List Token => (PStmt.simple t x.1, x.2)) (expression us)).map (both f (mapS f)) := by
      rw [expression_map hf]
      cases expression us <;> rfl
    have hg : ((gateInstruction (f t :: us.map f).length (f t :: us.map f)).map fun x : (PGate × List PExpr) × List Token =>
          (PStmt.gate x.1.1 x.1.2, x.2)).or (measureInstruction (f t :: us.map f))
        = (((gateInstruction (t :: us).length (t :: us)).map fun x : (PGate × List PExpr) × List Token =>
          (PStmt.gate x.1.1 x.1.2, x.2)).or (measureInstruction (t :: us))).map (both f (mapS f)) := by
      refine or_map ?_ (measureInstruction_map hf (t :: us))
      have := gateInstruction_map hf (t :: us).length (t :: us)
      simp only [List.length_cons, List.length_map, List.map_cons] at this ⊢
      rw [this]
      cases gateInstruction (us.length + 1) (t :: us) <;> rfl
    cases hk : t.kind
    case qubitType => exact variableDefinition_map hf t us
    case bitType => exact variableDefinition_map hf t us
    case reset => exact hs
    case init => exact hs
    case barrier => exact hs
    case asm => exact asmDeclaration_map hf us
    case wait =>
      refine bind_map (expect_map hf _ us) fun us => ?_
      refine bind_map (expression_map hf us) fun x => ?_
      refine bind_map (expect_map hf _ x.2) fun us => ?_
      refine bind_map (expression_map hf us) fun x => ?_
      rfl
    all_goals exact hg

theorem separators_map (ts : List Token) : separators (ts.map f) = (separators ts).map f := by
  induction ts with
  | nil => rfl
  | cons t ts ih =>
    simp only [List.map_cons, separators, hf]
    split
    · exact ih
    · rfl

theorem block_map (n : Nat) (ts : List Token) : block n (ts.map f) = (block n ts).map (List.map (mapS f)) := by
  induction n generalizing ts with
  | zero => rfl
  | succ n ih =>
    simp only [block, separators_map hf, List.length_map]
    cases separators ts with
    | nil => rfl
    | cons t us =>
      simp only [List.map_cons, hf, List.isEmpty_map, List.length_cons, List.length_map]
      split
      · split <;> rfl
      · split
        · rfl
        · have := statement_map hf (t :: us)
          rw [List.map_cons] at this
          rw [this]
          cases statement (t :: us) with
          | none => rfl
          | some x =>
            simp only [Option.map_some, both, ih]
            cases block n x.2 <;> rfl

/-- The parser looks at the types of tokens only. -/
theorem parse_map (ts : List Token) : parse (ts.map f) = (parse ts).map (mapP f) := by
  unfold parse
  rw [separators_map hf]
  match separators ts with
  | v :: n :: us =>
    simp only [List.map_cons, hf, List.length_map, block_map hf]
    split
    · cases block (us.length + 1) us <;> rfl
    · rfl
  | [v] => rfl
  | [] => rfl

end Qasm
