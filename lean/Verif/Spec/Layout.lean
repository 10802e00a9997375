import Verif.Spec.Ast
import Verif.Model.SemanticAnalyzer
/-!
# What a program text means apart from its layout

Syntactic trees without positions, parse trees that differ in parentheses and prefix `+` only, and the pieces
of a token list between statement separators.
-/

namespace Qasm.Spec

open TokKind

variable {F : Type}

/-! ## Trees without positions -/

mutual
/-- The expression without positions. -/
def stripExpr : Expr F → Expr F
  | .boolLit _ v => .boolLit none v
  | .intLit _ v => .intLit none v
  | .floatLit _ v => .floatLit none v
  | .ident _ n => .ident none n
  | .index _ e is => .index none (stripExpr e) (stripEntries is)
  | .call _ n es => .call none n (stripExprs es)
  | .un _ o e => .un none o (stripExpr e)
  | .bin _ o a b => .bin none o (stripExpr a) (stripExpr b)
  | .tern _ c a b => .tern none (stripExpr c) (stripExpr a) (stripExpr b)
/-- The expressions without positions. -/
def stripExprs : List (Expr F) → List (Expr F)
  | [] => []
  | e :: es => stripExpr e :: stripExprs es
/-- The index entry without positions. -/
def stripEntry : IndexEntry F → IndexEntry F
  | .item _ e => .item none (stripExpr e)
  | .range _ a b => .range none (stripExpr a) (stripExpr b)
/-- The index entries without positions. -/
def stripEntries : List (IndexEntry F) → List (IndexEntry F)
  | [] => []
  | i :: is => stripEntry i :: stripEntries is
end

/-- The annotation without positions. -/
def stripAnnotation (a : AnnotationData F) : AnnotationData F := ⟨a.interface, a.operation, stripExprs a.operands, none⟩

/-- The gate without positions. -/
def stripGate : Gate F → Gate F
  | .mk _ as n none ps => .mk none (as.map stripAnnotation) n none (stripExprs ps)
  | .mk _ as n (some g) ps => .mk none (as.map stripAnnotation) n (some (stripGate g)) (stripExprs ps)

/-- The statement without positions. -/
def stripStmt : Stmt F → Stmt F
  | .var _ as n t => .var none (as.map stripAnnotation) ⟨n.name, none⟩ ⟨t.name, t.size, none⟩
  | .gate _ as g es => .gate none (as.map stripAnnotation) (stripGate g) (stripExprs es)
  | .nonGate _ as n es ps => .nonGate none (as.map stripAnnotation) n (stripExprs es) (stripExprs ps)
  | .asm _ as n c => .asm none (as.map stripAnnotation) n c

/-- The program without positions. -/
def stripProgram (p : ProgramAst F) : ProgramAst F :=
  ⟨⟨p.version.items, none⟩, ⟨p.block.statements.map stripStmt, none⟩, none⟩

/-! ## Results without positions -/

/-- The value without positions. -/
def stripNode : ValueNode F → ValueNode F
  | .indexRef v is => .indexRef v (is.map fun i => (i.1, none))
  | n => n

/-- The value without positions. -/
def stripValue (v : Value F) : Value F := ⟨stripNode v.node, none⟩

/-- The annotation without positions. -/
def stripSAnnotation (a : SAnnotation F) : SAnnotation F := ⟨a.interface, a.operation, a.operands.map stripValue, none⟩

/-- The gate without positions. -/
def stripSGate : SGate F → SGate F
  | .mk n none ps as _ => .mk n none (ps.map stripValue) (as.map stripSAnnotation) none
  | .mk n (some g) ps as _ => .mk n (some (stripSGate g)) (ps.map stripValue) (as.map stripSAnnotation) none

/-- The statement without positions. -/
def stripSStatement : SStatement F → SStatement F
  | .gate i g vs as _ => .gate i (stripSGate g) (vs.map stripValue) (as.map stripSAnnotation) none
  | .nonGate i n vs ps as _ => .nonGate i n (vs.map stripValue) (ps.map stripValue) (as.map stripSAnnotation) none
  | .asm n c as _ => .asm n c (as.map stripSAnnotation) none

/-- The variable without positions. -/
def stripSVariable (v : SVariable F) : SVariable F := ⟨v.uid, v.name, v.typ, v.annotations.map stripSAnnotation, none⟩

/-- The semantic program without positions. -/
def stripSProgram (p : SProgram F) : SProgram F :=
  ⟨p.apiVersion, ⟨p.version.items, none⟩, ⟨p.block.statements.map stripSStatement, none⟩, p.variables.map stripSVariable⟩

/-- Two results of an analysis that differ in positions only: the messages are the same in the same order, and the program is
the same. -/
def SameResult (r r' : Result (SProgram F)) : Prop :=
  r.errors.map Err.message = r'.errors.map Err.message ∧ r.root.map stripSProgram = r'.root.map stripSProgram

/-- Two analyses that end in the same way, up to positions. -/
def SameOutcome {α β ε : Type} (x : Res ε (α × Result (SProgram F))) (y : Res ε (β × Result (SProgram F))) : Prop :=
  match x, y with
  | .ok (_, r), .ok (_, r') => SameResult r r'
  | .exn c, .exn c' => c = c'
  | .ub, .ub => True
  | _, _ => False

/-- Two analyses of texts that end in the same way, up to positions: both texts are turned down by the parser, or neither is and
the analyses end in the same way. -/
def SameVerdict {α β ε : Type} (x : Res ε (α × Result (SProgram F))) (y : Res ε (β × Result (SProgram F))) : Prop :=
  (∃ a b e e', x = .ok (a, ⟨none, [e]⟩) ∧ y = .ok (b, ⟨none, [e']⟩)) ∨ SameOutcome x y

/-! ## Parse trees with more parentheses -/

/-- The tokens differ in their position at most. -/
def SameToken (a b : Token) : Prop := a.kind = b.kind ∧ a.text = b.text

/-- The second phrase is the first with some subexpressions put in parentheses or preceded by `+`. Token positions do
not matter. -/
inductive Dressed : Phrase → Phrase → Prop where
  | addParens {e e' : PExpr} : Dressed (.expr e) (.expr e') → Dressed (.expr e) (.expr (.parens e'))
  | addPlus {op : Token} {e e' : PExpr} :
      op.kind = plus → top e' = none → Dressed (.expr e) (.expr e') → Dressed (.expr e) (.expr (.pre op e'))
  | parens {e e' : PExpr} : Dressed (.expr e) (.expr e') → Dressed (.expr (.parens e)) (.expr (.parens e'))
  | pre {op op' : Token} {e e' : PExpr} :
      SameToken op op' → Dressed (.expr e) (.expr e') → Dressed (.expr (.pre op e)) (.expr (.pre op' e'))
  | bin {op op' : Token} {a a' b b' : PExpr} :
      SameToken op op' → Dressed (.expr a) (.expr a') → Dressed (.expr b) (.expr b') →
        Dressed (.expr (.bin op a b)) (.expr (.bin op' a' b'))
  | tern {op op' : Token} {c c' a a' b b' : PExpr} :
      SameToken op op' → Dressed (.expr c) (.expr c') → Dressed (.expr a) (.expr a') → Dressed (.expr b) (.expr b') →
        Dressed (.expr (.tern op c a b)) (.expr (.tern op' c' a' b'))
  | call {name name' : Token} {es es' : List PExpr} :
      SameToken name name' → Dressed (.exprs es) (.exprs es') → Dressed (.expr (.call name es)) (.expr (.call name' es'))
  | index {name name' : Token} {is is' : List PEntry} :
      SameToken name name' → Dressed (.entries is) (.entries is') →
        Dressed (.expr (.index name is)) (.expr (.index name' is'))
  | atom {t t' : Token} : SameToken t t' → Dressed (.expr (.atom t)) (.expr (.atom t'))
  | exprs0 : Dressed (.exprs []) (.exprs [])
  | exprsN {e e' : PExpr} {es es' : List PExpr} :
      Dressed (.expr e) (.expr e') → Dressed (.exprs es) (.exprs es') → Dressed (.exprs (e :: es)) (.exprs (e' :: es'))
  | item {e e' : PExpr} : Dressed (.expr e) (.expr e') → Dressed (.entry (.item e)) (.entry (.item e'))
  | range {a a' b b' : PExpr} :
      Dressed (.expr a) (.expr a') → Dressed (.expr b) (.expr b') → Dressed (.entry (.range a b)) (.entry (.range a' b'))
  | entries0 : Dressed (.entries []) (.entries [])
  | entriesN {i i' : PEntry} {is is' : List PEntry} :
      Dressed (.entry i) (.entry i') → Dressed (.entries is) (.entries is') →
        Dressed (.entries (i :: is)) (.entries (i' :: is'))

/-- The same for gates. -/
inductive DressedGate : PGate → PGate → Prop where
  | inv {kw kw' : Token} {g g' : PGate} : SameToken kw kw' → DressedGate g g' → DressedGate (.inv kw g) (.inv kw' g')
  | pow {kw kw' : Token} {e e' : PExpr} {g g' : PGate} :
      SameToken kw kw' → Dressed (.expr e) (.expr e') → DressedGate g g' → DressedGate (.pow kw e g) (.pow kw' e' g')
  | ctrl {kw kw' : Token} {g g' : PGate} : SameToken kw kw' → DressedGate g g' → DressedGate (.ctrl kw g) (.ctrl kw' g')
  | named {name name' : Token} : SameToken name name' → DressedGate (.named name none) (.named name' none)
  | parameters {name name' : Token} {es es' : List PExpr} :
      SameToken name name' → Dressed (.exprs es) (.exprs es') → DressedGate (.named name (some es)) (.named name' (some es'))

/-- The same for statements. -/
inductive DressedStmt : PStmt → PStmt → Prop where
  | var {kw kw' name name' : Token} : SameToken kw kw' → SameToken name name' → DressedStmt (.var kw none name) (.var kw' none name')
  | array {kw kw' n n' c c' name name' : Token} :
      SameToken kw kw' → SameToken n n' → SameToken name name' →
        DressedStmt (.var kw (some (n, c)) name) (.var kw' (some (n', c')) name')
  | gate {g g' : PGate} {es es' : List PExpr} :
      DressedGate g g' → Dressed (.exprs es) (.exprs es') → DressedStmt (.gate g es) (.gate g' es')
  | measure {kw kw' : Token} {b b' q q' : PExpr} :
      SameToken kw kw' → Dressed (.expr b) (.expr b') → Dressed (.expr q) (.expr q') →
        DressedStmt (.measure kw none b q) (.measure kw' none b' q')
  | measureParameters {kw kw' : Token} {es es' : List PExpr} {b b' q q' : PExpr} :
      SameToken kw kw' → Dressed (.exprs es) (.exprs es') → Dressed (.expr b) (.expr b') → Dressed (.expr q) (.expr q') →
        DressedStmt (.measure kw (some es) b q) (.measure kw' (some es') b' q')
  | simple {kw kw' : Token} {e e' : PExpr} :
      SameToken kw kw' → Dressed (.expr e) (.expr e') → DressedStmt (.simple kw e) (.simple kw' e')
  | wait {kw kw' : Token} {p p' e e' : PExpr} :
      SameToken kw kw' → Dressed (.expr p) (.expr p') → Dressed (.expr e) (.expr e') → DressedStmt (.wait kw p e) (.wait kw' p' e')
  | asm {name name' raw raw' : Token} : SameToken name name' → SameToken raw raw' → DressedStmt (.asm name raw) (.asm name' raw')

/-- The same for programs. -/
def DressedProgram (p p' : PProgram) : Prop :=
  SameToken p.version p'.version ∧ Forall2 DressedStmt p.statements p'.statements

/-- The first token of the expression is an opening parenthesis. -/
def opensParens : PExpr → Bool
  | .parens _ => true
  | .bin _ l _ => opensParens l
  | .tern _ c _ _ => opensParens c
  | _ => false

/-- The statement has no parameters, but what follows the gate name or `measure` starts with an opening parenthesis, so
that it may be taken for parameters. -/
def Doubtful : PStmt → Prop
  | .gate g es => gateHasParameters g = false ∧ ∃ e, es.head? = some e ∧ opensParens e = true
  | .measure _ none _ q => opensParens q = true
  | _ => False

/-! ## Pieces between separators -/

/-- The list cut at the elements with the given property. -/
def splitAt {α : Type} (p : α → Bool) : List α → List (List α)
  | [] => [[]]
  | a :: l =>
    if p a then [] :: splitAt p l
    else match splitAt p l with
      | [] => [[a]]
      | x :: xs => (a :: x) :: xs

/-- The non-empty parts between elements with the given property. -/
def pieces {α : Type} (p : α → Bool) (l : List α) : List (List α) := (splitAt p l).filter (!·.isEmpty)

/-- What the parser sees, cut into pieces: the texts of the tokens between separators and before the end of the file. -/
def statementsSeen (us : List (TokKind × Str)) : List (List (TokKind × Str)) :=
  pieces (fun p => separatorKinds.contains p.1) (us.filter fun p => p.1 != eof)

end Qasm.Spec
