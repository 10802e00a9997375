import Verif.Spec.Grammar
import Verif.Spec.Lexer
import Verif.Spec.Program
/-!
# The syntactic tree a program text denotes

Which tree the front end is to build for a parse tree, which literals are representable, and what trees and
errors look like apart from positions. Only the types of tokens, parse trees and syntactic trees are shared
with the model.
-/

namespace Qasm.Spec

open TokKind

variable {F : Type}

/-! ## Literals -/

/-- The value of a decimal digit. -/
def digitValue (c : Char) : Nat := ['0', '1', '2', '3', '4', '5', '6', '7', '8', '9'].idxOf c

/-- The number a text of decimal digits denotes. -/
def numeral : Str → Nat
  | [] => 0
  | c :: w => digitValue c * 10 ^ w.length + numeral w

/-- The largest integer. -/
def maxInt : Nat := 9223372036854775807

/-- The text denotes an integer that is representable, namely `n`. -/
def IntOf (w : Str) (n : Int64) : Prop := n.toInt = (numeral w : Int)

/-- The texts of the components of a version number. -/
def components (w : Str) : List Str :=
  let major := w.takeWhile (· ≠ '.')
  if major.length < w.length then [major, w.drop (major.length + 1)] else [major]

/-- The literal has a representable value. For floating-point literals that is up to `std::stod`. -/
def Representable (stod : Str → Option F) (t : Token) : Prop :=
  match t.kind with
  | integerLiteral => numeral t.text ≤ maxInt
  | floatLiteral => (stod t.text).isSome
  | versionNumber => ∀ w ∈ components t.text, numeral w ≤ maxInt
  | _ => True

/-- The `offset`-th part of the token's text, `w`, is a literal of the given type that has no representable value. -/
inductive Faulty (stod : Str → Option F) (t : Token) : Nat → Str → Str → Prop where
  | int : t.kind = integerLiteral → maxInt < numeral t.text → Faulty stod t 0 t.text c!"INTEGER_LITERAL"
  | float : t.kind = floatLiteral → stod t.text = none → Faulty stod t 0 t.text c!"FLOAT_LITERAL"
  | major {w : Str} {ws : List Str} : t.kind = versionNumber → components t.text = w :: ws → maxInt < numeral w →
      Faulty stod t 0 w c!"INTEGER_LITERAL"
  | minor {v w : Str} : t.kind = versionNumber → components t.text = [v, w] → maxInt < numeral w →
      Faulty stod t (v.length + 1) w c!"INTEGER_LITERAL"

/-- The error for a literal without representable value: it quotes the literal and points to its first character. -/
def LiteralError (stod : Str → Option F) (file : Option Str) (t : Token) (e : Err) : Prop :=
  ∃ offset w typ loc, Faulty stod t offset w typ ∧ e.message = c!"value '" ++ w ++ c!"' is out of the " ++ typ ++ c!" range"
    ∧ e.location = some loc ∧ loc.fileName = (if file = some [] then none else file)
    ∧ loc.range.first.line = t.line ∧ loc.range.first.column = t.column + offset + 1 ∧ loc.range.last = loc.range.first

/-! ## Trees -/

/-- The node is located at the token, in the file of that name, if any: lines as they are, columns from one,
the end being the column after the last character. -/
def At (file : Option Str) (t : Token) (l : Option Loc) : Prop :=
  ∃ loc, l = some loc ∧ loc.fileName = (if file = some [] then none else file)
    ∧ loc.range.first.line = t.line ∧ loc.range.first.column = t.column + 1
    ∧ loc.range.last.line = t.line ∧ loc.range.last.column = t.column + 1 + t.text.length

/-- The node is located at the smallest range from the first token to the end of the other. -/
def Spans (file : Option Str) (s t : Token) (l : Option Loc) : Prop :=
  ∃ loc, l = some loc ∧ loc.fileName = (if file = some [] then none else file) ∧
    ∀ r, Includes r loc.range ↔ Covers r ⟨s.line, s.column + 1⟩ ∧ Covers r ⟨s.line, s.column + 1 + s.text.length⟩ ∧
      Covers r ⟨t.line, t.column + 1 + t.text.length⟩

/-- The binary operators. -/
def binaryNodes : List (TokKind × BinOp) :=
  [(power, .pow), (product, .mul), (division, .div), (modulo, .mod), (plus, .add), (minus, .sub),
   (TokKind.shl, .shl), (TokKind.shr, .shr), (cmpGt, .gt), (cmpLt, .lt), (cmpGe, .ge), (cmpLe, .le),
   (cmpEq, .eq), (cmpNe, .ne), (bitwiseAnd, .band), (bitwiseXor, .bxor), (bitwiseOr, .bor),
   (logicalAnd, .land), (logicalXor, .lxor), (logicalOr, .lor)]

/-- The prefix operators that leave a node in the tree. -/
def unaryNodes : List (TokKind × UnOp) := [(minus, .neg), (bitwiseNot, .bnot), (logicalNot, .lnot)]

/-- What the phrases around `expression` denote. -/
inductive Node (F : Type) where
  | expr (e : Expr F)
  | exprs (es : List (Expr F))
  | entry (i : IndexEntry F)
  | entries (is : List (IndexEntry F))

/-- The syntactic tree of a phrase. Parentheses and a prefix `+` leave no trace. -/
inductive Tree (stod : Str → Option F) (file : Option Str) : Phrase → Node F → Prop where
  | parens {e : PExpr} {v : Expr F} :
      Tree stod file (.expr e) (.expr v) → Tree stod file (.expr (.parens e)) (.expr v)
  | plus {op : Token} {e : PExpr} {v : Expr F} :
      op.kind = TokKind.plus → Tree stod file (.expr e) (.expr v) → Tree stod file (.expr (.pre op e)) (.expr v)
  | pre {op : Token} {e : PExpr} {v : Expr F} {u : UnOp} {l : Option Loc} :
      (op.kind, u) ∈ unaryNodes → At file op l → Tree stod file (.expr e) (.expr v) →
        Tree stod file (.expr (.pre op e)) (.expr (.un l u v))
  | bin {op : Token} {a b : PExpr} {v w : Expr F} {u : BinOp} {l : Option Loc} :
      (op.kind, u) ∈ binaryNodes → At file op l → Tree stod file (.expr a) (.expr v) →
        Tree stod file (.expr b) (.expr w) → Tree stod file (.expr (.bin op a b)) (.expr (.bin l u v w))
  | tern {op : Token} {c a b : PExpr} {u v w : Expr F} {l : Option Loc} :
      At file op l → Tree stod file (.expr c) (.expr u) → Tree stod file (.expr a) (.expr v) →
        Tree stod file (.expr b) (.expr w) → Tree stod file (.expr (.tern op c a b)) (.expr (.tern l u v w))
  | call {name : Token} {es : List PExpr} {vs : List (Expr F)} {l : Option Loc} :
      At file name l → Tree stod file (.exprs es) (.exprs vs) →
        Tree stod file (.expr (.call name es)) (.expr (.call l name.text vs))
  | index {name : Token} {is : List PEntry} {vs : List (IndexEntry F)} {l : Option Loc} :
      At file name l → Tree stod file (.entries is) (.entries vs) →
        Tree stod file (.expr (.index name is)) (.expr (.index l (.ident none name.text) vs))
  | ident {t : Token} {l : Option Loc} :
      t.kind = identifier → At file t l → Tree stod file (.expr (.atom t)) (.expr (.ident l t.text))
  | true {t : Token} {l : Option Loc} :
      t.kind = booleanLiteral → t.text = c!"true" → At file t l → Tree stod file (.expr (.atom t)) (.expr (.boolLit l Bool.true))
  | false {t : Token} {l : Option Loc} :
      t.kind = booleanLiteral → t.text = c!"false" → At file t l → Tree stod file (.expr (.atom t)) (.expr (.boolLit l Bool.false))
  | int {t : Token} {n : Int64} {l : Option Loc} :
      t.kind = integerLiteral → IntOf t.text n → At file t l → Tree stod file (.expr (.atom t)) (.expr (.intLit l n))
  | float {t : Token} {x : F} {l : Option Loc} :
      t.kind = floatLiteral → stod t.text = some x → At file t l → Tree stod file (.expr (.atom t)) (.expr (.floatLit l x))
  | exprs0 : Tree stod file (.exprs []) (.exprs [])
  | exprsN {e : PExpr} {es : List PExpr} {v : Expr F} {vs : List (Expr F)} :
      Tree stod file (.expr e) (.expr v) → Tree stod file (.exprs es) (.exprs vs) →
        Tree stod file (.exprs (e :: es)) (.exprs (v :: vs))
  | item {e : PExpr} {v : Expr F} :
      Tree stod file (.expr e) (.expr v) → Tree stod file (.entry (.item e)) (.entry (.item none v))
  | range {a b : PExpr} {v w : Expr F} :
      Tree stod file (.expr a) (.expr v) → Tree stod file (.expr b) (.expr w) →
        Tree stod file (.entry (.range a b)) (.entry (.range none v w))
  | entries0 : Tree stod file (.entries []) (.entries [])
  | entriesN {i : PEntry} {is : List PEntry} {v : IndexEntry F} {vs : List (IndexEntry F)} :
      Tree stod file (.entry i) (.entry v) → Tree stod file (.entries is) (.entries vs) →
        Tree stod file (.entries (i :: is)) (.entries (v :: vs))

/-- The tree of a gate. -/
inductive GateTree (stod : Str → Option F) (file : Option Str) : PGate → Gate F → Prop where
  | inv {kw : Token} {g : PGate} {v : Gate F} {l : Option Loc} :
      At file kw l → GateTree stod file g v → GateTree stod file (.inv kw g) (.mk l [] kw.text (some v) [])
  | pow {kw : Token} {e : PExpr} {w : Expr F} {g : PGate} {v : Gate F} {l : Option Loc} :
      At file kw l → Tree stod file (.expr e) (.expr w) → GateTree stod file g v →
        GateTree stod file (.pow kw e g) (.mk l [] kw.text (some v) [w])
  | ctrl {kw : Token} {g : PGate} {v : Gate F} {l : Option Loc} :
      At file kw l → GateTree stod file g v → GateTree stod file (.ctrl kw g) (.mk l [] kw.text (some v) [])
  | named {name : Token} {ps : Option (List PExpr)} {vs : List (Expr F)} {l : Option Loc} :
      At file name l → Tree stod file (.exprs (ps.getD [])) (.exprs vs) →
        GateTree stod file (.named name ps) (.mk l [] name.text none vs)

/-- The names of the types. -/
def typeNodes : List (TokKind × Str) := [(qubitType, c!"qubit"), (bitType, c!"bit")]

/-- The location of a gate. -/
def locOfGate : Gate F → Option Loc
  | .mk l _ _ _ _ => l

/-- The tree of a statement. The code of an assembly declaration is the text between the quotes. -/
inductive StmtTree (stod : Str → Option F) (file : Option Str) : PStmt → Stmt F → Prop where
  | var {kw name : Token} {typ : Str} {l k : Option Loc} :
      (kw.kind, typ) ∈ typeNodes → At file name l → At file kw k →
        StmtTree stod file (.var kw none name) (.var l [] ⟨name.text, none⟩ ⟨typ, none, k⟩)
  | array {kw size c name : Token} {typ : Str} {n : Int64} {l k : Option Loc} :
      (kw.kind, typ) ∈ typeNodes → IntOf size.text n → At file name l → Spans file kw c k →
        StmtTree stod file (.var kw (some (size, c)) name) (.var l [] ⟨name.text, none⟩ ⟨typ, some n, k⟩)
  | gate {g : PGate} {es : List PExpr} {v : Gate F} {vs : List (Expr F)} :
      GateTree stod file g v → Tree stod file (.exprs es) (.exprs vs) →
        StmtTree stod file (.gate g es) (.gate (locOfGate v) [] v vs)
  | measure {kw : Token} {ps : Option (List PExpr)} {b q : PExpr} {us : List (Expr F)} {v w : Expr F} {l : Option Loc} :
      At file kw l → Tree stod file (.exprs (ps.getD [])) (.exprs us) → Tree stod file (.expr b) (.expr v) →
        Tree stod file (.expr q) (.expr w) →
        StmtTree stod file (.measure kw ps b q) (.nonGate l [] kw.text [v, w] us)
  | simple {kw : Token} {e : PExpr} {v : Expr F} {l : Option Loc} :
      At file kw l → Tree stod file (.expr e) (.expr v) →
        StmtTree stod file (.simple kw e) (.nonGate l [] kw.text [v] [])
  | wait {kw : Token} {p e : PExpr} {v w : Expr F} {l : Option Loc} :
      At file kw l → Tree stod file (.expr p) (.expr v) → Tree stod file (.expr e) (.expr w) →
        StmtTree stod file (.wait kw p e) (.nonGate l [] kw.text [w] [v])
  | asm {name raw : Token} {code : Str} :
      raw.text = c!"'''" ++ code ++ c!"'''" → StmtTree stod file (.asm name raw) (.asm none [] name.text code)

/-- The tree of a program. The version number is given by its components. -/
inductive ProgramTree (stod : Str → Option F) (file : Option Str) : PProgram → ProgramAst F → Prop where
  | mk {t : Token} {ns : List Int64} {l : Option Loc} {ss : List PStmt} {vs : List (Stmt F)} :
      Forall2 IntOf (components t.text) ns → At file t l → Forall2 (StmtTree stod file) ss vs →
        ProgramTree stod file ⟨t, ss⟩ ⟨⟨ns, l⟩, ⟨vs, none⟩, none⟩

/-- The token has a text of its type; an identifier is not one of the reserved words. -/
def Lexed (t : Token) : Prop :=
  t.kind = eof ∨ (Text t.kind t.text ∧
    (t.kind = identifier → t.text ∉ keywords.map (·.1) ∧ t.text ≠ c!"true" ∧ t.text ≠ c!"false"))

/-! ## Assembly declarations -/

/-- The same statement, except for the code of an assembly declaration. -/
inductive SameButCode : Stmt F → Stmt F → Prop
  | same {s : Stmt F} : SameButCode s s
  | asm {l : Option Loc} {as : List (AnnotationData F)} {name code code' : Str} :
      SameButCode (.asm l as name code) (.asm l as name code')

/-- The same for statements of the semantic tree. -/
inductive SameButCodeS : SStatement F → SStatement F → Prop
  | same {s : SStatement F} : SameButCodeS s s
  | asm {l : Option Loc} {as : List (SAnnotation F)} {name code code' : Str} :
      SameButCodeS (.asm name code as l) (.asm name code' as l)

/-- The assembly declarations among statements: backend name and code. -/
def asmsOf (ss : List (Stmt F)) : List (Str × Str) := ss.filterMap fun
  | .asm _ _ name code => some (name, code)
  | _ => none

/-- The assembly declarations among analysed statements. -/
def asmsOfS (ts : List (SStatement F)) : List (Str × Str) := ts.filterMap fun
  | .asm name code _ _ => some (name, code)
  | _ => none

end Qasm.Spec
