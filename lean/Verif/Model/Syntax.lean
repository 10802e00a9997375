import Verif.Model.Version
import Verif.Model.Err
/-!
# The syntactic tree: `src/v3x/syntactic.tree`

Every node has an optional source location annotation (`loc`), as nodes can be built without one.
Simplifications: list nodes (`expression_list`, `index_list`) are plain lists, their locations are not
kept; `keyword` nodes are their name; a missing `Maybe<expression_list>` of a function call is the empty
list (the semantic analyser treats both alike).
-/

namespace Qasm

/-- `syntactic::Identifier`, src/v3x/syntactic.tree. -/
structure Ident where
  name : Str
  loc : Option Loc
  deriving Repr, DecidableEq

/-- The subclasses of `unary_expression`, src/v3x/syntactic.tree. -/
inductive UnOp where
  | neg | bnot | lnot
  deriving Repr, DecidableEq

/-- The subclasses of `binary_expression`, src/v3x/syntactic.tree. -/
inductive BinOp where
  | pow | mul | div | mod | add | sub
  | shl | shr
  | gt | lt | ge | le
  | eq | ne
  | band | bxor | bor
  | land | lxor | lor
  deriving Repr, DecidableEq

mutual
/-- `syntactic::Expression` and its subclasses, src/v3x/syntactic.tree. -/
inductive Expr (F : Type) where
  | boolLit (loc : Option Loc) (value : Bool)
  | intLit (loc : Option Loc) (value : Int64)
  | floatLit (loc : Option Loc) (value : F)
  | ident (loc : Option Loc) (name : Str)
  | index (loc : Option Loc) (expr : Expr F) (indices : List (IndexEntry F))
  | call (loc : Option Loc) (name : Str) (args : List (Expr F))
  | un (loc : Option Loc) (op : UnOp) (expr : Expr F)
  | bin (loc : Option Loc) (op : BinOp) (lhs rhs : Expr F)
  | tern (loc : Option Loc) (cond ifTrue ifFalse : Expr F)
/-- `syntactic::IndexEntry` and its subclasses, src/v3x/syntactic.tree. -/
inductive IndexEntry (F : Type) where
  | item (loc : Option Loc) (index : Expr F)
  | range (loc : Option Loc) (first last : Expr F)
end

/-- The source location annotation of an expression node. -/
def Expr.loc {F : Type} : Expr F → Option Loc
  | .boolLit l _ | .intLit l _ | .floatLit l _ | .ident l _ | .index l _ _ | .call l _ _
  | .un l _ _ | .bin l _ _ _ | .tern l _ _ _ => l

/-- `syntactic::AnnotationData`, src/v3x/syntactic.tree. -/
structure AnnotationData (F : Type) where
  interface : Str
  operation : Str
  operands : List (Expr F)
  loc : Option Loc

/-- `syntactic::Gate`, src/v3x/syntactic.tree. -/
inductive Gate (F : Type) where
  | mk (loc : Option Loc) (annotations : List (AnnotationData F)) (name : Str) (inner : Option (Gate F))
      (parameters : List (Expr F))

/-- `syntactic::Type`: keyword and optional size, src/v3x/syntactic.tree. -/
structure TypeAst where
  name : Str
  size : Option Int64
  loc : Option Loc
  deriving Repr, DecidableEq

/-- `syntactic::Statement` and its subclasses, src/v3x/syntactic.tree. -/
inductive Stmt (F : Type) where
  | var (loc : Option Loc) (annotations : List (AnnotationData F)) (name : Ident) (typ : TypeAst)
  | gate (loc : Option Loc) (annotations : List (AnnotationData F)) (gate : Gate F) (operands : List (Expr F))
  | nonGate (loc : Option Loc) (annotations : List (AnnotationData F)) (name : Str)
      (operands parameters : List (Expr F))
  | asm (loc : Option Loc) (annotations : List (AnnotationData F)) (backendName backendCode : Str)

/-- The source location annotation of a statement node. -/
def Stmt.loc {F : Type} : Stmt F → Option Loc
  | .var l _ _ _ | .gate l _ _ _ | .nonGate l _ _ _ _ | .asm l _ _ _ => l

/-- `syntactic::Version`, src/v3x/syntactic.tree. -/
structure VersionAst where
  items : Version
  loc : Option Loc

/-- `syntactic::GlobalBlock`, src/v3x/syntactic.tree. -/
structure BlockAst (F : Type) where
  statements : List (Stmt F)
  loc : Option Loc

/-- `syntactic::Program`, src/v3x/syntactic.tree. -/
structure ProgramAst (F : Type) where
  version : VersionAst
  block : BlockAst F
  loc : Option Loc

end Qasm
