import Verif.Spec.Ast
/-!
# Where the nodes of a tree stand in the text

Only the types of the model are used.
-/

namespace Qasm.Spec

variable {F : Type}

/-- The word stands in the text at the location: in the line after as many newlines as precede it, from the column after
the characters of its line before it (columns count from one) to the column after its last character. A file name is
recorded unless it is empty. The word has at least one character. -/
def WordAt (text : Str) (file : Option Str) (w : Str) (l : Option Loc) : Prop :=
  w ≠ [] ∧ ∃ before after loc, text = before ++ w ++ after ∧ l = some loc ∧
    loc.fileName = (if file = some [] then none else file) ∧
    loc.range.first = ⟨lineAfter before, columnAfter before + 1⟩ ∧
    loc.range.last = ⟨lineAfter before, columnAfter before + 1 + w.length⟩

/-- The location is that of the text from one word to the other. -/
def SpanAt (text : Str) (file : Option Str) (v w : Str) (l : Option Loc) : Prop :=
  ∃ before between after loc, text = before ++ v ++ between ++ w ++ after ∧ l = some loc ∧
    loc.fileName = (if file = some [] then none else file) ∧
    loc.range.first = ⟨lineAfter before, columnAfter before + 1⟩ ∧
    loc.range.last = ⟨lineAfter (before ++ v ++ between), columnAfter (before ++ v ++ between) + 1 + w.length⟩

/-- The symbols of the prefix operators. -/
def unarySymbol : UnOp → Str
  | .neg => c!"-"
  | .bnot => c!"~"
  | .lnot => c!"!"

/-- The symbols of the binary operators. -/
def binarySymbol : BinOp → Str
  | .pow => c!"**"
  | .mul => c!"*"
  | .div => c!"/"
  | .mod => c!"%"
  | .add => c!"+"
  | .sub => c!"-"
  | .shl => c!"<<"
  | .shr => c!">>"
  | .gt => c!">"
  | .lt => c!"<"
  | .ge => c!">="
  | .le => c!"<="
  | .eq => c!"=="
  | .ne => c!"!="
  | .band => c!"&"
  | .bxor => c!"^"
  | .bor => c!"|"
  | .land => c!"&&"
  | .lxor => c!"^^"
  | .lor => c!"||"

/-- Every node is located at the word of the text that makes it one: a literal at itself, a variable, call or indexing at
the name, an operation at the operator. The entries of an index and the variable in front of it have no location of their
own. -/
inductive Located (stod : Str → Option F) (text : Str) (file : Option Str) : Node F → Prop where
  | true {l : Option Loc} : WordAt text file c!"true" l → Located stod text file (.expr (.boolLit l Bool.true))
  | false {l : Option Loc} : WordAt text file c!"false" l → Located stod text file (.expr (.boolLit l Bool.false))
  | int {l : Option Loc} {w : Str} {n : Int64} : WordAt text file w l → Text .integerLiteral w → IntOf w n →
      Located stod text file (.expr (.intLit l n))
  | float {l : Option Loc} {w : Str} {x : F} : WordAt text file w l → Text .floatLiteral w → stod w = some x →
      Located stod text file (.expr (.floatLit l x))
  | ident {l : Option Loc} {name : Str} : WordAt text file name l → Located stod text file (.expr (.ident l name))
  | index {l : Option Loc} {name : Str} {is : List (IndexEntry F)} : WordAt text file name l →
      Located stod text file (.entries is) → Located stod text file (.expr (.index l (.ident none name) is))
  | call {l : Option Loc} {name : Str} {es : List (Expr F)} : WordAt text file name l →
      Located stod text file (.exprs es) → Located stod text file (.expr (.call l name es))
  | un {l : Option Loc} {op : UnOp} {e : Expr F} : WordAt text file (unarySymbol op) l →
      Located stod text file (.expr e) → Located stod text file (.expr (.un l op e))
  | bin {l : Option Loc} {op : BinOp} {a b : Expr F} : WordAt text file (binarySymbol op) l →
      Located stod text file (.expr a) → Located stod text file (.expr b) → Located stod text file (.expr (.bin l op a b))
  | tern {l : Option Loc} {a b c : Expr F} : WordAt text file c!"?" l → Located stod text file (.expr a) →
      Located stod text file (.expr b) → Located stod text file (.expr c) → Located stod text file (.expr (.tern l a b c))
  | exprs0 : Located stod text file (.exprs [])
  | exprsN {e : Expr F} {es : List (Expr F)} : Located stod text file (.expr e) → Located stod text file (.exprs es) →
      Located stod text file (.exprs (e :: es))
  | item {e : Expr F} : Located stod text file (.expr e) → Located stod text file (.entry (.item none e))
  | range {a b : Expr F} : Located stod text file (.expr a) → Located stod text file (.expr b) →
      Located stod text file (.entry (.range none a b))
  | entries0 : Located stod text file (.entries [])
  | entriesN {i : IndexEntry F} {is : List (IndexEntry F)} : Located stod text file (.entry i) →
      Located stod text file (.entries is) → Located stod text file (.entries (i :: is))

/-- A gate is located at its name, a modifier at its keyword. -/
inductive LocatedGate (stod : Str → Option F) (text : Str) (file : Option Str) : Gate F → Prop where
  | named {l : Option Loc} {name : Str} {ps : List (Expr F)} : WordAt text file name l →
      Located stod text file (.exprs ps) → LocatedGate stod text file (.mk l [] name none ps)
  | modifier {l : Option Loc} {name : Str} {ps : List (Expr F)} {g : Gate F} : name ∈ [c!"inv", c!"pow", c!"ctrl"] →
      WordAt text file name l → Located stod text file (.exprs ps) → LocatedGate stod text file g →
      LocatedGate stod text file (.mk l [] name (some g) ps)

/-- A declaration is located at the name of the variable, its type at the keyword, or from there to the bracket that closes
the size, a gate instruction at its first name, any other instruction at its
keyword. An assembly declaration has no location. -/
inductive LocatedStmt (stod : Str → Option F) (text : Str) (file : Option Str) : Stmt F → Prop where
  | var {l k : Option Loc} {name typ : Str} : WordAt text file name l → WordAt text file typ k →
      LocatedStmt stod text file (.var l [] ⟨name, none⟩ ⟨typ, none, k⟩)
  | array {l k : Option Loc} {name typ : Str} {n : Int64} : WordAt text file name l → SpanAt text file typ c!"]" k →
      LocatedStmt stod text file (.var l [] ⟨name, none⟩ ⟨typ, some n, k⟩)
  | gate {l : Option Loc} {as : List (AnnotationData F)} {name : Str} {g : Option (Gate F)} {ps es : List (Expr F)} :
      LocatedGate stod text file (.mk l as name g ps) → Located stod text file (.exprs es) →
      LocatedStmt stod text file (.gate l [] (.mk l as name g ps) es)
  | nonGate {l : Option Loc} {name : Str} {es ps : List (Expr F)} :
      name ∈ [c!"measure", c!"reset", c!"init", c!"barrier", c!"wait"] → WordAt text file name l →
      Located stod text file (.exprs es) → Located stod text file (.exprs ps) →
      LocatedStmt stod text file (.nonGate l [] name es ps)
  | asm {name code : Str} : LocatedStmt stod text file (.asm none [] name code)

/-- The version is located at its number. -/
def LocatedProgram (stod : Str → Option F) (text : Str) (file : Option Str) (p : ProgramAst F) : Prop :=
  (∃ w, WordAt text file w p.version.loc ∧ Text .versionNumber w ∧ Forall2 IntOf (components w) p.version.items) ∧
    p.block.loc = none ∧ p.loc = none ∧ ∀ s ∈ p.block.statements, LocatedStmt stod text file s

end Qasm.Spec
