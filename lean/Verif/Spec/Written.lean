import Verif.Spec.Layout
/-!
# Which syntactic trees can be written as text

Literals are not negative, names are words that are not reserved, only variables are indexed, operand and index lists
are not empty. Nothing else restricts how expressions are nested.
-/

namespace Qasm.Spec

variable {F : Type}

/-- A name: a word that is not reserved. -/
def Name (w : Str) : Prop := Word w ∧ w ∉ keywords.map (·.1) ∧ w ≠ c!"true" ∧ w ≠ c!"false"

/-- The expressions and lists of the language. A float is one that some float literal denotes. -/
inductive Writable (stod : Str → Option F) : Node F → Prop where
  | bool {l : Option Loc} {b : Bool} : Writable stod (.expr (.boolLit l b))
  | int {l : Option Loc} {n : Int64} : 0 ≤ n.toInt → Writable stod (.expr (.intLit l n))
  | float {l : Option Loc} {w : Str} {x : F} : Text .floatLiteral w → stod w = some x → Writable stod (.expr (.floatLit l x))
  | ident {l : Option Loc} {n : Str} : Name n → Writable stod (.expr (.ident l n))
  | index {l l' : Option Loc} {n : Str} {is : List (IndexEntry F)} :
      Name n → is ≠ [] → Writable stod (.entries is) → Writable stod (.expr (.index l (.ident l' n) is))
  | call {l : Option Loc} {n : Str} {es : List (Expr F)} : Name n → Writable stod (.exprs es) → Writable stod (.expr (.call l n es))
  | un {l : Option Loc} {o : UnOp} {e : Expr F} : Writable stod (.expr e) → Writable stod (.expr (.un l o e))
  | bin {l : Option Loc} {o : BinOp} {a b : Expr F} :
      Writable stod (.expr a) → Writable stod (.expr b) → Writable stod (.expr (.bin l o a b))
  | tern {l : Option Loc} {c a b : Expr F} :
      Writable stod (.expr c) → Writable stod (.expr a) → Writable stod (.expr b) → Writable stod (.expr (.tern l c a b))
  | exprs0 : Writable stod (.exprs [])
  | exprsN {e : Expr F} {es : List (Expr F)} : Writable stod (.expr e) → Writable stod (.exprs es) → Writable stod (.exprs (e :: es))
  | item {l : Option Loc} {e : Expr F} : Writable stod (.expr e) → Writable stod (.entry (.item l e))
  | range {l : Option Loc} {a b : Expr F} :
      Writable stod (.expr a) → Writable stod (.expr b) → Writable stod (.entry (.range l a b))
  | entries0 : Writable stod (.entries [])
  | entriesN {i : IndexEntry F} {is : List (IndexEntry F)} :
      Writable stod (.entry i) → Writable stod (.entries is) → Writable stod (.entries (i :: is))

/-- The gates of the language. -/
inductive WritableGate (stod : Str → Option F) : Gate F → Prop where
  | named {l : Option Loc} {n : Str} {ps : List (Expr F)} :
      Name n → Writable stod (.exprs ps) → WritableGate stod (.mk l [] n none ps)
  | inv {l : Option Loc} {g : Gate F} : WritableGate stod g → WritableGate stod (.mk l [] c!"inv" (some g) [])
  | pow {l : Option Loc} {g : Gate F} {e : Expr F} :
      Writable stod (.expr e) → WritableGate stod g → WritableGate stod (.mk l [] c!"pow" (some g) [e])
  | ctrl {l : Option Loc} {g : Gate F} : WritableGate stod g → WritableGate stod (.mk l [] c!"ctrl" (some g) [])

/-- The statements of the language. Assembly code must not contain the closing quotes, not even partly. -/
inductive WritableStmt (stod : Str → Option F) : Stmt F → Prop where
  | var {l l' k : Option Loc} {n t : Str} {size : Option Int64} :
      Name n → t = c!"qubit" ∨ t = c!"bit" → (∀ s, size = some s → 0 ≤ s.toInt) → WritableStmt stod (.var l [] ⟨n, l'⟩ ⟨t, size, k⟩)
  | gate {l : Option Loc} {g : Gate F} {es : List (Expr F)} :
      WritableGate stod g → es ≠ [] → Writable stod (.exprs es) → WritableStmt stod (.gate l [] g es)
  | measure {l : Option Loc} {b q : Expr F} {ps : List (Expr F)} :
      Writable stod (.expr b) → Writable stod (.expr q) → Writable stod (.exprs ps) →
        WritableStmt stod (.nonGate l [] c!"measure" [b, q] ps)
  | simple {l : Option Loc} {n : Str} {e : Expr F} :
      n = c!"reset" ∨ n = c!"init" ∨ n = c!"barrier" → Writable stod (.expr e) → WritableStmt stod (.nonGate l [] n [e] [])
  | wait {l : Option Loc} {p e : Expr F} :
      Writable stod (.expr p) → Writable stod (.expr e) → WritableStmt stod (.nonGate l [] c!"wait" [e] [p])
  | asm {l : Option Loc} {n code : Str} :
      Name n → ¬ c!"'''" <:+: code ++ c!"''" → WritableStmt stod (.asm l [] n code)

/-- The programs of the language: a version of one or two components, and statements. -/
def WritableProgram (stod : Str → Option F) (p : ProgramAst F) : Prop :=
  (p.version.items.length = 1 ∨ p.version.items.length = 2) ∧ (∀ n ∈ p.version.items, 0 ≤ n.toInt) ∧
    ∀ s ∈ p.block.statements, WritableStmt stod s

end Qasm.Spec
