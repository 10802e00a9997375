import Verif.Model.SemanticAnalyzer
import Verif.Spec.Const
import Verif.Spec.Move
import Verif.Spec.Scope
/-!
# Names a program uses, and histories of registrations and analyses
-/

namespace Qasm.Spec

variable {F : Type}

/-- There are three sorts of names: those of values (constants and variables), of functions and of instructions. -/
inductive Sort'
  | value | function | instruction
  deriving DecidableEq

/-- A name and its sort. -/
abbrev Key := Sort' × Str

mutual
/-- The functions an expression calls. Operators are functions, too. -/
def called : Expr F → List Str
  | .boolLit _ _ | .intLit _ _ | .floatLit _ _ | .ident _ _ => []
  | .index _ e ixs => called e ++ calledEntries ixs
  | .call _ f args => f :: calledList args
  | .un _ op e => (Fn.un op).name :: called e
  | .bin _ op a b => (Fn.bin op).name :: (called a ++ called b)
  | .tern _ a b c => Fn.cond.name :: (called a ++ called b ++ called c)
/-- The functions a list of expressions calls. -/
def calledList : List (Expr F) → List Str
  | [] => []
  | e :: es => called e ++ calledList es
/-- The functions index entries call. -/
def calledEntries : List (IndexEntry F) → List Str
  | [] => []
  | .item _ e :: xs => called e ++ calledEntries xs
  | .range _ a b :: xs => called a ++ called b ++ calledEntries xs
end

/-- The functions annotations call. -/
def calledAnnotations : List (AnnotationData F) → List Str
  | [] => []
  | a :: as => calledList a.operands ++ calledAnnotations as

/-- The functions a gate calls, in parameters and annotations. -/
def calledGate : Gate F → List Str
  | .mk _ as _ none ps => calledAnnotations as ++ calledList ps
  | .mk _ as _ (some g) ps => calledAnnotations as ++ calledGate g ++ calledList ps

/-- The functions a statement calls. -/
def calledStmt : Stmt F → List Str
  | .var _ as _ _ => calledAnnotations as
  | .gate _ as g es => calledAnnotations as ++ calledGate g ++ calledList es
  | .nonGate _ as _ es ps => calledAnnotations as ++ calledList es ++ calledList ps
  | .asm _ as _ _ => calledAnnotations as

/-- The instruction a statement is. One with modifiers is a composition of the gate at the end, for one or two qubits. -/
def performed : Stmt F → List Str
  | .gate _ _ (.mk _ _ name none _) _ => [name]
  | .gate _ _ (.mk _ _ _ (some g) _) _ => [c!"1q_" ++ rootName g, c!"2q_" ++ rootName g]
  | .nonGate _ _ name _ _ => [name]
  | _ => []

/-- All names a statement uses or declares. -/
def uses (s : Stmt F) : List Key :=
  (mentioned s).map (Sort'.value, ·) ++ (calledStmt s).map (Sort'.function, ·) ++ (performed s).map (Sort'.instruction, ·)

/-- The program uses none of the names. -/
def Avoids (X : List Key) (p : ProgramAst F) : Prop := ∀ s ∈ p.block.statements, ∀ k ∈ uses s, k ∉ X

/-- The name a call registers. -/
def Call.registers : Call F → Option Key
  | .push | .pop => none
  | .var n _ => some (.value, n)
  | .instruction i => some (.instruction, i.name)
  | .function f _ _ => some (.function, f)

/-- What is done with an analyser: something is called, or a program is analysed. -/
inductive Event (F : Type)
  | call (c : Call F)
  | analyze (p : ProgramAst F)

/-- `Answers fo es a rs b`: the events take `a` to `b`, and the analyses return `rs`. A call that throws changes nothing, and the
user carries on. -/
inductive Answers (fo : FloatOps F) : List (Event F) → Analyzer F → List (Result (SProgram F)) → Analyzer F → Prop
  | nil {a} : Answers fo [] a [] a
  | ok {c es a b rs d} : c.on a = .ok b → Answers fo es b rs d → Answers fo (.call c :: es) a rs d
  | error {c es a e rs d} : c.on a = .err e → Answers fo es a rs d → Answers fo (.call c :: es) a rs d
  | analyze {p es a b r rs d} : Sem.analyze fo a p = .ok (b, r) → Answers fo es b rs d → Answers fo (.analyze p :: es) a (r :: rs) d

/-- Whether the event registers one of the names. -/
def Event.registersOneOf (X : List Key) : Event F → Bool
  | .call c => match c.registers with | some k => X.contains k | none => false
  | .analyze _ => false

/-- The history without the registrations of the names. -/
def without (X : List Key) (es : List (Event F)) : List (Event F) := es.filter fun e => !e.registersOneOf X

/-- Starting with `n` scopes, there is always a scope left: the last one is never popped. -/
def Kept : Nat → List (Event F) → Prop
  | _, [] => True
  | n, .call .push :: es => Kept (n + 1) es
  | n, .call .pop :: es => 2 ≤ n ∧ Kept (n - 1) es
  | n, _ :: es => Kept n es

/-- What an analysis returns, apart from the analyser. -/
def outcome (r : Res Empty (Analyzer F × Result (SProgram F))) : Res Empty (Result (SProgram F)) := r.bind fun x => .ok x.2

end Qasm.Spec
