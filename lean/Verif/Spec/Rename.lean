import Verif.Spec.Layout
/-!
# Programs with other variable names

A renaming is a function on names. It is applied where a program speaks of variables: at declarations and at identifiers in
expressions. Names of functions, gates, instructions, types and assembly languages stay.
-/

namespace Qasm.Spec

variable {F : Type}

/-! ## Syntax trees -/

mutual
/-- The expression with renamed variables. -/
def renExpr (r : Str → Str) : Expr F → Expr F
  | .boolLit l v => .boolLit l v
  | .intLit l v => .intLit l v
  | .floatLit l v => .floatLit l v
  | .ident l n => .ident l (r n)
  | .index l e is => .index l (renExpr r e) (renEntries r is)
  | .call l n es => .call l n (renExprs r es)
  | .un l o e => .un l o (renExpr r e)
  | .bin l o a b => .bin l o (renExpr r a) (renExpr r b)
  | .tern l c a b => .tern l (renExpr r c) (renExpr r a) (renExpr r b)
/-- The expressions with renamed variables. -/
def renExprs (r : Str → Str) : List (Expr F) → List (Expr F)
  | [] => []
  | e :: es => renExpr r e :: renExprs r es
/-- The index entry with renamed variables. -/
def renEntry (r : Str → Str) : IndexEntry F → IndexEntry F
  | .item l e => .item l (renExpr r e)
  | .range l a b => .range l (renExpr r a) (renExpr r b)
/-- The index entries with renamed variables. -/
def renEntries (r : Str → Str) : List (IndexEntry F) → List (IndexEntry F)
  | [] => []
  | i :: is => renEntry r i :: renEntries r is
end

/-- The annotation with renamed variables. -/
def renAnnotation (r : Str → Str) (a : AnnotationData F) : AnnotationData F :=
  ⟨a.interface, a.operation, renExprs r a.operands, a.loc⟩

/-- The gate with renamed variables. -/
def renGate (r : Str → Str) : Gate F → Gate F
  | .mk l as n none ps => .mk l (as.map (renAnnotation r)) n none (renExprs r ps)
  | .mk l as n (some g) ps => .mk l (as.map (renAnnotation r)) n (some (renGate r g)) (renExprs r ps)

/-- The statement with renamed variables. -/
def renStmt (r : Str → Str) : Stmt F → Stmt F
  | .var l as n t => .var l (as.map (renAnnotation r)) ⟨r n.name, n.loc⟩ t
  | .gate l as g es => .gate l (as.map (renAnnotation r)) (renGate r g) (renExprs r es)
  | .nonGate l as n es ps => .nonGate l (as.map (renAnnotation r)) n (renExprs r es) (renExprs r ps)
  | .asm l as n c => .asm l (as.map (renAnnotation r)) n c

/-- The program with renamed variables. -/
def renProgram (r : Str → Str) (p : ProgramAst F) : ProgramAst F :=
  ⟨p.version, ⟨p.block.statements.map (renStmt r), p.block.loc⟩, p.loc⟩

/-! ## Results of analyses -/

/-- The link to the renamed variable. -/
def renLink (r : Str → Str) (l : VarLink) : VarLink := ⟨l.uid, r l.name, l.typ⟩

/-- The value with renamed variables. -/
def renNode (r : Str → Str) : ValueNode F → ValueNode F
  | .indexRef v is => .indexRef (renLink r v) is
  | .variableRef v => .variableRef (renLink r v)
  | n => n

/-- The value with renamed variables. -/
def renValue (r : Str → Str) (v : Value F) : Value F := ⟨renNode r v.node, v.loc⟩

/-- The annotation with renamed variables. -/
def renSAnnotation (r : Str → Str) (a : SAnnotation F) : SAnnotation F :=
  ⟨a.interface, a.operation, a.operands.map (renValue r), a.loc⟩

/-- The gate with renamed variables. -/
def renSGate (r : Str → Str) : SGate F → SGate F
  | .mk n none ps as l => .mk n none (ps.map (renValue r)) (as.map (renSAnnotation r)) l
  | .mk n (some g) ps as l => .mk n (some (renSGate r g)) (ps.map (renValue r)) (as.map (renSAnnotation r)) l

/-- The statement with renamed variables. -/
def renSStatement (r : Str → Str) : SStatement F → SStatement F
  | .gate i g vs as l => .gate i (renSGate r g) (vs.map (renValue r)) (as.map (renSAnnotation r)) l
  | .nonGate i n vs ps as l => .nonGate i n (vs.map (renValue r)) (ps.map (renValue r)) (as.map (renSAnnotation r)) l
  | .asm n c as l => .asm n c (as.map (renSAnnotation r)) l

/-- The renamed variable. -/
def renSVariable (r : Str → Str) (v : SVariable F) : SVariable F :=
  ⟨v.uid, r v.name, v.typ, v.annotations.map (renSAnnotation r), v.loc⟩

/-- The semantic program with renamed variables. -/
def renSProgram (r : Str → Str) (p : SProgram F) : SProgram F :=
  ⟨p.apiVersion, p.version, ⟨p.block.statements.map (renSStatement r), p.block.loc⟩, p.variables.map (renSVariable r)⟩

/-- What follows a prefix, if the text starts with it. -/
def after : Str → Str → Option Str
  | [], m => some m
  | _ :: _, [] => none
  | c :: p, d :: m => if c = d then after p m else none

/-- The message with the variable it names renamed. Two messages name a variable: that of an unknown variable and that of a
variable declared twice. -/
def renMessage (r : Str → Str) (m : Str) : Str :=
  match after c!"failed to resolve variable '" m with
  | some n => c!"failed to resolve variable '" ++ r n.dropLast ++ c!"'"
  | none =>
    match after c!"trying to redeclare variable '" m with
    | some n => c!"trying to redeclare variable '" ++ r n.dropLast ++ c!"'"
    | none => m

/-- The error with the variable it names renamed, at the same place. -/
def renErr (r : Str → Str) (e : Err) : Err := ⟨renMessage r e.message, e.location⟩

/-- The outcome with renamed variables. -/
def renResult (r : Str → Str) (x : Result (SProgram F)) : Result (SProgram F) :=
  ⟨x.root.map (renSProgram r), x.errors.map (renErr r)⟩

/-- An analysis that ends as the other one does, with renamed variables. -/
def Renamed (r : Str → Str) {α β ε : Type} (x : Res ε (α × Result (SProgram F))) (y : Res ε (β × Result (SProgram F))) : Prop :=
  match x, y with
  | .ok (_, s), .ok (_, s') => s' = renResult r s
  | .exn c, .exn c' => c = c'
  | .ub, .ub => True
  | _, _ => False

/-- An analysis that ends as the other one does, with renamed variables and other positions. -/
def RenamedElsewhere (r : Str → Str) {α β ε : Type} (x : Res ε (α × Result (SProgram F))) (y : Res ε (β × Result (SProgram F))) : Prop :=
  match x, y with
  | .ok (_, s), .ok (_, s') => SameResult (renResult r s) s'
  | .exn c, .exn c' => c = c'
  | .ub, .ub => True
  | _, _ => False

/-- The names every default analyser knows as constants. -/
def constantNames : List Str := [c!"true", c!"false", c!"pi", c!"eu", c!"tau"]

/-- The renaming gives different names to different variables and leaves the constants alone. -/
structure Renaming (r : Str → Str) : Prop where
  injective : ∀ x y, r x = r y → x = y
  constants : ∀ n ∈ constantNames, r n = n

/-- The renaming of one variable, where the new name gives way if it is taken. -/
def swap (x y : Str) (n : Str) : Str := if n = x then y else if n = y then x else n

/-! ## Texts -/

/-- A token with the identifier renamed. -/
def renSeen (r : Str → Str) (t : TokKind × Str) : TokKind × Str := (t.1, if t.1 = .identifier then r t.2 else t.2)

mutual
/-- The functions an expression calls. -/
def calls : Expr F → List Str
  | .index _ e is => calls e ++ callsEntries is
  | .call _ n es => n :: callsList es
  | .un _ _ e => calls e
  | .bin _ _ a b => calls a ++ calls b
  | .tern _ c a b => calls c ++ calls a ++ calls b
  | _ => []
/-- The functions expressions call. -/
def callsList : List (Expr F) → List Str
  | [] => []
  | e :: es => calls e ++ callsList es
/-- The functions an index entry calls. -/
def callsEntry : IndexEntry F → List Str
  | .item _ e => calls e
  | .range _ a b => calls a ++ calls b
/-- The functions index entries call. -/
def callsEntries : List (IndexEntry F) → List Str
  | [] => []
  | i :: is => callsEntry i ++ callsEntries is
end

/-- The names of a gate and the functions it calls. -/
def gateNames : Gate F → List Str
  | .mk _ _ n none ps => n :: callsList ps
  | .mk _ _ _ (some g) ps => gateNames g ++ callsList ps

/-- The names in a statement that are not names of variables. -/
def otherNames : Stmt F → List Str
  | .var _ _ _ _ => []
  | .gate _ _ g es => gateNames g ++ callsList es
  | .nonGate _ _ _ es ps => callsList es ++ callsList ps
  | .asm _ _ n _ => [n]

/-- The renaming leaves the names alone that are not names of variables. -/
def OnlyVariables (r : Str → Str) (p : ProgramAst F) : Prop := ∀ s ∈ p.block.statements, ∀ n ∈ otherNames s, r n = n

end Qasm.Spec
