import Verif.Spec.Lexer
import Verif.Model.SemanticAnalyzer
import Verif.Model.Parser
/-!
# The same trees and errors at other places

What a change of all source positions does to the trees and errors that carry them, and where the positions of a text go when
blank lines, comments or indentation are put in front of one of its lines.
-/

namespace Qasm.Spec

variable {F : Type}

/-! ## Trees elsewhere -/

mutual
/-- The expression elsewhere. -/
def placeExpr (m : Loc → Loc) : Expr F → Expr F
  | .boolLit l v => .boolLit (l.map m) v
  | .intLit l v => .intLit (l.map m) v
  | .floatLit l v => .floatLit (l.map m) v
  | .ident l n => .ident (l.map m) n
  | .index l e is => .index (l.map m) (placeExpr m e) (placeEntries m is)
  | .call l n es => .call (l.map m) n (placeExprs m es)
  | .un l o e => .un (l.map m) o (placeExpr m e)
  | .bin l o a b => .bin (l.map m) o (placeExpr m a) (placeExpr m b)
  | .tern l c a b => .tern (l.map m) (placeExpr m c) (placeExpr m a) (placeExpr m b)
/-- The expressions elsewhere. -/
def placeExprs (m : Loc → Loc) : List (Expr F) → List (Expr F)
  | [] => []
  | e :: es => placeExpr m e :: placeExprs m es
/-- The index entry elsewhere. -/
def placeEntry (m : Loc → Loc) : IndexEntry F → IndexEntry F
  | .item l e => .item (l.map m) (placeExpr m e)
  | .range l a b => .range (l.map m) (placeExpr m a) (placeExpr m b)
/-- The index entries elsewhere. -/
def placeEntries (m : Loc → Loc) : List (IndexEntry F) → List (IndexEntry F)
  | [] => []
  | i :: is => placeEntry m i :: placeEntries m is
end

/-- The annotation elsewhere. -/
def placeAnnotation (m : Loc → Loc) (a : AnnotationData F) : AnnotationData F :=
  ⟨a.interface, a.operation, placeExprs m a.operands, a.loc.map m⟩

/-- The gate elsewhere. -/
def placeGate (m : Loc → Loc) : Gate F → Gate F
  | .mk l as n none ps => .mk (l.map m) (as.map (placeAnnotation m)) n none (placeExprs m ps)
  | .mk l as n (some g) ps => .mk (l.map m) (as.map (placeAnnotation m)) n (some (placeGate m g)) (placeExprs m ps)

/-- The statement elsewhere. -/
def placeStmt (m : Loc → Loc) : Stmt F → Stmt F
  | .var l as n t => .var (l.map m) (as.map (placeAnnotation m)) ⟨n.name, n.loc.map m⟩ ⟨t.name, t.size, t.loc.map m⟩
  | .gate l as g es => .gate (l.map m) (as.map (placeAnnotation m)) (placeGate m g) (placeExprs m es)
  | .nonGate l as n es ps => .nonGate (l.map m) (as.map (placeAnnotation m)) n (placeExprs m es) (placeExprs m ps)
  | .asm l as n c => .asm (l.map m) (as.map (placeAnnotation m)) n c

/-- The program elsewhere. -/
def placeProgram (m : Loc → Loc) (p : ProgramAst F) : ProgramAst F :=
  ⟨⟨p.version.items, p.version.loc.map m⟩, ⟨p.block.statements.map (placeStmt m), p.block.loc.map m⟩, p.loc.map m⟩

/-! ## Results elsewhere -/

/-- The value elsewhere. -/
def placeNode (m : Loc → Loc) : ValueNode F → ValueNode F
  | .indexRef v is => .indexRef v (is.map fun i => (i.1, i.2.map m))
  | n => n

/-- The value elsewhere. -/
def placeValue (m : Loc → Loc) (v : Value F) : Value F := ⟨placeNode m v.node, v.loc.map m⟩

/-- The annotation elsewhere. -/
def placeSAnnotation (m : Loc → Loc) (a : SAnnotation F) : SAnnotation F :=
  ⟨a.interface, a.operation, a.operands.map (placeValue m), a.loc.map m⟩

/-- The gate elsewhere. -/
def placeSGate (m : Loc → Loc) : SGate F → SGate F
  | .mk n none ps as l => .mk n none (ps.map (placeValue m)) (as.map (placeSAnnotation m)) (l.map m)
  | .mk n (some g) ps as l => .mk n (some (placeSGate m g)) (ps.map (placeValue m)) (as.map (placeSAnnotation m)) (l.map m)

/-- The statement elsewhere. -/
def placeSStatement (m : Loc → Loc) : SStatement F → SStatement F
  | .gate i g vs as l => .gate i (placeSGate m g) (vs.map (placeValue m)) (as.map (placeSAnnotation m)) (l.map m)
  | .nonGate i n vs ps as l =>
    .nonGate i n (vs.map (placeValue m)) (ps.map (placeValue m)) (as.map (placeSAnnotation m)) (l.map m)
  | .asm n c as l => .asm n c (as.map (placeSAnnotation m)) (l.map m)

/-- The variable elsewhere. -/
def placeSVariable (m : Loc → Loc) (v : SVariable F) : SVariable F :=
  ⟨v.uid, v.name, v.typ, v.annotations.map (placeSAnnotation m), v.loc.map m⟩

/-- The semantic program elsewhere. -/
def placeSProgram (m : Loc → Loc) (p : SProgram F) : SProgram F :=
  ⟨p.apiVersion, ⟨p.version.items, p.version.loc.map m⟩, ⟨p.block.statements.map (placeSStatement m), p.block.loc.map m⟩,
    p.variables.map (placeSVariable m)⟩

/-- The error elsewhere: the message is the same. -/
def placeErr (m : Loc → Loc) (e : Err) : Err := ⟨e.message, e.location.map m⟩

/-- The result elsewhere: the root as `f` says, the same messages. -/
def placeResult {ρ : Type} (m : Loc → Loc) (f : ρ → ρ) (r : Result ρ) : Result ρ := ⟨r.root.map f, r.errors.map (placeErr m)⟩

/-! ## Where positions go -/

/-- A rearrangement of lines that leaves every line in one piece: the line a line becomes, and how far its characters are moved to
the right. -/
structure Shift where
  line : Nat → Nat
  right : Nat → Nat

/-- The lines stay in order. -/
def Shift.InOrder (s : Shift) : Prop := ∀ i j, i < j → s.line i < s.line j

/-- Where a position goes. -/
def Shift.index (s : Shift) (i : Index) : Index := ⟨s.line i.line, i.column + s.right i.line⟩

/-- Where a range of positions goes, in a file of the given name. -/
def Shift.loc (s : Shift) (file : Option Str) (l : Loc) : Loc := ⟨file, ⟨s.index l.range.first, s.index l.range.last⟩⟩

/-- No line is moved. -/
def Shift.none : Shift := ⟨id, fun _ => 0⟩

/-- What becomes of the positions of a text when the text `w` is inserted at the start of a line, after the lines `a`: what comes
before stays, the line itself is moved down by the number of new lines in `w` and to the right by what follows the last of
them, and the lines after it are moved down. -/
def Shift.inserted (a w : Str) : Shift :=
  ⟨fun n => if n < lineAfter a then n else n + w.count '\n', fun n => if n = lineAfter a then columnAfter w else 0⟩

/-- `Blank w b`: the text `w`, put before `b`, is made of lines that have only blanks, tabs and comments, the last of which may
be the beginning of the first line of `b`. -/
inductive Blank : Str → Str → Prop
  | last {t b : Str} : Trivia t b → Blank t b
  | line {t n w b : Str} : n = c!"\n" ∨ n = c!"\r\n" → Trivia t (n ++ (w ++ b)) → Blank w b → Blank (t ++ (n ++ w)) b

/-- In `a ++ b`, the text `b` starts a line: the lexer cuts `a` off in whole tokens, the last of which is a new line, and none of
them leaves a block comment or a raw string open. -/
def StartsLine (a b : Str) : Prop := ∃ segs, Cut .default (a ++ b) segs .default b ∧ Closed segs ∧
  (a = [] ∨ ∃ front n, segs = front ++ [(.newLine, n)])

/-- The lexer and the parser accept the text. -/
def Parses (text : Str) : Prop := ∃ ts pr, Lexer.lex text = .ok ts ∧ Parser.parse ts = some pr

end Qasm.Spec
