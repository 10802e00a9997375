import Verif.Model.Api
import Lean.Data.Json.Parser
open Qasm Syn Sem

def S (s : Str) : String := String.ofList s

def fmtF (x : Float) : String :=
  -- %g with 6 digits, rough
  if x == x.floor && x.abs < 1e6 then toString (Int64.toInt x.toInt64) else
  let neg := x < 0
  let y := x.abs
  -- find exponent
  let rec go (n : Nat) (e : Int) (y : Float) : Int × Float := match n with
    | 0 => (e, y)
    | n+1 => if y ≥ 10 then go n (e+1) (y/10) else if y < 1 then go n (e-1) (y*10) else (e,y)
  let (e,_) := go 400 0 y
  let digits := 5 - e
  let sc := Float.pow 10 (Float.ofInt digits)
  let r := (y*sc).round.toUInt64.toNat
  let s := toString r
  let s := if e ≥ 0 then
      let ip := s.toList.take (e.toNat+1); let fp := s.toList.drop (e.toNat+1)
      let fp := (fp.reverse.dropWhile (· == '0')).reverse
      String.ofList ip ++ (if fp.isEmpty then "" else "." ++ String.ofList fp)
    else "0." ++ String.ofList (List.replicate ((-e-1).toNat) '0') ++ String.ofList ((s.toList.reverse.dropWhile (· == '0')).reverse)
  (if neg then "-" else "") ++ s

def stodF (s : Str) : Option Float :=
  match Lean.Json.Parser.num.run (let t := S s; let t := if t.startsWith "." then "0" ++ t else t
                                  (t.replace ".e" ".0e") ++ "") with
  | .ok n => if n.toFloat.isInf then none else some n.toFloat
  | .error _ => some 0

def fo : FloatOps Float where
  ofInt i := i.toFloat
  ofBool b := if b then 1 else 0
  neg a := -a
  add a b := a + b
  sub a b := a - b
  mul a b := a * b
  div a b := a / b
  pow a b := Float.pow a b
  eq a b := a == b
  ne a b := a != b
  ge a b := a ≥ b
  gt a b := a > b
  le a b := a ≤ b
  lt a b := a < b
  sqrt := Float.sqrt
  exp := Float.exp
  log := Float.log
  sin := Float.sin
  cos := Float.cos
  tan := Float.tan
  sinh := Float.sinh
  cosh := Float.cosh
  tanh := Float.tanh
  asin := Float.asin
  acos := Float.acos
  atan := Float.atan
  asinh := Float.asinh
  acosh := Float.acosh
  atanh := Float.atanh
  abs := Float.abs
  pi := 3.14159265358979323846
  e := 2.718281828459045
  tau := 6.283185307179586
  stod := stodF

def an : Antlr Float := ⟨stodF, fun _ => c!"SYNTAX", fun _ => false, ⟨fun _ => false, .abc, false⟩⟩

abbrev Lines := List String
def ind (n : Nat) : Lines → Lines := List.map fun l => "".pushn ' ' (2*n) ++ l
def one (f : String) (l : Lines) : Lines := [f ++ ": <"] ++ ind 1 l ++ [">"]
def many (f : String) (l : List Lines) : Lines := if l.isEmpty then [f ++ ": []"] else [f ++ ": ["] ++ ind 1 l.flatten ++ ["]"]
def node (n : String) (loc : Option Loc) (fs : List Lines) : Lines :=
  [n ++ "(" ++ (match loc with | none => "" | some l => " # " ++ S l.print)] ++ ind 1 fs.flatten ++ [")"]
def pr (f : String) (v : String) : Lines := [f ++ ": " ++ v]

def unN : UnOp → String | .neg => "UnaryMinusExpression" | .bnot => "BitwiseNotExpression" | .lnot => "LogicalNotExpression"

mutual
partial def dE : Expr Float → Lines
  | .boolLit l v => node "BooleanLiteral" l [pr "value" (toString v)]
  | .intLit l v => node "IntegerLiteral" l [pr "value" (toString v)]
  | .floatLit l v => node "FloatLiteral" l [pr "value" (fmtF v)]
  | .ident l v => node "Identifier" l [pr "name" (S v)]
  | .index l e is => node "Index" l [one "expr" (dE e), one "indices" (node "IndexList" none [many "items" (is.map dI)])]
  | .call l n as => node "FunctionCall" l [one "name" (node "Identifier" none [pr "name" (S n)]), one "arguments" (dL as)]
  | .un l op e => node (unN op) l [one "expr" (dE e)]
  | .bin l _ a b => node "BIN" l [one "lhs" (dE a), one "rhs" (dE b)]
  | .tern l a b c => node "TernaryConditionalExpression" l [one "cond" (dE a), one "if_true" (dE b), one "if_false" (dE c)]
partial def dI : IndexEntry Float → Lines
  | .item l e => node "IndexItem" l [one "index" (dE e)]
  | .range l a b => node "IndexRange" l [one "first" (dE a), one "last" (dE b)]
partial def dL (es : List (Expr Float)) : Lines := node "ExpressionList" none [many "items" (es.map dE)]
end

def dA (a : AnnotationData Float) : Lines := node "AnnotationData" a.loc []

partial def dG : Gate Float → Lines
  | .mk l as n inner ps => node "Gate" l [one "name" (node "Identifier" none [pr "name" (S n)]),
     (match inner with | none => pr "gate" "-" | some g => one "gate" (dG g)), one "parameters" (dL ps), many "annotations" (as.map dA)]

def dS : Stmt Float → Lines
  | .var l as n t => node "Variable" l [one "name" (node "Identifier" n.loc [pr "name" (S n.name)]),
      one "typ" (node "Type" none [one "name" (node "Keyword" none [pr "name" (S t.name)]),
        match t.size with | none => pr "size" "-" | some n => one "size" (node "IntegerLiteral" none [pr "value" (toString n)])]),
      many "annotations" (as.map dA)]
  | .gate l as g es => node "GateInstruction" l [one "gate" (dG g), one "operands" (dL es), many "annotations" (as.map dA)]
  | .nonGate l as n es ps => node "NonGateInstruction" l [one "name" (node "Keyword" none [pr "name" (S n)]), one "operands" (dL es), one "parameters" (dL ps), many "annotations" (as.map dA)]
  | .asm l as n c => node "AsmDeclaration" l [one "backend_name" (node "Identifier" none [pr "name" (S n)]), (S c |> ("backend_code: " ++ ·) |> ([·])), many "annotations" (as.map dA)]

def dP (p : ProgramAst Float) : Lines := node "Program" p.loc [one "version" (node "Version" p.version.loc [pr "items" (S (Version.print p.version.items))]),
  one "block" (node "GlobalBlock" p.block.loc [many "statements" (p.block.statements.map dS)])]

def kN : Kind → String | .bool => "Bool" | .int => "Int" | .float => "Float" | .bit => "Bit" | .qubit => "Qubit" | .bitArray => "BitArray" | .qubitArray => "QubitArray"
def sVar (n : Str) (t : Ty) : Lines := node "Variable" none [pr "name" (S n), one "typ" (node (kN t.kind) none [pr "size" (toString t.size)]), many "annotations" []]
def dV (v : Value Float) : Lines := match v.node with
  | .constBool b => node "ConstBool" none [pr "value" (toString b)]
  | .constInt b => node "ConstInt" none [pr "value" (toString b)]
  | .constFloat b => node "ConstFloat" none [pr "value" (fmtF b)]
  | .variableRef l => node "VariableRef" none [["variable --> <"] ++ ind 1 (sVar l.name l.typ) ++ [">"]]
  | .indexRef l is => node "IndexRef" none [["variable --> <"] ++ ind 1 (sVar l.name l.typ) ++ [">"], many "indices" (is.map fun i => node "ConstInt" none [pr "value" (toString i.1)])]
partial def sG : SGate Float → Lines
  | .mk n inner ps _ _ => node "Gate" none [pr "name" (S n), (match inner with | none => pr "gate" "-" | some g => one "gate" (sG g)), many "parameters" (ps.map dV), many "annotations" []]
def insN (i : Instruction) : String := S (i.name ++ c!"(" ++ Types.printList i.operandTypes ++ c!")")
def sS : SStatement Float → Lines
  | .gate r g ops _ _ => node "GateInstruction" none [pr "instruction_ref" (insN r), one "gate" (sG g), many "operands" (ops.map dV), many "annotations" []]
  | .nonGate r n ops ps _ _ => node "NonGateInstruction" none [pr "instruction_ref" (insN r), pr "name" (S n), many "operands" (ops.map dV), many "parameters" (ps.map dV), many "annotations" []]
  | .asm n c _ _ => node "AsmDeclaration" none [pr "backend_name" (S n), pr "backend_code" (S c), many "annotations" []]
def sP (p : SProgram Float) : Lines := node "Program" none [pr "api_version" (S (Version.print p.apiVersion)),
  one "version" (node "Version" none [pr "items" (S (Version.print p.version.items))]),
  one "block" (node "Block" none [many "statements" (p.block.statements.map sS)]),
  many "variables" (p.variables.map fun v => sVar v.name v.typ)]

def main (args : List String) : IO Unit := do
  let dir := args.head!
  for f in args.tail! do
    let text ← IO.FS.readFile (f ++ "/input.cq")
    let out := dir ++ "/" ++ (f.splitOn "/integration/").getLast!.replace "/" "@"
    match parseString an text.toList (some c!"input.cq") with
    | .ok ⟨some p, []⟩ =>
      IO.FS.writeFile (out ++ ".ast") ("SUCCESS\n" ++ "\n".intercalate (dP p) ++ "\n\n")
      match Analyzer.default fo [3, 0] with
      | .ok a => match analyze fo a p with
        | .ok (_, ⟨some r, []⟩) => IO.FS.writeFile (out ++ ".sem") ("SUCCESS\n" ++ "\n".intercalate (sP r) ++ "\n\n")
        | .ok (_, ⟨_, es⟩) =>
          IO.FS.writeFile (out ++ ".json") ((String.fromUTF8? ⟨(Result.errorsToJson es).toArray⟩).getD "?")
          IO.FS.writeFile (out ++ ".sem") ("ERROR\n" ++ "\n".intercalate (es.map fun e => S e.what) ++ "\n")
        | _ => IO.FS.writeFile (out ++ ".sem") "UB\n"
      | _ => pure ()
    | .ok ⟨_, es⟩ => IO.FS.writeFile (out ++ ".ast") ("ERROR\n" ++ "\n".intercalate (es.map fun e => S e.what) ++ "\n")
    | _ => IO.FS.writeFile (out ++ ".ast") "UB\n"
