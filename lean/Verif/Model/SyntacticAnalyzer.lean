import Verif.Model.Diagnose
import Verif.Model.SemanticAnalyzer
/-!
# From parse tree to syntactic tree, and the entry points: `src/v3x/syntactic_analyzer.cpp`,
`src/v3x/antlr_custom_error_listener.cpp`, `src/v3x/parse_helper.cpp`, `src/v3x/antlr_scanner.cpp`,
`src/v3x/cqasm.cpp`

Simplifications:
* texts are sequences of characters: decoding of UTF-8 by ANTLR is in `Model/Input.lean`;
* lines and columns are natural numbers: the casts to `uint32_t` are not modelled. By `C85_fits` they change nothing for
  texts of fewer than 2^32 - 1 characters;
* `std::stod` is a parameter: `none` is `std::out_of_range`;
* which message ANTLR gives when a text is not lexed or not parsed is a parameter (`Antlr.message`). The place is that of
  the first token that cannot continue the text (`Model/Diagnose`). If there is a recognition error after that token, it is a
  parameter which of the two is reported (`Antlr.ahead`);
* C++ leaves the order in which function arguments are evaluated open: the order in which `visitBinaryExpression`,
  `visitTernaryConditionalExpression` and `visitIndexRange` visit the operands is a parameter (`ArgOrder`). It
  decides which of several literals that are out of range is reported.
-/

namespace Qasm

variable {F : Type}

/-- What ANTLR hands to the error listener: position (line, zero-based column), message and the offending
token's text (`none` at the end of the file and for lexer errors),
include/libqasm/v3x/antlr_custom_error_listener.hpp. -/
structure Diagnosis where
  line : Nat
  column : Nat
  message : Str
  offending : Option Str

/-- An order in which the three arguments of a function call are evaluated: `bca` is the second, the third, the first. -/
inductive Order3
  | abc | acb | bac | bca | cab | cba

/-- The orders the compiler chose for the arguments of the calls to `tree::make` in `visitBinaryExpression`, of which there
is one instance per operator, `visitTernaryConditionalExpression` and `visitIndexRange`; `true` is the second argument first,
include/libqasm/v3x/syntactic_analyzer.hpp:49-56, src/v3x/syntactic_analyzer.cpp:343-346, 442-450. -/
structure ArgOrder where
  binary : BinOp → Bool
  ternary : Order3
  range : Bool

/-- Both arguments of a call, of which the second is evaluated first if `swapped`. -/
def Res.both {ε α β : Type} (swapped : Bool) (x : Res ε α) (y : Res ε β) : Res ε (α × β) :=
  if swapped then y.bind fun w => x.bind fun v => .ok (v, w)
  else x.bind fun v => y.bind fun w => .ok (v, w)

/-- The three arguments of a call, evaluated in the given order. -/
def Res.three {ε α β γ : Type} (o : Order3) (x : Res ε α) (y : Res ε β) (z : Res ε γ) : Res ε (α × β × γ) :=
  match o with
  | .abc => x.bind fun u => y.bind fun v => z.bind fun w => .ok (u, v, w)
  | .acb => x.bind fun u => z.bind fun w => y.bind fun v => .ok (u, v, w)
  | .bac => y.bind fun v => x.bind fun u => z.bind fun w => .ok (u, v, w)
  | .bca => y.bind fun v => z.bind fun w => x.bind fun u => .ok (u, v, w)
  | .cab => z.bind fun w => x.bind fun u => y.bind fun v => .ok (u, v, w)
  | .cba => z.bind fun w => y.bind fun v => x.bind fun u => .ok (u, v, w)

/-- The parts of the environment the front end depends on: `std::stod`, the messages of ANTLR for syntax errors, whether it
reports a recognition error after the offending token instead, and the order in which the compiler evaluates arguments. -/
structure Antlr (F : Type) where
  stod : Str → Option F
  message : Str → Str
  ahead : Str → Bool
  order : ArgOrder

/-- What ANTLR reports for a text that is not in the language: the first offending token (`Parser::notifyErrorListeners`; the end
of the file has no size), or the place where no token is recognised (`Lexer::notifyListeners`, without a token). -/
def Antlr.diagnosis (an : Antlr F) (text : Str) : Diagnosis :=
  match offending (an.ahead text) text with
  | .ok t => ⟨t.line, t.column, an.message text, if t.kind = .eof then none else some t.text⟩
  | .error p => ⟨p.1, p.2, an.message text, none⟩

namespace Syn

open TokKind

/-- The constructors of `SyntacticAnalyzer` and `AntlrCustomErrorListener`: an empty file name is none,
src/v3x/syntactic_analyzer.cpp:25-31, src/v3x/antlr_custom_error_listener.cpp:11-16. -/
def fileNameOf : Option Str → Option Str
  | some [] => none
  | n => n

/-- `AntlrCustomErrorListener::syntaxError`: the error thrown, src/v3x/antlr_custom_error_listener.cpp:18-39.
The size of the token is that of its UTF-8 text. -/
def listenerError (file : Option Str) (d : Diagnosis) : Err :=
  let size := match d.offending with
    | some w => (utf8 w).length
    | none => 0
  Err.mkRange d.message file (Range.mk' ⟨d.line, d.column + 1⟩ ⟨d.line, d.column + 1 + size⟩)

/-- `SyntacticAnalyzer::syntaxError`, src/v3x/syntactic_analyzer.cpp:37-40,
src/v3x/antlr_custom_error_listener.cpp:41-43. -/
def syntaxError (file : Option Str) (line column : Nat) (text : Str) : Err :=
  listenerError file ⟨line, column, text, none⟩

/-- `SyntacticAnalyzer::setNodeAnnotation`, src/v3x/syntactic_analyzer.cpp:46-55. -/
def annotation (file : Option Str) (t : Token) : Option Loc :=
  some (Loc.mk' file (Range.mk' ⟨t.line, t.column + 1⟩ ⟨t.line, t.column + 1 + t.text.length⟩))

/-- `std::stoll` on a text of decimal digits: `none` is `std::out_of_range`. -/
def stoll (text : Str) : Option Int64 :=
  let n := text.foldl (fun n c => 10 * n + (c.toNat - 48)) 0
  if n < 2 ^ 63 then some (Int64.ofNat n) else none

/-- `SyntacticAnalyzer::get_int_value`, src/v3x/syntactic_analyzer.cpp:71-79. -/
def getInt (file : Option Str) (line column : Nat) (text : Str) : Res Err Int64 :=
  match stoll text with
  | some n => .ok n
  | none => .err (syntaxError file line column (c!"value '" ++ text ++ c!"' is out of the INTEGER_LITERAL range"))

/-- `SyntacticAnalyzer::get_float_value`, src/v3x/syntactic_analyzer.cpp:81-88. -/
def getFloat (an : Antlr F) (file : Option Str) (line column : Nat) (text : Str) : Res Err F :=
  match an.stod text with
  | some x => .ok x
  | none => .err (syntaxError file line column (c!"value '" ++ text ++ c!"' is out of the FLOAT_LITERAL range"))

/-- The node classes of the binary operators, src/v3x/syntactic_analyzer.cpp:373-440. -/
def binOp : TokKind → BinOp
  | power => .pow
  | product => .mul
  | division => .div
  | modulo => .mod
  | plus => .add
  | minus => .sub
  | TokKind.shl => .shl
  | TokKind.shr => .shr
  | cmpGt => .gt
  | cmpLt => .lt
  | cmpGe => .ge
  | cmpLe => .le
  | cmpEq => .eq
  | cmpNe => .ne
  | bitwiseAnd => .band
  | bitwiseXor => .bxor
  | bitwiseOr => .bor
  | logicalAnd => .land
  | logicalXor => .lxor
  | _ => .lor

/-- `visitIdentifier`, `visitBooleanLiteral`, `visitIntegerLiteral` and `visitFloatLiteral`,
src/v3x/syntactic_analyzer.cpp:90-106, 470-495. -/
def atom (an : Antlr F) (file : Option Str) (t : Token) : Res Err (Expr F) :=
  match t.kind with
  | identifier => .ok (.ident (annotation file t) t.text)
  | booleanLiteral => .ok (.boolLit (annotation file t) (t.text = c!"true"))
  | integerLiteral => (getInt file t.line t.column t.text).bind fun v => .ok (.intLit (annotation file t) v)
  | _ => (getFloat an file t.line t.column t.text).bind fun v => .ok (.floatLit (annotation file t) v)

mutual

/-- The visitors of the rule `expression`, src/v3x/syntactic_analyzer.cpp:348-495,
include/libqasm/v3x/syntactic_analyzer.hpp:48-55. -/
def expr (an : Antlr F) (file : Option Str) : PExpr → Res Err (Expr F)
  | .parens e => expr an file e
  | .pre op e =>
    (expr an file e).bind fun v =>
      match op.kind with
      | plus => .ok v
      | minus => .ok (.un (annotation file op) .neg v)
      | bitwiseNot => .ok (.un (annotation file op) .bnot v)
      | _ => .ok (.un (annotation file op) .lnot v)
  | .bin op l r =>
    (Res.both (an.order.binary (binOp op.kind)) (expr an file l) (expr an file r)).bind fun (v, w) =>
      .ok (.bin (annotation file op) (binOp op.kind) v w)
  | .tern op c t f =>
    (Res.three an.order.ternary (expr an file c) (expr an file t) (expr an file f)).bind fun (u, v, w) =>
      .ok (.tern (annotation file op) u v w)
  | .call name args =>
    (exprs an file args).bind fun vs => .ok (.call (annotation file name) name.text vs)
  | .index name entries =>
    (indexEntries an file entries).bind fun is => .ok (.index (annotation file name) (.ident none name.text) is)
  | .atom t => atom an file t

/-- `visitExpressionList`, src/v3x/syntactic_analyzer.cpp:319-326. -/
def exprs (an : Antlr F) (file : Option Str) : List PExpr → Res Err (List (Expr F))
  | [] => .ok []
  | e :: es =>
    (expr an file e).bind fun v =>
      (exprs an file es).bind fun vs => .ok (v :: vs)

/-- `visitIndexItem` and `visitIndexRange`, src/v3x/syntactic_analyzer.cpp:338-346. -/
def indexEntry (an : Antlr F) (file : Option Str) : PEntry → Res Err (IndexEntry F)
  | .item e =>
    (expr an file e).bind fun v => .ok (.item none v)
  | .range a b =>
    (Res.both an.order.range (expr an file a) (expr an file b)).bind fun (v, w) => .ok (.range none v w)

/-- `visitIndexList`, src/v3x/syntactic_analyzer.cpp:328-336. -/
def indexEntries (an : Antlr F) (file : Option Str) : List PEntry → Res Err (List (IndexEntry F))
  | [] => .ok []
  | i :: is =>
    (indexEntry an file i).bind fun v =>
      (indexEntries an file is).bind fun vs => .ok (v :: vs)

end

/-- An optional expression list, where none gives an empty one, src/v3x/syntactic_analyzer.cpp:218-220, 228-230. -/
def optExprs (an : Antlr F) (file : Option Str) : Option (List PExpr) → Res Err (List (Expr F))
  | none => .ok []
  | some es => exprs an file es

/-- The visitors of the rule `gate`, src/v3x/syntactic_analyzer.cpp:187-223. `visitPowGate` visits the inner
gate before the exponent. -/
def gate (an : Antlr F) (file : Option Str) : PGate → Res Err (Gate F)
  | .inv kw g =>
    (gate an file g).bind fun v => .ok (.mk (annotation file kw) [] kw.text (some v) [])
  | .pow kw e g =>
    (gate an file g).bind fun v =>
      (expr an file e).bind fun w => .ok (.mk (annotation file kw) [] kw.text (some v) [w])
  | .ctrl kw g =>
    (gate an file g).bind fun v => .ok (.mk (annotation file kw) [] kw.text (some v) [])
  | .named name params =>
    (optExprs an file params).bind fun vs => .ok (.mk (annotation file name) [] name.text none vs)

/-- The location of a `gate` node. -/
def gateLoc : Gate F → Option Loc
  | .mk l _ _ _ _ => l

/-- `get_array_size` and `visitArraySizeDeclaration`, src/v3x/syntactic_analyzer.cpp:310-317. -/
def arraySize (file : Option Str) : Option (Token × Token) → Res Err (Option Int64)
  | none => .ok none
  | some (n, _) =>
    (getInt file n.line n.column n.text).bind fun v => .ok (some v)

/-- The type names of `visitQubitType` and `visitBitType`, src/v3x/syntactic_analyzer.cpp:290-308,
include/libqasm/v3x/types.hpp. -/
def typeName : TokKind → Str
  | qubitType => c!"qubit"
  | _ => c!"bit"

/-- `visitQubitType` and `visitBitType`: the node is located at the keyword, and `expandNodeAnnotation` extends that to the
bracket that closes the size, src/v3x/syntactic_analyzer.cpp:57-64, 290-308. -/
def typeLoc (file : Option Str) (kw : Token) : Option (Token × Token) → Option Loc
  | none => annotation file kw
  | some (_, close) =>
    (annotation file kw).map fun l => l.expandToInclude ⟨close.line, close.column + 1 + close.text.length⟩

/-- The visitors of the rule `globalBlockStatement`, src/v3x/syntactic_analyzer.cpp:154-185, 225-308,
include/libqasm/v3x/syntactic_analyzer.hpp:39-46. -/
def stmt (an : Antlr F) (file : Option Str) : PStmt → Res Err (Stmt F)
  | .var kw size name =>
    (arraySize file size).bind fun n => .ok (.var (annotation file name) [] ⟨name.text, none⟩ ⟨typeName kw.kind, n, typeLoc file kw size⟩)
  | .gate g operands =>
    (gate an file g).bind fun v =>
      (exprs an file operands).bind fun vs => .ok (.gate (gateLoc v) [] v vs)
  | .measure kw params b q =>
    (optExprs an file params).bind fun ps =>
      (expr an file b).bind fun v =>
        (expr an file q).bind fun w => .ok (.nonGate (annotation file kw) [] kw.text [v, w] ps)
  | .simple kw e =>
    (expr an file e).bind fun v => .ok (.nonGate (annotation file kw) [] kw.text [v] [])
  | .wait kw p e =>
    (expr an file p).bind fun v =>
      (expr an file e).bind fun w => .ok (.nonGate (annotation file kw) [] kw.text [w] [v])
  | .asm name raw => ((Text.removeTripleQuotes raw.text).mapErr Empty.elim).bind fun code => .ok (.asm none [] name.text code)

/-- `visitGlobalBlockSection`, src/v3x/syntactic_analyzer.cpp:121-128. -/
def stmts (an : Antlr F) (file : Option Str) : List PStmt → Res Err (List (Stmt F))
  | [] => .ok []
  | s :: ss =>
    (stmt an file s).bind fun v =>
      (stmts an file ss).bind fun vs => .ok (v :: vs)

/-- `visitVersion`, src/v3x/syntactic_analyzer.cpp:138-152: `matches[1]` is the text before the dot,
`matches[2]` the one after it, `matches.position(2)` where that starts. -/
def version (file : Option Str) (t : Token) : Res Err VersionAst :=
  let major := t.text.takeWhile (· != '.')
  let rest := t.text.dropWhile (· != '.')
  (getInt file t.line t.column major).bind fun m =>
    match rest with
    | [] => .ok ⟨[m], annotation file t⟩
    | _ :: minor =>
      (getInt file t.line (t.column + (major.length + 1)) minor).bind fun n => .ok ⟨[m, n], annotation file t⟩

/-- `visitProgram`, src/v3x/syntactic_analyzer.cpp:108-115. -/
def program (an : Antlr F) (file : Option Str) (p : PProgram) : Res Err (ProgramAst F) :=
  (version file p.version).bind fun v =>
    (stmts an file p.statements).bind fun ss => .ok ⟨v, ⟨ss, none⟩, none⟩

/-- `AntlrScanner::parse_`: lexing, parsing and `visitProgram`; the error is the one thrown,
src/v3x/antlr_scanner.cpp:28-45. -/
def scan (an : Antlr F) (file : Option Str) (text : Str) : Res Err (ProgramAst F) :=
  match Lexer.lex text with
  | .error _ => .err (listenerError (fileNameOf file) (an.diagnosis text))
  | .ok ts =>
    match Parser.parse ts with
    | none => .err (listenerError (fileNameOf file) (an.diagnosis text))
    | some p => program an (fileNameOf file) p

mutual
/-- `is_well_formed` of an expression: the only `Many` is the list of an `index_list`, which must not be
empty, src/v3x/syntactic.tree:47; the `One`s are always set here. -/
def wfExpr : Expr F → Bool
  | .boolLit .. | .intLit .. | .floatLit .. | .ident .. => true
  | .index _ e is => wfExpr e && !is.isEmpty && wfEntries is
  | .call _ _ args => wfExprs args
  | .un _ _ e => wfExpr e
  | .bin _ _ a b => wfExpr a && wfExpr b
  | .tern _ a b c => wfExpr a && wfExpr b && wfExpr c
/-- `is_well_formed` of the items of an `expression_list`. -/
def wfExprs : List (Expr F) → Bool
  | [] => true
  | e :: es => wfExpr e && wfExprs es
/-- `is_well_formed` of an `index_entry`. -/
def wfEntry : IndexEntry F → Bool
  | .item _ e => wfExpr e
  | .range _ a b => wfExpr a && wfExpr b
/-- `is_well_formed` of the items of an `index_list`. -/
def wfEntries : List (IndexEntry F) → Bool
  | [] => true
  | i :: is => wfEntry i && wfEntries is
end

/-- `is_well_formed` of annotations. -/
def wfAnnotations (as : List (AnnotationData F)) : Bool := as.all fun a => wfExprs a.operands

/-- `is_well_formed` of a `gate`. -/
def wfGate : Gate F → Bool
  | .mk _ as _ none ps => wfAnnotations as && wfExprs ps
  | .mk _ as _ (some g) ps => wfAnnotations as && wfGate g && wfExprs ps

/-- `is_well_formed` of a `statement`. -/
def wfStmt : Stmt F → Bool
  | .var _ as _ _ => wfAnnotations as
  | .gate _ as g es => wfAnnotations as && wfGate g && wfExprs es
  | .nonGate _ as _ es ps => wfAnnotations as && wfExprs es && wfExprs ps
  | .asm _ as _ _ => wfAnnotations as

/-- `is_well_formed` of the `program`. -/
def wellFormed (p : ProgramAst F) : Bool := p.block.statements.all wfStmt

/-- `parse_string` and `ParseHelper::parse`, src/v3x/parse_helper.cpp:34-66. `Res.err` is the `ParseError` thrown
for an incomplete tree. -/
def parseString (an : Antlr F) (text : Str) (file : Option Str) : Res Err (Result (ProgramAst F)) :=
  match scan an file text with
  | .err e => .ok ⟨none, [e]⟩
  | .exn m => .exn m
  | .ub => .ub
  | .ok p =>
    if wellFormed p then .ok ⟨some p, []⟩
    else .err (Err.mk0 c!"ParseHelper::parse: no parse errors returned, but AST is incomplete. AST was dumped.")

/-- `FileAntlrScanner` and `parse_file`, src/v3x/parse_helper.cpp:20-28, src/v3x/antlr_scanner.cpp:47-62. The
argument `file` is the content of the file, `none` if there is no such regular file. `Res.err` is the
`ParseError` thrown. -/
def parseFile (an : Antlr F) (file : Option Str) (path : Str) (name : Option Str) : Res Err (Result (ProgramAst F)) :=
  match file with
  | none => .err (Err.mk0 (c!"FileAntlrScanner couldn't access file '" ++ path ++ c!"'."))
  | some text => parseString an text name

/-- `Analyzer::analyze_string`, src/v3x/analyzer.cpp:126-128. -/
def analyzeString (fo : FloatOps F) (an : Antlr F) (a : Analyzer F) (text : Str) (file : Option Str) :
    Res Err (Analyzer F × Result (SProgram F)) :=
  (parseString an text file).bind fun pr => (Sem.analyzeParse fo a pr).mapErr Empty.elim

/-- `Analyzer::analyze_file`, src/v3x/analyzer.cpp:118-120: the path is also the name used in error messages. -/
def analyzeFile (fo : FloatOps F) (an : Antlr F) (a : Analyzer F) (file : Option Str) (path : Str) :
    Res Err (Analyzer F × Result (SProgram F)) :=
  (parseFile an file path (some path)).bind fun pr => (Sem.analyzeParse fo a pr).mapErr Empty.elim

end Syn

end Qasm
