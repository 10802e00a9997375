import Verif.Model.SyntacticAnalyzer
/-!
# Line ends

Texts that differ only in how their lines end, and trees that differ only in the texts of assembly declarations.
-/

namespace Qasm.Spec

variable {F : Type}

/-- The text with every `\r\n` replaced by `\n`. -/
def unix : Str → Str
  | [] => []
  | [c] => [c]
  | c :: d :: s => if c = '\r' ∧ d = '\n' then '\n' :: unix s else c :: unix (d :: s)

/-- The tree with the texts of assembly declarations changed. -/
def codeStmt (f : Str → Str) : Stmt F → Stmt F
  | .asm l as name code => .asm l as name (f code)
  | s => s

/-- The tree with the texts of assembly declarations changed. -/
def codeProgram (f : Str → Str) (p : ProgramAst F) : ProgramAst F :=
  { p with block := { p.block with statements := p.block.statements.map (codeStmt f) } }

/-- The tree with the texts of assembly declarations changed. -/
def codeSStatement (f : Str → Str) : SStatement F → SStatement F
  | .asm name code as l => .asm name (f code) as l
  | s => s

/-- The tree with the texts of assembly declarations changed. -/
def codeSBlock (f : Str → Str) (b : SBlock F) : SBlock F := { b with statements := b.statements.map (codeSStatement f) }

/-- The tree with the texts of assembly declarations changed. -/
def codeSProgram (f : Str → Str) (p : SProgram F) : SProgram F := { p with block := codeSBlock f p.block }

/-- The result with a changed tree. -/
def onTree {α : Type} (g : α → α) (r : Result α) : Result α := ⟨r.root.map g, r.errors⟩

/-- Two tokens of the same type at the same place. Only new lines and raw strings may have different texts, and these only
differ in line ends. -/
def AlikeToken (t u : Token) : Prop :=
  t.kind = u.kind ∧ t.line = u.line ∧ t.column = u.column ∧ unix t.text = unix u.text ∧
    (t.kind ≠ .newLine → t.kind ≠ .rawTextString → t.text = u.text)

/-- No raw string of the text goes over the end of a line. -/
def NoLongString (text : Str) : Prop :=
  ∀ ts, Lexer.lex text = .ok ts → ∀ t ∈ ts, t.kind = .rawTextString → '\n' ∉ t.text

end Qasm.Spec
