import Verif.Spec.Expr
import Verif.Model.Syntax
import Verif.Model.Semantic
import Verif.Spec.Location
import Verif.Spec.Version
/-!
# Specification of cQASM 3.0 programs: which programs are valid and which semantic program they denote

Only the two kinds of trees are taken from the model (`Stmt`, `Gate`, … are the syntax tree,
`SStatement`, `SGate`, … the semantic tree); no function of the model is used.
-/

namespace Qasm.Spec

variable {F : Type}

/-- The standard gate set: name, number of qubit operands, kinds of the parameters. -/
def namedGates : List (Str × Nat × List Kind) :=
  [(c!"I", 1, []), (c!"H", 1, []), (c!"X", 1, []), (c!"Y", 1, []), (c!"Z", 1, []),
   (c!"X90", 1, []), (c!"Y90", 1, []), (c!"Z90", 1, []), (c!"mX90", 1, []), (c!"mY90", 1, []), (c!"mZ90", 1, []),
   (c!"S", 1, []), (c!"Sdag", 1, []), (c!"T", 1, []), (c!"Tdag", 1, []),
   (c!"Rx", 1, [.float]), (c!"Ry", 1, [.float]), (c!"Rz", 1, [.float]),
   (c!"U", 1, [.float, .float, .float]), (c!"Rn", 1, [.float, .float, .float, .float, .float]),
   (c!"CNOT", 2, []), (c!"CZ", 2, []), (c!"SWAP", 2, []), (c!"CR", 2, [.float]), (c!"CRk", 2, [.int])]

/-- The names of the instructions that are not gates. -/
def nonGates : List Str := [c!"measure", c!"reset", c!"init", c!"barrier", c!"wait"]

/-- The gate modifiers. -/
def modifiers : List Str := [c!"inv", c!"pow", c!"ctrl"]

/-- The names no declaration may use. -/
def reserved : List Str := [c!"true", c!"false", c!"pi", c!"eu", c!"tau"]

/-- Every expression denotes the value next to it, which is located at the expression. -/
def EvalAll (fo : FloatOps F) (D : List VarLink) (es : List (Expr F)) (vs : List (Value F)) : Prop :=
  Forall2 (fun e v => v.loc = e.loc ∧ Eval fo D e v.node) es vs

/-- The parameters are constants, delivered with exactly the kinds `ks`, located where they are written. -/
inductive EvalParams (fo : FloatOps F) (D : List VarLink) : List (Expr F) → List Kind → List (Value F) → Prop
  | nil : EvalParams fo D [] [] []
  | cons {e es k ks vs} {c c' : Const F} : Eval fo D e c.node → Converts fo c k c' → EvalParams fo D es ks vs →
      EvalParams fo D (e :: es) (k :: ks) (⟨c'.node, e.loc⟩ :: vs)

/-- An annotation is carried over with its operands evaluated. -/
def EvalAnnotation (fo : FloatOps F) (D : List VarLink) (a : AnnotationData F) (s : SAnnotation F) : Prop :=
  s.interface = a.interface ∧ s.operation = a.operation ∧ s.loc = a.loc ∧
  Forall2 (fun e v => v.loc = none ∧ Eval fo D e v.node) a.operands s.operands

/-- All annotations of a node are carried over. -/
def EvalAnnotations (fo : FloatOps F) (D : List VarLink) : List (AnnotationData F) → List (SAnnotation F) → Prop :=
  Forall2 (EvalAnnotation fo D)

/-- `GateOk fo D g n s`: the gate `g` takes `n` qubit operands and denotes `s`. Modifiers apply to gates
on one qubit only; `ctrl` adds a qubit operand. -/
inductive GateOk (fo : FloatOps F) (D : List VarLink) : Gate F → Nat → SGate F → Prop
  | named {l as name ps n ks vs sas} : (name, n, ks) ∈ namedGates → EvalParams fo D ps ks vs →
      EvalAnnotations fo D as sas → GateOk fo D (.mk l as name none ps) n (.mk name none vs sas l)
  | inv {l as g s sas} : GateOk fo D g 1 s → EvalAnnotations fo D as sas →
      GateOk fo D (.mk l as c!"inv" (some g) []) 1 (.mk c!"inv" (some s) [] sas l)
  | pow {l as g s ps vs sas} : GateOk fo D g 1 s → EvalParams fo D ps [.float] vs → EvalAnnotations fo D as sas →
      GateOk fo D (.mk l as c!"pow" (some g) ps) 1 (.mk c!"pow" (some s) vs sas l)
  | ctrl {l as g s sas} : GateOk fo D g 1 s → EvalAnnotations fo D as sas →
      GateOk fo D (.mk l as c!"ctrl" (some g) []) 2 (.mk c!"ctrl" (some s) [] sas l)

/-- The named gate at the end of a chain of modifiers. -/
def rootName : Gate F → Str
  | .mk _ _ name none _ => name
  | .mk _ _ _ (some g) _ => rootName g

/-- The name under which the instruction is recorded: that of a named gate, and `1q_X` or `2q_X` for
modifiers over `X`. -/
def refName : Gate F → Str
  | .mk _ _ name none _ => name
  | .mk _ _ name (some g) _ => (if name = c!"ctrl" then c!"2q_" else c!"1q_") ++ rootName g

/-- The number of qubits or bits a reference denotes. -/
def elements : ValueNode F → Nat
  | .variableRef x => x.typ.size.toInt.toNat
  | .indexRef _ is => is.length
  | _ => 0

/-- A reference to qubits. -/
def IsQubits (n : ValueNode F) (k : Kind) : Prop := kindOf n = some k ∧ (k = .qubit ∨ k = .qubitArray)

/-- A reference to bits. -/
def IsBits (n : ValueNode F) (k : Kind) : Prop := kindOf n = some k ∧ (k = .bit ∨ k = .bitArray)

/-- What the recorded instruction says about its operands: their kinds. -/
def refOf (name : Str) (ks : List Kind) : Instruction := ⟨name, ks.map fun k => ⟨k, 0⟩⟩

/-- `InstrOk fo D s t`: after the declarations `D`, the instruction `s` is valid and denotes `t`. -/
inductive InstrOk (fo : FloatOps F) (D : List VarLink) : Stmt F → SStatement F → Prop
  | gate {l as g es n s vs ks sas} : GateOk fo D g n s → EvalAll fo D es vs → vs.length = n →
      Forall2 (fun v k => IsQubits v.node k) vs ks →
      (∀ v ∈ vs, ∀ w ∈ vs, elements v.node = elements w.node) → EvalAnnotations fo D as sas →
      InstrOk fo D (.gate l as g es) (.gate (refOf (refName g) ks) s vs sas l)
  | measure {l as b q ps n m kn km vs sas} : Eval fo D b n → IsBits n kn → Eval fo D q m → IsQubits m km →
      elements n = elements m → EvalParams fo D ps [] vs ∨ EvalParams fo D ps [.float, .float, .float] vs →
      EvalAnnotations fo D as sas →
      InstrOk fo D (.nonGate l as c!"measure" [b, q] ps)
        (.nonGate (refOf c!"measure" [kn, km]) c!"measure" [⟨n, b.loc⟩, ⟨m, q.loc⟩] vs sas l)
  | simple {l as name q m k sas} : name ∈ [c!"reset", c!"init", c!"barrier"] → Eval fo D q m → IsQubits m k →
      EvalAnnotations fo D as sas →
      InstrOk fo D (.nonGate l as name [q] []) (.nonGate (refOf name [k]) name [⟨m, q.loc⟩] [] sas l)
  | wait {l as q ps m k vs sas} : Eval fo D q m → IsQubits m k → EvalParams fo D ps [.int] vs →
      EvalAnnotations fo D as sas →
      InstrOk fo D (.nonGate l as c!"wait" [q] ps) (.nonGate (refOf c!"wait" [k]) c!"wait" [⟨m, q.loc⟩] vs sas l)
  | asm {l as name code sas} : EvalAnnotations fo D as sas → InstrOk fo D (.asm l as name code) (.asm name code sas l)

/-- Evaluating the parameters of the gate runs into undefined behaviour of C++ before any error. -/
inductive UndefGate (fo : FloatOps F) (D : List VarLink) : Gate F → Prop
  | named {l as name ps} : UndefList fo D ps → UndefGate fo D (.mk l as name none ps)
  | inner {l as name g ps} : UndefGate fo D g → UndefGate fo D (.mk l as name (some g) ps)
  | modifier {l as name g n s ps} : GateOk fo D g n s → UndefList fo D ps → UndefGate fo D (.mk l as name (some g) ps)

/-- The operand kinds of the instructions that are not gates. -/
def NonGateOperands (name : Str) (ks : List Kind) : Prop :=
  (name = c!"measure" ∧ ks ∈ [[.bit, .qubit], [.bit, .qubitArray], [.bitArray, .qubit], [.bitArray, .qubitArray]]) ∨
  (name ∈ [c!"reset", c!"init", c!"barrier", c!"wait"] ∧ ks ∈ [[.qubit], [.qubitArray]])

/-- Analysing the statement runs into undefined behaviour of C++ before any error. -/
inductive UndefStmt (fo : FloatOps F) (D : List VarLink) : Stmt F → Prop
  | gate {l as g es} : UndefGate fo D g → UndefStmt fo D (.gate l as g es)
  | gateOperands {l as g n s es} : GateOk fo D g n s → UndefList fo D es → UndefStmt fo D (.gate l as g es)
  | operands {l as name es ps} : UndefList fo D es → UndefStmt fo D (.nonGate l as name es ps)
  | parameters {l as name es ps vs ks} : EvalAll fo D es vs → Forall2 (fun v k => kindOf v.node = some k) vs ks →
      NonGateOperands name ks → UndefList fo D ps → UndefStmt fo D (.nonGate l as name es ps)

/-- The gate has no annotations. -/
def PlainGate : Gate F → Prop
  | .mk _ as _ none _ => as = []
  | .mk _ as _ (some g) _ => as = [] ∧ PlainGate g

/-- The statement has no annotations (the grammar has no syntax for them). -/
def PlainStmt : Stmt F → Prop
  | .var _ as _ _ => as = []
  | .gate _ as g _ => as = [] ∧ PlainGate g
  | .nonGate _ as _ _ _ => as = []
  | .asm _ as _ _ => as = []

/-- The type a type node denotes: a single qubit or bit, or an array of a positive size. -/
inductive TypeOk : TypeAst → Ty → Prop
  | qubit {l : Option Loc} : TypeOk ⟨c!"qubit", none, l⟩ ⟨.qubit, 1⟩
  | bit {l : Option Loc} : TypeOk ⟨c!"bit", none, l⟩ ⟨.bit, 1⟩
  | qubits {n : Int64} {l : Option Loc} : 0 < n.toInt → TypeOk ⟨c!"qubit", some n, l⟩ ⟨.qubitArray, n⟩
  | bits {n : Int64} {l : Option Loc} : 0 < n.toInt → TypeOk ⟨c!"bit", some n, l⟩ ⟨.bitArray, n⟩

/-- The name can be declared after the declarations `D`. -/
def Fresh (D : List VarLink) (name : Str) : Prop := name ∉ reserved ∧ ∀ x ∈ D, x.name ≠ name

/-- `Exec fo D ss vs ts`: after the declarations `D` (most recent first), the statements `ss` are valid;
they declare the variables `vs` and denote the instructions `ts`. Variables are numbered from 0 in the
order of their declarations. -/
inductive Exec (fo : FloatOps F) : List VarLink → List (Stmt F) → List (SVariable F) → List (SStatement F) → Prop
  | nil {D} : Exec fo D [] [] []
  | decl {D l as name typ ss t sas vs ts} : TypeOk typ t → Fresh D name.name → EvalAnnotations fo D as sas →
      Exec fo (⟨D.length, name.name, t⟩ :: D) ss vs ts →
      Exec fo D (.var l as name typ :: ss) (⟨D.length, name.name, t, sas, name.loc⟩ :: vs) ts
  | instr {D s ss t vs ts} : InstrOk fo D s t → Exec fo D ss vs ts → Exec fo D (s :: ss) vs (t :: ts)

/-- The trees the parser builds (see C48): an index list is not empty, a gate has an inner gate exactly
if it is one of the three modifiers, the other instructions are the five of the language and `wait` has a
parameter. -/
def ShapedGate : Gate F → Prop
  | .mk _ _ name none _ => name ∉ modifiers ∧ name ∉ nonGates
  | .mk _ _ name (some g) _ => name ∈ modifiers ∧ ShapedGate g

mutual
/-- Every index list in the expression is non-empty. -/
def ShapedExpr : Expr F → Prop
  | .boolLit _ _ | .intLit _ _ | .floatLit _ _ | .ident _ _ => True
  | .index _ e ixs => ixs ≠ [] ∧ ShapedExpr e ∧ ShapedEntries ixs
  | .call _ _ args => ShapedExprs args
  | .un _ _ e => ShapedExpr e
  | .bin _ _ a b => ShapedExpr a ∧ ShapedExpr b
  | .tern _ a b c => ShapedExpr a ∧ ShapedExpr b ∧ ShapedExpr c
/-- All expressions of a list are shaped. -/
def ShapedExprs : List (Expr F) → Prop
  | [] => True
  | e :: es => ShapedExpr e ∧ ShapedExprs es
/-- All index entries of a list are shaped. -/
def ShapedEntries : List (IndexEntry F) → Prop
  | [] => True
  | .item _ e :: xs => ShapedExpr e ∧ ShapedEntries xs
  | .range _ a b :: xs => ShapedExpr a ∧ ShapedExpr b ∧ ShapedEntries xs
end

/-- All operands of the annotations are shaped. -/
def ShapedAnnotations (as : List (AnnotationData F)) : Prop := ∀ a ∈ as, ∀ e ∈ a.operands, ShapedExpr e

/-- The operands of all annotations of the gate are shaped. -/
def ShapedGateAnnotations : Gate F → Prop
  | .mk _ as _ none _ => ShapedAnnotations as
  | .mk _ as _ (some g) _ => ShapedAnnotations as ∧ ShapedGateAnnotations g

/-- The statement has the shape the parser gives it. -/
def ShapedStmt : Stmt F → Prop
  | .var _ as _ _ => ShapedAnnotations as
  | .gate _ as g es => ShapedAnnotations as ∧ ShapedGate g ∧ ShapedGateAnnotations g ∧ ∀ e ∈ es, ShapedExpr e
  | .nonGate _ as name es ps => ShapedAnnotations as ∧ name ∈ nonGates ∧ (name = c!"wait" → ps ≠ []) ∧
      ∀ e ∈ es, ShapedExpr e
  | .asm _ as _ _ => ShapedAnnotations as

/-- Every statement of the program has the shape the parser gives it. -/
def ShapedProgram (p : ProgramAst F) : Prop := ∀ s ∈ p.block.statements, ShapedStmt s

/-- The program has no annotations. -/
def PlainProgram (p : ProgramAst F) : Prop := ∀ s ∈ p.block.statements, PlainStmt s

/-- The version statement denotes the given version: no negative components, equal up to trailing zeros. -/
def VersionOk (v items : Version) : Prop := (∀ c ∈ items, 0 ≤ c.toInt) ∧ VersionSame items v

/-- The static rules of the language: `p` is valid, declares the variables `vs` and denotes the instructions `ts`. -/
def Valid (fo : FloatOps F) (v : Version) (p : ProgramAst F) (vs : List (SVariable F)) (ts : List (SStatement F)) : Prop :=
  VersionOk v p.version.items ∧ Exec fo [] p.block.statements vs ts

/-- The program with the given statements instead of its own. -/
def withStatements (p : ProgramAst F) (ss : List (Stmt F)) : ProgramAst F := { p with block := { p.block with statements := ss } }

/-- The program with one more statement at the end. -/
def andThen (p : ProgramAst F) (s : Stmt F) : ProgramAst F := withStatements p (p.block.statements ++ [s])

/-- The declarations of a semantic program, most recent first. -/
def declared (r : SProgram F) : List VarLink := (r.variables.map fun v => ⟨v.uid, v.name, v.typ⟩).reverse

/-- A value inside a gate: a parameter, an operand of an annotation, or inside the inner gate. -/
inductive InGate (v : Value F) : SGate F → Prop
  | parameter {name inner ps as l} : v ∈ ps → InGate v (.mk name inner ps as l)
  | annotation {name inner ps as l a} : a ∈ as → v ∈ a.operands → InGate v (.mk name inner ps as l)
  | inner {name g ps as l} : InGate v g → InGate v (.mk name (some g) ps as l)

/-- A value inside an instruction of the semantic tree. -/
inductive InInstr (v : Value F) : SStatement F → Prop
  | gate {ref g ops as l} : InGate v g → InInstr v (.gate ref g ops as l)
  | operand {ref g ops as l} : v ∈ ops → InInstr v (.gate ref g ops as l)
  | annotation {ref g ops as l a} : a ∈ as → v ∈ a.operands → InInstr v (.gate ref g ops as l)
  | operand' {ref name ops ps as l} : v ∈ ops → InInstr v (.nonGate ref name ops ps as l)
  | parameter {ref name ops ps as l} : v ∈ ps → InInstr v (.nonGate ref name ops ps as l)
  | annotation' {ref name ops ps as l a} : a ∈ as → v ∈ a.operands → InInstr v (.nonGate ref name ops ps as l)
  | asm {name code as l a} : a ∈ as → v ∈ a.operands → InInstr v (.asm name code as l)

/-- The value refers to the variable. -/
inductive RefersTo : Value F → VarLink → Prop
  | whole {x l} : RefersTo ⟨.variableRef x, l⟩ x
  | elements {x is l} : RefersTo ⟨.indexRef x is, l⟩ x

/-- The program declares the name with a type node denoting the type. -/
def Declares (ss : List (Stmt F)) (name : Str) (t : Ty) : Prop :=
  ∃ l as x typ, Stmt.var l as x typ ∈ ss ∧ x.name = name ∧ TypeOk typ t

/-- The number of instructions (that is, statements that are not declarations). -/
def instructions : List (Stmt F) → Nat
  | [] => 0
  | .var _ _ _ _ :: ss => instructions ss
  | _ :: ss => instructions ss + 1

/-- The declarations among the statements: name and type node. -/
def declarations : List (Stmt F) → List (Ident × TypeAst)
  | [] => []
  | .var _ _ name typ :: ss => (name, typ) :: declarations ss
  | _ :: ss => declarations ss

mutual
/-- The names used in an expression. -/
def names : Expr F → List Str
  | .boolLit _ _ | .intLit _ _ | .floatLit _ _ => []
  | .ident _ x => [x]
  | .index _ e ixs => names e ++ namesEntries ixs
  | .call _ _ args => namesList args
  | .un _ _ e => names e
  | .bin _ _ a b => names a ++ names b
  | .tern _ a b c => names a ++ names b ++ names c
/-- The names used in a list of expressions. -/
def namesList : List (Expr F) → List Str
  | [] => []
  | e :: es => names e ++ namesList es
/-- The names used in index entries. -/
def namesEntries : List (IndexEntry F) → List Str
  | [] => []
  | .item _ e :: xs => names e ++ namesEntries xs
  | .range _ a b :: xs => names a ++ names b ++ namesEntries xs
end

/-- The names used in the parameters of a gate. -/
def namesGate : Gate F → List Str
  | .mk _ _ _ none ps => namesList ps
  | .mk _ _ _ (some g) ps => namesGate g ++ namesList ps

/-- The names used in the operands and parameters of a statement. -/
def namesStmt : Stmt F → List Str
  | .gate _ _ g es => namesGate g ++ namesList es
  | .nonGate _ _ _ es ps => namesList es ++ namesList ps
  | _ => []

/-- The operand expressions of an instruction. -/
def operandExprs : Stmt F → List (Expr F)
  | .gate _ _ _ es => es
  | .nonGate _ _ _ es _ => es
  | _ => []

/-- The operands of a semantic instruction. -/
def operands : SStatement F → List (Value F)
  | .gate _ _ vs _ _ => vs
  | .nonGate _ _ vs _ _ _ => vs
  | .asm _ _ _ _ => []

/-! ## Programs with errors -/

/-- The statement declares a variable. -/
def IsDecl : Stmt F → Prop
  | .var _ _ _ _ => True
  | _ => False

/-- The declarations among the statements. -/
def onlyDeclarations : List (Stmt F) → List (Stmt F)
  | [] => []
  | .var l as name typ :: ss => .var l as name typ :: onlyDeclarations ss
  | _ :: ss => onlyDeclarations ss

/-- `Analysis fo D u ss vs ts bad`: analysing `ss` after the declarations `D`, with `u` variable nodes made
so far, yields the variable nodes `vs` and the instructions `ts` and rejects the statements `bad`. A
rejected instruction or declaration changes nothing for the statements after it, except that a
redeclaration still leaves a variable node in the tree. -/
inductive Analysis (fo : FloatOps F) :
    List VarLink → Nat → List (Stmt F) → List (SVariable F) → List (SStatement F) → List (Stmt F) → Prop
  | nil {D u} : Analysis fo D u [] [] [] []
  | decl {D u l as name typ ss t sas vs ts bad} : TypeOk typ t → Fresh D name.name → EvalAnnotations fo D as sas →
      Analysis fo (⟨u, name.name, t⟩ :: D) (u + 1) ss vs ts bad →
      Analysis fo D u (.var l as name typ :: ss) (⟨u, name.name, t, sas, name.loc⟩ :: vs) ts bad
  | instr {D u s ss t vs ts bad} : InstrOk fo D s t → Analysis fo D u ss vs ts bad →
      Analysis fo D u (s :: ss) vs (t :: ts) bad
  | badType {D u l as name typ ss vs ts bad} : (¬∃ t, TypeOk typ t) → Analysis fo D u ss vs ts bad →
      Analysis fo D u (.var l as name typ :: ss) vs ts (.var l as name typ :: bad)
  | redeclared {D u l as name typ ss t sas vs ts bad} : TypeOk typ t → ¬ Fresh D name.name →
      EvalAnnotations fo D as sas → Analysis fo D (u + 1) ss vs ts bad →
      Analysis fo D u (.var l as name typ :: ss) (⟨u, name.name, t, sas, name.loc⟩ :: vs) ts (.var l as name typ :: bad)
  | badInstr {D u s ss vs ts bad} : ¬ IsDecl s → (¬∃ t, InstrOk fo D s t) → ¬ UndefStmt fo D s →
      Analysis fo D u ss vs ts bad → Analysis fo D u (s :: ss) vs ts (s :: bad)

/-- Analysing the statements reaches one whose analysis is undefined. -/
inductive UndefStmts (fo : FloatOps F) : List VarLink → Nat → List (Stmt F) → Prop
  | here {D u s ss} : UndefStmt fo D s → UndefStmts fo D u (s :: ss)
  | decl {D u l as name typ t ss} : TypeOk typ t → Fresh D name.name →
      UndefStmts fo (⟨u, name.name, t⟩ :: D) (u + 1) ss → UndefStmts fo D u (.var l as name typ :: ss)
  | badType {D u l as name typ ss} : (¬∃ t, TypeOk typ t) → UndefStmts fo D u ss →
      UndefStmts fo D u (.var l as name typ :: ss)
  | redeclared {D u l as name typ t ss} : TypeOk typ t → ¬ Fresh D name.name → UndefStmts fo D (u + 1) ss →
      UndefStmts fo D u (.var l as name typ :: ss)
  | instr {D u s ss} : ¬ IsDecl s → ¬ UndefStmt fo D s → UndefStmts fo D u ss → UndefStmts fo D u (s :: ss)

/-! ## Locations -/

mutual
/-- The locations of the nodes of an expression. -/
def exprLocs : Expr F → List (Option Loc)
  | .boolLit l _ | .intLit l _ | .floatLit l _ | .ident l _ => [l]
  | .index l e ixs => l :: (exprLocs e ++ entriesLocs ixs)
  | .call l _ args => l :: exprsLocs args
  | .un l _ e => l :: exprLocs e
  | .bin l _ a b => l :: (exprLocs a ++ exprLocs b)
  | .tern l a b c => l :: (exprLocs a ++ exprLocs b ++ exprLocs c)
/-- The locations of the nodes of a list of expressions. -/
def exprsLocs : List (Expr F) → List (Option Loc)
  | [] => []
  | e :: es => exprLocs e ++ exprsLocs es
/-- The locations of the nodes of a list of index entries. -/
def entriesLocs : List (IndexEntry F) → List (Option Loc)
  | [] => []
  | .item l e :: xs => l :: exprLocs e ++ entriesLocs xs
  | .range l a b :: xs => l :: exprLocs a ++ exprLocs b ++ entriesLocs xs
end

/-- The locations of the nodes of a gate. -/
def gateLocs : Gate F → List (Option Loc)
  | .mk l _ _ none ps => l :: exprsLocs ps
  | .mk l _ _ (some g) ps => l :: gateLocs g ++ exprsLocs ps

/-- The locations of the nodes of a statement (annotations aside). -/
def stmtLocs : Stmt F → List (Option Loc)
  | .var l _ _ _ => [l]
  | .gate l _ g es => l :: gateLocs g ++ exprsLocs es
  | .nonGate l _ _ es ps => l :: exprsLocs es ++ exprsLocs ps
  | .asm l _ _ _ => [l]

/-- The error is reported at a node of the statement, and has a location if the statement has one. -/
def ReportedAt (s : Stmt F) (e : Err) : Prop :=
  e.location ∈ stmtLocs s ∧ (s.loc.isSome → e.location.isSome)

/-- `l` is the smallest location that includes all of `ls`; it has the file name of the first of them. -/
def IsHull (ls : List Loc) (l : Loc) : Prop :=
  (∃ x, ls.head? = some x ∧ l.fileName = x.fileName) ∧ (∀ x ∈ ls, Includes l.range x.range) ∧
  ∀ r, (∀ x ∈ ls, Includes r x.range) → Includes r l.range

end Qasm.Spec
