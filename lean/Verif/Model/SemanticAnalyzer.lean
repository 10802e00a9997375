import Verif.Model.Syntax
import Verif.Model.Analyzer
/-!
# Semantic analysis: `src/v3x/semantic_analyzer.cpp`, `include/libqasm/v3x/semantic_analyzer.hpp`,
and `Analyzer::analyze` (`src/v3x/analyzer.cpp`)

Conventions. A visitor that may throw `error::AnalysisError` returns `Res Err _`. Errors that are
appended to `result_.errors` are returned as lists, in the order they are appended. Visiting an
expression does not change the analyser, so expression visitors take the scope stack only.
Annotations other than source locations do not occur. `copy_annotation` overwrites the target's
location with the source's, also when the source has none.
-/

namespace Qasm.Sem

variable {F : Type}

/-- The operator symbols of `visit_unary_minus_expression` etc., src/v3x/semantic_analyzer.cpp:468-478. -/
def unSymbol : UnOp → Str
  | .neg => c!"-"
  | .bnot => c!"~"
  | .lnot => c!"!"

/-- The operator symbols of `visit_power_expression` etc., src/v3x/semantic_analyzer.cpp:480-558. -/
def binSymbol : BinOp → Str
  | .pow => c!"**"
  | .mul => c!"*"
  | .div => c!"/"
  | .mod => c!"%"
  | .add => c!"+"
  | .sub => c!"-"
  | .shl => c!"<<"
  | .shr => c!">>"
  | .gt => c!">"
  | .lt => c!"<"
  | .ge => c!">="
  | .le => c!"<="
  | .eq => c!"=="
  | .ne => c!"!="
  | .band => c!"&"
  | .bxor => c!"^"
  | .bor => c!"|"
  | .land => c!"&&"
  | .lxor => c!"^^"
  | .lor => c!"||"

/-- The tail of `visit_function_call`, src/v3x/semantic_analyzer.cpp:436-441. -/
def callFunction (fo : FloatOps F) (scopes : List (Scope F)) (name : Str) (args : List (Value F)) :
    Res Err (Value F) :=
  (Analyzer.resolveFunction fo scopes name args).bind fun
    | some v => .ok v
    | none => .err (Err.mk0 c!"function implementation returned empty value")

/-- What `visit_expression` does around `node.visit(*this)`, src/v3x/semantic_analyzer.cpp:413-422. -/
def locate (loc : Option Loc) (r : Res Err (Value F)) : Res Err (Value F) :=
  match r with
  | .ok v => .ok { v with loc := loc }
  | .err e => .err (e.context loc)
  | .exn c => .exn c
  | .ub => .ub

/-- `check_out_of_range`, src/v3x/semantic_analyzer.cpp:569-575. -/
def checkOutOfRange (indices : List (Int64 × Option Loc)) (size : Int64) : Res Err Unit :=
  match indices with
  | [] => .ok ()
  | (i, _) :: rest =>
    if i < 0 ∨ i ≥ size then
      .err (Err.mk0 (c!"index " ++ decInt i.toInt ++ c!" out of range (size " ++ decInt size.toInt ++ c!")"))
    else checkOutOfRange rest size

/-- The promotion part of `visit_const_int`, src/v3x/semantic_analyzer.cpp:667-675, given the outcome of
`expression.visit(*this)` and the location of the expression. -/
def toConstInt (fo : FloatOps F) (loc : Option Loc) (r : Res Err (Value F)) : Res Err Int64 :=
  r.bind fun v => (Values.promote fo v (.bare .int)).bind fun
    | none => .err (Err.mkNode c!"expected an integer" loc)
    | some w =>
      match w.node with
      | .constInt i => .ok i
      | _ => .err (Err.mkNode c!"integer must be constant" loc)

/-- The loop `for (index = first; index <= last; index++)`, `n` iterations. -/
def countUp (i : Int64) : Nat → List Int64
  | 0 => []
  | n + 1 => i :: countUp (i + 1) n

/-- `visit_index_range` after both bounds are known, src/v3x/semantic_analyzer.cpp:624-633. When `last`
is the largest 64-bit integer the loop increments past it, which is undefined. -/
def indexRange (loc : Option Loc) (first last : Int64) : Res Err (List (Int64 × Option Loc)) :=
  if first > last then .err (Err.mkNode c!"last index is lower than first index" loc)
  else if last = Int64.maxValue then .ub
  else .ok ((countUp first (last.toInt - first.toInt + 1).toNat).map fun i => (i, loc))

/-- `visit_index` after the indexed expression was visited, src/v3x/semantic_analyzer.cpp:580-591.
`as_variable_ref()` of another kind of value is a null pointer, whose use is undefined. -/
def indexInto (v : Value F) (indices : Res Err (List (Int64 × Option Loc))) : Res Err (Value F) :=
  match v.node with
  | .variableRef link =>
    if link.typ.kind = .qubitArray ∨ link.typ.kind = .bitArray then
      indices.bind fun ixs =>
      (checkOutOfRange ixs (Types.sizeOf link.typ)).bind fun _ =>
      .ok ⟨.indexRef link ixs, none⟩
    else
      (Values.typeOf v).bind fun t =>
      .err (Err.mk0 (c!"indexation is not supported for value of type '" ++ Types.print t ++ c!"'"))
  | _ => .ub

mutual
/-- `node.visit(*this)` for an expression: `visit_boolean_literal` … `visit_index`,
src/v3x/semantic_analyzer.cpp:427-662. -/
def visit (fo : FloatOps F) (scopes : List (Scope F)) : Expr F → Res Err (Value F)
  | .boolLit _ b => .ok ⟨.constBool b, none⟩
  | .intLit _ i => .ok ⟨.constInt i, none⟩
  | .floatLit _ f => .ok ⟨.constFloat f, none⟩
  | .ident _ name => Analyzer.resolveVariable scopes name
  | .index loc e ixs =>
    ((locate e.loc (visit fo scopes e)).bind fun v =>
      indexInto v (visitIndexList fo scopes ixs)).mapErr fun err => err.context loc
  | .call _ name args => (visitList fo scopes args).bind fun vs => callFunction fo scopes name vs
  | .un _ op e =>
    (locate e.loc (visit fo scopes e)).bind fun v =>
    callFunction fo scopes (c!"operator" ++ unSymbol op) [v]
  | .bin _ op a b =>
    (locate a.loc (visit fo scopes a)).bind fun va =>
    (locate b.loc (visit fo scopes b)).bind fun vb =>
    callFunction fo scopes (c!"operator" ++ binSymbol op) [va, vb]
  | .tern _ c a b =>
    (locate c.loc (visit fo scopes c)).bind fun vc =>
    (locate a.loc (visit fo scopes a)).bind fun va =>
    (locate b.loc (visit fo scopes b)).bind fun vb =>
    callFunction fo scopes c!"operator?:" [vc, va, vb]

/-- `visit_expression_list`, src/v3x/semantic_analyzer.cpp:404-411. -/
def visitList (fo : FloatOps F) (scopes : List (Scope F)) : List (Expr F) → Res Err (List (Value F))
  | [] => .ok []
  | e :: es =>
    (locate e.loc (visit fo scopes e)).bind fun v =>
    (visitList fo scopes es).bind fun vs => .ok (v :: vs)

/-- `visit_index_list`, src/v3x/semantic_analyzer.cpp:598-612. -/
def visitIndexList (fo : FloatOps F) (scopes : List (Scope F)) :
    List (IndexEntry F) → Res Err (List (Int64 × Option Loc))
  | [] => .ok []
  | x :: xs =>
    (visitIndexEntry fo scopes x).bind fun is =>
    (visitIndexList fo scopes xs).bind fun rest => .ok (is ++ rest)

/-- `visit_index_item`, src/v3x/semantic_analyzer.cpp:614-619, and `visit_index_range`, 621-634. -/
def visitIndexEntry (fo : FloatOps F) (scopes : List (Scope F)) :
    IndexEntry F → Res Err (List (Int64 × Option Loc))
  | .item loc e => (toConstInt fo e.loc (visit fo scopes e)).bind fun i => .ok [(i, loc)]
  | .range loc a b =>
    (toConstInt fo a.loc (visit fo scopes a)).bind fun first =>
    (toConstInt fo b.loc (visit fo scopes b)).bind fun last =>
    indexRange loc first last
end

/-- `visit_expression`, src/v3x/semantic_analyzer.cpp:413-422. -/
def visitExpression (fo : FloatOps F) (scopes : List (Scope F)) (e : Expr F) : Res Err (Value F) :=
  locate e.loc (visit fo scopes e)

/-- A computation that also appends errors to `result_.errors`. -/
abbrev Log (α : Type) := List Err × α

/-- The operand loop of `visit_annotation_data`, src/v3x/semantic_analyzer.cpp:80-87. -/
def visitAnnotationOperands (fo : FloatOps F) (scopes : List (Scope F)) (loc : Option Loc) :
    List (Expr F) → Res Empty (Log (List (Value F)))
  | [] => .ok ([], [])
  | e :: es =>
    match visit fo scopes e with
    | .ok v => (visitAnnotationOperands fo scopes loc es).bind fun r => .ok (r.1, v :: r.2)
    | .err x => (visitAnnotationOperands fo scopes loc es).bind fun r => .ok (x.context loc :: r.1, r.2)
    | .exn c => .exn c
    | .ub => .ub

/-- `visit_annotated` over `visit_annotation_data`, src/v3x/semantic_analyzer.cpp:67-95. The outer
`catch` of `visit_annotation_data` is dead code: nothing outside the inner `try` throws. -/
def visitAnnotations (fo : FloatOps F) (scopes : List (Scope F)) :
    List (AnnotationData F) → Res Empty (Log (List (SAnnotation F)))
  | [] => .ok ([], [])
  | a :: as =>
    (visitAnnotationOperands fo scopes a.loc a.operands).bind fun r =>
    (visitAnnotations fo scopes as).bind fun rs =>
    .ok (r.1 ++ rs.1, ⟨a.interface, a.operation, r.2, a.loc⟩ :: rs.2)

/-- `build_semantic_type`, include/libqasm/v3x/semantic_analyzer.hpp:80-105. -/
def buildSemanticType (t : TypeAst) : Res Err Ty :=
  let build (single array : Kind) (name : Str) : Res Err Ty :=
    match t.size with
    | none => .ok ⟨single, 1⟩
    | some n => if n > 0 then .ok ⟨array, n⟩ else .err (Err.mk0 (c!"found " ++ name ++ c!" array of size <= 0"))
  if t.name = c!"qubit" then build .qubit .qubitArray c!"qubit"
  else if t.name = c!"bit" then build .bit .bitArray c!"bit"
  else .err (Err.mk0 (c!"unknown type \"" ++ t.name ++ c!"\""))

/-- `get_gate_terminal_name`, src/v3x/semantic_analyzer.cpp:139-141. -/
def gateTerminalName : SGate F → Str
  | .mk name none _ _ _ => name
  | .mk _ (some g) _ _ _ => gateTerminalName g

/-- `get_gate_resolution_name`, src/v3x/semantic_analyzer.cpp:143-150. -/
def gateResolutionName : SGate F → Str
  | .mk name none _ _ _ => name
  | .mk name (some g) _ _ _ =>
    InstructionSet.compositionName
      (if InstructionSet.isSingleQubitGateModifier name then InstructionSet.singleQubitGateCompositionPrefix
       else InstructionSet.twoQubitGateCompositionPrefix)
      (gateTerminalName g)

/-- The number of qubits of one operand as computed in the loop of
`check_qubit_operands_indices_have_same_size`, src/v3x/semantic_analyzer.cpp:158-172.
`size_t += int64_t` converts modulo 2^64. -/
def qubitCount (v : Value F) : Nat :=
  match v.node with
  | .variableRef l =>
    if l.typ.kind = .qubit then 1
    else if l.typ.kind = .qubitArray then l.typ.size.toUInt64.toNat
    else 0
  | .indexRef l ixs => if l.typ.kind = .qubit ∨ l.typ.kind = .qubitArray then ixs.length else 0
  | _ => 0

/-- `std::adjacent_find(…, std::not_equal_to<>())` finds something. -/
def adjacentDiffer : List Nat → Bool
  | a :: b :: rest => a != b || adjacentDiffer (b :: rest)
  | _ => false

/-- `check_gate_instruction` = `check_qubit_operands_indices_have_same_size`,
src/v3x/semantic_analyzer.cpp:152-182. -/
def checkGateInstruction (operands : List (Value F)) : Res Err Unit :=
  if adjacentDiffer (operands.map qubitCount) then .err (Err.mk0 c!"qubit operands indices have different sizes")
  else .ok ()

/-- The `std::for_each` over the parameter types in `resolve_parameters`,
src/v3x/semantic_analyzer.cpp:237-247 and 267-277. `Any::add` of an empty value adds nothing. -/
def promoteParameters (fo : FloatOps F) (instructionName : Str) :
    Str → List (Value F) → Res Err (List (Value F))
  | c :: cs, p :: ps =>
    match Types.fromSpecChar c with
    | none => .exn c!"std::invalid_argument"
    | some t =>
      (Values.typeOf p).bind fun tp =>
      if Values.checkPromote tp t then
        (Values.promote fo p t).bind fun p' =>
        (promoteParameters fo instructionName cs ps).bind fun rest => .ok (p'.toList ++ rest)
      else
        .err (Err.mk0 (c!"failed to resolve '" ++ instructionName ++ c!"' with parameter type ("
          ++ Types.print tp ++ c!")"))
  | [], _ => .ok []
  | _ :: _, [] => .ub

/-- `resolve_parameters`, src/v3x/semantic_analyzer.cpp:217-280. -/
def resolveParameters (fo : FloatOps F) (instructionName : Str) (parameters : List (Value F)) :
    Res Err (List (Value F)) :=
  if InstructionSet.isNonGate instructionName then
    match InstructionSet.getNonGateParamTypesWithParamCount instructionName parameters.length with
    | none =>
      if parameters.isEmpty then .ok []
      else .err (Err.mk0 (c!"instruction '" ++ instructionName ++ c!"' does not have an overload with "
        ++ decNat parameters.length ++ c!" parameters."))
    | some paramTypes => promoteParameters fo instructionName paramTypes parameters
  else
    (InstructionSet.getInstructionParamTypes instructionName).bind fun
      | none =>
        if parameters.isEmpty then .ok []
        else .err (Err.mk0 (c!"instruction '" ++ instructionName ++ c!"' expects no parameters, but got "
          ++ decNat parameters.length ++ c!"."))
      | some paramTypes =>
        if parameters.length ≠ paramTypes.length then
          .err (Err.mk0 (c!"instruction '" ++ instructionName ++ c!"' expects " ++ decNat paramTypes.length
            ++ c!" parameters, but got " ++ decNat parameters.length ++ c!"."))
        else promoteParameters fo instructionName paramTypes parameters

/-- `check_gate`, src/v3x/semantic_analyzer.cpp:282-286 (with `is_two_qubit_gate`, 212-215). -/
def checkGate (inner : Option (SGate F)) : Res Err Unit :=
  match inner with
  | none => .ok ()
  | some g =>
    if InstructionSet.isTwoQubitGate (gateResolutionName g) then
      .err (Err.mk0 c!"trying to apply a gate modifier to a multi-qubit gate")
    else .ok ()

/-- Adds already appended errors in front. -/
def Log.after (es : List Err) (r : Res Empty (Log α)) : Res Empty (Log α) :=
  r.bind fun x => .ok (es ++ x.1, x.2)

/-- `visit_gate` after the inner gate has been visited, src/v3x/semantic_analyzer.cpp:295-310, inside
its `try`. The result is the appended errors and either the gate or the thrown error. -/
def visitGateRest (fo : FloatOps F) (scopes : List (Scope F)) (loc : Option Loc)
    (annotations : List (AnnotationData F)) (name : Str) (inner : Option (SGate F)) (parameters : List (Expr F)) :
    Res Empty (Log (Except Err (SGate F))) :=
  match ((visitList fo scopes parameters).bind fun ps =>
      (resolveParameters fo name ps).bind fun ps => (checkGate inner).bind fun _ => .ok ps) with
  | .ok ps => (visitAnnotations fo scopes annotations).bind fun r => .ok (r.1, .ok (.mk name inner ps r.2 loc))
  | .err e => .ok ([], .error (e.context loc))
  | .exn c => .exn c
  | .ub => .ub

/-- `visit_gate`, src/v3x/semantic_analyzer.cpp:288-311. -/
def visitGate (fo : FloatOps F) (scopes : List (Scope F)) : Gate F → Res Empty (Log (Except Err (SGate F)))
  | .mk loc annotations name none parameters => visitGateRest fo scopes loc annotations name none parameters
  | .mk loc annotations name (some g) parameters =>
    (visitGate fo scopes g).bind fun r =>
      match r.2 with
      | .error e => .ok (r.1, .error (e.context loc))
      | .ok inner => Log.after r.1 (visitGateRest fo scopes loc annotations name (some inner) parameters)

/-- The bit count of one operand, as in `check_qubit_and_bit_indices_have_same_size`,
src/v3x/semantic_analyzer.cpp:320-340. -/
def bitCount (v : Value F) : Nat :=
  match v.node with
  | .variableRef l =>
    if l.typ.kind = .bit then 1
    else if l.typ.kind = .bitArray then l.typ.size.toUInt64.toNat
    else 0
  | .indexRef l ixs => if l.typ.kind = .bit ∨ l.typ.kind = .bitArray then ixs.length else 0
  | _ => 0

/-- `check_non_gate_instruction`, src/v3x/semantic_analyzer.cpp:313-350. Simplification: the two sums are natural numbers, the
code adds modulo 2^64. They differ only if the operands of one instruction have 2^64 or more qubits or bits together, which
takes a user's overload of `measure` with three operands or an index list of that length. -/
def checkNonGateInstruction (name : Str) (operands : List (Value F)) : Res Err Unit :=
  if InstructionSet.isMeasure name then
    if (operands.map qubitCount).sum ≠ (operands.map bitCount).sum then
      .err (Err.mk0 c!"qubit and bit indices have different sizes")
    else .ok ()
  else .ok ()

/-- Ends a statement visitor: the `catch` clause appends the error with the node as context. -/
def catchInto (a : Analyzer F) (loc : Option Loc) (r : Res Err (Analyzer F)) : Res Empty (Log (Analyzer F)) :=
  match r with
  | .ok a' => .ok ([], a')
  | .err e => .ok ([e.context loc], a)
  | .exn c => .exn c
  | .ub => .ub

/-- `visit_variable`, src/v3x/semantic_analyzer.cpp:97-122. The variable is added to the list of
variables before its name is registered. -/
def visitVariable (fo : FloatOps F) (a : Analyzer F) (loc : Option Loc) (annotations : List (AnnotationData F))
    (name : Ident) (typ : TypeAst) : Res Empty (Log (Analyzer F)) :=
  match buildSemanticType typ with
  | .err e => .ok ([e.context loc], a)
  | .exn c => .exn c
  | .ub => .ub
  | .ok t =>
    (visitAnnotations fo a.scopes annotations).bind fun r =>
    let v : SVariable F := ⟨a.nextUid, name.name, t, r.2, name.loc⟩
    Log.after r.1 <|
      match Analyzer.addVariable { a with nextUid := a.nextUid + 1 } v with
      | .ok a1 => catchInto a1 loc (a1.registerVariable name.name ⟨.variableRef v.link, none⟩)
      | .err e => .ok ([e.context loc], a)
      | .exn c => .exn c
      | .ub => .ub

/-- `visit_gate_instruction`, src/v3x/semantic_analyzer.cpp:184-210. -/
def visitGateInstruction (fo : FloatOps F) (a : Analyzer F) (loc : Option Loc)
    (annotations : List (AnnotationData F)) (gate : Gate F) (operands : List (Expr F)) :
    Res Empty (Log (Analyzer F)) :=
  (visitGate fo a.scopes gate).bind fun r =>
  Log.after r.1 <|
    match r.2 with
    | .error e => .ok ([e.context loc], a)
    | .ok g =>
      match ((visitList fo a.scopes operands).bind fun ops =>
          (Analyzer.resolveInstruction fo a.scopes (gateResolutionName g) ops).bind fun i =>
          (checkGateInstruction i.2).bind fun _ => .ok i) with
      | .err e => .ok ([e.context loc], a)
      | .exn c => .exn c
      | .ub => .ub
      | .ok i =>
        (visitAnnotations fo a.scopes annotations).bind fun ra =>
        Log.after ra.1 (catchInto a loc (a.addStatement (.gate i.1 g i.2 ra.2 loc)))

/-- `visit_non_gate_instruction`, src/v3x/semantic_analyzer.cpp:352-382. -/
def visitNonGateInstruction (fo : FloatOps F) (a : Analyzer F) (loc : Option Loc)
    (annotations : List (AnnotationData F)) (name : Str) (operands parameters : List (Expr F)) :
    Res Empty (Log (Analyzer F)) :=
  match ((visitList fo a.scopes operands).bind fun ops =>
      (Analyzer.resolveInstruction fo a.scopes name ops).bind fun i =>
      (visitList fo a.scopes parameters).bind fun ps =>
      (resolveParameters fo name ps).bind fun ps =>
      (checkNonGateInstruction name i.2).bind fun _ => .ok (i, ps)) with
  | .err e => .ok ([e.context loc], a)
  | .exn c => .exn c
  | .ub => .ub
  | .ok (i, ps) =>
    (visitAnnotations fo a.scopes annotations).bind fun ra =>
    Log.after ra.1 (catchInto a loc (a.addStatement (.nonGate i.1 name i.2 ps ra.2 loc)))

/-- `visit_asm_declaration`, src/v3x/semantic_analyzer.cpp:384-402. -/
def visitAsmDeclaration (fo : FloatOps F) (a : Analyzer F) (loc : Option Loc)
    (annotations : List (AnnotationData F)) (backendName backendCode : Str) : Res Empty (Log (Analyzer F)) :=
  (visitAnnotations fo a.scopes annotations).bind fun ra =>
  Log.after ra.1 (catchInto a loc (a.addStatement (.asm backendName backendCode ra.2 loc)))

/-- `statement_ast->visit(*this)`. -/
def visitStatement (fo : FloatOps F) (a : Analyzer F) : Stmt F → Res Empty (Log (Analyzer F))
  | .var loc as name typ => visitVariable fo a loc as name typ
  | .gate loc as g ops => visitGateInstruction fo a loc as g ops
  | .nonGate loc as name ops ps => visitNonGateInstruction fo a loc as name ops ps
  | .asm loc as bn bc => visitAsmDeclaration fo a loc as bn bc

/-- `visit_block`, include/libqasm/v3x/semantic_analyzer.hpp:110-120. Its `catch` clause is dead code:
the statement visitors catch every `AnalysisError` themselves. -/
def visitBlock (fo : FloatOps F) (a : Analyzer F) : List (Stmt F) → Res Empty (Log (Analyzer F))
  | [] => .ok ([], a)
  | s :: ss =>
    (visitStatement fo a s).bind fun r => Log.after r.1 (visitBlock fo r.2 ss)

/-- `visit_version`, src/v3x/semantic_analyzer.cpp:34-60. -/
def visitVersion (apiVersion : Version) (node : VersionAst) : Log SVersion :=
  if node.items.any (fun i => decide (i < 0)) then
    ([(Err.mk0 c!"invalid version component").context node.loc], ⟨apiVersion, node.loc⟩)
  else if !(Version.eq node.items apiVersion) then
    ([(Err.mk0 (c!"the only cQASM version supported is " ++ Version.print apiVersion
        ++ c!", but the cQASM file is version " ++ Version.print node.items)).context node.loc],
      ⟨apiVersion, node.loc⟩)
  else ([], ⟨node.items, node.loc⟩)

/-- `visit_program`, src/v3x/semantic_analyzer.cpp:24-32. The block and the variables of the result are
those of the analyser's current scope. -/
def visitProgram (fo : FloatOps F) (a : Analyzer F) (p : ProgramAst F) :
    Res Empty (Analyzer F × Result (SProgram F)) :=
  let v := visitVersion a.apiVersion p.version
  (visitBlock fo a p.block.statements).bind fun r =>
    match r.2.scopes with
    | [] => .ub
    | s :: _ => .ok (r.2, ⟨some ⟨a.apiVersion, v.2, s.block, s.variables⟩, v.1 ++ r.1⟩)

/-- `Analyzer::analyze(syntactic::Program&)`, src/v3x/analyzer.cpp:87-101. Returns the analyser as the
call leaves it and the result. -/
def analyze (fo : FloatOps F) (a : Analyzer F) (p : ProgramAst F) :
    Res Empty (Analyzer F × Result (SProgram F)) :=
  (visitProgram fo a p).bind fun r =>
    if r.2.errors.isEmpty && !((r.2.root.map SProgram.wellFormed).getD false) then
      .exn c!"std::runtime_error"
    else .ok r

/-- `Analyzer::analyze(const ParseResult&)`, src/v3x/analyzer.cpp:108-113. A parse result without errors
and without a root would be dereferenced, which is undefined. -/
def analyzeParse (fo : FloatOps F) (a : Analyzer F) (pr : Result (ProgramAst F)) :
    Res Empty (Analyzer F × Result (SProgram F)) :=
  if !pr.errors.isEmpty then .ok (a, ⟨none, pr.errors⟩)
  else
    match pr.root with
    | none => .ub
    | some p => analyze fo a p

end Qasm.Sem
