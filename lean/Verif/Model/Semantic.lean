import Verif.Model.Overload
import Verif.Model.Version
/-!
# The semantic tree: `src/v3x/semantic.tree`
-/

namespace Qasm

/-- `semantic::AnnotationData`, src/v3x/semantic.tree. -/
structure SAnnotation (F : Type) where
  interface : Str
  operation : Str
  operands : List (Value F)
  loc : Option Loc

/-- `semantic::Gate`, src/v3x/semantic.tree. -/
inductive SGate (F : Type) where
  | mk (name : Str) (inner : Option (SGate F)) (parameters : List (Value F))
      (annotations : List (SAnnotation F)) (loc : Option Loc)

/-- `semantic::Variable`, src/v3x/semantic.tree. `uid` is the identity of the node (its address). -/
structure SVariable (F : Type) where
  uid : Nat
  name : Str
  typ : Ty
  annotations : List (SAnnotation F)
  loc : Option Loc

/-- The link to a variable node. -/
def SVariable.link {F : Type} (v : SVariable F) : VarLink := ⟨v.uid, v.name, v.typ⟩

/-- `semantic::Instruction` and its subclasses, src/v3x/semantic.tree. -/
inductive SStatement (F : Type) where
  | gate (ref : Instruction) (gate : SGate F) (operands : List (Value F))
      (annotations : List (SAnnotation F)) (loc : Option Loc)
  | nonGate (ref : Instruction) (name : Str) (operands parameters : List (Value F))
      (annotations : List (SAnnotation F)) (loc : Option Loc)
  | asm (backendName backendCode : Str) (annotations : List (SAnnotation F)) (loc : Option Loc)

/-- The source location annotation of a statement. -/
def SStatement.loc {F : Type} : SStatement F → Option Loc
  | .gate _ _ _ _ l | .nonGate _ _ _ _ _ l | .asm _ _ _ l => l

/-- `semantic::Version`, src/v3x/semantic.tree. -/
structure SVersion where
  items : Version
  loc : Option Loc

/-- `semantic::Block`, src/v3x/semantic.tree. -/
structure SBlock (F : Type) where
  statements : List (SStatement F)
  loc : Option Loc

/-- `semantic::Program`, src/v3x/semantic.tree. -/
structure SProgram (F : Type) where
  apiVersion : Version
  version : SVersion
  block : SBlock F
  variables : List (SVariable F)

namespace SProgram

variable {F : Type}

/-- The values directly inside a list of annotations. -/
def annotationValues (as : List (SAnnotation F)) : List (Value F) := as.flatMap (·.operands)

/-- All values inside a gate. -/
def gateValues : SGate F → List (Value F)
  | .mk _ inner ps as _ =>
    (match inner with
      | none => []
      | some g => gateValues g) ++ ps ++ annotationValues as

/-- All values inside a statement. -/
def statementValues : SStatement F → List (Value F)
  | .gate _ g ops as _ => gateValues g ++ ops ++ annotationValues as
  | .nonGate _ _ ops ps as _ => ops ++ ps ++ annotationValues as
  | .asm _ _ as _ => annotationValues as

/-- All values of the tree. -/
def values (p : SProgram F) : List (Value F) :=
  p.block.statements.flatMap statementValues ++ p.variables.flatMap fun v => annotationValues v.annotations

/-- What `check_well_formed` (generated by tree-gen) asks of one value: a link points to a variable node
of the tree, and `Many<const_int>` is not empty. -/
def valueOk (vars : List (SVariable F)) (v : Value F) : Bool :=
  match v.node with
  | .variableRef l => (vars.map (·.uid)).contains l.uid
  | .indexRef l ixs => (vars.map (·.uid)).contains l.uid && !ixs.isEmpty
  | _ => true

/-- `root.check_well_formed()` as called in src/v3x/analyzer.cpp:92. The check that no node occurs
twice in the tree is not modelled: every node of the tree is freshly made. -/
def wellFormed (p : SProgram F) : Bool := p.values.all (valueOk p.variables)

end SProgram
end Qasm
