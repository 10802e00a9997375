import Verif.Spec.Annotated
import Verif.Spec.Stops
/-!
# Specification of when the analysis of a program with annotations ends without a result

As `Spec/Stops`, for programs with annotations. The operands of annotations are evaluated as well, those of an annotated
construct after all else in it, and only if that is valid.
-/

namespace Qasm.Spec

variable {F : Type}

/-- The first of the operands of the annotations to end the analysis does so in this way; errors before it do not matter. -/
def NotesStop (fo : FloatOps F) (ls : List (Level F)) (as : List (AnnotationData F)) (o : Stop) : Prop :=
  ∃ before e after, as.flatMap (·.operands) = before ++ e :: after ∧ (∀ x ∈ before, ¬∃ o', StopsIn fo ls x o') ∧ StopsIn fo ls e o

/-- First the one, and if it does not end the analysis then the other. -/
def InTurn (P Q : Stop → Prop) (o : Stop) : Prop := P o ∨ (¬∃ o', P o') ∧ Q o

/-- Analysing the gate ends the analysis: first the gate inside, then this gate without annotations, then its annotations. -/
def NotedGateStops (fo : FloatOps F) (ls : List (Level F)) : Gate F → Stop → Prop
  | .mk l as name none ps => fun o => GateStops fo ls (.mk l [] name none ps) o ∨
      (∃ n s, GateHere fo ls (.mk l [] name none ps) n s) ∧ NotesStop fo ls as o
  | .mk l as name (some g) ps => InTurn (NotedGateStops fo ls g) fun o =>
      GateStops fo ls (.mk l [] name (some (unnotedGate g)) ps) o ∨
      (∃ n s, GateHere fo ls (.mk l [] name (some (unnotedGate g)) ps) n s) ∧ NotesStop fo ls as o

/-- Analysing the statement ends the analysis. Declarations do so only by their annotations. -/
def StmtStops (fo : FloatOps F) (ls : List (Level F)) : Stmt F → Stop → Prop
  | .var _ as _ typ => fun o => (∃ t, TypeOk typ t) ∧ NotesStop fo ls as o
  | .gate l as g es => InTurn (NotedGateStops fo ls g) fun o =>
      InstrStops fo ls (.gate l [] (unnotedGate g) es) o ∨
      (∃ t, InstrIn fo ls (.gate l [] (unnotedGate g) es) t) ∧ NotesStop fo ls as o
  | .nonGate l as name es ps => fun o => InstrStops fo ls (.nonGate l [] name es ps) o ∨
      (∃ t, InstrIn fo ls (.nonGate l [] name es ps) t) ∧ NotesStop fo ls as o
  | .asm _ as _ _ => NotesStop fo ls as

/-- Analysing the statements reaches one that ends the analysis. -/
inductive NotedBlockStops (fo : FloatOps F) (ls : List (Level F)) : Level F → Nat → List (Stmt F) → Stop → Prop
  | here {r u s ss o} : StmtStops fo (r :: ls) s o → NotedBlockStops fo ls r u (s :: ss) o
  | decl {r u l as name typ t ss o} : TypeOk typ t → name.name ∉ r.vars.map (·.1) →
      (¬∃ o', StmtStops fo (r :: ls) (.var l as name typ) o') →
      NotedBlockStops fo ls { r with vars := r.vars ++ [(name.name, ⟨.variableRef ⟨u, name.name, t⟩, none⟩)] } (u + 1) ss o →
      NotedBlockStops fo ls r u (.var l as name typ :: ss) o
  | badType {r u l as name typ ss o} : (¬∃ t, TypeOk typ t) → NotedBlockStops fo ls r u ss o →
      NotedBlockStops fo ls r u (.var l as name typ :: ss) o
  | redeclared {r u l as name typ t ss o} : TypeOk typ t → name.name ∈ r.vars.map (·.1) →
      (¬∃ o', StmtStops fo (r :: ls) (.var l as name typ) o') → NotedBlockStops fo ls r (u + 1) ss o →
      NotedBlockStops fo ls r u (.var l as name typ :: ss) o
  | later {r u s ss o} : ¬ IsDecl s → (¬∃ o', StmtStops fo (r :: ls) s o') → NotedBlockStops fo ls r u ss o →
      NotedBlockStops fo ls r u (s :: ss) o

/-- The analysis of the program ends without a result: a statement ends it; or there is no error but a value in the tree
is not in order; or all scopes have been closed. -/
inductive NotedProgramStops (fo : FloatOps F) (v : Version) (m : Memory F) (p : ProgramAst F) : Stop → Prop
  | block {f fs o} : m.frames = f :: fs → NotedBlockStops fo (fs.map (·.level)) f.level m.count p.block.statements o →
      NotedProgramStops fo v m p o
  | notClosed {f fs vs ts l} : m.frames = f :: fs → VersionOk v p.version.items →
      NotedIn fo (fs.map (·.level)) f.level m.count p.block.statements vs ts [] l →
      ¬ ClosedProgram (f.variables ++ vs) (f.statements ++ ts) →
      NotedProgramStops fo v m p (.throws c!"std::runtime_error")
  | noScope : m.frames = [] → NotedProgramStops fo v m p .undefined

end Qasm.Spec
