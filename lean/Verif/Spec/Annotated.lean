import Verif.Spec.Reports
/-!
# Specification of what is reported and kept for programs with annotations

`ls` is what is registered, innermost scope first. An annotation is part of what it annotates: it is analysed last, and only
if there is nothing else wrong. Operands of annotations that are not valid are reported and left out.
-/

namespace Qasm.Spec

variable {F : Type}

/-! ## Leaving out annotations -/

/-- The gate without annotations. -/
def unnotedGate : Gate F → Gate F
  | .mk l _ name none ps => .mk l [] name none ps
  | .mk l _ name (some g) ps => .mk l [] name (some (unnotedGate g)) ps

/-- The statement without annotations. -/
def unnoted : Stmt F → Stmt F
  | .var l _ name typ => .var l [] name typ
  | .gate l _ g es => .gate l [] (unnotedGate g) es
  | .nonGate l _ name es ps => .nonGate l [] name es ps
  | .asm l _ name code => .asm l [] name code

/-- The program without annotations. -/
def unnotedProgram (p : ProgramAst F) : ProgramAst F := { p with block := { p.block with statements := p.block.statements.map unnoted } }

/-- The gate of the result without annotations. -/
def bareGate : SGate F → SGate F
  | .mk name none ps _ l => .mk name none ps [] l
  | .mk name (some g) ps _ l => .mk name (some (bareGate g)) ps [] l

/-- The instruction of the result without annotations. -/
def bareInstr : SStatement F → SStatement F
  | .gate i g ws _ l => .gate i (bareGate g) ws [] l
  | .nonGate i name ws us _ l => .nonGate i name ws us [] l
  | .asm name code _ l => .asm name code [] l

/-- The variable of the result without annotations. -/
def bareVar (x : SVariable F) : SVariable F := { x with annotations := [] }

/-! ## Annotations -/

/-- The error is reported at a node of the operand, or else at the annotation, or a registered function threw it. -/
def ReportedIn (ls : List (Level F)) (l : Option Loc) (e : Expr F) (x : Err) : Prop :=
  x.location ∈ l :: exprLocs e ∧ (l.isSome → x.location.isSome) ∨ ThrownBy ls x

/-- `OperandsIn fo ls l es vs errs`: of the operands `es` of the annotation at `l` those that are valid give `vs`, and the
others an error each, in their order. -/
inductive OperandsIn (fo : FloatOps F) (ls : List (Level F)) (l : Option Loc) : List (Expr F) → List (Value F) → List Err → Prop
  | nil : OperandsIn fo ls l [] [] []
  | valid {e es v vs errs} : EvalIn fo ls e v → OperandsIn fo ls l es vs errs → OperandsIn fo ls l (e :: es) (v :: vs) errs
  | invalid {e es vs x errs} : (¬∃ v, EvalIn fo ls e v) → FailsIn fo ls e x ∧ ReportedIn ls l e (orAt x l) →
      OperandsIn fo ls l es vs errs → OperandsIn fo ls l (e :: es) vs (orAt x l :: errs)

/-- `NotesIn fo ls as sas errs`: the annotations `as` are kept as `sas`, and give the errors `errs`, in their order. -/
inductive NotesIn (fo : FloatOps F) (ls : List (Level F)) : List (AnnotationData F) → List (SAnnotation F) → List Err → Prop
  | nil : NotesIn fo ls [] [] []
  | cons {a as vs sas es errs} : OperandsIn fo ls a.loc a.operands vs es → NotesIn fo ls as sas errs →
      NotesIn fo ls (a :: as) (⟨a.interface, a.operation, vs, a.loc⟩ :: sas) (es ++ errs)

/-- `GateNoted fo ls g s errs`: `s` has the annotations of `g`, and they give the errors `errs`, those of inner gates first. -/
inductive GateNoted (fo : FloatOps F) (ls : List (Level F)) : Gate F → SGate F → List Err → Prop
  | named {l as name ps ws sas es} : NotesIn fo ls as sas es → GateNoted fo ls (.mk l as name none ps) (.mk name none ws sas l) es
  | modified {l as name g s ps ws sas es errs} : GateNoted fo ls g s es → NotesIn fo ls as sas errs →
      GateNoted fo ls (.mk l as name (some g) ps) (.mk name (some s) ws sas l) (es ++ errs)

/-- `GateNotes fo ls g errs`: the errors for the annotations of a gate, and of those inside it, as far as they are valid. -/
inductive GateNotes (fo : FloatOps F) (ls : List (Level F)) : Gate F → List Err → Prop
  | valid {g n s errs} : GateHere fo ls (unnotedGate g) n (bareGate s) → GateNoted fo ls g s errs → GateNotes fo ls g errs
  | named {l as name ps} : (¬∃ n s, GateHere fo ls (.mk l [] name none ps) n s) → GateNotes fo ls (.mk l as name none ps) []
  | modified {l as name g ps errs} : (¬∃ n s, GateHere fo ls (.mk l [] name (some (unnotedGate g)) ps) n s) → GateNotes fo ls g errs →
      GateNotes fo ls (.mk l as name (some g) ps) errs

/-- `InstrNoted fo ls s t errs`: the instruction `s` is valid without its annotations, and denotes `t` with them; they give the
errors `errs`, those of the gate first. -/
inductive InstrNoted (fo : FloatOps F) (ls : List (Level F)) : Stmt F → SStatement F → List Err → Prop
  | gate {l as g es i s ws sas e1 e2} : InstrIn fo ls (.gate l [] (unnotedGate g) es) (.gate i (bareGate s) ws [] l) →
      GateNoted fo ls g s e1 → NotesIn fo ls as sas e2 → InstrNoted fo ls (.gate l as g es) (.gate i s ws sas l) (e1 ++ e2)
  | nonGate {l as name es ps i ws us sas errs} : InstrIn fo ls (.nonGate l [] name es ps) (.nonGate i name ws us [] l) →
      NotesIn fo ls as sas errs → InstrNoted fo ls (.nonGate l as name es ps) (.nonGate i name ws us sas l) errs
  | asm {l as name code sas errs} : NotesIn fo ls as sas errs → InstrNoted fo ls (.asm l as name code) (.asm name code sas l) errs

/-- The errors for annotations of an instruction that is not valid without them: the valid gates of it have annotations. -/
def NotesOfInvalid (fo : FloatOps F) (ls : List (Level F)) : Stmt F → List Err → Prop
  | .gate _ _ g _, errs => GateNotes fo ls g errs
  | _, errs => errs = []

/-! ## Programs -/

/-- `NotedIn fo ls r u ss vs ts errs r'`: as `AnalysisIn`, for statements with annotations. The errors for annotations come
before the error for the statement, if there is any. -/
inductive NotedIn (fo : FloatOps F) (ls : List (Level F)) :
    Level F → Nat → List (Stmt F) → List (SVariable F) → List (SStatement F) → List Err → Level F → Prop
  | nil {r u} : NotedIn fo ls r u [] [] [] [] r
  | decl {r u l as name typ ss t sas es vs ts errs r'} : TypeOk typ t → name.name ∉ r.vars.map (·.1) → NotesIn fo (r :: ls) as sas es →
      NotedIn fo ls { r with vars := r.vars ++ [(name.name, ⟨.variableRef ⟨u, name.name, t⟩, none⟩)] } (u + 1) ss vs ts errs r' →
      NotedIn fo ls r u (.var l as name typ :: ss) (⟨u, name.name, t, sas, name.loc⟩ :: vs) ts (es ++ errs) r'
  | instr {r u s ss t es vs ts errs r'} : InstrNoted fo (r :: ls) s t es → NotedIn fo ls r u ss vs ts errs r' →
      NotedIn fo ls r u (s :: ss) vs (t :: ts) (es ++ errs) r'
  | badType {r u l as name typ ss vs ts errs r' m} : (¬∃ t, TypeOk typ t) → TypeFails typ m →
      NotedIn fo ls r u ss vs ts errs r' → NotedIn fo ls r u (.var l as name typ :: ss) vs ts (⟨m, l⟩ :: errs) r'
  | redeclared {r u l as name typ ss t sas es vs ts errs r'} : TypeOk typ t → name.name ∈ r.vars.map (·.1) →
      NotesIn fo (r :: ls) as sas es → NotedIn fo ls r (u + 1) ss vs ts errs r' →
      NotedIn fo ls r u (.var l as name typ :: ss) (⟨u, name.name, t, sas, name.loc⟩ :: vs) ts
        (es ++ ⟨c!"trying to redeclare variable '" ++ name.name ++ c!"'", l⟩ :: errs) r'
  | badInstr {r u s ss es vs ts errs r' e} : ¬ IsDecl s → (¬∃ t, InstrIn fo (r :: ls) (unnoted s) t) →
      NotesOfInvalid fo (r :: ls) s es → InstrFailsIn fo (r :: ls) (unnoted s) e ∧ (ReportedAt (unnoted s) e ∨ ThrownBy (r :: ls) e) →
      NotedIn fo ls r u ss vs ts errs r' → NotedIn fo ls r u (s :: ss) vs ts (es ++ e :: errs) r'

/-- One analysis, as `AnalysedIn`. -/
def AnalysedNoted (fo : FloatOps F) (v : Version) (m : Memory F) (p : ProgramAst F) (r : Result (SProgram F)) (m' : Memory F) : Prop :=
  ∃ f fs l vs ts errs verrs, m.frames = f :: fs ∧
    NotedIn fo (fs.map (·.level)) f.level m.count p.block.statements vs ts errs l ∧
    m' = ⟨⟨l, f.variables ++ vs, f.statements ++ ts⟩ :: fs, m.count + vs.length⟩ ∧
    r.errors = verrs ++ errs ∧
    VersionErrors v p.version verrs ∧
    (∃ root, r.root = some root ∧ root.apiVersion = v ∧ root.variables = f.variables ++ vs ∧
      root.block.statements = f.statements ++ ts ∧ BlockPlace (f.statements ++ ts) root.block.loc ∧
      VersionNode v p.version root.version) ∧
    (r.errors = [] → ClosedProgram (f.variables ++ vs) (f.statements ++ ts))

/-- `ErrorsIn fo v m p errs`: the errors for the program `p` when the analyser keeps `m`: that for the version first, then those
of the statements. -/
def ErrorsIn (fo : FloatOps F) (v : Version) (m : Memory F) (p : ProgramAst F) (errs : List Err) : Prop :=
  ∃ f fs l vs ts serrs verrs, m.frames = f :: fs ∧
    NotedIn fo (fs.map (·.level)) f.level m.count p.block.statements vs ts serrs l ∧ VersionErrors v p.version verrs ∧
    errs = verrs ++ serrs

/-- A session, as `AnswersIn`. -/
inductive AnswersNoted (fo : FloatOps F) (v : Version) : List (Event F) → Memory F → List (Result (SProgram F)) → Memory F → Prop
  | nil {m} : AnswersNoted fo v [] m [] m
  | call {c es m rs m'} : AnswersNoted fo v es (c.keep m) rs m' → AnswersNoted fo v (.call c :: es) m rs m'
  | analyze {p es m r rs m1 m'} : AnalysedNoted fo v m p r m1 → AnswersNoted fo v es m1 rs m' →
      AnswersNoted fo v (.analyze p :: es) m (r :: rs) m'

end Qasm.Spec
