import Verif.Model.World
/-!
# Which calls use and change what
-/

namespace Qasm.World

variable {F : Type}

/-- The analyser a call is made on. Copying only reads. -/
def Op.on : Op F → Option Nat
  | .create _ | .copy _ => none
  | .push i | .pop i | .constants i | .functions i | .instructions i | .addName i _ _ | .addFunction i _ _ _ | .addInstruction i _
  | .addStatement i _ | .addVariable i _ | .analyze i _ _ | .throwing i _ _ | .assign i _ => some i

/-- The call makes another analyser a copy of analyser `i`, or analyser `i` a copy of another one. -/
inductive Op.Copies (i : Nat) : Op F → Prop
  | copy : Copies i (.copy i)
  | source {j} : Copies i (.assign j i)
  | target {j} : Copies i (.assign i j)

/-- The address of the block of the current scope of analyser `i`. -/
def current (w : World F) (i : Nat) : Option Nat :=
  match w.analyzers[i]? with
  | some ⟨_, s :: _⟩ => some s.block
  | _ => none

/-- The call may add statements to the block at the address: it analyses a program, or adds a statement, with an analyser whose
current scope has this block. -/
inductive Writes (w : World F) (b : Nat) : Op F → Prop
  | analyze {i p u} : w.current i = some b → Writes w b (.analyze i p u)
  | throwing {i p u} : w.current i = some b → Writes w b (.throwing i p u)
  | statement {i s} : w.current i = some b → Writes w b (.addStatement i s)

/-- A history in which no call may add statements to the block. -/
inductive Quiet (fo : FloatOps F) (b : Nat) : World F → List (Op F) → World F → Prop
  | nil {w} : Quiet fo b w [] w
  | cons {w w' w'' op ops} : ¬ Writes w b op → step fo w op = .ok w' → Quiet fo b w' ops w'' → Quiet fo b w (op :: ops) w''

/-- What memory can look like. -/
def Reachable (fo : FloatOps F) (w : World F) : Prop := ∃ ops, Steps fo empty ops w

/-- The memory after a history of calls. -/
def run (fo : FloatOps F) (w : World F) : List (Op F) → Res Err (World F)
  | [] => .ok w
  | op :: ops => (step fo w op).bind fun w' => run fo w' ops

/-- What a user gets who analyses a program with analyser `i` and looks at the result, `u` being the identity of the first new
variable node. -/
def answer (fo : FloatOps F) (w : World F) (i : Nat) (p : ProgramAst F) (u : Nat) : Res Err (Result (SProgram F)) :=
  (step fo w (.analyze i p u)).bind fun w' =>
    match w'.results.getLast? with
    | none => .ub
    | some r => .ok (w'.readResult r)

/-- What a call does to an analyser that is used alone. (Copying and assigning involve another one.) -/
def Op.alone (fo : FloatOps F) (a : Analyzer F) : Op F → Res Err (Analyzer F)
  | .create v => match Analyzer.new v with | some a => .ok a | none => .exn c!"std::invalid_argument"
  | .copy _ | .assign _ _ => .ok a
  | .push _ => .ok a.pushScope
  | .pop _ => a.popScope
  | .constants _ => a.registerDefaultConstants fo
  | .functions _ => a.registerDefaultFunctions fo
  | .instructions _ => a.registerDefaultInstructions
  | .addName _ name v => a.registerVariable name v
  | .addFunction _ name params f => a.registerFunction name params f
  | .addInstruction _ x => a.registerInstruction x
  | .addStatement _ s => a.addStatement s
  | .addVariable _ x => a.addVariable x
  | .analyze _ p u =>
    match Sem.analyze fo { a with nextUid := u } p with
    | .ok x => .ok x.1
    | .exn c => .exn c
    | .ub => .ub
  | .throwing _ p u =>
    match Sem.visitProgram fo { a with nextUid := u } p with
    | .ok x => .ok x.1
    | .exn c => .exn c
    | .ub => .ub

/-- No other analyser has a block of analyser `i`. -/
def Alone (w : World F) (i : Nat) : Prop :=
  ∀ o, w.analyzers[i]? = some o → ∀ j, j ≠ i → ∀ o', w.analyzers[j]? = some o' →
    ∀ s ∈ o.scopes, ∀ s' ∈ o'.scopes, s.block ≠ s'.block

/-- The block of the current scope of analyser `i` has a statement that refers to a variable node made earlier, which is not among the
variables of this scope. -/
def Stale (w : World F) (i : Nat) : Prop :=
  ∃ o s rest, w.analyzers[i]? = some o ∧ o.scopes = s :: rest ∧ ∃ t ∈ (w.blockAt s.block).statements,
    ∃ y ∈ SProgram.statementValues t, ∃ l, (y.node = .variableRef l ∨ ∃ is, y.node = .indexRef l is) ∧ l.uid < w.nextUid ∧
      ∀ x ∈ s.variables, x.uid ≠ l.uid

end Qasm.World
