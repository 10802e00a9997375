import Verif.Spec.FailsIn
import Verif.Spec.Uses
/-!
# Specification of what analysers with their own registrations report and keep
-/

namespace Qasm.Spec

variable {F : Type}

/-- A registered function threw the error, with a location of its own. -/
def ThrownBy (ls : List (Level F)) (e : Err) : Prop :=
  e.location.isSome ∧ ∃ g, ls.getLast? = some g ∧ ∃ f ∈ g.functions, ∃ args, f.2.1 args = .err e

/-- `AnalysisIn fo ls r u ss vs ts bad r'`: where `r` is registered in the current scope and `ls` in the outer ones, and `u`
variables were declared before, the statements `ss` give the variables `vs` and the instructions `ts`. The statements `bad` are
rejected, with one error each. Afterwards `r'` is registered in the current scope. -/
inductive AnalysisIn (fo : FloatOps F) (ls : List (Level F)) :
    Level F → Nat → List (Stmt F) → List (SVariable F) → List (SStatement F) → List (Stmt F × Err) → Level F → Prop
  | nil {r u} : AnalysisIn fo ls r u [] [] [] [] r
  | decl {r u l as name typ ss t vs ts bad r'} : TypeOk typ t → name.name ∉ r.vars.map (·.1) →
      AnalysisIn fo ls { r with vars := r.vars ++ [(name.name, ⟨.variableRef ⟨u, name.name, t⟩, none⟩)] } (u + 1) ss vs ts bad r' →
      AnalysisIn fo ls r u (.var l as name typ :: ss) (⟨u, name.name, t, [], name.loc⟩ :: vs) ts bad r'
  | instr {r u s ss t vs ts bad r'} : InstrIn fo (r :: ls) s t → AnalysisIn fo ls r u ss vs ts bad r' →
      AnalysisIn fo ls r u (s :: ss) vs (t :: ts) bad r'
  | badType {r u l as name typ ss vs ts bad r' m} : (¬∃ t, TypeOk typ t) → TypeFails typ m →
      AnalysisIn fo ls r u ss vs ts bad r' →
      AnalysisIn fo ls r u (.var l as name typ :: ss) vs ts ((.var l as name typ, ⟨m, l⟩) :: bad) r'
  | redeclared {r u l as name typ ss t vs ts bad r'} : TypeOk typ t → name.name ∈ r.vars.map (·.1) →
      AnalysisIn fo ls r (u + 1) ss vs ts bad r' →
      AnalysisIn fo ls r u (.var l as name typ :: ss) (⟨u, name.name, t, [], name.loc⟩ :: vs) ts
        ((.var l as name typ, ⟨c!"trying to redeclare variable '" ++ name.name ++ c!"'", l⟩) :: bad) r'
  | badInstr {r u s ss vs ts bad r' e} : ¬ IsDecl s → (¬∃ t, InstrIn fo (r :: ls) s t) →
      InstrFailsIn fo (r :: ls) s e ∧ (ReportedAt s e ∨ ThrownBy (r :: ls) e) →
      AnalysisIn fo ls r u ss vs ts bad r' → AnalysisIn fo ls r u (s :: ss) vs ts ((s, e) :: bad) r'

/-- What an analyser keeps for a scope: what is registered, and the variables and instructions of the programs that were
analysed while it was the current one. -/
structure Frame (F : Type) where
  level : Level F
  variables : List (SVariable F)
  statements : List (SStatement F)

/-- What an analyser keeps: the scopes, innermost first, and how many variables were declared. -/
structure Memory (F : Type) where
  frames : List (Frame F)
  count : Nat

/-- What is registered. -/
def Memory.levels (m : Memory F) : List (Level F) := m.frames.map (·.level)

/-- Calls change only what is registered. -/
def Call.keep (m : Memory F) : Call F → Memory F
  | .push => ⟨⟨⟨[], [], []⟩, [], []⟩ :: m.frames, m.count⟩
  | .pop => ⟨m.frames.tail, m.count⟩
  | c => ⟨List.zipWith (fun f l => ⟨l, f.variables, f.statements⟩) m.frames (c.see m.levels), m.count⟩

/-- Where a block is: nowhere if none of its statements is anywhere, and else the smallest range with all of theirs, if those
begin before they end. -/
def BlockPlace (ts : List (SStatement F)) (loc : Option Loc) : Prop :=
  (∀ t ∈ ts, ∀ l, t.loc = some l → PosLe l.range.first l.range.last) →
    loc = none ∧ ts.filterMap SStatement.loc = [] ∨ ∃ l, loc = some l ∧ IsHull (ts.filterMap SStatement.loc) l

/-- The version of the tree: that of the program, or that of the analyser if the program's is not supported. -/
def VersionNode (v : Version) (node : VersionAst) (x : SVersion) : Prop :=
  x.loc = node.loc ∧ (VersionOk v node.items → x.items = node.items) ∧ (¬ VersionOk v node.items → x.items = v)

/-- One analysis: what the analyser keeps, the program, what it returns, and what the analyser keeps afterwards. The tree has
what was kept for the current scope, and what the program adds. -/
def AnalysedIn (fo : FloatOps F) (v : Version) (m : Memory F) (p : ProgramAst F) (r : Result (SProgram F)) (m' : Memory F) : Prop :=
  ∃ f fs l vs ts bad verrs, m.frames = f :: fs ∧
    AnalysisIn fo (fs.map (·.level)) f.level m.count p.block.statements vs ts bad l ∧
    m' = ⟨⟨l, f.variables ++ vs, f.statements ++ ts⟩ :: fs, m.count + vs.length⟩ ∧
    r.errors = verrs ++ bad.map (·.2) ∧
    VersionErrors v p.version verrs ∧
    (∃ root, r.root = some root ∧ root.apiVersion = v ∧ root.variables = f.variables ++ vs ∧
      root.block.statements = f.statements ++ ts ∧ BlockPlace (f.statements ++ ts) root.block.loc ∧
      VersionNode v p.version root.version) ∧
    (r.errors = [] → ClosedProgram (f.variables ++ vs) (f.statements ++ ts))

/-- `AnswersIn fo v es m rs m'`: how an analyser that keeps `m` answers to the events. -/
inductive AnswersIn (fo : FloatOps F) (v : Version) : List (Event F) → Memory F → List (Result (SProgram F)) → Memory F → Prop
  | nil {m} : AnswersIn fo v [] m [] m
  | call {c es m rs m'} : AnswersIn fo v es (c.keep m) rs m' → AnswersIn fo v (.call c :: es) m rs m'
  | analyze {p es m r rs m1 m'} : AnalysedIn fo v m p r m1 → AnswersIn fo v es m1 rs m' →
      AnswersIn fo v (.analyze p :: es) m (r :: rs) m'

end Qasm.Spec
