import Verif.Spec.Reports
/-!
# Specification of when an analysis ends without a result

`ls` is what is registered, innermost scope first. An analysis error is recorded and the analysis goes on; anything else that
is thrown, and undefined behaviour, ends it.
-/

namespace Qasm.Spec

variable {F : Type}

/-- How something ends that neither returns nor throws an analysis error. -/
inductive Stop
  | throws (cls : Str)
  | undefined

/-- The outcome. -/
def Stop.as {ε α : Type} : Stop → Res ε α
  | .throws c => .exn c
  | .undefined => .ub

/-- What is thrown for a value that has no type. -/
def untyped : Stop := .throws c!"std::runtime_error"

/-- The value has no type: it is one element of something that is not an array. -/
def Untyped (v : Value F) : Prop := kindOf v.node = none

/-- The call ends the analysis: a function has that name and an argument has no type, or the function that is chosen does. -/
inductive CallStops (fo : FloatOps F) (ls : List (Level F)) (name : Str) (args : List (Value F)) : Stop → Prop
  | noScope : ls = [] → CallStops fo ls name args .undefined
  | untyped {g r v} : ls.getLast? = some g → r ∈ g.functions → r.1 = name → v ∈ args → Untyped v → CallStops fo ls name args untyped
  | function {g f args' o} : ls.getLast? = some g → LastFitting fo g.functions name args f args' → f args' = o.as →
      CallStops fo ls name args o

mutual
/-- `StopsIn fo ls e o`: evaluating `e` from left to right ends the analysis, before any error. -/
inductive StopsIn (fo : FloatOps F) (ls : List (Level F)) : Expr F → Stop → Prop
  | indexed {l e ixs o} : StopsIn fo ls e o → StopsIn fo ls (.index l e ixs) o
  | notVariable {l e ixs v} : EvalIn fo ls e v → (∀ x, v.node ≠ .variableRef x) → StopsIn fo ls (.index l e ixs) .undefined
  | indices {l e ixs x lx o} : EvalIn fo ls e ⟨.variableRef x, lx⟩ → x.typ.kind = .qubitArray ∨ x.typ.kind = .bitArray →
      IndicesStop fo ls ixs o → StopsIn fo ls (.index l e ixs) o
  | args {l name args o} : ArgsStop fo ls args o → StopsIn fo ls (.call l name args) o
  | call {l name args vs o} : ArgsIn fo ls args vs → CallStops fo ls name vs o → StopsIn fo ls (.call l name args) o
  | operand {l op e o} : StopsIn fo ls e o → StopsIn fo ls (.un l op e) o
  | un {l op e v o} : EvalIn fo ls e v → CallStops fo ls (Fn.un op).name [⟨v.node, e.loc⟩] o → StopsIn fo ls (.un l op e) o
  | left {l op a b o} : StopsIn fo ls a o → StopsIn fo ls (.bin l op a b) o
  | right {l op a b v o} : EvalIn fo ls a v → StopsIn fo ls b o → StopsIn fo ls (.bin l op a b) o
  | bin {l op a b v w o} : EvalIn fo ls a v → EvalIn fo ls b w →
      CallStops fo ls (Fn.bin op).name [⟨v.node, a.loc⟩, ⟨w.node, b.loc⟩] o → StopsIn fo ls (.bin l op a b) o
  | cond {l a b c o} : StopsIn fo ls a o → StopsIn fo ls (.tern l a b c) o
  | ifTrue {l a b c u o} : EvalIn fo ls a u → StopsIn fo ls b o → StopsIn fo ls (.tern l a b c) o
  | ifFalse {l a b c u v o} : EvalIn fo ls a u → EvalIn fo ls b v → StopsIn fo ls c o → StopsIn fo ls (.tern l a b c) o
  | tern {l a b c u v w o} : EvalIn fo ls a u → EvalIn fo ls b v → EvalIn fo ls c w →
      CallStops fo ls Fn.cond.name [⟨u.node, a.loc⟩, ⟨v.node, b.loc⟩, ⟨w.node, c.loc⟩] o → StopsIn fo ls (.tern l a b c) o
/-- The first of the expressions that does not evaluate ends the analysis. -/
inductive ArgsStop (fo : FloatOps F) (ls : List (Level F)) : List (Expr F) → Stop → Prop
  | head {e es o} : StopsIn fo ls e o → ArgsStop fo ls (e :: es) o
  | tail {e es v o} : EvalIn fo ls e v → ArgsStop fo ls es o → ArgsStop fo ls (e :: es) o
/-- The first of the index entries that does not evaluate ends the analysis. -/
inductive IndicesStop (fo : FloatOps F) (ls : List (Level F)) : List (IndexEntry F) → Stop → Prop
  | head {x xs o} : EntryStops fo ls x o → IndicesStop fo ls (x :: xs) o
  | tail {x xs is o} : EntryIn fo ls x is → IndicesStop fo ls xs o → IndicesStop fo ls (x :: xs) o
/-- An index entry ends the analysis: an expression in it does, or is a value without a type, or it is a range that ends at the
largest 64-bit integer. -/
inductive EntryStops (fo : FloatOps F) (ls : List (Level F)) : IndexEntry F → Stop → Prop
  | item {l e o} : StopsIn fo ls e o → EntryStops fo ls (.item l e) o
  | itemUntyped {l e v} : EvalIn fo ls e v → Untyped v → EntryStops fo ls (.item l e) untyped
  | first {l a b o} : StopsIn fo ls a o → EntryStops fo ls (.range l a b) o
  | firstUntyped {l a b v} : EvalIn fo ls a v → Untyped v → EntryStops fo ls (.range l a b) untyped
  | last {l a b v i li o} : EvalIn fo ls a v → PromotesTo fo v .int ⟨.constInt i, li⟩ → StopsIn fo ls b o →
      EntryStops fo ls (.range l a b) o
  | lastUntyped {l a b v i li w} : EvalIn fo ls a v → PromotesTo fo v .int ⟨.constInt i, li⟩ → EvalIn fo ls b w → Untyped w →
      EntryStops fo ls (.range l a b) untyped
  | range {l a b v w i j li lj} : EvalIn fo ls a v → PromotesTo fo v .int ⟨.constInt i, li⟩ → EvalIn fo ls b w →
      PromotesTo fo w .int ⟨.constInt j, lj⟩ → i.toInt ≤ j.toInt → j.toInt = 2 ^ 63 - 1 → EntryStops fo ls (.range l a b) .undefined
end

/-- Where the kinds `ks` are expected there is a value without a type, and all before it can be passed. -/
inductive LacksType : List (Value F) → List Kind → Prop
  | here {v vs k ks} : Untyped v → vs.length = ks.length → LacksType (v :: vs) (k :: ks)
  | there {v vs k ks k'} : kindOf v.node = some k' → Widens k' k → LacksType vs ks → LacksType (v :: vs) (k :: ks)

/-- Analysing the gate ends the analysis, before any error. -/
inductive GateStops (fo : FloatOps F) (ls : List (Level F)) : Gate F → Stop → Prop
  | parameters {l as name ps o} : ArgsStop fo ls ps o → GateStops fo ls (.mk l as name none ps) o
  | named {l as name ps vs n ks} : ArgsIn fo ls ps vs → (name, n, ks) ∈ namedGates → LacksType vs ks →
      GateStops fo ls (.mk l as name none ps) untyped
  | inner {l as name g ps o} : GateStops fo ls g o → GateStops fo ls (.mk l as name (some g) ps) o
  | modifier {l as name g ps n s o} : GateHere fo ls g n s → ArgsStop fo ls ps o → GateStops fo ls (.mk l as name (some g) ps) o
  | modified {l as name g ps n s vs} : GateHere fo ls g n s → ArgsIn fo ls ps vs → LacksType vs (modifierParameters name) →
      GateStops fo ls (.mk l as name (some g) ps) untyped

/-- Analysing the instruction ends the analysis, before any error. -/
inductive InstrStops (fo : FloatOps F) (ls : List (Level F)) : Stmt F → Stop → Prop
  | gate {l as g es o} : GateStops fo ls g o → InstrStops fo ls (.gate l as g es) o
  | gateArgs {l as g es n s o} : GateHere fo ls g n s → ArgsStop fo ls es o → InstrStops fo ls (.gate l as g es) o
  | gateUntyped {l as g es n s vs v} : GateHere fo ls g n s → ArgsIn fo ls es vs → v ∈ vs → Untyped v →
      InstrStops fo ls (.gate l as g es) untyped
  | args {l as name es ps o} : ArgsStop fo ls es o → InstrStops fo ls (.nonGate l as name es ps) o
  | argUntyped {l as name es ps vs v} : ArgsIn fo ls es vs → v ∈ vs → Untyped v → InstrStops fo ls (.nonGate l as name es ps) untyped
  | parameters {l as name es ps vs i ws o} : ArgsIn fo ls es vs → ChosenInstr fo name vs i ws ls → ArgsStop fo ls ps o →
      InstrStops fo ls (.nonGate l as name es ps) o
  | parameterUntyped {l as name es ps vs i ws us ks} : ArgsIn fo ls es vs → ChosenInstr fo name vs i ws ls → ArgsIn fo ls ps us →
      (name, ks) ∈ nonGateParameters → LacksType us ks → InstrStops fo ls (.nonGate l as name es ps) untyped

/-- Analysing the statements reaches one that ends the analysis. Declarations do not; those that are accepted register their
variable. -/
inductive BlockStops (fo : FloatOps F) (ls : List (Level F)) : Level F → Nat → List (Stmt F) → Stop → Prop
  | here {r u s ss o} : InstrStops fo (r :: ls) s o → BlockStops fo ls r u (s :: ss) o
  | decl {r u l as name typ t ss o} : TypeOk typ t → name.name ∉ r.vars.map (·.1) →
      BlockStops fo ls { r with vars := r.vars ++ [(name.name, ⟨.variableRef ⟨u, name.name, t⟩, none⟩)] } (u + 1) ss o →
      BlockStops fo ls r u (.var l as name typ :: ss) o
  | badType {r u l as name typ ss o} : (¬∃ t, TypeOk typ t) → BlockStops fo ls r u ss o →
      BlockStops fo ls r u (.var l as name typ :: ss) o
  | redeclared {r u l as name typ t ss o} : TypeOk typ t → name.name ∈ r.vars.map (·.1) → BlockStops fo ls r (u + 1) ss o →
      BlockStops fo ls r u (.var l as name typ :: ss) o
  | later {r u s ss o} : ¬ IsDecl s → (¬∃ o', InstrStops fo (r :: ls) s o') → BlockStops fo ls r u ss o →
      BlockStops fo ls r u (s :: ss) o

/-- The analysis of the program ends without a result: an instruction ends it; or the program is valid but a value in the tree
is not in order; or all scopes have been closed. -/
inductive ProgramStops (fo : FloatOps F) (v : Version) (m : Memory F) (p : ProgramAst F) : Stop → Prop
  | block {f fs o} : m.frames = f :: fs → BlockStops fo (fs.map (·.level)) f.level m.count p.block.statements o →
      ProgramStops fo v m p o
  | notClosed {f fs vs ts} : m.frames = f :: fs → VersionOk v p.version.items →
      ExecIn fo m.levels m.count p.block.statements vs ts → ¬ ClosedProgram (f.variables ++ vs) (f.statements ++ ts) →
      ProgramStops fo v m p (.throws c!"std::runtime_error")
  | noScope : m.frames = [] → ProgramStops fo v m p .undefined

/-! ## Registrations and programs that cannot end an analysis -/

/-- Functions that are registered return or throw analysis errors, and all values that are registered or returned have a type. -/
def Calm (ls : List (Level F)) : Prop :=
  ∀ l ∈ ls, (∀ x ∈ l.vars, ¬ Untyped x.2) ∧
    ∀ f ∈ l.functions, ∀ args, (∀ o : Stop, f.2.1 args ≠ o.as) ∧ ∀ r, f.2.1 args = .ok (some r) → ¬ Untyped r

/-- All names other than these are registered for variables, if at all. -/
def VariablesOnly (ls : List (Level F)) (names : List Str) : Prop :=
  ∀ l ∈ ls, ∀ x ∈ l.vars, x.1 ∉ names → ∃ y, x.2.node = .variableRef y

mutual
/-- Only identifiers are indexed, other than `names`, and ranges end with a literal that is not the largest integer. -/
def Indexes (names : List Str) : Expr F → Prop
  | .boolLit .. => True
  | .intLit .. => True
  | .floatLit .. => True
  | .ident .. => True
  | .index _ e ixs => (∃ l n, e = .ident l n ∧ n ∉ names) ∧ IndexesEntries names ixs
  | .call _ _ args => IndexesArgs names args
  | .un _ _ e => Indexes names e
  | .bin _ _ a b => Indexes names a ∧ Indexes names b
  | .tern _ a b c => Indexes names a ∧ Indexes names b ∧ Indexes names c
/-- The same for expressions. -/
def IndexesArgs (names : List Str) : List (Expr F) → Prop
  | [] => True
  | e :: es => Indexes names e ∧ IndexesArgs names es
/-- The same for index entries. -/
def IndexesEntries (names : List Str) : List (IndexEntry F) → Prop
  | [] => True
  | .item _ e :: xs => Indexes names e ∧ IndexesEntries names xs
  | .range _ a b :: xs => Indexes names a ∧ (∃ l j, b = .intLit l j ∧ j.toInt < 2 ^ 63 - 1) ∧ IndexesEntries names xs
end

/-- The same for gates. -/
def IndexesGate (names : List Str) : Gate F → Prop
  | .mk _ _ _ none ps => IndexesArgs names ps
  | .mk _ _ _ (some g) ps => IndexesGate names g ∧ IndexesArgs names ps

/-- The same for statements. -/
def IndexesStmt (names : List Str) : Stmt F → Prop
  | .var .. => True
  | .gate _ _ g es => IndexesGate names g ∧ IndexesArgs names es
  | .nonGate _ _ _ es ps => IndexesArgs names es ∧ IndexesArgs names ps
  | .asm .. => True

end Qasm.Spec
