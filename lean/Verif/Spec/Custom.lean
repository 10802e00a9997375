import Verif.Spec.Failure
import Verif.Spec.Program
/-!
# Specification of the programs an analyser with its own registrations accepts

`ls` is what is registered, innermost scope first (`registered`). Nothing is assumed about it: the constants, functions
and instructions of the language are registrations like any other.
-/

namespace Qasm.Spec

variable {F : Type}

/-- The name denotes the value: it is registered in this or an outer scope, and in no scope further in. -/
inductive Seen (name : Str) (v : Value F) : List (Level F) → Prop
  | here {l ls older newer} : l.vars = older ++ (name, v) :: newer → name ∉ older.map (·.1) → Seen name v (l :: ls)
  | outer {l ls} : name ∉ l.vars.map (·.1) → Seen name v ls → Seen name v (l :: ls)

/-- Calling the function with the arguments gives `r`: the global function of that name that was registered last among
those that fit returns it for the promoted arguments. -/
def Returns (fo : FloatOps F) (ls : List (Level F)) (name : Str) (args : List (Value F)) (r : Value F) : Prop :=
  ∃ g f args', ls.getLast? = some g ∧ LastFitting fo g.functions name args f args' ∧ f args' = .ok (some r)

/-- The instruction that is meant: the one registered last among those that fit, in the innermost scope that has one. -/
inductive ChosenInstr (fo : FloatOps F) (name : Str) (args : List (Value F)) (i : Instruction) (args' : List (Value F)) :
    List (Level F) → Prop
  | here {l ls} : LastFitting fo l.instructions name args i args' → ChosenInstr fo name args i args' (l :: ls)
  | outer {l ls} : (∀ r ∈ l.instructions, r.1 = name → ¬∃ ws, Fits fo args r.2.2 ws) → ChosenInstr fo name args i args' ls →
      ChosenInstr fo name args i args' (l :: ls)

mutual
/-- `EvalIn fo ls e v`: the expression evaluates to `v`. -/
inductive EvalIn (fo : FloatOps F) (ls : List (Level F)) : Expr F → Value F → Prop
  | boolLit (l b) : EvalIn fo ls (.boolLit l b) ⟨.constBool b, none⟩
  | intLit (l i) : EvalIn fo ls (.intLit l i) ⟨.constInt i, none⟩
  | floatLit (l f) : EvalIn fo ls (.floatLit l f) ⟨.constFloat f, none⟩
  | ident {l name v} : Seen name v ls → EvalIn fo ls (.ident l name) v
  | index {l e ixs x lx is} : EvalIn fo ls e ⟨.variableRef x, lx⟩ →
      x.typ.kind = .qubitArray ∨ x.typ.kind = .bitArray → IndicesIn fo ls ixs is →
      (∀ i ∈ is, 0 ≤ i.1.toInt ∧ i.1.toInt < x.typ.size.toInt) → EvalIn fo ls (.index l e ixs) ⟨.indexRef x is, none⟩
  | call {l name args vs r} : ArgsIn fo ls args vs → Returns fo ls name vs r → EvalIn fo ls (.call l name args) r
  | un {l op e v r} : EvalIn fo ls e v → Returns fo ls (Fn.un op).name [⟨v.node, e.loc⟩] r → EvalIn fo ls (.un l op e) r
  | bin {l op a b v w r} : EvalIn fo ls a v → EvalIn fo ls b w →
      Returns fo ls (Fn.bin op).name [⟨v.node, a.loc⟩, ⟨w.node, b.loc⟩] r → EvalIn fo ls (.bin l op a b) r
  | tern {l a b c u v w r} : EvalIn fo ls a u → EvalIn fo ls b v → EvalIn fo ls c w →
      Returns fo ls Fn.cond.name [⟨u.node, a.loc⟩, ⟨v.node, b.loc⟩, ⟨w.node, c.loc⟩] r → EvalIn fo ls (.tern l a b c) r
/-- The expressions evaluate to the values, which are located at them. -/
inductive ArgsIn (fo : FloatOps F) (ls : List (Level F)) : List (Expr F) → List (Value F) → Prop
  | nil : ArgsIn fo ls [] []
  | cons {e es v vs} : EvalIn fo ls e v → ArgsIn fo ls es vs → ArgsIn fo ls (e :: es) (⟨v.node, e.loc⟩ :: vs)
/-- The index entries denote the indices `is`, in order. -/
inductive IndicesIn (fo : FloatOps F) (ls : List (Level F)) : List (IndexEntry F) → List (Int64 × Option Loc) → Prop
  | nil : IndicesIn fo ls [] []
  | cons {x xs is js} : EntryIn fo ls x is → IndicesIn fo ls xs js → IndicesIn fo ls (x :: xs) (is ++ js)
/-- One index entry denotes the indices `is`: an item its value, a range all values from first to last. -/
inductive EntryIn (fo : FloatOps F) (ls : List (Level F)) : IndexEntry F → List (Int64 × Option Loc) → Prop
  | item {l e v i li} : EvalIn fo ls e v → PromotesTo fo v .int ⟨.constInt i, li⟩ → EntryIn fo ls (.item l e) [(i, l)]
  | range {l a b v w i j li lj is} : EvalIn fo ls a v → PromotesTo fo v .int ⟨.constInt i, li⟩ → EvalIn fo ls b w →
      PromotesTo fo w .int ⟨.constInt j, lj⟩ → RangeList l i j is → j.toInt < 2 ^ 63 - 1 → EntryIn fo ls (.range l a b) is
end

/-- All annotations of a node are carried over, with their operands evaluated. -/
def AnnotationsIn (fo : FloatOps F) (ls : List (Level F)) : List (AnnotationData F) → List (SAnnotation F) → Prop :=
  Forall2 fun a s => s.interface = a.interface ∧ s.operation = a.operation ∧ s.loc = a.loc ∧
    Forall2 (EvalIn fo ls) a.operands s.operands

/-- What becomes of a parameter of kind `k`. A value that can be promoted is passed on; one whose kind could be promoted
but which is not a constant disappears. -/
inductive Passed (fo : FloatOps F) (v : Value F) (k : Kind) : List (Value F) → Prop
  | passed {w} : PromotesTo fo v k w → Passed fo v k [w]
  | lost {k'} : kindOf v.node = some k' → Widens k' k → (¬∃ w, PromotesTo fo v k w) → Passed fo v k []

/-- The parameters `vs` where the kinds `ks` are expected. -/
inductive ParamsIn (fo : FloatOps F) : List (Value F) → List Kind → List (Value F) → Prop
  | nil : ParamsIn fo [] [] []
  | cons {v vs k ks ws ws'} : Passed fo v k ws → ParamsIn fo vs ks ws' → ParamsIn fo (v :: vs) (k :: ks) (ws ++ ws')

/-- The parameters of the gate modifiers. -/
def modifierParameters (name : Str) : List Kind := if name = c!"pow" then [.float] else []

/-- The parameters of the instructions that are not gates. -/
def nonGateParameters : List (Str × List Kind) :=
  [(c!"measure", []), (c!"measure", [.float, .float, .float]), (c!"reset", []), (c!"init", []), (c!"barrier", []),
   (c!"wait", [.int])]

/-- `GateHere fo ls g n s`: the gate `g` denotes `s`; modifiers apply to it if `n` is 1. Its name is one of the standard
gate set whatever is registered. -/
inductive GateHere (fo : FloatOps F) (ls : List (Level F)) : Gate F → Nat → SGate F → Prop
  | named {l as name ps n ks vs ws sas} : (name, n, ks) ∈ namedGates → ArgsIn fo ls ps vs → ParamsIn fo vs ks ws →
      AnnotationsIn fo ls as sas → GateHere fo ls (.mk l as name none ps) n (.mk name none ws sas l)
  | modified {l as name g s ps vs ws sas} : name ∈ modifiers → GateHere fo ls g 1 s → ArgsIn fo ls ps vs →
      ParamsIn fo vs (modifierParameters name) ws → AnnotationsIn fo ls as sas →
      GateHere fo ls (.mk l as name (some g) ps) (if name = c!"ctrl" then 2 else 1) (.mk name (some s) ws sas l)

/-- How many elements a register of the type counts for. A negative size counts as that plus 2^64. -/
def registerSize (t : Ty) (single array : Kind) : Nat :=
  if t.kind = single then 1 else if t.kind = array then (t.size.toInt % 2 ^ 64).toNat else 0

/-- How many elements a value counts for, as one of the kinds `single` and `array`. -/
def countsFor (single array : Kind) : ValueNode F → Nat
  | .variableRef x => registerSize x.typ single array
  | .indexRef x is => if x.typ.kind = single ∨ x.typ.kind = array then is.length else 0
  | _ => 0

/-- The number of qubits a value counts for. -/
def qubitsIn (v : Value F) : Nat := countsFor .qubit .qubitArray v.node

/-- The number of bits a value counts for. -/
def bitsIn (v : Value F) : Nat := countsFor .bit .bitArray v.node

/-- `InstrIn fo ls s t`: the instruction `s` is valid and denotes `t`. -/
inductive InstrIn (fo : FloatOps F) (ls : List (Level F)) : Stmt F → SStatement F → Prop
  | gate {l as g es n s vs i ws sas} : GateHere fo ls g n s → ArgsIn fo ls es vs → ChosenInstr fo (refName g) vs i ws ls →
      (∀ v ∈ ws, ∀ w ∈ ws, qubitsIn v = qubitsIn w) → AnnotationsIn fo ls as sas →
      InstrIn fo ls (.gate l as g es) (.gate i s ws sas l)
  | nonGate {l as name es ps vs i ws ks us us' sas} : ArgsIn fo ls es vs → ChosenInstr fo name vs i ws ls →
      ArgsIn fo ls ps us → (name, ks) ∈ nonGateParameters → ParamsIn fo us ks us' →
      (name = c!"measure" → (ws.map qubitsIn).sum = (ws.map bitsIn).sum) → AnnotationsIn fo ls as sas →
      InstrIn fo ls (.nonGate l as name es ps) (.nonGate i name ws us' sas l)
  | asm {l as name code sas} : AnnotationsIn fo ls as sas → InstrIn fo ls (.asm l as name code) (.asm name code sas l)

/-- `ExecIn fo ls u ss vs ts`: the statements `ss` are valid; they declare the variables `vs`, numbered from `u`, and denote
the instructions `ts`. A declaration registers the variable in the current scope, where its name must not be taken. -/
inductive ExecIn (fo : FloatOps F) :
    List (Level F) → Nat → List (Stmt F) → List (SVariable F) → List (SStatement F) → Prop
  | nil {ls u} : ExecIn fo ls u [] [] []
  | decl {r ls u l as name typ ss t sas vs ts} : TypeOk typ t → name.name ∉ r.vars.map (·.1) →
      AnnotationsIn fo (r :: ls) as sas →
      ExecIn fo ({ r with vars := r.vars ++ [(name.name, ⟨.variableRef ⟨u, name.name, t⟩, none⟩)] } :: ls) (u + 1) ss vs ts →
      ExecIn fo (r :: ls) u (.var l as name typ :: ss) (⟨u, name.name, t, sas, name.loc⟩ :: vs) ts
  | instr {ls u s ss t vs ts} : InstrIn fo ls s t → ExecIn fo ls u ss vs ts → ExecIn fo ls u (s :: ss) vs (t :: ts)

/-- A value in the result is in order: it refers to a variable that the program declares, if to any, and to at least one
element of it. -/
def ClosedValue (vs : List (SVariable F)) (v : Value F) : Prop :=
  (∀ x, RefersTo v x → ∃ y ∈ vs, y.uid = x.uid) ∧ ∀ x, v.node ≠ .indexRef x []

/-- All values in the result are in order. -/
def ClosedProgram (vs : List (SVariable F)) (ts : List (SStatement F)) : Prop :=
  (∀ t ∈ ts, ∀ v, InInstr v t → ClosedValue vs v) ∧ ∀ x ∈ vs, ∀ a ∈ x.annotations, ∀ v ∈ a.operands, ClosedValue vs v

/-- The value is a constant if its kind is `bool` or `int`. -/
def NumberFixed (v : Value F) : Prop :=
  kindOf v.node = some .bool ∨ kindOf v.node = some .int → ∃ c : Const F, v.node = c.node

/-- Numbers and truth values among the registered variables, and those the registered functions return, are constants. -/
def NumbersFixed (ls : List (Level F)) : Prop :=
  ∀ l ∈ ls, (∀ x ∈ l.vars, NumberFixed x.2) ∧ ∀ f ∈ l.functions, ∀ args r, f.2.1 args = .ok (some r) → NumberFixed r

/-- The gate and those inside it have the parameters that the gate set demands. -/
inductive Complete : SGate F → Prop
  | named {name n ks ps as l} : (name, n, ks) ∈ namedGates → Forall2 (fun (p : Value F) k => kindOf p.node = some k) ps ks →
      Complete (.mk name none ps as l)
  | modified {name g ps as l} : name ∈ modifiers → Complete g →
      Forall2 (fun (p : Value F) k => kindOf p.node = some k) ps (modifierParameters name) → Complete (.mk name (some g) ps as l)

end Qasm.Spec
