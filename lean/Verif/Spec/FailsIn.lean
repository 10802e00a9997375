import Verif.Spec.Custom
import Verif.Spec.Fails
/-!
# Specification of the errors of analysers with their own registrations: message and position

`ls` is what is registered, innermost scope first. Everything is evaluated from left to right; the first problem is the one that
is reported. An error that has no position gets that of the nearest enclosing construct that adds one.
-/

namespace Qasm.Spec

variable {F : Type}

/-- The error, at `l` if it has no position yet. -/
def orAt (x : Err) (l : Option Loc) : Err := ⟨x.message, x.location.or l⟩

/-- The error of a call: no function has that name; or none of those that have it fits; or the one that is chosen throws the
error, whatever it is; or that one returns nothing. -/
inductive CallFailsIn (fo : FloatOps F) (ls : List (Level F)) (name : Str) (args : List (Value F)) : Err → Prop
  | unknown {g} : ls.getLast? = some g → (∀ r ∈ g.functions, r.1 ≠ name) →
      CallFailsIn fo ls name args ⟨c!"failed to resolve '" ++ name ++ c!"'", none⟩
  | overload {g} : ls.getLast? = some g → (∃ r ∈ g.functions, r.1 = name) → (∀ v ∈ args, kindOf v.node ≠ none) →
      (∀ r ∈ g.functions, r.1 = name → ¬∃ ws, Fits fo args r.2.2 ws) →
      CallFailsIn fo ls name args
        ⟨c!"failed to resolve overload for '" ++ name ++ c!"' with argument pack (" ++ kindsText (args.map (·.node)) ++ c!")", none⟩
  | thrown {g f args' x} : ls.getLast? = some g → LastFitting fo g.functions name args f args' → f args' = .err x →
      CallFailsIn fo ls name args x
  | empty {g f args'} : ls.getLast? = some g → LastFitting fo g.functions name args f args' → f args' = .ok none →
      CallFailsIn fo ls name args ⟨c!"function implementation returned empty value", none⟩

/-- Why a value cannot be an index: it cannot be used as an integer, or it is not known which integer it is. -/
inductive NotIndex (fo : FloatOps F) (v : Value F) : Str → Prop
  | kind : kindOf v.node ≠ none → (¬∃ w, PromotesTo fo v .int w) → NotIndex fo v c!"expected an integer"
  | notConst {w} : PromotesTo fo v .int w → (∀ i, w.node ≠ .constInt i) → NotIndex fo v c!"integer must be constant"

mutual
/-- `FailsIn fo ls e x`: evaluating `e` ends with the error `x`. -/
inductive FailsIn (fo : FloatOps F) (ls : List (Level F)) : Expr F → Err → Prop
  | ident {l name} : (¬∃ v, Seen name v ls) → FailsIn fo ls (.ident l name) ⟨c!"failed to resolve variable '" ++ name ++ c!"'", none⟩
  | indexed {l e ixs x} : FailsIn fo ls e x → FailsIn fo ls (.index l e ixs) (orAt (orAt x e.loc) l)
  | notArray {l e ixs y ly} : EvalIn fo ls e ⟨.variableRef y, ly⟩ → y.typ.kind ≠ .qubitArray → y.typ.kind ≠ .bitArray →
      FailsIn fo ls (.index l e ixs) ⟨c!"indexation is not supported for value of type '" ++ kindLabel y.typ.kind ++ c!"'", l⟩
  | indices {l e ixs y ly x} : EvalIn fo ls e ⟨.variableRef y, ly⟩ → y.typ.kind = .qubitArray ∨ y.typ.kind = .bitArray →
      IndicesFail fo ls ixs x → FailsIn fo ls (.index l e ixs) (orAt x l)
  | range {l e ixs y ly is i js} : EvalIn fo ls e ⟨.variableRef y, ly⟩ → y.typ.kind = .qubitArray ∨ y.typ.kind = .bitArray →
      IndicesIn fo ls ixs (is ++ i :: js) → (∀ j ∈ is, 0 ≤ j.1.toInt ∧ j.1.toInt < y.typ.size.toInt) →
      ¬(0 ≤ i.1.toInt ∧ i.1.toInt < y.typ.size.toInt) →
      FailsIn fo ls (.index l e ixs)
        ⟨c!"index " ++ decInt i.1.toInt ++ c!" out of range (size " ++ decInt y.typ.size.toInt ++ c!")", l⟩
  | args {l name args x} : ArgsFail fo ls args x → FailsIn fo ls (.call l name args) x
  | call {l name args vs x} : ArgsIn fo ls args vs → CallFailsIn fo ls name vs x → FailsIn fo ls (.call l name args) x
  | operand {l op e x} : FailsIn fo ls e x → FailsIn fo ls (.un l op e) (orAt x e.loc)
  | un {l op e v x} : EvalIn fo ls e v → CallFailsIn fo ls (Fn.un op).name [⟨v.node, e.loc⟩] x → FailsIn fo ls (.un l op e) x
  | left {l op a b x} : FailsIn fo ls a x → FailsIn fo ls (.bin l op a b) (orAt x a.loc)
  | right {l op a b v x} : EvalIn fo ls a v → FailsIn fo ls b x → FailsIn fo ls (.bin l op a b) (orAt x b.loc)
  | bin {l op a b v w x} : EvalIn fo ls a v → EvalIn fo ls b w →
      CallFailsIn fo ls (Fn.bin op).name [⟨v.node, a.loc⟩, ⟨w.node, b.loc⟩] x → FailsIn fo ls (.bin l op a b) x
  | cond {l a b c x} : FailsIn fo ls a x → FailsIn fo ls (.tern l a b c) (orAt x a.loc)
  | ifTrue {l a b c u x} : EvalIn fo ls a u → FailsIn fo ls b x → FailsIn fo ls (.tern l a b c) (orAt x b.loc)
  | ifFalse {l a b c u v x} : EvalIn fo ls a u → EvalIn fo ls b v → FailsIn fo ls c x →
      FailsIn fo ls (.tern l a b c) (orAt x c.loc)
  | tern {l a b c u v w x} : EvalIn fo ls a u → EvalIn fo ls b v → EvalIn fo ls c w →
      CallFailsIn fo ls Fn.cond.name [⟨u.node, a.loc⟩, ⟨v.node, b.loc⟩, ⟨w.node, c.loc⟩] x → FailsIn fo ls (.tern l a b c) x
/-- The first of the expressions that does not evaluate fails. -/
inductive ArgsFail (fo : FloatOps F) (ls : List (Level F)) : List (Expr F) → Err → Prop
  | head {e es x} : FailsIn fo ls e x → ArgsFail fo ls (e :: es) (orAt x e.loc)
  | tail {e es v x} : EvalIn fo ls e v → ArgsFail fo ls es x → ArgsFail fo ls (e :: es) x
/-- The first of the index entries that does not evaluate fails. -/
inductive IndicesFail (fo : FloatOps F) (ls : List (Level F)) : List (IndexEntry F) → Err → Prop
  | head {i is x} : EntryFails fo ls i x → IndicesFail fo ls (i :: is) x
  | tail {i is js x} : EntryIn fo ls i js → IndicesFail fo ls is x → IndicesFail fo ls (i :: is) x
/-- An index entry fails. Its own position is only used if the bounds of a range are in the wrong order. -/
inductive EntryFails (fo : FloatOps F) (ls : List (Level F)) : IndexEntry F → Err → Prop
  | item {l e x} : FailsIn fo ls e x → EntryFails fo ls (.item l e) x
  | itemValue {l e v m} : EvalIn fo ls e v → NotIndex fo v m → EntryFails fo ls (.item l e) ⟨m, e.loc⟩
  | first {l a b x} : FailsIn fo ls a x → EntryFails fo ls (.range l a b) x
  | firstValue {l a b v m} : EvalIn fo ls a v → NotIndex fo v m → EntryFails fo ls (.range l a b) ⟨m, a.loc⟩
  | last {l a b v i li x} : EvalIn fo ls a v → PromotesTo fo v .int ⟨.constInt i, li⟩ → FailsIn fo ls b x →
      EntryFails fo ls (.range l a b) x
  | lastValue {l a b v i li w m} : EvalIn fo ls a v → PromotesTo fo v .int ⟨.constInt i, li⟩ → EvalIn fo ls b w →
      NotIndex fo w m → EntryFails fo ls (.range l a b) ⟨m, b.loc⟩
  | order {l a b v w i j li lj} : EvalIn fo ls a v → PromotesTo fo v .int ⟨.constInt i, li⟩ → EvalIn fo ls b w →
      PromotesTo fo w .int ⟨.constInt j, lj⟩ → j.toInt < i.toInt →
      EntryFails fo ls (.range l a b) ⟨c!"last index is lower than first index", l⟩
end

/-! ## Parameters, gates, instructions -/

/-- The first of the parameter values whose kind cannot become the kind that is expected. -/
inductive ParamFailsIn (name : Str) : List (Value F) → List Kind → Str → Prop
  | here {v vs k ks k'} : kindOf v.node = some k' → ¬ Widens k' k →
      ParamFailsIn name (v :: vs) (k :: ks) (c!"failed to resolve '" ++ name ++ c!"' with parameter type (" ++ kindLabel k' ++ c!")")
  | later {v vs k ks k' m} : kindOf v.node = some k' → Widens k' k → ParamFailsIn name vs ks m → ParamFailsIn name (v :: vs) (k :: ks) m

/-- Parameter values that a gate or modifier with the parameter kinds `ks` does not accept. -/
inductive ParamsFailIn (name : Str) (vs : List (Value F)) (ks : List Kind) : Str → Prop
  | none : ks = [] → vs ≠ [] → ParamsFailIn name vs ks
      (c!"instruction '" ++ name ++ c!"' expects no parameters, but got " ++ decNat vs.length ++ c!".")
  | count : ks ≠ [] → vs.length ≠ ks.length → ParamsFailIn name vs ks
      (c!"instruction '" ++ name ++ c!"' expects " ++ decNat ks.length ++ c!" parameters, but got " ++ decNat vs.length ++ c!".")
  | kind {m} : vs.length = ks.length → ParamFailsIn name vs ks m → ParamsFailIn name vs ks m

/-- Parameter values an instruction that is not a gate does not accept. -/
inductive NonGateParamsFailIn (name : Str) (vs : List (Value F)) : Str → Prop
  | count : (∀ ks, (name, ks) ∈ nonGateParameters → vs.length ≠ ks.length) → NonGateParamsFailIn name vs
      (c!"instruction '" ++ name ++ c!"' does not have an overload with " ++ decNat vs.length ++ c!" parameters.")
  | kind {ks m} : (name, ks) ∈ nonGateParameters → vs.length = ks.length → ParamFailsIn name vs ks m → NonGateParamsFailIn name vs m

/-- `GateFailsIn fo ls g x`: the gate `g` is rejected with the error `x`. -/
inductive GateFailsIn (fo : FloatOps F) (ls : List (Level F)) : Gate F → Err → Prop
  | parameters {l as name ps x} : ArgsFail fo ls ps x → GateFailsIn fo ls (.mk l as name none ps) (orAt x l)
  | unknown {l as name ps vs} : ArgsIn fo ls ps vs → (¬∃ n ks, (name, n, ks) ∈ namedGates) →
      GateFailsIn fo ls (.mk l as name none ps) ⟨c!"couldn't find instruction '" ++ name ++ c!"'", l⟩
  | named {l as name ps vs n ks m} : ArgsIn fo ls ps vs → (name, n, ks) ∈ namedGates → ParamsFailIn name vs ks m →
      GateFailsIn fo ls (.mk l as name none ps) ⟨m, l⟩
  | inner {l as name g ps x} : GateFailsIn fo ls g x → GateFailsIn fo ls (.mk l as name (some g) ps) (orAt x l)
  | modifierParameters {l as name g ps n s x} : GateHere fo ls g n s → ArgsFail fo ls ps x →
      GateFailsIn fo ls (.mk l as name (some g) ps) (orAt x l)
  | modifier {l as name g ps n s vs m} : GateHere fo ls g n s → ArgsIn fo ls ps vs →
      ParamsFailIn name vs (modifierParameters name) m → GateFailsIn fo ls (.mk l as name (some g) ps) ⟨m, l⟩
  | multi {l as name g ps n s vs ws} : GateHere fo ls g n s → ArgsIn fo ls ps vs → ParamsIn fo vs (modifierParameters name) ws →
      n ≠ 1 → GateFailsIn fo ls (.mk l as name (some g) ps) ⟨c!"trying to apply a gate modifier to a multi-qubit gate", l⟩

/-- `InstrFailsIn fo ls s x`: the instruction `s`, without annotations, is rejected with the error `x`. -/
inductive InstrFailsIn (fo : FloatOps F) (ls : List (Level F)) : Stmt F → Err → Prop
  | gate {l as g es x} : GateFailsIn fo ls g x → InstrFailsIn fo ls (.gate l as g es) (orAt x l)
  | gateOperands {l as g es n s x} : GateHere fo ls g n s → ArgsFail fo ls es x → InstrFailsIn fo ls (.gate l as g es) (orAt x l)
  | gateKinds {l as g es n s vs} : GateHere fo ls g n s → ArgsIn fo ls es vs → (∀ v ∈ vs, kindOf v.node ≠ none) →
      (¬∃ i ws, ChosenInstr fo (refName g) vs i ws ls) → InstrFailsIn fo ls (.gate l as g es) ⟨resolutionMessage (refName g) vs, l⟩
  | gateSizes {l as g es n s vs i ws} : GateHere fo ls g n s → ArgsIn fo ls es vs → ChosenInstr fo (refName g) vs i ws ls →
      ¬(∀ v ∈ ws, ∀ w ∈ ws, qubitsIn v = qubitsIn w) →
      InstrFailsIn fo ls (.gate l as g es) ⟨c!"qubit operands indices have different sizes", l⟩
  | operands {l as name es ps x} : ArgsFail fo ls es x → InstrFailsIn fo ls (.nonGate l as name es ps) (orAt x l)
  | kinds {l as name es ps vs} : ArgsIn fo ls es vs → (∀ v ∈ vs, kindOf v.node ≠ none) → (¬∃ i ws, ChosenInstr fo name vs i ws ls) →
      InstrFailsIn fo ls (.nonGate l as name es ps) ⟨resolutionMessage name vs, l⟩
  | parameters {l as name es ps vs i ws x} : ArgsIn fo ls es vs → ChosenInstr fo name vs i ws ls → ArgsFail fo ls ps x →
      InstrFailsIn fo ls (.nonGate l as name es ps) (orAt x l)
  | parameterKinds {l as name es ps vs i ws us m} : ArgsIn fo ls es vs → ChosenInstr fo name vs i ws ls → ArgsIn fo ls ps us →
      NonGateParamsFailIn name us m → InstrFailsIn fo ls (.nonGate l as name es ps) ⟨m, l⟩
  | measureSizes {l as es ps vs i ws us ks us'} : ArgsIn fo ls es vs → ChosenInstr fo c!"measure" vs i ws ls → ArgsIn fo ls ps us →
      (c!"measure", ks) ∈ nonGateParameters → ParamsIn fo us ks us' → (ws.map qubitsIn).sum ≠ (ws.map bitsIn).sum →
      InstrFailsIn fo ls (.nonGate l as c!"measure" es ps) ⟨c!"qubit and bit indices have different sizes", l⟩

/-- `TypeFails typ m`: the type of a declaration is rejected with the message `m`. -/
inductive TypeFails (typ : TypeAst) : Str → Prop
  | unknown : typ.name ≠ c!"qubit" → typ.name ≠ c!"bit" → TypeFails typ (c!"unknown type \"" ++ typ.name ++ c!"\"")
  | size {n} : typ.name = c!"qubit" ∨ typ.name = c!"bit" → typ.size = some n → n.toInt ≤ 0 →
      TypeFails typ (c!"found " ++ typ.name ++ c!" array of size <= 0")

end Qasm.Spec
