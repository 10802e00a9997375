import Verif.Spec.Program
/-!
# Specification of semantic errors: the message of every error and the position it is reported at

`D` is the list of variables declared so far. Everything is evaluated from left to right; the first problem
is the one that is reported. A problem has a position of its own or none; a problem without a position gets
the position of the nearest enclosing construct that adds one (`p.or l` is `p` if there is one, else `l`).
-/

namespace Qasm.Spec

variable {F : Type}

/-- The kind of a value as error messages print it. -/
def kindText (n : ValueNode F) : Str := ((kindOf n).map kindLabel).getD []

/-- The kinds of values as error messages list them: separated by commas. -/
def kindsText (ns : List (ValueNode F)) : Str := (c!", ").intercalate (ns.map kindText)

/-- The message for a call of the function or operator `name` that cannot be resolved. -/
inductive CallFails (fo : FloatOps F) (name : Str) (ns : List (ValueNode F)) : Str → Prop
  | unknown : (∀ fn : Fn, fn.name ≠ name) → CallFails fo name ns (c!"failed to resolve '" ++ name ++ c!"'")
  | overload : (∃ fn : Fn, fn.name = name) →
      (¬∃ (fn : Fn) (cs : List (Const F)) (o : Option (Const F)), fn.name = name ∧ ns = cs.map Const.node ∧ Applies fo fn cs o) →
      CallFails fo name ns
        (c!"failed to resolve overload for '" ++ name ++ c!"' with argument pack (" ++ kindsText ns ++ c!")")

/-- The value cannot be used as an integer. -/
def NotInt (fo : FloatOps F) (n : ValueNode F) : Prop :=
  ¬∃ (c : Const F) (i : Int64), n = c.node ∧ Converts fo c .int (.int i)

mutual
/-- `Fails fo D e m p`: evaluating `e` ends with the message `m`, reported at `p`; `none` if the problem is
with `e` as a whole. -/
inductive Fails (fo : FloatOps F) (D : List VarLink) : Expr F → Str → Option Loc → Prop
  | ident {l name} : (¬∃ n, Denotes fo D name n) →
      Fails fo D (.ident l name) (c!"failed to resolve variable '" ++ name ++ c!"'") none
  | indexSub {l e ixs m p} : Fails fo D e m p → Fails fo D (.index l e ixs) m ((p.or e.loc).or l)
  | indexKind {l e ixs x} : Eval fo D e (.variableRef x) → x.typ.kind ≠ .qubitArray → x.typ.kind ≠ .bitArray →
      Fails fo D (.index l e ixs)
        (c!"indexation is not supported for value of type '" ++ kindLabel x.typ.kind ++ c!"'") l
  | indexIndices {l e ixs x m p} : Eval fo D e (.variableRef x) →
      x.typ.kind = .qubitArray ∨ x.typ.kind = .bitArray → FailsIndices fo D ixs m p →
      Fails fo D (.index l e ixs) m (p.or l)
  | indexRange {l e ixs x is i js} : Eval fo D e (.variableRef x) →
      x.typ.kind = .qubitArray ∨ x.typ.kind = .bitArray → EvalIndices fo D ixs (is ++ i :: js) → ¬ UndefIndices fo D ixs →
      (∀ j ∈ is, 0 ≤ j.1.toInt ∧ j.1.toInt < x.typ.size.toInt) → ¬(0 ≤ i.1.toInt ∧ i.1.toInt < x.typ.size.toInt) →
      Fails fo D (.index l e ixs)
        (c!"index " ++ decInt i.1.toInt ++ c!" out of range (size " ++ decInt x.typ.size.toInt ++ c!")") l
  | callArgs {l name args m p} : FailsList fo D args m p → Fails fo D (.call l name args) m p
  | call {l name args vs m} : EvalAll fo D args vs → CallFails fo name (vs.map (·.node)) m →
      Fails fo D (.call l name args) m none
  | unSub {l op e m p} : Fails fo D e m p → Fails fo D (.un l op e) m (p.or e.loc)
  | un {l op e n m} : Eval fo D e n → CallFails fo (Fn.un op).name [n] m → Fails fo D (.un l op e) m none
  | binLeft {l op a b m p} : Fails fo D a m p → Fails fo D (.bin l op a b) m (p.or a.loc)
  | binRight {l op a b n m p} : Eval fo D a n → Fails fo D b m p → Fails fo D (.bin l op a b) m (p.or b.loc)
  | bin {l op a b n n' m} : Eval fo D a n → Eval fo D b n' → CallFails fo (Fn.bin op).name [n, n'] m →
      Fails fo D (.bin l op a b) m none
  | ternCond {l a b c m p} : Fails fo D a m p → Fails fo D (.tern l a b c) m (p.or a.loc)
  | ternTrue {l a b c n m p} : Eval fo D a n → Fails fo D b m p → Fails fo D (.tern l a b c) m (p.or b.loc)
  | ternFalse {l a b c n n' m p} : Eval fo D a n → Eval fo D b n' → Fails fo D c m p →
      Fails fo D (.tern l a b c) m (p.or c.loc)
  | tern {l a b c n n' n'' m} : Eval fo D a n → Eval fo D b n' → Eval fo D c n'' →
      CallFails fo Fn.cond.name [n, n', n''] m → Fails fo D (.tern l a b c) m none
/-- The first of the expressions that does not evaluate fails; the error is reported inside it or at it. -/
inductive FailsList (fo : FloatOps F) (D : List VarLink) : List (Expr F) → Str → Option Loc → Prop
  | head {e es m p} : Fails fo D e m p → FailsList fo D (e :: es) m (p.or e.loc)
  | tail {e es n m p} : Eval fo D e n → FailsList fo D es m p → FailsList fo D (e :: es) m p
/-- The first of the index entries that does not evaluate fails. -/
inductive FailsIndices (fo : FloatOps F) (D : List VarLink) : List (IndexEntry F) → Str → Option Loc → Prop
  | head {x xs m p} : FailsEntry fo D x m p → FailsIndices fo D (x :: xs) m p
  | tail {x xs is m p} : EvalEntry fo D x is → ¬ UndefEntry fo D x → FailsIndices fo D xs m p →
      FailsIndices fo D (x :: xs) m p
/-- An index entry fails. The position of the entry itself is only used if the bounds of a range are in the
wrong order. -/
inductive FailsEntry (fo : FloatOps F) (D : List VarLink) : IndexEntry F → Str → Option Loc → Prop
  | item {l e m p} : Fails fo D e m p → FailsEntry fo D (.item l e) m p
  | itemInt {l e n} : Eval fo D e n → NotInt fo n → FailsEntry fo D (.item l e) c!"expected an integer" e.loc
  | first {l a b m p} : Fails fo D a m p → FailsEntry fo D (.range l a b) m p
  | firstInt {l a b n} : Eval fo D a n → NotInt fo n → FailsEntry fo D (.range l a b) c!"expected an integer" a.loc
  | last {l a b m p i} {c : Const F} : Eval fo D a c.node → Converts fo c .int (.int i) → Fails fo D b m p →
      FailsEntry fo D (.range l a b) m p
  | lastInt {l a b n i} {c : Const F} : Eval fo D a c.node → Converts fo c .int (.int i) → Eval fo D b n → NotInt fo n →
      FailsEntry fo D (.range l a b) c!"expected an integer" b.loc
  | order {l a b i j} {c d : Const F} : Eval fo D a c.node → Converts fo c .int (.int i) → Eval fo D b d.node →
      Converts fo d .int (.int j) → j.toInt < i.toInt →
      FailsEntry fo D (.range l a b) c!"last index is lower than first index" l
end

/-! ## Parameters, gates, statements -/

/-- Parameter values that cannot be delivered with the kinds `ks`; the first such value counts. -/
inductive ParamFails (fo : FloatOps F) (name : Str) : List (Value F) → List Kind → Str → Prop
  | here {v vs k ks} : (¬∃ c c' : Const F, v.node = c.node ∧ Converts fo c k c') →
      ParamFails fo name (v :: vs) (k :: ks)
        (c!"failed to resolve '" ++ name ++ c!"' with parameter type (" ++ kindText v.node ++ c!")")
  | later {v vs k ks m} {c c' : Const F} : v.node = c.node → Converts fo c k c' → ParamFails fo name vs ks m →
      ParamFails fo name (v :: vs) (k :: ks) m

/-- Parameter values that a gate or modifier with the parameter kinds `ks` does not accept. -/
inductive ParamsFail (fo : FloatOps F) (name : Str) (vs : List (Value F)) (ks : List Kind) : Str → Prop
  | none : ks = [] → vs ≠ [] → ParamsFail fo name vs ks
      (c!"instruction '" ++ name ++ c!"' expects no parameters, but got " ++ decNat vs.length ++ c!".")
  | count : ks ≠ [] → vs.length ≠ ks.length → ParamsFail fo name vs ks
      (c!"instruction '" ++ name ++ c!"' expects " ++ decNat ks.length ++ c!" parameters, but got "
        ++ decNat vs.length ++ c!".")
  | kind {m} : vs.length = ks.length → ParamFails fo name vs ks m → ParamsFail fo name vs ks m

/-- The parameter kinds of a gate modifier. -/
def modifierParams (name : Str) : List Kind := if name = c!"pow" then [.float] else []

/-- `GateFails fo D g m p`: the gate `g` is rejected with the message `m`, reported at `p`. -/
inductive GateFails (fo : FloatOps F) (D : List VarLink) : Gate F → Str → Option Loc → Prop
  | parameters {l as name ps m p} : FailsList fo D ps m p → GateFails fo D (.mk l as name none ps) m (p.or l)
  | unknown {l as name ps vs} : EvalAll fo D ps vs → (¬∃ n ks, (name, n, ks) ∈ namedGates) →
      GateFails fo D (.mk l as name none ps) (c!"couldn't find instruction '" ++ name ++ c!"'") l
  | named {l as name ps vs n ks m} : EvalAll fo D ps vs → (name, n, ks) ∈ namedGates → ParamsFail fo name vs ks m →
      GateFails fo D (.mk l as name none ps) m l
  | inner {l as name g ps m p} : GateFails fo D g m p → GateFails fo D (.mk l as name (some g) ps) m (p.or l)
  | modifierParameters {l as name g ps n s m p} : GateOk fo D g n s → FailsList fo D ps m p →
      GateFails fo D (.mk l as name (some g) ps) m (p.or l)
  | modifier {l as name g ps n s vs m} : GateOk fo D g n s → EvalAll fo D ps vs →
      ParamsFail fo name vs (modifierParams name) m → GateFails fo D (.mk l as name (some g) ps) m l
  | multi {l as name g ps n s vs} : GateOk fo D g n s → EvalParams fo D ps (modifierParams name) vs → n ≠ 1 →
      GateFails fo D (.mk l as name (some g) ps) c!"trying to apply a gate modifier to a multi-qubit gate" l

/-- The parameter lists an instruction that is not a gate can have. -/
def nonGateParams (name : Str) : List (List Kind) :=
  if name = c!"measure" then [[], [.float, .float, .float]] else if name = c!"wait" then [[.int]] else [[]]

/-- Parameter values an instruction that is not a gate does not accept. -/
inductive NonGateParamsFail (fo : FloatOps F) (name : Str) (vs : List (Value F)) : Str → Prop
  | count : (∀ ks ∈ nonGateParams name, vs.length ≠ ks.length) → NonGateParamsFail fo name vs
      (c!"instruction '" ++ name ++ c!"' does not have an overload with " ++ decNat vs.length ++ c!" parameters.")
  | kind {ks m} : ks ∈ nonGateParams name → vs.length = ks.length → ParamFails fo name vs ks m →
      NonGateParamsFail fo name vs m

/-- The message for operands whose kinds do not fit the instruction `name`. -/
def resolutionMessage (name : Str) (vs : List (Value F)) : Str :=
  c!"failed to resolve instruction '" ++ name ++ c!"' with argument pack (" ++ kindsText (vs.map (·.node)) ++ c!")"

/-- The values are accepted as parameters of an instruction that is not a gate. -/
def NonGateParamsOk (fo : FloatOps F) (D : List VarLink) (name : Str) (ps : List (Expr F)) : Prop :=
  ∃ ks ∈ nonGateParams name, ∃ ws, EvalParams fo D ps ks ws

/-- `StmtFails fo D s m p`: after the declarations `D`, the statement `s` is rejected with the message `m`,
reported at `p`. -/
inductive StmtFails (fo : FloatOps F) (D : List VarLink) : Stmt F → Str → Option Loc → Prop
  | unknownType {l as name typ} : typ.name ≠ c!"qubit" → typ.name ≠ c!"bit" →
      StmtFails fo D (.var l as name typ) (c!"unknown type \"" ++ typ.name ++ c!"\"") l
  | size {l as name typ n} : typ.name = c!"qubit" ∨ typ.name = c!"bit" → typ.size = some n → n.toInt ≤ 0 →
      StmtFails fo D (.var l as name typ) (c!"found " ++ typ.name ++ c!" array of size <= 0") l
  | redeclared {l as name typ t} : TypeOk typ t → ¬ Fresh D name.name →
      StmtFails fo D (.var l as name typ) (c!"trying to redeclare variable '" ++ name.name ++ c!"'") l
  | gate {l as g es m p} : GateFails fo D g m p → StmtFails fo D (.gate l as g es) m (p.or l)
  | gateOperands {l as g es n s m p} : GateOk fo D g n s → FailsList fo D es m p →
      StmtFails fo D (.gate l as g es) m (p.or l)
  | gateKinds {l as g es n s vs} : GateOk fo D g n s → EvalAll fo D es vs →
      ¬(vs.length = n ∧ ∃ ks, Forall2 (fun v k => IsQubits v.node k) vs ks) →
      StmtFails fo D (.gate l as g es) (resolutionMessage (refName g) vs) l
  | gateSizes {l as g es n s vs ks} : GateOk fo D g n s → EvalAll fo D es vs → vs.length = n →
      Forall2 (fun v k => IsQubits v.node k) vs ks →
      (∃ v ∈ vs, ∃ w ∈ vs, elements v.node ≠ elements w.node) →
      StmtFails fo D (.gate l as g es) c!"qubit operands indices have different sizes" l
  | operands {l as name es ps m p} : FailsList fo D es m p → StmtFails fo D (.nonGate l as name es ps) m (p.or l)
  | kinds {l as name es ps vs} : EvalAll fo D es vs →
      (¬∃ ks, Forall2 (fun v k => kindOf v.node = some k) vs ks ∧ NonGateOperands name ks) →
      StmtFails fo D (.nonGate l as name es ps) (resolutionMessage name vs) l
  | parameters {l as name es ps vs ks m p} : EvalAll fo D es vs → Forall2 (fun v k => kindOf v.node = some k) vs ks →
      NonGateOperands name ks → FailsList fo D ps m p → StmtFails fo D (.nonGate l as name es ps) m (p.or l)
  | parameterKinds {l as name es ps vs ks ws m} : EvalAll fo D es vs →
      Forall2 (fun v k => kindOf v.node = some k) vs ks → NonGateOperands name ks → EvalAll fo D ps ws →
      NonGateParamsFail fo name ws m → StmtFails fo D (.nonGate l as name es ps) m l
  | measureSizes {l as b q ps n m kn km} : Eval fo D b n → IsBits n kn → Eval fo D q m → IsQubits m km →
      NonGateParamsOk fo D c!"measure" ps → elements n ≠ elements m →
      StmtFails fo D (.nonGate l as c!"measure" [b, q] ps) c!"qubit and bit indices have different sizes" l

/-- `Errors fo D u ss es`: analysing the statements `ss` after the declarations `D`, with `u` variable nodes
made so far, reports exactly the errors `es`, in this order: one for every rejected statement. -/
inductive Errors (fo : FloatOps F) : List VarLink → Nat → List (Stmt F) → List Err → Prop
  | nil {D u} : Errors fo D u [] []
  | decl {D u l as name typ ss t es} : TypeOk typ t → Fresh D name.name →
      Errors fo (⟨u, name.name, t⟩ :: D) (u + 1) ss es → Errors fo D u (.var l as name typ :: ss) es
  | instr {D u s ss t es} : InstrOk fo D s t → Errors fo D u ss es → Errors fo D u (s :: ss) es
  | badType {D u l as name typ ss m p es} : (¬∃ t, TypeOk typ t) → StmtFails fo D (.var l as name typ) m p →
      Errors fo D u ss es → Errors fo D u (.var l as name typ :: ss) (⟨m, p⟩ :: es)
  | redeclared {D u l as name typ ss t m p es} : TypeOk typ t → ¬ Fresh D name.name →
      StmtFails fo D (.var l as name typ) m p →
      Errors fo D (u + 1) ss es → Errors fo D u (.var l as name typ :: ss) (⟨m, p⟩ :: es)
  | badInstr {D u s ss m p es} : ¬ IsDecl s → StmtFails fo D s m p → Errors fo D u ss es →
      Errors fo D u (s :: ss) (⟨m, p⟩ :: es)

/-- A version as error messages print it: its components separated by dots. -/
def versionText (v : Version) : Str := (c!".").intercalate (v.map fun c => decInt c.toInt)

/-- The errors reported for the version statement if the version supported is `v`. -/
inductive VersionErrors (v : Version) (node : VersionAst) : List Err → Prop
  | supported : VersionOk v node.items → VersionErrors v node []
  | negative {c} : c ∈ node.items → c.toInt < 0 → VersionErrors v node [⟨c!"invalid version component", node.loc⟩]
  | unsupported : (∀ c ∈ node.items, 0 ≤ c.toInt) → ¬ VersionSame node.items v →
      VersionErrors v node [⟨c!"the only cQASM version supported is " ++ versionText v ++
        c!", but the cQASM file is version " ++ versionText node.items, node.loc⟩]

/-- The errors reported for a program: those of the version statement, then those of the statements. -/
def ProgramErrors (fo : FloatOps F) (v : Version) (p : ProgramAst F) (es : List Err) : Prop :=
  ∃ es1 es2, VersionErrors v p.version es1 ∧ Errors fo [] 0 p.block.statements es2 ∧ es = es1 ++ es2

end Qasm.Spec
