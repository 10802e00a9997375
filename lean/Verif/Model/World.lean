import Verif.Model.SemanticAnalyzer
/-!
# Several analysers and the results they returned

A `tree::One` is a shared pointer (include/libqasm/tree.hpp:26-27). A `Scope` holds its block by such a pointer
(include/libqasm/v3x/scope.hpp:32) and so does the program in an analysis result (`visit_program`,
src/v3x/semantic_analyzer.cpp:28-29, with `current_block`, src/v3x/analyzer.cpp:41-43). The tables and the list of variables of a
scope are values: the tables own their resolvers and copy them (src/v3x/resolver.cpp:47-62, 101-116).

`Analyzer` declares a virtual destructor and no copy or move operations (include/libqasm/v3x/analyzer.hpp:72). It has the implicit
copy constructor, which copies the scopes one by one, with the pointers to their blocks. A move is such a copy too. The implicit
assignment makes the version and the scopes of the left side those of the right side in the same way; the tables are assigned as they
are copied (src/v3x/resolver.cpp:55-58, 109-112).

Here the block nodes live in a heap and a scope and a result hold addresses.
-/

namespace Qasm

variable {F : Type}

/-- `analyzer::Scope` (include/libqasm/v3x/scope.hpp:12-38), with the address of its block. -/
structure ScopeObj (F : Type) where
  variableTable : VariableTable F
  fnTable : OverloadTable (CoreFn F)
  instructionTable : OverloadTable Instruction
  block : Nat
  variables : List (SVariable F)

/-- `analyzer::Analyzer` (include/libqasm/v3x/analyzer.hpp:44-227) as an object in memory. -/
structure AnalyzerObj (F : Type) where
  apiVersion : Version
  scopes : List (ScopeObj F)

/-- `semantic::Program` (src/v3x/semantic.tree) as an object in memory: the address of its block, and the rest. -/
structure ProgramObj (F : Type) where
  apiVersion : Version
  version : SVersion
  block : Nat
  variables : List (SVariable F)

/-- The memory of a program that uses the library: the block nodes by address, the analysers it has and the results it keeps.
Nodes are never freed here. `nextUid` is above the identities of all variable nodes made so far. -/
structure World (F : Type) where
  blocks : List (SBlock F)
  analyzers : List (AnalyzerObj F)
  results : List (Result (ProgramObj F))
  nextUid : Nat

namespace World

/-- The memory before the first call. -/
def empty : World F := ⟨[], [], [], 0⟩

/-- The block node at an address. There are no others: addresses come from the heap. -/
def blockAt (w : World F) (b : Nat) : SBlock F := w.blocks[b]?.getD ⟨[], none⟩

/-- A scope with the content of its block. -/
def readScope (w : World F) (s : ScopeObj F) : Scope F :=
  ⟨s.variableTable, s.fnTable, s.instructionTable, w.blockAt s.block, s.variables⟩

/-- An analyser with the content of its blocks. New variable nodes get identities from `u` on. -/
def readAnalyzer (w : World F) (o : AnalyzerObj F) (u : Nat) : Analyzer F :=
  ⟨o.apiVersion, o.scopes.map w.readScope, u⟩

/-- A kept program with the content of its block. -/
def readProgram (w : World F) (p : ProgramObj F) : SProgram F :=
  ⟨p.apiVersion, p.version, w.blockAt p.block, p.variables⟩

/-- What a user sees who looks at a kept result. -/
def readResult (w : World F) (r : Result (ProgramObj F)) : Result (SProgram F) :=
  ⟨r.root.map w.readProgram, r.errors⟩

/-- The scopes after a call that changed them in place: each keeps its block node. -/
def scopesAfter : List (ScopeObj F) → List (Scope F) → List (ScopeObj F)
  | o :: os, s :: ss => ⟨s.variableTable, s.fnTable, s.instructionTable, o.block, s.variables⟩ :: scopesAfter os ss
  | _, _ => []

/-- The block nodes after a call that changed the scopes in place. Only the block of the current scope can have changed
(`add_statement_to_current_scope`, src/v3x/analyzer.cpp:148-165, is the only function that changes one). -/
def blocksAfter (bs : List (SBlock F)) : List (ScopeObj F) → List (Scope F) → List (SBlock F)
  | o :: _, s :: _ => bs.set o.block s.block
  | _, _ => bs

/-- The memory after analyser `i` (the object `o`) was changed in place to `a`. -/
def write (w : World F) (i : Nat) (o : AnalyzerObj F) (a : Analyzer F) : World F :=
  { w with
    blocks := blocksAfter w.blocks o.scopes a.scopes
    analyzers := w.analyzers.set i ⟨a.apiVersion, scopesAfter o.scopes a.scopes⟩
    nextUid := max w.nextUid a.nextUid }

/-- Constructing an analyser: it has one scope with a new block (`Analyzer::Analyzer`, src/v3x/analyzer.cpp:26-33). -/
def create (w : World F) (v : Version) : Res Err (World F) :=
  match (Analyzer.new v : Option (Analyzer F)) with
  | none => .exn c!"std::invalid_argument"
  | some a => .ok { w with
      blocks := w.blocks ++ [⟨[], none⟩]
      analyzers := w.analyzers ++ [⟨a.apiVersion, [⟨[], [], [], w.blocks.length, []⟩]⟩] }

/-- A call on analyser `i` that changes it in place. -/
def change (w : World F) (i : Nat) (f : Analyzer F → Res Err (Analyzer F)) : Res Err (World F) :=
  match w.analyzers[i]? with
  | none => .ub
  | some o => (f (w.readAnalyzer o w.nextUid)).bind fun a => .ok (w.write i o a)

/-- The calls of the interface, each on one of the analysers. -/
inductive Op (F : Type) where
  | create (v : Version)
  | copy (i : Nat)
  | assign (i j : Nat)
  | push (i : Nat)
  | pop (i : Nat)
  | constants (i : Nat)
  | functions (i : Nat)
  | instructions (i : Nat)
  | addName (i : Nat) (name : Str) (v : Value F)
  | addFunction (i : Nat) (name : Str) (params : List Ty) (f : CoreFn F)
  | addInstruction (i : Nat) (x : Instruction)
  | addStatement (i : Nat) (s : SStatement F)
  | addVariable (i : Nat) (x : SVariable F)
  | analyze (i : Nat) (p : ProgramAst F) (u : Nat)
  | throwing (i : Nat) (p : ProgramAst F) (u : Nat)

/-- One call. A call on an analyser that does not exist is undefined.
* copying and assigning analyser `j` to analyser `i`: the implicit copy constructor and assignment, see above;
* `push_scope`, src/v3x/analyzer.cpp:133-136; `pop_scope`, 141-143;
* the registrations and additions as in `Model/Analyzer`;
* `analyze` (87-101): the result is kept; it shares the block of the current scope. `u` is the identity the allocator gives to the
  first new variable node, which is above all earlier ones;
* `throwing`: an analysis that ends with the exception of line 97, which the user catches. It is thrown after the program was
  visited, so the analyser is changed as by an analysis that returns, and no result is returned. A history says of each analysis how it
  ended: it is no history if the analysis does not end in this way. -/
def step (fo : FloatOps F) (w : World F) : Op F → Res Err (World F)
  | .create v => w.create v
  | .copy i =>
    match w.analyzers[i]? with
    | none => .ub
    | some o => .ok { w with analyzers := w.analyzers ++ [o] }
  | .assign i j =>
    match w.analyzers[i]?, w.analyzers[j]? with
    | some _, some o => .ok { w with analyzers := w.analyzers.set i o }
    | _, _ => .ub
  | .push i =>
    match w.analyzers[i]? with
    | none => .ub
    | some o => .ok { w with
        blocks := w.blocks ++ [⟨[], none⟩]
        analyzers := w.analyzers.set i ⟨o.apiVersion, ⟨[], [], [], w.blocks.length, []⟩ :: o.scopes⟩ }
  | .pop i =>
    match w.analyzers[i]? with
    | none => .ub
    | some o =>
      match o.scopes with
      | [] => .ub
      | _ :: rest => .ok { w with analyzers := w.analyzers.set i ⟨o.apiVersion, rest⟩ }
  | .constants i => w.change i (Analyzer.registerDefaultConstants fo)
  | .functions i => w.change i (Analyzer.registerDefaultFunctions fo)
  | .instructions i => w.change i Analyzer.registerDefaultInstructions
  | .addName i name v => w.change i (·.registerVariable name v)
  | .addFunction i name params f => w.change i (·.registerFunction name params f)
  | .addInstruction i x => w.change i (·.registerInstruction x)
  | .addStatement i s => w.change i (·.addStatement s)
  | .addVariable i x =>
    (w.change i (·.addVariable x)).bind fun w' => .ok { w' with nextUid := max w'.nextUid (x.uid + 1) }
  | .analyze i p u =>
    match w.analyzers[i]? with
    | none => .ub
    | some o =>
      if u < w.nextUid then .ub
      else
        match o.scopes with
        | [] => .ub
        | s :: _ =>
          match Sem.analyze fo (w.readAnalyzer o u) p with
          | .err e => nomatch e
          | .exn c => .exn c
          | .ub => .ub
          | .ok (a, r) =>
            let w' := w.write i o a
            .ok { w' with results := w'.results ++ [⟨r.root.map fun x => ⟨x.apiVersion, x.version, s.block, x.variables⟩, r.errors⟩] }
  | .throwing i p u =>
    match w.analyzers[i]? with
    | none => .ub
    | some o =>
      if u < w.nextUid then .ub
      else
        match o.scopes with
        | [] => .ub
        | _ :: _ =>
          match Sem.visitProgram fo (w.readAnalyzer o u) p with
          | .err e => nomatch e
          | .exn c => .exn c
          | .ub => .ub
          | .ok (a, r) =>
            if r.errors.isEmpty && !((r.root.map SProgram.wellFormed).getD false) then .ok (w.write i o a) else .ub

/-- A history of calls. A call that throws a `NameResolutionFailure` changes nothing; histories consist of calls that return, and of
analyses that throw at their end. -/
inductive Steps (fo : FloatOps F) : World F → List (Op F) → World F → Prop
  | nil {w} : Steps fo w [] w
  | cons {w w' w'' op ops} : step fo w op = .ok w' → Steps fo w' ops w'' → Steps fo w (op :: ops) w''

end World
end Qasm
