import Verif.Spec.Program
/-!
# Other identities of variables

Two analyses that make the variables of a program in another order, or one of them more, number them differently. A result with
other numbers is the same result: numbers only say which references are to which variable.
-/

namespace Qasm.Spec

variable {F : Type}

/-! ## Names a statement mentions -/

/-- The names an annotation mentions. -/
def namesAnnotations : List (AnnotationData F) → List Str
  | [] => []
  | a :: as => namesList a.operands ++ namesAnnotations as

/-- The names a gate mentions, in parameters and annotations. -/
def mentionedGate : Gate F → List Str
  | .mk _ as _ none ps => namesAnnotations as ++ namesList ps
  | .mk _ as _ (some g) ps => namesAnnotations as ++ mentionedGate g ++ namesList ps

/-- The names of variables and constants a statement mentions, the one it declares included. -/
def mentioned : Stmt F → List Str
  | .var _ as n _ => n.name :: namesAnnotations as
  | .gate _ as g es => namesAnnotations as ++ mentionedGate g ++ namesList es
  | .nonGate _ as _ es ps => namesAnnotations as ++ namesList es ++ namesList ps
  | .asm _ as _ _ => namesAnnotations as

/-- No statement mentions the name. -/
def Unmentioned (x : Str) (ss : List (Stmt F)) : Prop := ∀ s ∈ ss, x ∉ mentioned s

/-! ## Results with other identities -/

/-- The link to the variable under its other identity. -/
def moveLink (f : Nat → Nat) (l : VarLink) : VarLink := ⟨f l.uid, l.name, l.typ⟩

/-- The value with other identities. -/
def moveNode (f : Nat → Nat) : ValueNode F → ValueNode F
  | .indexRef v is => .indexRef (moveLink f v) is
  | .variableRef v => .variableRef (moveLink f v)
  | n => n

/-- The value with other identities. -/
def moveValue (f : Nat → Nat) (v : Value F) : Value F := ⟨moveNode f v.node, v.loc⟩

/-- The annotation with other identities. -/
def moveSAnnotation (f : Nat → Nat) (a : SAnnotation F) : SAnnotation F :=
  ⟨a.interface, a.operation, a.operands.map (moveValue f), a.loc⟩

/-- The gate with other identities. -/
def moveSGate (f : Nat → Nat) : SGate F → SGate F
  | .mk n none ps as l => .mk n none (ps.map (moveValue f)) (as.map (moveSAnnotation f)) l
  | .mk n (some g) ps as l => .mk n (some (moveSGate f g)) (ps.map (moveValue f)) (as.map (moveSAnnotation f)) l

/-- The statement with other identities. -/
def moveSStatement (f : Nat → Nat) : SStatement F → SStatement F
  | .gate i g vs as l => .gate i (moveSGate f g) (vs.map (moveValue f)) (as.map (moveSAnnotation f)) l
  | .nonGate i n vs ps as l => .nonGate i n (vs.map (moveValue f)) (ps.map (moveValue f)) (as.map (moveSAnnotation f)) l
  | .asm n c as l => .asm n c (as.map (moveSAnnotation f)) l

/-- The block with other identities. -/
def moveSBlock (f : Nat → Nat) (b : SBlock F) : SBlock F := ⟨b.statements.map (moveSStatement f), b.loc⟩

/-- The variable under its other identity. -/
def moveSVariable (f : Nat → Nat) (v : SVariable F) : SVariable F :=
  ⟨f v.uid, v.name, v.typ, v.annotations.map (moveSAnnotation f), v.loc⟩

end Qasm.Spec
