import Verif.Spec.Expr
import Verif.Spec.Layout
/-!
# Specification of programs that differ in how their constants and index lists are written

`Eval fo [] e n` gives the value of an expression that uses no variables (Spec/Expr.lean).
-/

namespace Qasm.Spec

variable {F : Type}

mutual
/-- The second expression is the first with some constant subexpressions replaced by others of the same value, and some lists of
indices by others that stand for the same indices in the same order. Positions may differ. -/
inductive Alike (fo : FloatOps F) : Expr F → Expr F → Prop
  | value {e e'} {c : Const F} : Eval fo [] e c.node → Eval fo [] e' c.node → Alike fo e e'
  | ident (l l' n) : Alike fo (.ident l n) (.ident l' n)
  | index {l l' e e' is is'} : Alike fo e e' → AlikeIndices fo is is' → Alike fo (.index l e is) (.index l' e' is')
  | call {l l' n es es'} : AlikeList fo es es' → Alike fo (.call l n es) (.call l' n es')
  | un {l l' o e e'} : Alike fo e e' → Alike fo (.un l o e) (.un l' o e')
  | bin {l l' o a a' b b'} : Alike fo a a' → Alike fo b b' → Alike fo (.bin l o a b) (.bin l' o a' b')
  | tern {l l' a a' b b' c c'} : Alike fo a a' → Alike fo b b' → Alike fo c c' → Alike fo (.tern l a b c) (.tern l' a' b' c')
/-- The expressions of the two lists are alike one by one. -/
inductive AlikeList (fo : FloatOps F) : List (Expr F) → List (Expr F) → Prop
  | nil : AlikeList fo [] []
  | cons {e e' es es'} : Alike fo e e' → AlikeList fo es es' → AlikeList fo (e :: es) (e' :: es')
/-- The two lists of indices stand for the same indices in the same order, or consist of entries that are alike. Ranges that end at
the largest 64-bit integer are left out: the loop over such a range overflows. -/
inductive AlikeIndices (fo : FloatOps F) : List (IndexEntry F) → List (IndexEntry F) → Prop
  | same {is is' ns ns'} : EvalIndices fo [] is ns → EvalIndices fo [] is' ns' → ns.map (·.1) = ns'.map (·.1) →
      (∀ n ∈ ns, n.1.toInt < 2 ^ 63 - 1) → AlikeIndices fo is is'
  | nil : AlikeIndices fo [] []
  | item {l l' e e' is is'} : Alike fo e e' → AlikeIndices fo is is' → AlikeIndices fo (.item l e :: is) (.item l' e' :: is')
  | range {l l' a a' b b' is is'} : Alike fo a a' → Alike fo b b' → AlikeIndices fo is is' →
      AlikeIndices fo (.range l a b :: is) (.range l' a' b' :: is')
end

/-- The annotations are the same up to the way their operands are written. -/
def AlikeAnnotation (fo : FloatOps F) (a a' : AnnotationData F) : Prop :=
  a.interface = a'.interface ∧ a.operation = a'.operation ∧ AlikeList fo a.operands a'.operands

/-- The gates are the same up to the way their parameters are written. -/
inductive AlikeGate (fo : FloatOps F) : Gate F → Gate F → Prop
  | plain {l l' as as' n ps ps'} : Forall2 (AlikeAnnotation fo) as as' → AlikeList fo ps ps' →
      AlikeGate fo (.mk l as n none ps) (.mk l' as' n none ps')
  | modified {l l' as as' n g g' ps ps'} : Forall2 (AlikeAnnotation fo) as as' → AlikeGate fo g g' → AlikeList fo ps ps' →
      AlikeGate fo (.mk l as n (some g) ps) (.mk l' as' n (some g') ps')

/-- The statements are the same up to the way their parameters and operands are written. -/
inductive AlikeStmt (fo : FloatOps F) : Stmt F → Stmt F → Prop
  | var {l l' m m' k k' as as' n t s} : Forall2 (AlikeAnnotation fo) as as' → AlikeStmt fo (.var l as ⟨n, m⟩ ⟨t, s, k⟩) (.var l' as' ⟨n, m'⟩ ⟨t, s, k'⟩)
  | gate {l l' as as' g g' es es'} : Forall2 (AlikeAnnotation fo) as as' → AlikeGate fo g g' → AlikeList fo es es' →
      AlikeStmt fo (.gate l as g es) (.gate l' as' g' es')
  | nonGate {l l' as as' n es es' ps ps'} : Forall2 (AlikeAnnotation fo) as as' → AlikeList fo es es' → AlikeList fo ps ps' →
      AlikeStmt fo (.nonGate l as n es ps) (.nonGate l' as' n es' ps')
  | asm {l l' as as' n c} : Forall2 (AlikeAnnotation fo) as as' → AlikeStmt fo (.asm l as n c) (.asm l' as' n c)

/-- The programs are the same up to the way their constants and index lists are written. -/
def AlikeProgram (fo : FloatOps F) (p p' : ProgramAst F) : Prop :=
  p.version.items = p'.version.items ∧ Forall2 (AlikeStmt fo) p.block.statements p'.block.statements

end Qasm.Spec
