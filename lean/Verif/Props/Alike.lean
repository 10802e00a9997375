import Verif.Lemmas.Alike
import Verif.Props.Positions
/-!
# Constants of the same value are interchangeable (C81)
-/

namespace Qasm

open Spec Sem Syn

variable {F : Type} {fo : FloatOps F}

attribute [local irreducible] defaultInstrs defaultFns defaultVars

theorem stripAnalyzer_env {D : List VarLink} {a : Analyzer F} (henv : EnvOk fo D a.scopes) : EnvOk fo D (stripAnalyzer a).scopes := by
  obtain ⟨sc, h, h1, h2, h3⟩ := henv.scope
  refine ⟨henv.decls, stripScope sc, by simp [stripAnalyzer, h], h1, h2, ?_⟩
  have hd : (defaultVars fo).map (fun e => (e.1, stripValue e.2)) = defaultVars fo := by
    unfold defaultVars; rfl
  simp only [stripScope, h3, List.map_append, hd, List.map_map]
  congr 1

/-- C81. A program keeps its meaning, up to positions, when constant expressions in it are replaced by others of the same value,
and lists of indices by others that stand for the same indices: the same outcome, the same messages in the same order and the
same program. This holds wherever the expressions stand, and for programs with errors. -/
theorem C81_alike {a : Analyzer F} (ha : Reached fo a) {p p' : ProgramAst F} (h : AlikeProgram fo p p') :
    SameOutcome (analyze fo a p) (analyze fo a p') := by
  obtain ⟨D, henv⟩ := reached_env ha
  have h := analyze_alike (stripAnalyzer_env henv) h
  obtain ⟨sc, hsc, h1, -, -⟩ := henv.scope
  obtain ⟨v, scs, u⟩ := a
  cases hsc
  have hb : BlindTable sc.fnTable := h1 ▸ defaultFns_blind fo
  rw [analyze_strip hb p, analyze_strip hb p'] at h
  exact sameOutcome_of h

/-- C81, for texts. -/
theorem C81_text {a : Analyzer F} (ha : Reached fo a) (an : Antlr F) {text text' : Str} {file file' : Option Str}
    {p p' : ProgramAst F} (h : parseString an text file = .ok ⟨some p, []⟩) (h' : parseString an text' file' = .ok ⟨some p', []⟩)
    (hs : AlikeProgram fo p p') : SameOutcome (analyzeString fo an a text file) (analyzeString fo an a text' file') := by
  unfold analyzeString
  rw [h, h', Res.bind_ok, Res.bind_ok]
  simp only [analyzeParse]
  exact sameOutcome_mapErr (C81_alike ha hs)

/-- `1 + 2` has the value of `3`, and `0:2` stands for the indices `0, 1, 2`. -/
theorem Sample.three (fo : FloatOps F) (l m n o : Option Loc) : Alike fo (.bin l .add (.intLit m 1) (.intLit n 2)) (.intLit o 3) :=
  .value (c := .int 3) (.bin (c := .int 1) (d := .int 2) (.intLit ..) (.intLit ..)
    (applies_self fo (fn := .bin .add) (cs := [.int 1, .int 2]) (by simp [Fn.signatures, Const.kind]))) (.intLit ..)

theorem Sample.zeroToTwo (fo : FloatOps F) (l m n l1 l2 l3 m1 m2 m3 : Option Loc) :
    AlikeIndices fo [.range l (.intLit m 0) (.intLit n 2)]
      [.item l1 (.intLit m1 0), .item l2 (.intLit m2 1), .item l3 (.intLit m3 2)] :=
  .same (ns := [(0, l), (1, l), (2, l)]) (ns' := [(0, l1), (1, l2), (2, l3)])
    (.cons (is := [(0, l), (1, l), (2, l)]) (.range (c := .int 0) (d := .int 2) (.intLit ..) (.same _) (.intLit ..) (.same _)
      ⟨by decide, rfl, by simp⟩) .nil)
    (.cons (is := [_]) (.item (c := .int 0) (.intLit ..) (.same _)) (.cons (is := [_]) (.item (c := .int 1) (.intLit ..) (.same _))
      (.cons (is := [_]) (.item (c := .int 2) (.intLit ..) (.same _)) .nil)))
    rfl (by simp)

/-- Two programs that are alike. The second gate is in error in both. -/
def Sample.computed : ProgramAst Int :=
  Sample.program [.var none [] ⟨c!"q", none⟩ ⟨c!"qubit", some 4, none⟩,
    Sample.gate c!"Rx" [.bin none .add (Sample.int 1) (Sample.int 2)] [.index none (Sample.name c!"q") [.range none (Sample.int 0) (Sample.int 2)]],
    Sample.gate c!"X" [] [.index none (Sample.name c!"q") [.item none (.bin none .add (.bin none .add (Sample.int 1) (Sample.int 2)) (Sample.int 1))]]]

def Sample.literal : ProgramAst Int :=
  Sample.program [.var none [] ⟨c!"q", none⟩ ⟨c!"qubit", some 4, none⟩,
    Sample.gate c!"Rx" [Sample.int 3] [.index none (Sample.name c!"q") [.item none (Sample.int 0), .item none (Sample.int 1), .item none (Sample.int 2)]],
    Sample.gate c!"X" [] [.index none (Sample.name c!"q") [.item none (.bin none .add (Sample.int 3) (Sample.int 1))]]]

example : AlikeProgram Sample.fo Sample.computed Sample.literal :=
  ⟨rfl, .cons (.var .nil) (.cons (.gate .nil (.plain .nil (.cons (Sample.three ..) .nil))
    (.cons (.index (.ident ..) (Sample.zeroToTwo ..)) .nil)) (.cons (.gate .nil (.plain .nil .nil)
    (.cons (.index (.ident ..) (.item (.bin (Sample.three ..) (.value (c := .int 1) (.intLit ..) (.intLit ..))) .nil)) .nil))
    .nil))⟩

example : Sample.messages Sample.computed = some [c!"index 4 out of range (size 4)"] ∧
    Sample.messages Sample.literal = some [c!"index 4 out of range (size 4)"] :=
  ⟨by decide +kernel, by decide +kernel⟩

example : Sample.report c!"version 3; qubit[4] q; Rx(1 + 2) q[0:2]; X q[1 + 2 + 1]" = some [c!"index 4 out of range (size 4)"] ∧
    Sample.report c!"version 3; qubit[4] q; Rx(3) q[0, 1, 2]; X q[3 + 1]" = some [c!"index 4 out of range (size 4)"] :=
  ⟨by decide +kernel, by decide +kernel⟩

/-- Two texts whose trees are alike. -/
example : ∃ p p', parseString Sample.antlr c!"version 3;barrier 1+2" none = .ok ⟨some p, []⟩ ∧
    parseString Sample.antlr c!"version 3;barrier 3" none = .ok ⟨some p', []⟩ ∧ AlikeProgram Sample.fo p p' :=
  ⟨_, _, rfl, rfl, rfl, .cons (.nonGate .nil (.cons (Sample.three ..) .nil) .nil) .nil⟩

end Qasm
