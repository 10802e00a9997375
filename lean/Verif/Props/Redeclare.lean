import Verif.Props.Unused
import Verif.Props.Declare
import Verif.Lemmas.Value
/-!
# C10, C13: a redeclaration anywhere in a program

In contrast to `C10_redeclaration`, statements of any kind may follow, and the analyser may have analysed other programs before. Variables
declared later then have other identities, and nothing else changes.
-/

namespace Qasm

open Spec Sem

variable {F : Type} {fo : FloatOps F}

namespace Redeclare

/-- A redeclaration changes nothing but the list of variables and the identities of the variables to come. -/
theorem moved {v : Version} {sc : Scope F} {rest : List (Scope F)} {u : Nat} (h : Fit ⟨v, sc :: rest, u⟩) {f : Nat → Nat} (hf : Fixes f u)
    (hu : ∀ i, f (u + i) = u + 1 + i) (y : SVariable F) (hy : sc.variableTable.find y.name ≠ none) :
    Moved f (fun _ => True) True sc.block.statements sc.block.statements sc.variables (sc.variables ++ [y])
      ⟨v, sc :: rest, u⟩ ⟨v, declared sc y :: rest, u + 1⟩ := by
  have hx := h.fixed f hf
  refine ⟨⟨sc, rest, _, rest, rfl, rfl, fun n _ => ?_,
    fun n _ => fixed_resolve (fun s hs => hx s (List.mem_cons_of_mem _ hs)) n, ⟨[], by simp, by simp [declared_block]⟩,
    by rw [declared_block], ⟨[], by simp, by simp [declared_variables]⟩⟩,
    by simp [declared_fns], by simp [declared_instructions], h.numbers, fun _ => hu⟩
  rw [find_declared, if_neg fun (h : n = y.name ∧ _) => hy (h.1 ▸ h.2)]
  exact (hx sc List.mem_cons_self).find n

end Redeclare

/-- C10, C13. Whatever comes before and after, and whatever was analysed before: declaring a name that is known, with a proper type,
adds exactly the error `trying to redeclare variable 'x'`, in its place, and one entry to the list of variables. All else stays the same,
but for the identities of the variables declared later. Names denote what they denote without it, and those known before it what they
denoted. -/
theorem C10_anywhere {a a0 a1 : Analyzer F} (ha : Reached fo a) {p : ProgramAst F} {pre post : List (Stmt F)} {l : Option Loc}
    {n : Ident} {t : TypeAst} {ty : Ty} (ht : TypeOk t ty) {r0 r1 : Result (SProgram F)}
    (h0 : analyze fo a (withStatements p pre) = .ok (a0, r0)) (hk : ∃ w, Analyzer.resolveVariable a0.scopes n.name = .ok w)
    (h1 : analyze fo a (withStatements p (pre ++ post)) = .ok (a1, r1)) :
    ∃ a2 r2 s0 s1 s2 B W u, ∃ f : Nat → Nat,
      analyze fo a (withStatements p (pre ++ .var l [] n t :: post)) = .ok (a2, r2) ∧
      r0.root = some s0 ∧ r1.root = some s1 ∧ r2.root = some s2 ∧ r1.errors = r0.errors ++ B ∧
      r2.errors = r0.errors ++ ⟨c!"trying to redeclare variable '" ++ n.name ++ c!"'", l⟩ :: B ∧
      s2.block = moveSBlock f s1.block ∧ s1.variables = s0.variables ++ W ∧
      s2.variables = s0.variables ++ ⟨u, n.name, ty, [], n.loc⟩ :: W.map (moveSVariable f) ∧
      s2.apiVersion = s1.apiVersion ∧ s2.version = s1.version ∧
      (∀ x, Analyzer.resolveVariable a2.scopes x = (Analyzer.resolveVariable a1.scopes x).mov (moveValue f)) ∧
      (∀ x w, Analyzer.resolveVariable a0.scopes x = .ok w → Analyzer.resolveVariable a2.scopes x = .ok w) ∧
      (∀ i j, f i = f j → i = j) ∧ (∀ y ∈ s0.variables, f y.uid = y.uid) ∧ ∀ i, f i ≠ u := by
  obtain ⟨e0, sc0, rest0, g0, k0, l0, m0⟩ := analyze_ran h0
  obtain ⟨e1, sc1, rest1, g1, k1, l1, m1⟩ := analyze_ran h1
  have hfit := (fit_block _ (fit_reached ha) g0).1
  obtain ⟨e0', a0', B, q0, q1, rfl⟩ := block_append.1 g1
  rw [g0] at q0
  cases q0
  obtain ⟨D, henv⟩ := reached_env (.analyzed ha h0)
  obtain ⟨s, hs, -⟩ := henv.scope
  obtain ⟨v0, scs0, u0⟩ := a0
  simp only at k0 hs hk
  subst k0
  cases hs
  have hk' : sc0.variableTable.find n.name ≠ none := by
    obtain ⟨w, hw⟩ := hk
    intro hnone
    simp [Analyzer.resolveVariable, VariableTable.resolve, hnone] at hw
  have hb : buildSemanticType t = .ok ty := by
    rcases buildSemanticType_spec t with ⟨ty', h1, h2⟩ | ⟨_, -, -, h2⟩
    · rw [h1, typeOk_det h2 ht]
    · exact absurd ⟨ty, ht⟩ h2
  have hv := declared_decl (fo := fo) (v := v0) (sc := sc0) (rest := []) (u := u0) (l := l) (as := []) (n := n) hb (r := ([], [])) rfl
  have hag : again sc0 n.name l = [⟨c!"trying to redeclare variable '" ++ n.name ++ c!"'", l⟩] := by
    unfold again
    cases hfd : sc0.variableTable.find n.name with
    | none => exact absurd hfd hk'
    | some w => cases l <;> rfl
  rw [hag] at hv
  have hf : Fixes (fun i => if i < u0 then i else i + 1) u0 := fun i hi => if_pos hi
  have hm := Redeclare.moved hfit hf (fun i => by simp only [show ¬ u0 + i < u0 by omega, if_false]; omega)
    ⟨u0, n.name, ty, [], n.loc⟩ hk'
  have hend := visitBlock_mov (fo := fo) post hm (fun _ _ _ => trivial) fun _ _ _ _ => trivial
  rw [q1] at hend
  cases q2 : visitBlock fo ⟨v0, declared sc0 ⟨u0, n.name, ty, [], n.loc⟩ :: [], u0 + 1⟩ post with
  | ok x =>
    rw [q2] at hend
    obtain ⟨hB, hmv⟩ := hend
    obtain ⟨⟨c, w, c', w', j, j', -, -, ⟨T, t1, t2⟩, hl, ⟨W, w1, w2⟩⟩, -⟩ := id hmv
    rw [show a1.scopes = c :: w from j] at k1
    cases k1
    have g2 : visitBlock fo a (pre ++ .var l [] n t :: post) =
        .ok (e0 ++ (⟨c!"trying to redeclare variable '" ++ n.name ++ c!"'", l⟩ :: B), x.2) := by
      refine block_append.2 ⟨_, _, _, g0, block_cons.2 ⟨_, _, _, hv, ?_, rfl⟩, rfl⟩
      rw [q2, ← show x.1 = B from hB]
    have hres := analyze_block_eq (p := p) g2 j'
    rw [if_neg (by simp)] at hres
    refine ⟨_, _, _, _, _, B, W, u0, _, hres, m0, m1, rfl, ?_, ?_, moved_block hfit hf t1 t2 hl, w1, by simp [w2], rfl, rfl, ?_, ?_, ?_, ?_, ?_⟩
    · rw [l0, l1, List.append_assoc]
    · rw [l0]; simp only [List.append_assoc]
    · exact fun x => hmv.sees.vars x trivial
    · intro y z hy
      obtain ⟨sc', u', hx, hkeep⟩ := visitBlock_find post q2
      rw [hx]
      refine resolveVariable_one.2 (hkeep y z ?_)
      have := resolveVariable_one.1 hy
      rw [find_declared, if_neg (by simp [this])]
      exact this
    · intro i j
      split <;> split <;> omega
    · exact fixes_before hfit hf
    · intro i
      split <;> omega
  | err e => exact e.elim
  | _ => rw [q2] at hend; exact hend.elim

/-- C13. In particular the name of a built-in constant: it is known whatever was analysed before. -/
theorem C13_known {a : Analyzer F} (ha : Reached fo a) {x : Str} (hx : x ∈ [c!"true", c!"false", c!"pi", c!"eu", c!"tau"]) :
    ∃ w, Analyzer.resolveVariable a.scopes x = .ok w := by
  obtain ⟨D, henv⟩ := reached_env ha
  obtain ⟨s, hs, -, -, hv⟩ := henv.scope
  have hd : ((defaultVars fo).find x).isSome := by
    simp only [List.mem_cons, List.not_mem_nil, or_false] at hx
    rcases hx with rfl | rfl | rfl | rfl | rfl <;> rfl
  have : (s.variableTable.find x).isSome := by
    rw [hv, find_append, Option.isSome_or, hd, Bool.or_true]
  obtain ⟨w, hw⟩ := Option.isSome_iff_exists.1 this
  exact ⟨w, by rw [hs]; exact resolveVariable_one.2 hw⟩

section Examples

open Sample

/-- `qubit[2] q; X q; qubit[3] q; bit[3] pi; bit[2] b; b = measure q`: two errors, and `q` still has two elements. -/
example : messages (program [qubits c!"q" 2, gate c!"X" [] [name c!"q"], qubits c!"q" 3, bits c!"pi" 3, bits c!"b" 2,
      Sample.measure (name c!"b") (name c!"q")]) =
    some [c!"trying to redeclare variable 'q'", c!"trying to redeclare variable 'pi'"] := by
  decide +kernel

end Examples

end Qasm
