import Verif.Lemmas.Typing
import Verif.Lemmas.Reach
import Verif.Lemmas.Accept
import Verif.Spec.Sample
/-!
# When analysis leaves defined behaviour (C21)

C21 is false: `Res.ub` is the outcome of the model where the C++ program has undefined behaviour, and
`1 / 0` or `9223372036854775807 + 1` as a parameter leads there (`C21_refuted`). What holds instead is an exact
description of the programs for which it happens (`C21_exactly_partial`, with the relations `Undef` of
Spec/Expr.lean and `UndefStmts` of Spec/Program.lean, which do not mention the model), and that it does not happen
in expressions without risky int arithmetic (`C21_total_partial`).
-/

namespace Qasm

open Spec Sem

attribute [local irreducible] defaultInstrs defaultFns defaultVars

variable {F : Type} {fo : FloatOps F} {a : Analyzer F}

/-- C21, for programs without annotations: analysis has undefined behaviour exactly if the program, read in order,
reaches a statement whose evaluation is undefined: before any error in it there is an int overflow, a division
by zero, a shift amount outside 0..63, an index range up to the largest int, or an index into a constant.
Missing for the full property: that there are no such programs, which is false (`C21_refuted`). -/
theorem C21_exactly_partial {v : Version} (ha : Analyzer.default fo v = .ok a) {p : ProgramAst F} (hs : ShapedProgram p)
    (hp : PlainProgram p) : analyze fo a p = .ub ↔ UndefStmts fo [] 0 p.block.statements := by
  rcases analyze_plain ha hs hp with ⟨_, _, _, _, _, _, h1, _, h2, _⟩ | ⟨h1, _, h2⟩
  · rw [h1]
    exact ⟨nofun, fun h => absurd h (analysis_not_undef hs declsOk_nil h2)⟩
  · exact ⟨fun _ => h2, fun _ => h1⟩

/-- C21. Otherwise analysis returns a result: there is no other way to fail. -/
theorem C21_returns_partial {v : Version} (ha : Analyzer.default fo v = .ok a) {p : ProgramAst F} (hs : ShapedProgram p)
    (hp : PlainProgram p) (h : ¬ UndefStmts fo [] 0 p.block.statements) :
    ∃ a' root errors, analyze fo a p = .ok (a', ⟨some root, errors⟩) := by
  rcases analyze_plain ha hs hp with ⟨_, _, _, _, _, _, h1, _⟩ | ⟨_, _, h2⟩
  · exact ⟨_, _, _, h1⟩
  · exact absurd h2 h

/-- `qubit q; Rx(e) q`, for an expression `e`. -/
def rotation (e : Expr F) : ProgramAst F :=
  ⟨⟨[3, 0], none⟩, ⟨[.var none [] ⟨c!"q", none⟩ ⟨c!"qubit", none, none⟩,
    .gate none [] (.mk none [] c!"Rx" none [e]) [.ident none c!"q"]], none⟩, none⟩

private theorem rotation_undef {v : Version} (ha : Analyzer.default fo v = .ok a) (e : Expr F)
    (h : ∀ D, Undef fo D e) : analyze fo a (rotation e) = .ub := by
  have hs : ShapedProgram (rotation e) := by
    intro s hs
    simp only [rotation, List.mem_cons, List.not_mem_nil, or_false] at hs
    rcases hs with rfl | rfl
    · simp [ShapedStmt, ShapedAnnotations]
    · refine ⟨by simp [ShapedAnnotations], ?_, by simp [ShapedGateAnnotations, ShapedAnnotations], by simp [ShapedExpr]⟩
      simp only [ShapedGate]
      decide
  have hp : PlainProgram (rotation e) := by
    intro s hs
    simp only [rotation, List.mem_cons, List.not_mem_nil, or_false] at hs
    rcases hs with rfl | rfl <;> simp [PlainStmt, PlainGate]
  rw [C21_exactly_partial ha hs hp]
  exact .decl .qubit ⟨show c!"q" ∉ reserved by decide, by simp⟩ (.here (.gate (.named (.head (h _)))))

/-- C21 is false: for every analyser there are programs without annotations for which folding divides by zero,
overflows or shifts too far, and so has undefined behaviour. -/
theorem C21_refuted {v : Version} (ha : Analyzer.default fo v = .ok a) :
    analyze fo a (rotation (.bin none .div (.intLit none 1) (.intLit none 0))) = .ub ∧
    analyze fo a (rotation (.bin none .add (.intLit none 9223372036854775807) (.intLit none 1))) = .ub ∧
    analyze fo a (rotation (.bin none .shl (.intLit none 1) (.intLit none 64))) = .ub := by
  have key : ∀ (op : BinOp) (i j : Int64), [Kind.int, .int] ∈ (Fn.bin op).signatures → intBin (F := F) op i j = none → ∀ D,
      Undef fo D (.bin none op (.intLit none i) (.intLit none j)) := by
    intro op i j hop h D
    refine .bin (c := .int i) (d := .int j) (.intLit ..) (.intLit ..) ?_
    have := applies_self fo (fn := .bin op) (cs := [.int i, .int j]) hop
    rwa [show (Fn.bin op).meaning fo [.int i, .int j] = none from h] at this
  refine ⟨rotation_undef ha _ (key .div 1 0 (by decide) ?_), rotation_undef ha _ (key .add 9223372036854775807 1 (by decide) ?_),
    rotation_undef ha _ (key .shl 1 64 (by decide) ?_)⟩
  · rfl
  · simp only [intBin]
    rw [show fit ((9223372036854775807 : Int64).toInt + (1 : Int64).toInt) = none by decide +kernel]
    rfl
  · rfl

private theorem meaning_un_total {op : UnOp} {c : Const F} (hs : [c.kind] ∈ (Fn.un op).signatures)
    (h : op = .neg → c.kind ≠ .int) : (Fn.un op).meaning fo [c] ≠ none := by
  cases op <;> cases c <;> simp [Fn.signatures, Const.kind] at hs h <;> simp [Fn.meaning]

private theorem meaning_bin_total {op : BinOp} {c d : Const F} {k : Kind} (hs : [k, k] ∈ (Fn.bin op).signatures)
    (hc : c.kind = k) (hd : d.kind = k) (h : op ∈ [BinOp.add, .sub, .mul, .div, .mod, .shl, .shr] → k ≠ .int) :
    (Fn.bin op).meaning fo [c, d] ≠ none := by
  cases c with
  | bool b =>
    cases hc
    obtain ⟨b', rfl⟩ := kind_bool hd
    cases op <;> simp [Fn.signatures, Const.kind] at hs <;> simp [Fn.meaning, boolBin]
  | float f =>
    cases hc
    obtain ⟨g, rfl⟩ := kind_float hd
    cases op <;> simp [Fn.signatures, Const.kind] at hs <;> simp [Fn.meaning, floatBin]
  | int i =>
    cases hc
    obtain ⟨j, rfl⟩ := kind_int hd
    cases op <;> simp [Fn.signatures, Const.kind] at hs h <;> simp [Fn.meaning, intBin]

private theorem give_ub {l : Option Loc} {o : Option (Const F)} (h : give l o = .ub) : o = none := by
  cases o <;> first | rfl | cases h

private theorem locate_ub {l : Option Loc} {r : Res Err (Value F)} (h : locate l r = .ub) : r = .ub := by
  cases r <;> first | rfl | cases h

section
variable {D : List VarLink} {scopes : List (Scope F)} {env : Str → Option Kind}

private theorem list_total (es : List (Expr F)) (h : ∀ e ∈ es, visitExpression fo scopes e ≠ .ub) : visitList fo scopes es ≠ .ub := by
  induction es with
  | nil => simp [visitList]
  | cons e es ih =>
    have h1 := h e (List.mem_cons_self ..)
    have h2 := ih fun x hx => h x (List.mem_cons_of_mem _ hx)
    unfold visitExpression at h1
    rw [visitList]
    cases hv : locate e.loc (visit fo scopes e) with
    | ok v =>
      rw [Res.bind_ok]
      cases hl : visitList fo scopes es with
      | ub => exact absurd hl h2
      | _ => simp
    | ub => exact absurd hv h1
    | _ => simp

mutual
private theorem total (henv : EnvOk fo D scopes) (hid : ∀ x, Typed (env x) (visitExpression fo scopes (.ident none x)))
    (hid' : ∀ l x, visitExpression fo scopes (.ident l x) ≠ .ub) :
    ∀ e : Expr F, Simple e → Total env e → visitExpression fo scopes e ≠ .ub
  | .boolLit .., _, _ => by simp [visitExpression, visit, locate]
  | .intLit .., _, _ => by simp [visitExpression, visit, locate]
  | .floatLit .., _, _ => by simp [visitExpression, visit, locate]
  | .ident l x, _, _ => hid' l x
  | .index .., hs, _ => hs.elim
  | .un l op e, hs, ht => by
    have h1 := total henv hid hid' e hs ht.1
    intro hub
    have hv : visitExpression fo scopes (.un l op e) = locate l ((visitExpression fo scopes e).bind fun v =>
      callFunction fo scopes (c!"operator" ++ unSymbol op) [v]) := by simp [visitExpression, visit, Expr.loc]
    rcases arg_cases henv (typed henv hid e hs) with g | ⟨err, g1, g2⟩ | ⟨c, l₁, g1, g2⟩ | ⟨w, g1, g2, g3⟩
    · exact h1 g
    · rw [hv, g1] at hub; cases hub
    · rcases un_selects op (kind_isConst c) with ⟨m, k1, k2⟩ | ⟨k1, k2⟩
      · obtain ⟨cs', m1, m2, m3⟩ := applies_of_selects (fo := fo) (cs := [c]) k2
        rw [un_value henv g1 m3] at hub
        match cs', m1 with
        | [c'], m1 =>
          simp only [List.map_cons, List.map_nil, List.cons.injEq, and_true] at m1
          by_cases hneg : op = .neg ∧ m = .int
          · obtain ⟨rfl, rfl⟩ := hneg
            rcases ht.2 rfl with h | ⟨k, i, rfl, hi⟩
            · exact h (by rw [typing, g2, Option.bind_some, k1])
            · have hc : c = .int i := by
                simp only [visitExpression, visit, locate, Expr.loc, Res.ok.injEq, Value.mk.injEq] at g1
                cases c <;> simp [Const.node] at g1
                rw [g1.1]
              subst hc
              have : c' = .int i := by cases m2 with | cons h _ => rw [m1] at h; cases h; rfl
              subst this
              have hb := i.toInt_lt
              have := give_ub hub
              simp only [Fn.meaning, Option.map_eq_none_iff, fit] at this
              split at this
              · cases this
              · omega
          · exact meaning_un_total (by rw [m1]; exact k2.1) (fun h1 h2 => hneg ⟨h1, by rw [← m1, h2]⟩) (give_ub hub)
      · rw [hv, g1, Res.bind_ok, un_name] at hub
        obtain ⟨err, h⟩ := call_not_ok henv (.un op) [⟨c.node, l₁⟩] (un_arity op) [c] rfl k2
        rw [h] at hub; cases hub
    · rw [hv, g1, Res.bind_ok] at hub
      obtain ⟨err, h⟩ := call_register henv (c!"operator" ++ unSymbol op) [w] (by simpa using value_good henv g1) w (by simp) g2
      rw [h] at hub; cases hub
  | .bin l op a b, hs, ht => by
    have h1 := total henv hid hid' a hs.1 ht.1
    have h2 := total henv hid hid' b hs.2 ht.2.1
    intro hub
    have hv : visitExpression fo scopes (.bin l op a b) = locate l ((visitExpression fo scopes a).bind fun v =>
      (visitExpression fo scopes b).bind fun w => callFunction fo scopes (c!"operator" ++ binSymbol op) [v, w]) := by
      simp [visitExpression, visit, Expr.loc]
    rcases typed henv hid (.bin l op a b) hs with _ | g
    · rcases arg_cases henv (typed henv hid a hs.1) with g | ⟨err, g1, g2⟩ | ⟨c, l₁, g1, g2⟩ | ⟨w, g1, g2, g3⟩
      · exact h1 g
      · rw [hv, g1] at hub; cases hub
      · rcases arg_cases henv (typed henv hid b hs.2) with k | ⟨err, k1, k2⟩ | ⟨d, l₂, k1, k2⟩ | ⟨w, k1, k2, k3⟩
        · exact h2 k
        · rw [hv, g1, k1] at hub; cases hub
        · rcases bin_selects op (kind_isConst c) (kind_isConst d) with ⟨m, m1, m2⟩ | ⟨m1, m2⟩
          · obtain ⟨cs', n1, n2, n3⟩ := applies_of_selects (fo := fo) (cs := [c, d]) m2
            rw [bin_value henv g1 k1 n3] at hub
            match cs', n1 with
            | [c', d'], n1 =>
              simp only [List.map_cons, List.map_nil, List.cons.injEq, and_true] at n1
              refine meaning_bin_total m2.1 n1.1 n1.2 (fun hop hm => ht.2.2 hop ?_) (give_ub hub)
              rw [typing, g2, k2, Option.bind_some, Option.bind_some, m1, Option.map_some, hm]
              have : ¬ IsComparison op := by
                simp only [List.mem_cons, List.not_mem_nil, or_false] at hop
                rcases hop with rfl | rfl | rfl | rfl | rfl | rfl | rfl <;> exact id
              rw [binResult, if_neg this]
          · rw [hv, g1, k1, Res.bind_ok, Res.bind_ok, bin_name] at hub
            obtain ⟨err, h⟩ := call_not_ok henv (.bin op) [⟨c.node, l₁⟩, ⟨d.node, l₂⟩] (bin_arity op) [c, d] rfl m2
            rw [h] at hub; cases hub
        · rw [hv, g1, k1, Res.bind_ok, Res.bind_ok] at hub
          obtain ⟨err, h⟩ := call_register henv (c!"operator" ++ binSymbol op) [⟨c.node, l₁⟩, w]
            (by simpa using ⟨value_good henv g1, value_good henv k1⟩) w (by simp) k2
          rw [h] at hub; cases hub
      · cases hb : visitExpression fo scopes b with
        | ok w' =>
          rw [hv, g1, hb, Res.bind_ok, Res.bind_ok] at hub
          obtain ⟨err, h⟩ := call_register henv (c!"operator" ++ binSymbol op) [w, w']
            (by simpa using ⟨value_good henv g1, value_good henv hb⟩) w (by simp) g2
          rw [h] at hub; cases hub
        | ub => exact h2 hb
        | _ => rw [hv, g1, hb] at hub; cases hub
    · rw [hub] at g
      cases ht : typing env (.bin l op a b) <;> rw [ht] at g
      · obtain ⟨_, g⟩ := g; cases g
      · obtain ⟨_, g, _⟩ := g; cases g
  | .tern l e a b, hs, ht => by
    have h1 := total henv hid hid' e hs.1 ht.1
    have h2 := total henv hid hid' a hs.2.1 ht.2.1
    have h3 := total henv hid hid' b hs.2.2 ht.2.2
    intro hub
    have hv : visitExpression fo scopes (.tern l e a b) = locate l ((visitExpression fo scopes e).bind fun u =>
      (visitExpression fo scopes a).bind fun v =>
      (visitExpression fo scopes b).bind fun w => callFunction fo scopes c!"operator?:" [u, v, w]) := by
      simp [visitExpression, visit, Expr.loc]
    rw [hv] at hub
    have hub := locate_ub hub
    cases he : visitExpression fo scopes e with
    | ub => exact h1 he
    | err => rw [he] at hub; cases hub
    | exn => rw [he] at hub; cases hub
    | ok u =>
      cases hea : visitExpression fo scopes a with
      | ub => exact h2 hea
      | err => rw [he, hea] at hub; cases hub
      | exn => rw [he, hea] at hub; cases hub
      | ok v =>
        cases heb : visitExpression fo scopes b with
        | ub => exact h3 heb
        | err => rw [he, hea, heb] at hub; cases hub
        | exn => rw [he, hea, heb] at hub; cases hub
        | ok w =>
          rw [he, hea, heb, Res.bind_ok, Res.bind_ok, Res.bind_ok] at hub
          rcases callFunction_spec henv c!"operator?:" [u, v, w]
            (by simpa using ⟨value_good henv he, value_good henv hea, value_good henv heb⟩) with
            ⟨_, _, _, _, _, _, h⟩ | ⟨fn, cs, g1, g2, g3, _⟩ | ⟨_, _, _, h⟩
          · rw [h] at hub; cases hub
          · have hlen : cs.length = 3 := by have := congrArg List.length g1; simpa using this.symm
            obtain ⟨sig, cs', k1, _⟩ := id g3
            have : fn = .cond := by
              refine regFns_unique (fn, sig) (sig_regFns fn sig k1.1) (.cond, [.bool, .bool, .bool]) (sig_regFns _ _ (by decide)) g2 ?_
              show sig.length = 3
              rw [selects_length k1, List.length_map, hlen]
            subst this
            exact cond_defined _ g3
          · rw [h] at hub; cases hub
  | .call l name args, hs, ht => by
    have hl := list_total (scopes := scopes) args (totalAll henv hid hid' args hs.2 ht.1)
    intro hub
    have hv : visitExpression fo scopes (.call l name args) =
        locate l ((visitList fo scopes args).bind fun vs => callFunction fo scopes name vs) := by
      simp [visitExpression, visit, Expr.loc]
    rcases args_cases henv (typedAll henv hid args hs.2) with g | ⟨err, g1, g2⟩ | ⟨vs, cs, g1, g2, g3⟩ | ⟨vs, g1, g2, ⟨v, g3, g4⟩, g5⟩
    · exact hl g
    · rw [hv, g1] at hub; cases hub
    · rw [hv, g1, Res.bind_ok] at hub
      have hub := locate_ub hub
      have hg : ∀ v ∈ vs, GoodNode v.node := by
        intro v hv
        have : v.node ∈ vs.map (·.node) := List.mem_map_of_mem hv
        rw [g2] at this
        obtain ⟨c, _, hc⟩ := List.mem_map.mp this
        exact .inl ⟨c, hc.symm⟩
      rcases callFunction_spec henv name vs hg with ⟨_, _, _, _, _, _, h⟩ | ⟨fn, cs', h1, rfl, h3, _⟩ | ⟨_, _, _, h⟩
      · rw [h] at hub; cases hub
      · rw [g2] at h1
        have hce : cs' = cs := (List.map_inj_right (fun _ _ => node_inj)).mp h1.symm
        subst hce
        obtain ⟨sig, cs'', k1, k2, k3, k4⟩ := h3
        rcases identifier_fn hs.1 with ⟨f, rfl⟩ | rfl
        · have hsig : sig = [.float] := by simpa [Fn.signatures] using k1.1
          subst hsig
          obtain ⟨c'', rfl⟩ : ∃ c, cs'' = [c] := List.length_eq_one_iff.mp (by simpa using congrArg List.length k2)
          simp only [List.map_cons, List.map_nil, List.cons.injEq, and_true] at k2
          obtain ⟨x, rfl⟩ := kind_float k2
          cases k4
        · have hlen := selects_length k1
          have hone : sig.length = 1 := by
            have := k1.1
            simp [Fn.signatures] at this
            rcases this with rfl | rfl <;> rfl
          rw [hone] at hlen
          match cs', (show cs'.length = 1 by simpa using hlen.symm) with
          | [c], _ =>
            have hsd := selects_det k1 (abs_selects (kind_isConst c))
            subst hsd
            match cs'', k2 with
            | [c''], k2 =>
              simp only [List.map_cons, List.map_nil, List.cons.injEq, and_true] at k2
              cases c'' with
              | bool => split at k2 <;> cases k2
              | float => cases k4
              | int i =>
                refine ht.2 rfl ?_
                rw [typing, g3, Option.bind_some]
                show callKind c!"abs" [c.kind] = some .int
                rw [callKind, if_neg (by decide), if_pos rfl, ← k2]
                rfl
      · rw [h] at hub; cases hub
    · rw [hv, g1, Res.bind_ok] at hub
      obtain ⟨err, h⟩ := call_register henv name vs g2 v g3 g4
      rw [h] at hub; cases hub
private theorem totalAll (henv : EnvOk fo D scopes) (hid : ∀ x, Typed (env x) (visitExpression fo scopes (.ident none x)))
    (hid' : ∀ l x, visitExpression fo scopes (.ident l x) ≠ .ub) :
    ∀ es : List (Expr F), SimpleAll es → TotalAll env es → ∀ e ∈ es, visitExpression fo scopes e ≠ .ub
  | [], _, _ => by simp
  | e :: es, hs, ht =>
    List.forall_mem_cons.mpr ⟨total henv hid hid' e hs.1 ht.1, totalAll henv hid hid' es hs.2 ht.2⟩
end
end

/-- C21, for expressions without risky int arithmetic: evaluation has a defined outcome. `env` gives the kinds of
the names. Missing for the full property: expressions with int arithmetic (false, `C21_refuted`) and with
index operations (see `C21_exactly_partial`). -/
theorem C21_total_partial (ha : Reached fo a) (env : Str → Option Kind)
    (henv : ∀ x, match env x with
      | some k => ∃ w, visitExpression fo a.scopes (.ident none x) = .ok w ∧ kindOf w.node = some k
      | none => ∃ err, visitExpression fo a.scopes (.ident none x) = .err err)
    (e : Expr F) (he : Simple e) (ht : Total env e) : visitExpression fo a.scopes e ≠ .ub := by
  obtain ⟨D, hD⟩ := reached_env ha
  refine total hD (fun x => .inr (henv x)) ?_ e he ht
  intro l x
  unfold visitExpression
  rw [visit]
  rcases resolveVariable_spec hD x with ⟨_, _, h⟩ | ⟨_, h⟩ <;> rw [h] <;> simp [locate]

/-! ## Examples -/

-- `Rx(-1 ** 2 < 3.0 / 0.0 ? pi * 2 : 1 | 2)` is total
example : Total (F := Int) (fun x => if x = c!"pi" then some .float else none)
    (.tern none (.bin none .lt (.bin none .pow (.un none .neg (.intLit none 1)) (.intLit none 2))
      (.bin none .div (.floatLit none 3) (.floatLit none 0)))
      (.bin none .mul (.ident none c!"pi") (.intLit none 2)) (.bin none .bor (.intLit none 1) (.intLit none 2))) := by
  refine ⟨⟨⟨⟨trivial, fun _ => .inr ⟨_, _, rfl, by decide⟩⟩, trivial, by decide⟩, ⟨trivial, trivial, by decide +kernel⟩, by decide⟩,
    ⟨trivial, trivial, by decide +kernel⟩, trivial, trivial, by decide⟩
example : ∃ a : Analyzer Int, Analyzer.default Sample.fo [3, 0] = .ok a := Sample.default30

/-! ## The functions by themselves -/

private theorem constAll_consts {cs : List (Const F)} {ws : List (Value F)} (h : ws.map (·.node) = cs.map Const.node) :
    Values.checkConstAll ws = .ok () := by
  induction ws generalizing cs with
  | nil => rfl
  | cons w ws ih =>
    rcases cs with _ | ⟨c, cs⟩
    · cases h
    · simp only [List.map_cons, List.cons.injEq] at h
      obtain ⟨n, l⟩ := w
      obtain ⟨rfl, h⟩ := h
      rw [Values.checkConstAll, ih h]
      cases c <;> rfl

/-- The function reads a constant of kind `k`. -/
private def Reads {α : Type} (p : ValueNode F → Option α) (k : Kind) : Prop := ∀ c : Const F, p c.node = none ↔ c.kind ≠ k

private theorem reads_bool : Reads (F := F) ConstEval.asBool .bool := fun c => by cases c <;> simp [ConstEval.asBool, Const.node, Const.kind]
private theorem reads_int : Reads (F := F) ConstEval.asInt .int := fun c => by cases c <;> simp [ConstEval.asInt, Const.node, Const.kind]
private theorem reads_float : Reads (F := F) ConstEval.asFloat .float := fun c => by cases c <;> simp [ConstEval.asFloat, Const.node, Const.kind]

private theorem get_bad {α : Type} {p : ValueNode F → Option α} {k : Kind} (h : Reads p k) {c : Const F} (hc : c.kind ≠ k) (l : Option Loc) :
    ConstEval.get p ⟨c.node, l⟩ = .ub := by
  simp [ConstEval.get, (h c).2 hc]

private theorem get_good {α : Type} {p : ValueNode F → Option α} {k : Kind} (h : Reads p k) {c : Const F} (hc : c.kind = k) (l : Option Loc) :
    ∃ a, ConstEval.get p ⟨c.node, l⟩ = .ok a := by
  unfold ConstEval.get
  cases hp : p c.node with
  | none => exact absurd hc ((h c).1 hp)
  | some a => exact ⟨a, rfl⟩

/-- With constants for arguments, only the first ones count, and they must be of the right kinds. -/
private def Strict (p : Fn × List Kind × CoreFn F) : Prop :=
  ∀ (cs : List (Const F)) (ws : List (Value F)), ws.map (·.node) = cs.map Const.node →
    if (cs.take p.2.1.length).map Const.kind = p.2.1 then p.2.2 ws = p.2.2 (ws.take p.2.1.length) else p.2.2 ws = .ub

private theorem strict_un {α β : Type} {fn : Fn} {p : ValueNode F → Option α} {k : Kind} (h : Reads p k) (inj : β → ValueNode F)
    (f : α → Res Err β) : Strict (fn, [k], ConstEval.ufCp inj p f) := by
  intro cs ws hw
  have hc := constAll_consts hw
  rcases cs with _ | ⟨c, cs⟩
  · have : ws = [] := by simpa using hw
    subst this
    simp [ConstEval.ufCp, Values.checkConstAll, ConstEval.nth]
  · rcases ws with _ | ⟨⟨n, l⟩, ws⟩
    · cases hw
    · simp only [List.map_cons, List.cons.injEq] at hw
      obtain ⟨rfl, hw⟩ := hw
      have hc' : Values.checkConstAll [(⟨c.node, l⟩ : Value F)] = .ok () := constAll_consts (cs := [c]) rfl
      by_cases hk : c.kind = k
      · simp [ConstEval.ufCp, hc, hc', ConstEval.nth, hk]
      · simp [ConstEval.ufCp, hc, ConstEval.nth, hk, get_bad h hk]

private theorem strict_bin {α β : Type} {fn : Fn} {p : ValueNode F → Option α} {k : Kind} (h : Reads p k) (inj : β → ValueNode F)
    (f : α → α → Res Err β) : Strict (fn, [k, k], ConstEval.bfCp inj p f) := by
  intro cs ws hw
  have hc := constAll_consts hw
  rcases cs with _ | ⟨c, cs⟩
  · have : ws = [] := by simpa using hw
    subst this
    simp [ConstEval.bfCp, Values.checkConstAll, ConstEval.nth]
  · rcases ws with _ | ⟨⟨n, l⟩, ws⟩
    · cases hw
    · simp only [List.map_cons, List.cons.injEq] at hw
      obtain ⟨rfl, hw⟩ := hw
      by_cases hk : c.kind = k
      · obtain ⟨a, ha⟩ := get_good h hk l
        rcases cs with _ | ⟨d, cs⟩
        · have : ws = [] := by simpa using hw
          subst this
          simp [ConstEval.bfCp, hc, ConstEval.nth, ha]
        · rcases ws with _ | ⟨⟨m, l'⟩, ws⟩
          · cases hw
          · simp only [List.map_cons, List.cons.injEq] at hw
            obtain ⟨rfl, hw⟩ := hw
            have hc' : Values.checkConstAll [(⟨c.node, l⟩ : Value F), ⟨d.node, l'⟩] = .ok () := constAll_consts (cs := [c, d]) rfl
            by_cases hk' : d.kind = k
            · simp [ConstEval.bfCp, hc, hc', ConstEval.nth, hk, hk']
            · simp [ConstEval.bfCp, hc, ConstEval.nth, ha, hk', get_bad h hk']
      · simp [ConstEval.bfCp, hc, ConstEval.nth, hk, get_bad h hk]

private theorem strict_tern {α : Type} {fn : Fn} {p : ValueNode F → Option α} {k : Kind} (h : Reads p k) (inj : α → ValueNode F) :
    Strict (fn, [.bool, k, k], ConstEval.tfCp inj p) := by
  intro cs ws hw
  have hc := constAll_consts hw
  rcases cs with _ | ⟨b, cs⟩
  · have : ws = [] := by simpa using hw
    subst this
    simp [ConstEval.tfCp, Values.checkConstAll, ConstEval.nth]
  rcases ws with _ | ⟨⟨n, l0⟩, ws⟩
  · cases hw
  simp only [List.map_cons, List.cons.injEq] at hw
  obtain ⟨rfl, hw⟩ := hw
  by_cases hb : b.kind = .bool
  · obtain ⟨x, hx⟩ := get_good reads_bool hb l0
    rcases cs with _ | ⟨c, cs⟩
    · have : ws = [] := by simpa using hw
      subst this
      simp [ConstEval.tfCp, hc, ConstEval.nth, hx]
    · rcases ws with _ | ⟨⟨n, l⟩, ws⟩
      · cases hw
      · simp only [List.map_cons, List.cons.injEq] at hw
        obtain ⟨rfl, hw⟩ := hw
        by_cases hk : c.kind = k
        · obtain ⟨a, ha⟩ := get_good h hk l
          rcases cs with _ | ⟨d, cs⟩
          · have : ws = [] := by simpa using hw
            subst this
            simp [ConstEval.tfCp, hc, ConstEval.nth, hx, ha]
          · rcases ws with _ | ⟨⟨m, l'⟩, ws⟩
            · cases hw
            · simp only [List.map_cons, List.cons.injEq] at hw
              obtain ⟨rfl, hw⟩ := hw
              have hc' : Values.checkConstAll [(⟨b.node, l0⟩ : Value F), ⟨c.node, l⟩, ⟨d.node, l'⟩] = .ok () :=
                constAll_consts (cs := [b, c, d]) rfl
              by_cases hk' : d.kind = k
              · simp [ConstEval.tfCp, hc, hc', ConstEval.nth, hb, hk, hk']
              · simp [ConstEval.tfCp, hc, ConstEval.nth, hx, ha, hk', get_bad h hk']
        · simp [ConstEval.tfCp, hc, ConstEval.nth, hx, hk, get_bad h hk]
  · simp [ConstEval.tfCp, hc, ConstEval.nth, hb, get_bad reads_bool hb]

private theorem fnTable_strict (fo : FloatOps F) : ∀ p ∈ fnTable fo, Strict p := by
  unfold fnTable
  repeat refine List.forall_mem_cons.mpr ⟨by
    first
    | exact strict_un reads_float _ _ | exact strict_un reads_int _ _ | exact strict_un reads_bool _ _
    | exact strict_bin reads_float _ _ | exact strict_bin reads_int _ _ | exact strict_bin reads_bool _ _
    | exact strict_tern reads_float _ | exact strict_tern reads_int _ | exact strict_tern reads_bool _, ?_⟩
  simp

/-- C21, for the functions of the language called by themselves or registered under other names or for other types: with
constants as arguments, a function computes its meaning if the first of them have the kinds of its parameters (the others
are ignored), and otherwise the behaviour is undefined: with too few arguments, too. -/
theorem C21_functions_partial {name spec : Str} {f : CoreFn F} (h : (name, spec, f) ∈ ConstEval.registrations fo) :
    ∃ (fn : Fn) (ks : List Kind), fn.name = name ∧ Types.fromSpec spec = some (ks.map Ty.bare) ∧
      ∀ (cs : List (Const F)) (ws : List (Value F)), ws.map (·.node) = cs.map Const.node →
        (∀ cs' rest, cs = cs' ++ rest → cs'.map Const.kind = ks →
          (∀ r, fn.meaning fo cs' = some r → f ws = .ok (some ⟨r.node, none⟩)) ∧ (fn.meaning fo cs' = none → f ws = .ub)) ∧
        ((¬∃ cs' rest, cs = cs' ++ rest ∧ cs'.map Const.kind = ks) → f ws = .ub) := by
  have hm : (name, f, (Types.fromSpec spec).getD []) ∈ fnRegs fo := by
    rw [← registrations_eq]
    exact List.mem_map.2 ⟨_, h, rfl⟩
  obtain ⟨⟨fn, ks, g⟩, hp, he⟩ := List.mem_map.1 hm
  simp only [Prod.mk.injEq] at he
  obtain ⟨h1, rfl, h2⟩ := he
  have hspec : Types.fromSpec spec = some (ks.map Ty.bare) := by
    cases hs : Types.fromSpec spec with
    | some ts => rw [hs] at h2; rw [h2]; rfl
    | none =>
      exfalso
      have : ∀ e ∈ ConstEval.registrations fo, (Types.fromSpec e.2.1).isSome := by
        have hall : ∀ s ∈ (ConstEval.registrations fo).map (·.2.1), (Types.fromSpec s).isSome := by
          have : (ConstEval.registrations fo).map (·.2.1) = (ConstEval.registrations Sample.fo).map (·.2.1) := rfl
          rw [this]
          decide +kernel
        exact fun e he => hall _ (List.mem_map.2 ⟨e, he, rfl⟩)
      have := this _ h
      rw [hs] at this
      cases this
  refine ⟨fn, ks, h1, hspec, fun cs ws hw => ?_⟩
  have hst := fnTable_strict fo _ hp cs ws hw
  dsimp only at hst
  constructor
  · rintro cs' rest rfl hk
    have hlen : cs'.length = ks.length := by rw [← hk, List.length_map]
    have htake : (cs' ++ rest).take ks.length = cs' := by rw [← hlen, List.take_left']; rfl
    rw [htake, if_pos hk] at hst
    have hok := fnTable_ok fo _ hp cs' hk (ws.take ks.length) (by
      rw [List.map_take, hw, ← List.map_take, htake])
    dsimp only at hok
    rw [hst, hok]
    exact ⟨fun r hr => by rw [hr]; rfl, fun hr => by rw [hr]; rfl⟩
  · intro hn
    rw [if_neg fun hk => hn ⟨_, _, (List.take_append_drop ks.length cs).symm, hk⟩] at hst
    exact hst

end Qasm
