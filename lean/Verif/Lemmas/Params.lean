import Verif.Lemmas.Expr
import Verif.Spec.Program
import Verif.Props.Promote
/-!
# Helper lemmas: lists of expressions, annotations and parameters
-/

namespace Qasm

open Spec Sem

variable {F : Type}

/-! ## Lists of expressions -/

theorem visitList_cons (fo : FloatOps F) (scopes : List (Scope F)) (e : Expr F) (es : List (Expr F)) :
    visitList fo scopes (e :: es) =
      (visitExpression fo scopes e).bind fun v => (visitList fo scopes es).bind fun vs => .ok (v :: vs) := by
  rw [visitList]; rfl

theorem visitList_of_evalAll {fo : FloatOps F} {D : List VarLink} {scopes : List (Scope F)} (henv : EnvOk fo D scopes)
    {es : List (Expr F)} {vs : List (Value F)} (h : EvalAll fo D es vs) : visitList fo scopes es = .ok vs := by
  induction h with
  | nil => rfl
  | cons h1 _ ih => rw [visitList_cons, (visitExpression_ok_iff henv _ _).mpr h1, ih]; rfl

theorem visitList_all {fo : FloatOps F} {D : List VarLink} {scopes : List (Scope F)} (henv : EnvOk fo D scopes)
    (es : List (Expr F)) :
    (∃ vs, visitList fo scopes es = .ok vs ∧ EvalAll fo D es vs) ∨
    (visitList fo scopes es = .ub ∧ UndefList fo D es) ∨
    ∃ err, visitList fo scopes es = .err err ∧ (∀ vs, ¬ EvalAll fo D es vs) ∧ ¬ UndefList fo D es := by
  have key : (∃ vs, visitList fo scopes es = .ok vs ∧ EvalAll fo D es vs) ∨
      (visitList fo scopes es = .ub ∧ UndefList fo D es) ∨ ∃ err, visitList fo scopes es = .err err := by
    induction es with
    | nil => exact .inl ⟨[], rfl, .nil⟩
    | cons e es ih =>
      rcases visitExpression_cases henv e with ⟨n, h1, h2⟩ | ⟨h1, h2⟩ | ⟨err, h1, _⟩
      · rcases ih with ⟨vs, h3, h4⟩ | ⟨h3, h4⟩ | ⟨err, h3⟩
        · exact .inl ⟨_, by rw [visitList_cons, h1, h3]; rfl, .cons ⟨rfl, h2⟩ h4⟩
        · exact .inr (.inl ⟨by rw [visitList_cons, h1, h3]; rfl, .tail h2 h4⟩)
        · exact .inr (.inr ⟨_, by rw [visitList_cons, h1, h3]; rfl⟩)
      · exact .inr (.inl ⟨by rw [visitList_cons, h1]; rfl, .head h2⟩)
      · exact .inr (.inr ⟨_, by rw [visitList_cons, h1]; rfl⟩)
  rcases key with h | h | ⟨err, h⟩
  · exact .inl h
  · exact .inr (.inl h)
  · refine .inr (.inr ⟨err, h, ?_, ?_⟩)
    · intro vs hv; rw [visitList_of_evalAll henv hv] at h; cases h
    · intro hu; rw [visitList_of_undef henv hu] at h; cases h

theorem evalAll_good {fo : FloatOps F} {D : List VarLink} (hD : DeclsOk D) {vs : List (Value F)} {es : List (Expr F)}
    (h : EvalAll fo D es vs) : ∀ v ∈ vs, GoodNode v.node := by
  induction h with
  | nil => simp
  | cons h1 _ ih =>
    intro v hv
    rcases List.mem_cons.mp hv with rfl | hv
    · exact eval_good hD h1.2
    · exact ih v hv

theorem evalAll_det {fo : FloatOps F} {D : List VarLink} {scopes : List (Scope F)} (henv : EnvOk fo D scopes)
    {es : List (Expr F)} {vs ws : List (Value F)} (h : EvalAll fo D es vs) (h' : EvalAll fo D es ws) : vs = ws := by
  have := (visitList_of_evalAll henv h).symm.trans (visitList_of_evalAll henv h')
  simpa using this

/-! ## Annotations -/

theorem visitAnnotationOperands_of_eval {fo : FloatOps F} {D : List VarLink} {scopes : List (Scope F)}
    (henv : EnvOk fo D scopes) (loc : Option Loc) {es : List (Expr F)} {vs : List (Value F)}
    (h : Forall2 (fun e v => v.loc = none ∧ Eval fo D e v.node) es vs) :
    visitAnnotationOperands fo scopes loc es = .ok ([], vs) := by
  induction h with
  | nil => rfl
  | cons h1 _ ih => rw [visitAnnotationOperands, (visit_ok_iff henv _ _).mpr h1]; simp [ih]

theorem visitAnnotationOperands_cases {fo : FloatOps F} {D : List VarLink} {scopes : List (Scope F)}
    (henv : EnvOk fo D scopes) (loc : Option Loc) (es : List (Expr F)) :
    (∃ vs, visitAnnotationOperands fo scopes loc es = .ok ([], vs) ∧
      Forall2 (fun e v => v.loc = none ∧ Eval fo D e v.node) es vs) ∨
    visitAnnotationOperands fo scopes loc es = .ub ∨
    ∃ e errs vs, visitAnnotationOperands fo scopes loc es = .ok (e :: errs, vs) := by
  induction es with
  | nil => exact .inl ⟨[], rfl, .nil⟩
  | cons e es ih =>
    rw [visitAnnotationOperands]
    rcases visit_cases henv e with ⟨n, h1, h2⟩ | ⟨h1, h2⟩ | ⟨err, h1⟩ <;> rw [h1]
    · rcases ih with ⟨vs, h3, h4⟩ | h3 | ⟨x, errs, vs, h3⟩ <;> simp only [h3]
      · exact .inl ⟨_, rfl, .cons ⟨rfl, h2⟩ h4⟩
      · exact .inr (.inl rfl)
      · exact .inr (.inr ⟨_, _, _, rfl⟩)
    · exact .inr (.inl rfl)
    · rcases ih with ⟨vs, h3, h4⟩ | h3 | ⟨x, errs, vs, h3⟩ <;> simp only [h3]
      · exact .inr (.inr ⟨_, _, _, rfl⟩)
      · exact .inr (.inl rfl)
      · exact .inr (.inr ⟨_, _, _, rfl⟩)

theorem visitAnnotations_of_eval {fo : FloatOps F} {D : List VarLink} {scopes : List (Scope F)}
    (henv : EnvOk fo D scopes) {as : List (AnnotationData F)} {sas : List (SAnnotation F)}
    (h : EvalAnnotations fo D as sas) : visitAnnotations fo scopes as = .ok ([], sas) := by
  induction h with
  | nil => rfl
  | @cons a s as sas h1 _ ih =>
    obtain ⟨h2, h3, h4, h5⟩ := h1
    obtain ⟨i, o, vs, l⟩ := s
    simp only at h2 h3 h4 h5
    rw [visitAnnotations, visitAnnotationOperands_of_eval henv a.loc h5, Res.bind_ok, ih, Res.bind_ok, ← h2, ← h3, ← h4]
    rfl

theorem visitAnnotations_cases {fo : FloatOps F} {D : List VarLink} {scopes : List (Scope F)}
    (henv : EnvOk fo D scopes) (as : List (AnnotationData F)) :
    (∃ sas, visitAnnotations fo scopes as = .ok ([], sas) ∧ EvalAnnotations fo D as sas) ∨
    (visitAnnotations fo scopes as = .ub ∧ as ≠ []) ∨
    ∃ e errs sas, visitAnnotations fo scopes as = .ok (e :: errs, sas) ∧ as ≠ [] := by
  induction as with
  | nil => exact .inl ⟨[], rfl, .nil⟩
  | cons a as ih =>
    rw [visitAnnotations]
    rcases visitAnnotationOperands_cases henv a.loc a.operands with ⟨vs, h1, h2⟩ | h1 | ⟨x, errs, vs, h1⟩ <;>
      simp only [h1, Res.bind_ok, Res.bind_ub]
    · rcases ih with ⟨sas, h3, h4⟩ | ⟨h3, _⟩ | ⟨x, errs, sas, h3, _⟩ <;> simp only [h3, Res.bind_ok, Res.bind_ub]
      · exact .inl ⟨_, rfl, .cons ⟨rfl, rfl, rfl, h2⟩ h4⟩
      · exact .inr (.inl ⟨trivial, by simp⟩)
      · exact .inr (.inr ⟨_, _, _, rfl, by simp⟩)
    · exact .inr (.inl ⟨trivial, by simp⟩)
    · rcases ih with ⟨sas, h3, h4⟩ | ⟨h3, _⟩ | ⟨y, errs', sas, h3, _⟩ <;> simp only [h3, Res.bind_ok, Res.bind_ub]
      · exact .inr (.inr ⟨_, _, _, rfl, by simp⟩)
      · exact .inr (.inl ⟨trivial, by simp⟩)
      · exact .inr (.inr ⟨_, _, _, rfl, by simp⟩)

/-! ## Parameters -/

/-- Conversion of a list of values to the given kinds. -/
inductive Convs (fo : FloatOps F) : List (Value F) → List Kind → List (Value F) → Prop
  | nil : Convs fo [] [] []
  | cons {vs k ks ws l} {c c' : Const F} : Converts fo c k c' → Convs fo vs ks ws →
      Convs fo (⟨c.node, l⟩ :: vs) (k :: ks) (⟨c'.node, l⟩ :: ws)

theorem evalParams_iff {fo : FloatOps F} {D : List VarLink} 
    {es : List (Expr F)} {ks : List Kind} {ws : List (Value F)} :
    EvalParams fo D es ks ws ↔ ∃ vs, EvalAll fo D es vs ∧ Convs fo vs ks ws := by
  constructor
  · intro h
    induction h with
    | nil => exact ⟨[], .nil, .nil⟩
    | cons h1 h2 _ ih =>
      obtain ⟨vs, h3, h4⟩ := ih
      exact ⟨_, .cons ⟨rfl, h1⟩ h3, .cons h2 h4⟩
  · rintro ⟨vs, h1, h2⟩
    induction h2 generalizing es with
    | nil => cases h1; exact .nil
    | cons h3 _ ih =>
      cases h1 with
      | cons h4 h5 =>
        obtain ⟨h4, h6⟩ := h4
        simp only at h4
        subst h4
        exact .cons h6 h3 (ih h5)

theorem convs_length {fo : FloatOps F} {vs ws : List (Value F)} {ks : List Kind} (h : Convs fo vs ks ws) :
    vs.length = ks.length ∧ ws.length = ks.length := by
  induction h with
  | nil => exact ⟨rfl, rfl⟩
  | cons _ _ ih => simp [ih.1, ih.2]

theorem convs_inv {fo : FloatOps F} {v : Value F} {vs ws : List (Value F)} {k : Kind} {ks : List Kind}
    (h : Convs fo (v :: vs) (k :: ks) ws) :
    ∃ (c c' : Const F) (ws' : List (Value F)), v.node = c.node ∧ Converts fo c k c' ∧ Convs fo vs ks ws' ∧
      ws = ⟨c'.node, v.loc⟩ :: ws' := by
  cases h with
  | cons h1 h2 => exact ⟨_, _, _, rfl, h1, h2, rfl⟩

theorem convs_det {fo : FloatOps F} {vs ws ws' : List (Value F)} {ks : List Kind} (h : Convs fo vs ks ws)
    (h' : Convs fo vs ks ws') : ws = ws' := by
  induction h generalizing ws' with
  | nil => cases h'; rfl
  | @cons vs k ks ws l c c' h1 _ ih =>
    obtain ⟨d, d', ws'', h2, h3, h4, rfl⟩ := convs_inv h'
    have := node_inj h2
    subst this
    rw [converts_det h1 h3, ih h4]

theorem fromSpec_map {s : Str} {ts : List Ty} (h : Types.fromSpec s = some ts) :
    ts.length = s.length := by
  induction s generalizing ts with
  | nil => simp [Types.fromSpec] at h; subst h; rfl
  | cons c s ih =>
    simp only [Types.fromSpec] at h
    cases hc : Types.fromSpecChar c with
    | none => rw [hc] at h; simp at h
    | some t =>
      rw [hc] at h
      simp only [Option.map_eq_some_iff] at h
      obtain ⟨a, ha, rfl⟩ := h
      simp [ih ha]

theorem promoteParameters_spec (fo : FloatOps F) (name : Str) (spec : Str) (ks : List Kind) (vs : List (Value F))
    (hspec : Types.fromSpec spec = some (ks.map Ty.bare)) (hnum : ∀ k ∈ ks, ¬ RegisterKind k)
    (hlen : vs.length = ks.length) (hg : ∀ v ∈ vs, GoodNode v.node) :
    (∃ ws, promoteParameters fo name spec vs = .ok ws ∧ Convs fo vs ks ws) ∨
    (∃ err : Err, err.location = none ∧ promoteParameters fo name spec vs = .err err ∧ ¬∃ ws, Convs fo vs ks ws) := by
  induction spec generalizing ks vs with
  | nil =>
    simp only [Types.fromSpec, Option.some.injEq] at hspec
    have : ks = [] := by cases ks <;> simp_all
    subst this
    have : vs = [] := by cases vs <;> simp_all
    subst this
    exact .inl ⟨[], rfl, .nil⟩
  | cons c cs ih =>
    simp only [Types.fromSpec] at hspec
    cases hc : Types.fromSpecChar c with
    | none => rw [hc] at hspec; cases hspec
    | some t =>
      rw [hc] at hspec
      simp only [Option.map_eq_some_iff] at hspec
      obtain ⟨ts, h1, h2⟩ := hspec
      rcases ks with _ | ⟨k, ks⟩
      · simp at h2
      simp only [List.map_cons, List.cons.injEq] at h2
      obtain ⟨rfl, rfl⟩ := h2
      rcases vs with _ | ⟨v, vs⟩
      · simp at hlen
      simp only [List.length_cons, Nat.add_right_cancel_iff] at hlen
      have hgv := hg v (by simp)
      have hih := ih ks vs h1 (fun k hk => hnum k (by simp [hk])) hlen (fun w hw => hg w (by simp [hw]))
      obtain ⟨tv, ht1, ht2⟩ : ∃ tv, Values.typeOf v = .ok tv ∧ kindOf v.node = some tv.kind := by
        obtain ⟨kv, hkv⟩ := Option.ne_none_iff_exists'.mp (good_typed hgv)
        obtain ⟨tv, h1, h2⟩ := typeOf_ok hkv
        exact ⟨tv, h1, by rw [hkv, h2]⟩
      simp only [promoteParameters, hc, ht1, Res.bind_ok]
      rcases hgv with ⟨d, hd⟩ | ⟨kv, hkv, hr⟩
      · obtain ⟨n, l⟩ := v
        simp only at hd
        subst hd
        rw [kindOf_node] at ht2
        have ht2 := Option.some.inj ht2
        by_cases hw : Widens d.kind k
        · obtain ⟨d', hd'⟩ := widens_converts fo hw
          have hcp : Values.checkPromote tv (.bare k) = true := (C15_check_promote _ _).mpr (ht2 ▸ hw)
          have hp : Values.promote fo ⟨d.node, l⟩ (.bare k) = .ok (some ⟨d'.node, l⟩) :=
            (promote_some_iff fo _ _ (by rw [kindOf_node]; simp) _).mpr (.const l hd')
          rw [if_pos hcp, hp, Res.bind_ok]
          rcases hih with ⟨ws, h3, h4⟩ | ⟨err, h3, h4, h5⟩
          · exact .inl ⟨_, by rw [h3]; rfl, .cons hd' h4⟩
          · refine .inr ⟨err, h3, by rw [h4]; rfl, ?_⟩
            rintro ⟨ws, h6⟩
            obtain ⟨_, _, _, _, _, h7, _⟩ := convs_inv h6
            exact h5 ⟨_, h7⟩
        · have hcp : ¬ Values.checkPromote tv (.bare k) = true := fun h => hw (ht2 ▸ (C15_check_promote _ _).mp h)
          rw [if_neg hcp]
          refine .inr ⟨_, rfl, rfl, ?_⟩
          rintro ⟨ws, h6⟩
          obtain ⟨e, e', _, h7, h8, _⟩ := convs_inv h6
          have := node_inj h7
          subst this
          exact hw (converts_widens h8)
      · rw [hkv] at ht2
        have ht2 := Option.some.inj ht2
        have hcp : ¬ Values.checkPromote tv (.bare k) = true := by
          intro h
          have := (C15_registers tv (.bare k) kv hr (.inl ht2.symm)).mp h
          rw [← ht2] at this
          simp only [Ty.bare] at this
          exact hnum k (by simp) (this ▸ hr)
        rw [if_neg hcp]
        refine .inr ⟨_, rfl, rfl, ?_⟩
        rintro ⟨ws, h6⟩
        cases h6 with
        | @cons _ _ _ _ _ e e' h7 _ => exact not_register_const e hkv hr

/-- A parameter rule: the instruction's parameter specification stands for the kinds `ks`. -/
def SpecOf (sp : Option Str) (ks : List Kind) : Prop :=
  (sp = none ∧ ks = []) ∨ ∃ s, sp = some s ∧ Types.fromSpec s = some (ks.map Ty.bare)

theorem resolveParameters_gate (fo : FloatOps F) (name : Str) (sp : Option Str) (ks : List Kind) (vs : List (Value F))
    (hng : InstructionSet.isNonGate name = false) (hsp : InstructionSet.getInstructionParamTypes name = .ok sp)
    (hks : SpecOf sp ks) (hnum : ∀ k ∈ ks, ¬ RegisterKind k) (hg : ∀ v ∈ vs, GoodNode v.node) :
    (∃ ws, resolveParameters fo name vs = .ok ws ∧ Convs fo vs ks ws) ∨
    (∃ err : Err, err.location = none ∧ resolveParameters fo name vs = .err err ∧ ¬∃ ws, Convs fo vs ks ws) := by
  simp only [resolveParameters, hng, hsp, Res.bind_ok, Bool.false_eq_true, if_false]
  rcases hks with ⟨rfl, rfl⟩ | ⟨s, rfl, hs⟩
  · simp only
    cases vs with
    | nil => exact .inl ⟨[], rfl, .nil⟩
    | cons v vs =>
      refine .inr ⟨_, rfl, rfl, ?_⟩
      rintro ⟨ws, h⟩
      have := (convs_length h).1
      simp at this
  · have hl := fromSpec_map hs
    rw [List.length_map] at hl
    simp only
    by_cases h : vs.length ≠ s.length
    · rw [if_pos h]
      refine .inr ⟨_, rfl, rfl, ?_⟩
      rintro ⟨ws, h'⟩
      exact h (by rw [(convs_length h').1, hl])
    · rw [if_neg h]
      exact promoteParameters_spec fo name s ks vs hs hnum (by rw [hl]; exact Classical.not_not.mp h) hg

end Qasm
