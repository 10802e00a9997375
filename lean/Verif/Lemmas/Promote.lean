import Verif.Spec.Promote
/-!
# Helper lemmas on promotion and overload resolution
-/

namespace Qasm

open Spec

variable {F : Type}

theorem typeOf_ok {v : Value F} {k : Kind} (h : kindOf v.node = some k) :
    ∃ t, Values.typeOf v = .ok t ∧ t.kind = k := by
  obtain ⟨n, l⟩ := v
  cases n with
  | constBool b => simp_all [kindOf, Values.typeOf, Ty.bare]
  | constInt b => simp_all [kindOf, Values.typeOf, Ty.bare]
  | constFloat b => simp_all [kindOf, Values.typeOf, Ty.bare]
  | variableRef x => simp_all [kindOf, Values.typeOf]
  | indexRef x ixs =>
    rcases ixs with _ | ⟨i, _ | ⟨j, rest⟩⟩
    · simp_all [kindOf, Values.typeOf, Values.sizeOf]
    · cases hk : x.typ.kind <;> simp_all [kindOf, Values.typeOf, Values.sizeOf, Values.elementTypeOf, elementKind,
        Types.typeCheck, Ty.bare]
    · have : ¬ ((rest.length : Int) + 1 + 1 = 1) := by omega
      simp_all [kindOf, Values.typeOf, Values.sizeOf]

theorem kindOf_of_typeOf {v : Value F} {t : Ty} (h : Values.typeOf v = .ok t) : kindOf v.node = some t.kind := by
  cases hk : kindOf v.node with
  | some k =>
    obtain ⟨t', h1, h2⟩ := typeOf_ok hk
    rw [h] at h1
    cases h1
    rw [h2]
  | none =>
    obtain ⟨n, l⟩ := v
    cases n with
    | indexRef x ixs =>
      rcases ixs with _ | ⟨i, _ | ⟨j, rest⟩⟩
      · simp [kindOf] at hk
      · cases hx : x.typ.kind <;> simp_all [kindOf, Values.typeOf, Values.sizeOf, Values.elementTypeOf, elementKind,
          Types.typeCheck, Ty.bare]
      · simp [kindOf] at hk
    | _ => simp [kindOf] at hk

theorem kindName_eq : Types.kindName = kindLabel := by funext k; cases k <;> rfl

theorem typesOf_ok {vs : List (Value F)} (h : ∀ v ∈ vs, kindOf v.node ≠ none) :
    ∃ ts, Values.typesOf vs = .ok ts ∧ ts.map (fun t => some t.kind) = vs.map (fun v => kindOf v.node) := by
  induction vs with
  | nil => exact ⟨[], rfl, rfl⟩
  | cons v vs ih =>
    obtain ⟨ts, h1, h2⟩ := ih (fun w hw => h w (by simp [hw]))
    obtain ⟨k, hk⟩ := Option.ne_none_iff_exists'.mp (h v (by simp))
    obtain ⟨t, h3, h4⟩ := typeOf_ok hk
    refine ⟨t :: ts, ?_, ?_⟩
    · simp [Values.typesOf, h1, h3]
    · simp [h2, h4, hk]

/-- `Converts` as a function. -/
def conv (fo : FloatOps F) : Const F → Kind → Option (Const F)
  | .bool b, .bool => some (.bool b)
  | .bool b, .int => some (.int (if b then 1 else 0))
  | .bool b, .float => some (.float (fo.ofBool b))
  | .int i, .int => some (.int i)
  | .int i, .float => some (.float (fo.ofInt i))
  | .float f, .float => some (.float f)
  | _, _ => none

theorem conv_iff {fo : FloatOps F} {c c' : Const F} {k : Kind} : Converts fo c k c' ↔ conv fo c k = some c' := by
  constructor
  · intro h
    cases h with
    | same c => cases c <;> rfl
    | _ => rfl
  · intro h
    cases c with
    | bool b =>
      cases k <;> simp [conv] at h <;> subst h
      · exact .same (.bool b)
      · cases b
        · exact .falseInt
        · exact .trueInt
      · exact .boolFloat b
    | int i =>
      cases k <;> simp [conv] at h <;> subst h
      · exact .same (.int i)
      · exact .intFloat i
    | float f =>
      cases k <;> simp [conv] at h <;> subst h
      exact .same (.float f)

theorem converts_det {fo : FloatOps F} {c c₁ c₂ : Const F} {k : Kind} (h₁ : Converts fo c k c₁)
    (h₂ : Converts fo c k c₂) : c₁ = c₂ := by
  rw [conv_iff] at h₁ h₂
  rw [h₁] at h₂
  exact Option.some.inj h₂

theorem converts_kind {fo : FloatOps F} {c c' : Const F} {k : Kind} (h : Converts fo c k c') : c'.kind = k := by
  cases h <;> rfl

theorem converts_widens {fo : FloatOps F} {c c' : Const F} {k : Kind} (h : Converts fo c k c') :
    Widens c.kind k := by
  cases h
  · exact .same _
  · exact .boolInt
  · exact .boolInt
  · exact .boolFloat
  · exact .intFloat

theorem widens_converts (fo : FloatOps F) {c : Const F} {k : Kind} (h : Widens c.kind k) :
    ∃ c', Converts fo c k c' := by
  cases c <;> simp only [Const.kind] at h <;> cases h
  · exact ⟨_, .same _⟩
  · exact ⟨_, conv_iff.mpr rfl⟩
  · exact ⟨_, conv_iff.mpr rfl⟩
  · exact ⟨_, .same _⟩
  · exact ⟨_, conv_iff.mpr rfl⟩
  · exact ⟨_, .same _⟩

theorem node_inj {c d : Const F} (h : c.node = d.node) : c = d := by
  cases c <;> cases d <;> simp_all [Const.node]

theorem kindOf_node (c : Const F) : kindOf c.node = some c.kind := by cases c <;> rfl

theorem promotesTo_det {fo : FloatOps F} {v w w' : Value F} {k : Kind} (h : PromotesTo fo v k w)
    (h' : PromotesTo fo v k w') : w = w' := by
  have key : ∀ {c c' : Const F} (l : Option Loc) {w : Value F}, Converts fo c k c' →
      PromotesTo fo ⟨c.node, l⟩ k w → w = ⟨c'.node, l⟩ := by
    intro c c' l w hc hw
    generalize hv : (⟨c.node, l⟩ : Value F) = v at hw
    cases hw with
    | same h1 =>
      subst hv
      rw [kindOf_node] at h1
      cases Option.some.inj h1
      rw [converts_det hc (.same c)]
    | @const d d' _ l' hd =>
      simp at hv
      obtain ⟨hv, rfl⟩ := hv
      cases node_inj hv
      rw [converts_det hc hd]
    | boolVar => cases c <;> simp [Const.node] at hv
  cases h with
  | same h1 =>
    cases h' with
    | same => rfl
    | @const c c' _ l hc => exact key l hc (.same h1)
    | boolVar => rfl
  | @const c c' _ l hc => exact (key l hc h').symm
  | boolVar l hx =>
    generalize hv : (⟨.variableRef _, l⟩ : Value F) = v at h'
    generalize hk : Kind.int = k at h'
    cases h' with
    | same => rfl
    | @const d d' _ l' hd => cases d <;> simp [Const.node] at hv
    | boolVar => rfl

theorem promote_spec (fo : FloatOps F) (v : Value F) (t : Ty) (h : kindOf v.node ≠ none) :
    (∃ w, Values.promote fo v t = .ok (some w) ∧ PromotesTo fo v t.kind w) ∨
    (Values.promote fo v t = .ok none ∧ ∀ w, ¬ PromotesTo fo v t.kind w) := by
  obtain ⟨k, hk⟩ := Option.ne_none_iff_exists'.mp h
  obtain ⟨tv, h1, h2⟩ := typeOf_ok hk
  by_cases hc : tv.kind = t.kind
  · left
    refine ⟨v, ?_, .same ?_⟩
    · simp [Values.promote, h1, Types.typeCheck, hc]
    · rw [hk, ← h2, hc]
  · have hp : Values.promote fo v t = .ok ((match t.kind with
        | .int => match v.node with
          | .constBool b => some (⟨.constInt (if b then 1 else 0), none⟩ : Value F)
          | .variableRef _ => if Types.typeCheck tv (.bare .bool) then some v else none
          | _ => none
        | .float => match v.node with
          | .constBool b => some ⟨.constFloat (fo.ofBool b), none⟩
          | .constInt i => some ⟨.constFloat (fo.ofInt i), none⟩
          | _ => none
        | _ => none : Option (Value F)).map fun r => (⟨r.node, v.loc⟩ : Value F)) := by
      simp only [Values.promote, h1, Types.typeCheck, Res.bind_ok]
      have hb : (tv.kind == t.kind) = false := by simpa using hc
      simp only [hb]
      cases t.kind <;> rfl
    obtain ⟨n, l⟩ := v
    -- a failing promotion
    have fail : (∀ c : Const F, c.node = n → ¬ Widens c.kind t.kind) →
        (∀ x, n = .variableRef x → x.typ.kind = .bool → t.kind ≠ .int) →
        ∀ w, ¬ PromotesTo fo ⟨n, l⟩ t.kind w := by
      intro hf1 hf2 w hw
      generalize hv : (⟨n, l⟩ : Value F) = v at hw
      generalize hkk : t.kind = kk at hw
      cases hw with
      | same h3 => subst hv; simp_all
      | @const c c' _ l' hcc =>
        refine hf1 c (by simp_all) ?_
        rw [hkk]
        cases hcc
        · exact .same _
        · exact .boolInt
        · exact .boolInt
        · exact .boolFloat
        · exact .intFloat
      | boolVar l' hx => simp at hv; exact hf2 _ hv.1 hx hkk
    cases n with
    | constBool b =>
      have e2 : tv.kind = .bool := by simp [kindOf] at hk; rw [h2, ← hk]
      rw [e2] at hc
      cases hkt : t.kind
      case int =>
        left; refine ⟨_, by rw [hp, hkt]; rfl, ?_⟩
        cases b
        · exact .const (c := .bool false) (c' := .int 0) l .falseInt
        · exact .const (c := .bool true) (c' := .int 1) l .trueInt
      case float =>
        left; refine ⟨_, by rw [hp, hkt]; rfl, ?_⟩
        exact .const (c := .bool b) (c' := .float (fo.ofBool b)) l (.boolFloat b)
      all_goals
        right
        refine ⟨by rw [hp, hkt]; rfl, ?_⟩
        rw [← hkt]
        refine fail ?_ (by simp)
        intro c hcn hw
        cases c <;> simp [Const.node] at hcn
        simp only [Const.kind] at hw
        rw [hkt] at hw
        first | (exact absurd hkt.symm hc) | cases hw
    | constInt i =>
      have e2 : tv.kind = .int := by simp [kindOf] at hk; rw [h2, ← hk]
      rw [e2] at hc
      cases hkt : t.kind
      case float =>
        left; refine ⟨_, by rw [hp, hkt]; rfl, ?_⟩
        exact .const (c := .int i) (c' := .float (fo.ofInt i)) l (.intFloat i)
      all_goals
        right
        refine ⟨by rw [hp, hkt]; rfl, ?_⟩
        rw [← hkt]
        refine fail ?_ (by simp)
        intro c hcn hw
        cases c <;> simp [Const.node] at hcn
        simp only [Const.kind] at hw
        rw [hkt] at hw
        first | (exact absurd hkt.symm hc) | cases hw
    | constFloat f =>
      have e2 : tv.kind = .float := by simp [kindOf] at hk; rw [h2, ← hk]
      rw [e2] at hc
      right
      refine ⟨by rw [hp]; cases t.kind <;> rfl, fail ?_ (by simp)⟩
      intro c hcn hw
      cases c <;> simp [Const.node] at hcn
      simp only [Const.kind] at hw
      generalize t.kind = kk at hw hc
      cases hw; exact hc rfl
    | variableRef x =>
      have e2 : tv.kind = x.typ.kind := by simp [kindOf] at hk; rw [h2, ← hk]
      by_cases hb : x.typ.kind = .bool ∧ t.kind = .int
      · left
        refine ⟨⟨.variableRef x, l⟩, ?_, ?_⟩
        · rw [hp, hb.2]; simp [Types.typeCheck, Ty.bare, e2, hb.1]
        · rw [hb.2]; exact .boolVar l hb.1
      · right
        refine ⟨?_, fail ?_ ?_⟩
        · rw [hp]
          cases hkt : t.kind <;> simp [Types.typeCheck, Ty.bare, e2]
          intro hbb; exact hb ⟨hbb.symm, hkt⟩
        · intro c hcn; cases c <;> simp [Const.node] at hcn
        · intro y hy hyb hti; simp at hy; subst hy; exact hb ⟨hyb, hti⟩
    | indexRef x ixs =>
      right
      refine ⟨by rw [hp]; cases t.kind <;> rfl, fail ?_ (by simp)⟩
      intro c hcn; cases c <;> simp [Const.node] at hcn

theorem promote_some_iff (fo : FloatOps F) (v : Value F) (t : Ty) (h : kindOf v.node ≠ none) (w : Value F) :
    Values.promote fo v t = .ok (some w) ↔ PromotesTo fo v t.kind w := by
  rcases promote_spec fo v t h with ⟨w', h1, h2⟩ | ⟨h1, h2⟩
  · rw [h1]
    constructor
    · intro hw; simp at hw; exact hw ▸ h2
    · intro hw; rw [promotesTo_det hw h2]
  · rw [h1]; simp; exact h2 w

theorem promote_none_iff (fo : FloatOps F) (v : Value F) (t : Ty) (h : kindOf v.node ≠ none) :
    Values.promote fo v t = .ok none ↔ ∀ w, ¬ PromotesTo fo v t.kind w := by
  rcases promote_spec fo v t h with ⟨w', h1, h2⟩ | ⟨h1, h2⟩
  · rw [h1]; simp; exact ⟨_, h2⟩
  · rw [h1]; simp; exact h2

theorem fits_length {fo : FloatOps F} {vs ws : List (Value F)} {ts : List Ty} (h : Fits fo vs ts ws) :
    ts.length = vs.length ∧ ws.length = vs.length := by
  induction h <;> simp_all

theorem promoteAll_spec (fo : FloatOps F) (vs : List (Value F)) (ts : List Ty)
    (h : ∀ v ∈ vs, kindOf v.node ≠ none) (hl : ts.length = vs.length) :
    (∃ ws, OverloadTable.promoteAll fo vs ts = .ok (some ws) ∧ Fits fo vs ts ws) ∨
    (OverloadTable.promoteAll fo vs ts = .ok none ∧ ¬∃ ws, Fits fo vs ts ws) := by
  induction vs generalizing ts with
  | nil => cases ts <;> simp at hl; left; exact ⟨[], rfl, .nil⟩
  | cons v vs ih =>
    cases ts with
    | nil => simp at hl
    | cons t ts =>
      rcases promote_spec fo v t (h v (by simp)) with ⟨w, h1, h2⟩ | ⟨h1, h2⟩
      · rcases ih ts (fun x hx => h x (by simp [hx])) (by simpa using hl) with ⟨ws, h3, h4⟩ | ⟨h3, h4⟩
        · left; exact ⟨w :: ws, by simp [OverloadTable.promoteAll, h1, h3], .cons h2 h4⟩
        · right
          refine ⟨by simp [OverloadTable.promoteAll, h1, h3], ?_⟩
          rintro ⟨ws, hw⟩; cases hw with | cons _ hw => exact h4 ⟨_, hw⟩
      · right
        refine ⟨by simp [OverloadTable.promoteAll, h1], ?_⟩
        rintro ⟨ws, hw⟩; cases hw with | cons hw _ => exact h2 _ hw

theorem fits_det {fo : FloatOps F} {vs ws ws' : List (Value F)} {ts : List Ty} (h : Fits fo vs ts ws)
    (h' : Fits fo vs ts ws') : ws = ws' := by
  induction h generalizing ws' with
  | nil => cases h'; rfl
  | cons h1 _ ih => cases h' with | cons h2 h3 => rw [promotesTo_det h1 h2, ih h3]

theorem resolveFirst_spec {T : Type} (fo : FloatOps F) (args : List (Value F)) (ovs : List (Overload T))
    (h : ∀ v ∈ args, kindOf v.node ≠ none) :
    (∃ pre ov post ws, ovs = pre ++ ov :: post ∧ OverloadTable.resolveFirst fo args ovs = .ok (some (ov.tag, ws)) ∧
      Fits fo args ov.params ws ∧ ∀ o ∈ pre, ¬∃ ws, Fits fo args o.params ws) ∨
    (OverloadTable.resolveFirst fo args ovs = .ok none ∧ ∀ o ∈ ovs, ¬∃ ws, Fits fo args o.params ws) := by
  induction ovs with
  | nil => right; exact ⟨rfl, by simp⟩
  | cons ov rest ih =>
    by_cases hl : ov.params.length = args.length
    · rcases promoteAll_spec fo args ov.params h hl with ⟨ws, h1, h2⟩ | ⟨h1, h2⟩
      · left
        exact ⟨[], ov, rest, ws, rfl, by simp [OverloadTable.resolveFirst, hl, h1], h2, by simp⟩
      · rcases ih with ⟨pre, o, post, ws, h3, h4, h5, h6⟩ | ⟨h3, h4⟩
        · left
          refine ⟨ov :: pre, o, post, ws, by simp [h3], by simp [OverloadTable.resolveFirst, hl, h1, h4], h5, ?_⟩
          intro x hx; rcases List.mem_cons.mp hx with rfl | hx
          · exact h2
          · exact h6 x hx
        · right
          refine ⟨by simp [OverloadTable.resolveFirst, hl, h1, h3], ?_⟩
          intro x hx; rcases List.mem_cons.mp hx with rfl | hx
          · exact h2
          · exact h4 x hx
    · have hno : ¬∃ ws, Fits fo args ov.params ws := by
        rintro ⟨ws, hw⟩; exact hl (fits_length hw).1
      rcases ih with ⟨pre, o, post, ws, h3, h4, h5, h6⟩ | ⟨h3, h4⟩
      · left
        refine ⟨ov :: pre, o, post, ws, by simp [h3], by simp [OverloadTable.resolveFirst, hl, h4], h5, ?_⟩
        intro x hx; rcases List.mem_cons.mp hx with rfl | hx
        · exact hno
        · exact h6 x hx
      · right
        refine ⟨by simp [OverloadTable.resolveFirst, hl, h3], ?_⟩
        intro x hx; rcases List.mem_cons.mp hx with rfl | hx
        · exact hno
        · exact h4 x hx

/-- The table after a history of registrations. -/
def tableOf {T : Type} (regs : List (Registration T)) : OverloadTable T :=
  regs.foldl (fun t r => t.add r.1 r.2.1 r.2.2) []

theorem find_add {T : Type} (tbl : OverloadTable T) (n m : Str) (tag : T) (ps : List Ty) :
    (tbl.add n tag ps).find m =
      if n = m then some ((tbl.find n).getD [] ++ [⟨tag, ps⟩]) else tbl.find m := by
  induction tbl with
  | nil => simp [OverloadTable.add, OverloadTable.find]
  | cons e rest ih =>
    obtain ⟨k, ovs⟩ := e
    simp only [OverloadTable.add]
    by_cases hk : k = n
    · subst hk
      by_cases hm : k = m <;> simp [OverloadTable.find, hm]
    · simp only [if_neg hk, OverloadTable.find]
      by_cases hm : k = m
      · subst hm
        simp [Ne.symm hk]
      · simp [hm, ih]

theorem find_tableOf {T : Type} (regs : List (Registration T)) (name : Str) :
    (tableOf regs).find name =
      let mine := (regs.filter fun r => r.1 = name).map fun r => (⟨r.2.1, r.2.2⟩ : Overload T)
      if mine = [] then none else some mine := by
  unfold tableOf
  suffices h : ∀ (regs : List (Registration T)) (tbl : OverloadTable T),
      (regs.foldl (fun t r => OverloadTable.add t r.1 r.2.1 r.2.2) tbl).find name =
      (let mine := (regs.filter fun r => r.1 = name).map fun r => (⟨r.2.1, r.2.2⟩ : Overload T)
      if mine = [] then tbl.find name else some ((tbl.find name).getD [] ++ mine)) by
    rw [h regs []]; simp [OverloadTable.find]
  intro regs
  induction regs with
  | nil => intro tbl; simp
  | cons r rs ih =>
    intro tbl
    rw [List.foldl_cons, ih, find_add]
    by_cases hr : r.1 = name
    · simp only [hr, List.filter_cons_of_pos, decide_true, List.map_cons]
      by_cases he : (rs.filter fun r => r.1 = name).map (fun r => (⟨r.2.1, r.2.2⟩ : Overload T)) = []
      · rw [if_pos he]; simp [he]
      · rw [if_neg he]; simp
    · rw [List.filter_cons_of_neg (by simp [hr])]
      simp [hr]

theorem resolve_spec {T : Type} (fo : FloatOps F) (regs : List (Registration T)) (name : Str)
    (args : List (Value F)) (h : ∀ v ∈ args, kindOf v.node ≠ none) :
    (∃ tag args', OverloadTable.resolve fo (tableOf regs) name args = .ok (tag, args') ∧
      LastFitting fo regs name args tag args') ∨
    ((∀ r ∈ regs, r.1 = name → ¬∃ ws, Fits fo args r.2.2 ws) ∧
      ((∀ r ∈ regs, r.1 ≠ name) ∧
        OverloadTable.resolve fo (tableOf regs) name args = .err ⟨c!"failed to resolve '" ++ name ++ c!"'", none⟩ ∨
       (∃ r ∈ regs, r.1 = name) ∧ ∃ ts, Values.typesOf args = .ok ts ∧
        OverloadTable.resolve fo (tableOf regs) name args =
          .err ⟨c!"failed to resolve overload for '" ++ name ++ c!"' with argument pack (" ++ Types.printList ts ++ c!")",
            none⟩)) := by
  simp only [OverloadTable.resolve, find_tableOf]
  by_cases hm : (regs.filter fun r => r.1 = name).map (fun r => (⟨r.2.1, r.2.2⟩ : Overload T)) = []
  · right
    have hno : ∀ r ∈ regs, r.1 ≠ name := by simpa using hm
    refine ⟨fun r hr he => absurd he (hno r hr), .inl ⟨hno, ?_⟩⟩
    simp only [hm]
    simp [Err.mk0, Err.mkNode, Err.context, Err.normMsg]
  · have hex : ∃ r ∈ regs, r.1 = name := by
      refine Classical.byContradiction fun hc => hm ?_
      simp only [List.map_eq_nil_iff, List.filter_eq_nil_iff, decide_eq_true_eq]
      exact fun r hr he => hc ⟨r, hr, he⟩
    simp only [if_neg hm, OverloadTable.resolveOverload]
    rcases resolveFirst_spec fo args
      ((regs.filter fun r => r.1 = name).map fun r => (⟨r.2.1, r.2.2⟩ : Overload T)).reverse h with
      ⟨pre, ov, post, ws, h1, h2, h3, h4⟩ | ⟨h1, h2⟩
    · left
      refine ⟨ov.tag, ws, by rw [h2]; rfl, ?_⟩
      have h5 : ((regs.filter fun r => r.1 = name).map fun r => (⟨r.2.1, r.2.2⟩ : Overload T))
          = post.reverse ++ ov :: pre.reverse := by
        have := congrArg List.reverse h1
        simpa using this
      obtain ⟨l1, l2, e1, e2, e3⟩ := List.map_eq_append_iff.mp h5
      obtain ⟨r, l3, e4, e5, e6⟩ := List.map_eq_cons_iff.mp e3
      subst e4
      obtain ⟨a1, a2, f1, f2, f3⟩ := List.filter_eq_append_iff.mp e1
      obtain ⟨b1, b2, g1, g2, g3, g4⟩ := List.filter_eq_cons_iff.mp f3
      have hn : r.1 = name := by simpa using g3
      refine ⟨a1 ++ b1, ov.params, b2, ?_, h3, ?_⟩
      · rw [f1, g1, ← e5]
        obtain ⟨r1, r2, r3⟩ := r
        simp at hn
        simp [hn]
      · intro x hx hxn
        refine h4 ⟨x.2.1, x.2.2⟩ ?_
        have : x ∈ l3 := by rw [← g4]; simp [hx, hxn]
        have : (⟨x.2.1, x.2.2⟩ : Overload T) ∈ pre.reverse := by
          rw [← e6]; exact List.mem_map_of_mem this
        simpa using this
    · right
      refine ⟨?_, .inr ⟨hex, ?_⟩⟩
      · intro r hr he
        refine h2 ⟨r.2.1, r.2.2⟩ ?_
        rw [List.mem_reverse]
        exact List.mem_map.mpr ⟨r, by simp [hr, he], rfl⟩
      · obtain ⟨ts, h3, _⟩ := typesOf_ok h
        refine ⟨ts, h3, ?_⟩
        rw [h1]
        simp [h3, Err.mk0, Err.mkNode, Err.context, Err.normMsg]

theorem lastFitting_det {T : Type} {fo : FloatOps F} {regs : List (Registration T)} {name : Str}
    {args : List (Value F)} {t1 t2 : T} {w1 w2 : List (Value F)} (h1 : LastFitting fo regs name args t1 w1)
    (h2 : LastFitting fo regs name args t2 w2) : t1 = t2 ∧ w1 = w2 := by
  obtain ⟨o1, p1, n1, e1, f1, g1⟩ := h1
  obtain ⟨o2, p2, n2, e2, f2, g2⟩ := h2
  rw [e1] at e2
  rcases List.append_eq_append_iff.mp e2 with ⟨l, hl1, hl2⟩ | ⟨l, hl1, hl2⟩
  · cases l with
    | nil =>
      simp at hl2
      obtain ⟨⟨ht, hp⟩, _⟩ := hl2
      subst hp
      exact ⟨ht, fits_det f1 f2⟩
    | cons x xs =>
      simp at hl2
      refine absurd ⟨_, f2⟩ (g1 (name, t2, p2) ?_ rfl)
      rw [hl2.2]; simp
  · cases l with
    | nil =>
      simp at hl2
      obtain ⟨⟨ht, hp⟩, _⟩ := hl2
      subst hp
      exact ⟨ht.symm, fits_det f1 f2⟩
    | cons x xs =>
      simp at hl2
      refine absurd ⟨_, f1⟩ (g2 (name, t1, p1) ?_ rfl)
      rw [hl2.2]; simp

end Qasm
