import Verif.Spec.Operands
import Verif.Props.Each
import Verif.Props.Reference
import Verif.Props.Instruction
import Verif.Props.Located
/-!
# Which operands an instruction has (C97, C98)
-/

namespace Qasm

open Spec Sem

attribute [local irreducible] defaultInstrs defaultFns defaultVars

variable {F : Type} {fo : FloatOps F}

namespace Operands

theorem kinds_of_exists {vs : List (Value F)} (h : ∀ v ∈ vs, ∃ k, IsQubits v.node k) : ∃ ks, Forall2 (fun v k => IsQubits v.node k) vs ks := by
  induction vs with
  | nil => exact ⟨[], .nil⟩
  | cons v vs ih =>
    obtain ⟨k, h1⟩ := h v List.mem_cons_self
    obtain ⟨ks, h2⟩ := ih fun w hw => h w (List.mem_cons_of_mem _ hw)
    exact ⟨k :: ks, .cons h1 h2⟩

theorem not_both {n : ValueNode F} {k k' : Kind} (h : IsQubits n k) (h' : IsBits n k') : False := by
  obtain ⟨h1, h2⟩ := h
  obtain ⟨h3, h4⟩ := h'
  rw [h1] at h3
  cases h3
  rcases h2 with rfl | rfl <;> rcases h4 with h | h <;> cases h

/-- What the operands have in common. -/
def SameSort (v w : Value F) : Prop :=
  elements v.node = elements w.node ∧ ((∃ k k', IsQubits v.node k ∧ IsQubits w.node k') ∨ ∃ k k', IsBits v.node k ∧ IsBits w.node k')

theorem SameSort.qubits {v w : Value F} (h : SameSort v w) {k : Kind} (hv : IsQubits v.node k) : ∃ k', IsQubits w.node k' := by
  rcases h.2 with ⟨_, k', _, h⟩ | ⟨_, _, h, _⟩
  · exact ⟨k', h⟩
  · exact (not_both hv h).elim

theorem SameSort.bits {v w : Value F} (h : SameSort v w) {k : Kind} (hv : IsBits v.node k) : ∃ k', IsBits w.node k' := by
  rcases h.2 with ⟨_, _, h, _⟩ | ⟨_, k', _, h⟩
  · exact (not_both h hv).elim
  · exact ⟨k', h⟩

theorem sorts_of {D : List VarLink} (hD : DeclsOk D) {es es' : List (Expr F)} (h : Forall2 (AsMany fo D) es es') :
    ∀ {vs vs' : List (Value F)}, EvalAll fo D es vs → EvalAll fo D es' vs' → Forall2 SameSort vs vs' := by
  induction h with
  | nil => intro vs vs' h1 h2; cases h1; cases h2; exact .nil
  | cons h _ ih =>
    intro vs vs' h1 h2
    cases h1 with
    | cons a1 a2 =>
      cases h2 with
      | cons b1 b2 =>
        obtain ⟨n, n', c1, c2, c3⟩ := h
        obtain ⟨_, he⟩ := env_of (fo := fo) hD
        cases eval_det he a1.2 c1
        cases eval_det he b1.2 c2
        exact .cons c3 (ih a2 b2)

theorem forall2_length {A B : Type} {R : A → B → Prop} {xs : List A} {ys : List B} (h : Forall2 R xs ys) : xs.length = ys.length := by
  induction h with
  | nil => rfl
  | cons _ _ ih => simp [ih]

theorem forall2_mem_left {A B : Type} {R : A → B → Prop} {xs : List A} {ys : List B} (h : Forall2 R xs ys) :
    ∀ x ∈ xs, ∃ y ∈ ys, R x y := by
  induction h with
  | nil => simp
  | cons h _ ih =>
    intro x hx
    rcases List.mem_cons.1 hx with rfl | hx
    · exact ⟨_, List.mem_cons_self .., h⟩
    · obtain ⟨y, hy, hr⟩ := ih x hx
      exact ⟨y, List.mem_cons_of_mem _ hy, hr⟩

theorem instr_with {D : List VarLink} (hD : DeclsOk D) (o : Operation F) {es es' : List (Expr F)} (h : Forall2 (AsMany fo D) es es')
    {t : SStatement F} (ht : InstrOk fo D (o.apply es) t) {vs' : List (Value F)} (hv : EvalAll fo D es' vs') :
    ∃ t', InstrOk fo D (o.apply es') t' ∧ WithOperands vs' t t' := by
  cases o with
  | gate l as g =>
    cases ht with
    | @gate _ _ _ _ n s vs ks sas h1 h2 h3 h4 h5 h6 =>
      have hs := sorts_of hD h h2 hv
      obtain ⟨ks', h4'⟩ := kinds_of_exists (vs := vs') fun w hw => by
        obtain ⟨v, hv', hvw⟩ := forall2_mem_right hs w hw
        obtain ⟨k, -, hk⟩ := forall2_mem_left h4 v hv'
        exact hvw.qubits hk
      refine ⟨_, .gate h1 hv ((forall2_length hs).symm.trans h3) h4' (fun w hw w' hw' => ?_) h6, .gate rfl⟩
      obtain ⟨v, g1, g2⟩ := forall2_mem_right hs w hw
      obtain ⟨v', g3, g4⟩ := forall2_mem_right hs w' hw'
      exact g2.1.symm.trans ((h5 v g1 v' g3).trans g4.1)
  | nonGate l as name ps =>
    obtain ⟨vs, ws, sas, ks, rfl, h1, h2, h3⟩ := Each.nonGate_iff.1 ht
    have hs := sorts_of hD h h1 hv
    suffices hh : ∃ ks', InstrOk fo D (.nonGate l as name es' ps) (.nonGate (refOf name ks') name vs' ws sas l) by
      obtain ⟨ks', hh⟩ := hh
      exact ⟨_, hh, .nonGate rfl⟩
    rcases h3 with ⟨rfl, h5, v, w, kv, kw, rfl, rfl, h6, h7, h8⟩ | ⟨h5, rfl, rfl, v, kq, rfl, rfl, h6⟩ | ⟨rfl, h5, v, kq, rfl, rfl, h6⟩
    · cases hs with
      | cons s1 hs =>
        cases hs with
        | cons s2 hs =>
          cases hs
          obtain ⟨kv', b1⟩ := s1.bits h6
          obtain ⟨kw', b2⟩ := s2.qubits h7
          exact ⟨[kv', kw'], Each.nonGate_iff.2 ⟨_, _, _, _, rfl, hv, h2,
            .inl ⟨rfl, h5, _, _, _, _, rfl, rfl, b1, b2, s1.1.symm.trans (h8.trans s2.1)⟩⟩⟩
    · cases hs with
      | cons s1 hs =>
        cases hs
        obtain ⟨k', b1⟩ := s1.qubits h6
        exact ⟨[k'], Each.nonGate_iff.2 ⟨_, _, _, _, rfl, hv, h2, .inr (.inl ⟨h5, rfl, rfl, _, _, rfl, rfl, b1⟩)⟩⟩
    · cases hs with
      | cons s1 hs =>
        cases hs
        obtain ⟨k', b1⟩ := s1.qubits h6
        exact ⟨[k'], Each.nonGate_iff.2 ⟨_, _, _, _, rfl, hv, h2, .inr (.inr ⟨rfl, h5, _, _, rfl, rfl, b1⟩)⟩⟩

end Operands

/-- **C97.** An instruction of an accepted program can be given other operands that denote equally many qubits, or bits, each: the
program is still accepted, and the result has these operands and is otherwise the same. -/
theorem C97_as_many {v : Version} {a : Analyzer F} (ha : Analyzer.default fo v = .ok a) {p : ProgramAst F} {before after : List (Stmt F)}
    (o : Operation F) {es es' : List (Expr F)} {r r0 : SProgram F}
    (hs : ShapedProgram (withStatements p (before ++ o.apply es :: after)))
    (h : Accepts fo a (withStatements p (before ++ o.apply es :: after)) r) (h0 : Accepts fo a (withStatements p before) r0)
    (hes : ∀ e ∈ es', ShapedExpr e) (hm : Forall2 (AsMany fo (declared r0)) es es') {vs' : List (Value F)}
    (hv : EvalAll fo (declared r0) es' vs') :
    ∃ r', Accepts fo a (withStatements p (before ++ o.apply es' :: after)) r' ∧ OperandsResult (instructions before) vs' r r' := by
  have hs' : ShapedProgram (withStatements p (before ++ o.apply es' :: after)) := by
    intro s h
    simp only [withStatements, List.mem_append, List.mem_cons] at h
    rcases h with h | rfl | h
    · exact hs s (by simp [withStatements, h])
    · have := hs (o.apply es) (by simp [withStatements])
      cases o with
      | gate l as g => exact ⟨this.1, this.2.1, this.2.2.1, hes⟩
      | nonGate l as name ps => exact ⟨this.1, this.2.1, this.2.2.1, hes⟩
    · exact hs s (by simp [withStatements, h])
  have hs0 : ShapedProgram (withStatements p before) := fun s h => hs s (by simp [withStatements] at h ⊢; exact .inl h)
  obtain ⟨⟨hv0, hx⟩, e1, e2, -⟩ := accepts_valid ha hs h
  obtain ⟨⟨-, hx0⟩, -, -, -⟩ := accepts_valid ha hs0 h0
  obtain ⟨vs1, vs2, ts1, ts2, e3, e4, h1, h2⟩ := exec_append.1 hx
  obtain ⟨rfl, rfl⟩ := exec_det declsOk_nil h1 hx0
  have hD : declared r0 = (r0.variables.map SVariable.link).reverse ++ [] := by simp only [declared, List.append_nil]; rfl
  have hi := apply_instr o es
  generalize hst : o.apply es = s at h2 hi
  cases h2 with
  | decl => exact absurd trivial hi
  | @instr _ _ _ t _ ts3 h3 h4 =>
    subst hst
    rw [← hD] at h3 h4
    obtain ⟨t', g1, g2⟩ := Operands.instr_with (declared_ok ha hs0 h0) o hm h3 hv
    have hval : Valid fo v (withStatements p (before ++ o.apply es' :: after)) r.variables (r0.block.statements ++ t' :: ts3) :=
      ⟨hv0, exec_append.2 ⟨r0.variables, vs2, r0.block.statements, t' :: ts3, e3, rfl, h1, hD ▸ .instr g1 h4⟩⟩
    refine ⟨_, valid_accepts ha hs' hval, e1, e2, rfl, r0.block.statements, t, t', ts3, ?_, e4, rfl, g2⟩
    exact (exec_variables h1).2.2

namespace Operands

theorem forall2_of_all {A : Type} {P : A → Prop} {R : A → A → Prop} (hR : ∀ x y, P x → P y → R x y) :
    ∀ {xs ys : List A}, xs.length = ys.length → (∀ x ∈ xs, P x) → (∀ y ∈ ys, P y) → Forall2 R xs ys
  | [], [], _, _, _ => .nil
  | [], _ :: _, h, _, _ => by simp at h
  | _ :: _, [], h, _, _ => by simp at h
  | x :: xs, y :: ys, h, hx, hy =>
    .cons (hR x y (hx x (by simp)) (hy y (by simp))) (forall2_of_all hR (by simpa using h) (fun z hz => hx z (by simp [hz]))
      fun z hz => hy z (by simp [hz]))

theorem evalAll_of {D : List VarLink} {es : List (Expr F)} (h : ∀ e ∈ es, ∃ n, Eval fo D e n) : ∃ vs, EvalAll fo D es vs := by
  induction es with
  | nil => exact ⟨[], .nil⟩
  | cons e es ih =>
    obtain ⟨n, h1⟩ := h e (by simp)
    obtain ⟨vs, h2⟩ := ih fun e he => h e (by simp [he])
    exact ⟨⟨n, e.loc⟩ :: vs, .cons ⟨rfl, h1⟩ h2⟩

end Operands

/-- **C97.** In particular the operands of a gate of an accepted program can be swapped and used repeatedly, as long as their number
remains the same. -/
theorem C97_gate {v : Version} {a : Analyzer F} (ha : Analyzer.default fo v = .ok a) {p : ProgramAst F} {before after : List (Stmt F)}
    (l : Option Loc) (as : List (AnnotationData F)) (g : Gate F) {es es' : List (Expr F)} {r r0 : SProgram F}
    (hs : ShapedProgram (withStatements p (before ++ .gate l as g es :: after)))
    (h : Accepts fo a (withStatements p (before ++ .gate l as g es :: after)) r) (h0 : Accepts fo a (withStatements p before) r0)
    (hlen : es.length = es'.length) (hsub : ∀ e ∈ es', e ∈ es) :
    ∃ r' vs', Accepts fo a (withStatements p (before ++ .gate l as g es' :: after)) r' ∧ EvalAll fo (declared r0) es' vs' ∧
      OperandsResult (instructions before) vs' r r' := by
  have hs0 : ShapedProgram (withStatements p before) := fun s h => hs s (by simp [withStatements] at h ⊢; exact .inl h)
  have hshape : ∀ e ∈ es', ShapedExpr e := fun e he =>
    (hs (.gate l as g es) (by simp [withStatements])).2.2.2 e (hsub e he)
  obtain ⟨⟨-, hx⟩, -, -, -⟩ := accepts_valid ha hs h
  obtain ⟨⟨-, hx0⟩, -, -, -⟩ := accepts_valid ha hs0 h0
  obtain ⟨vs1, vs2, ts1, ts2, -, -, h1, h2⟩ := exec_append.1 hx
  obtain ⟨rfl, rfl⟩ := exec_det declsOk_nil h1 hx0
  have hD : declared r0 = (r0.variables.map SVariable.link).reverse ++ [] := by simp only [declared, List.append_nil]; rfl
  cases h2 with
  | instr h3 _ =>
    rw [← hD] at h3
    cases h3 with
    | @gate _ _ _ _ n s vs ks sas _ g2 _ g4 g5 _ =>
      have key : ∀ e ∈ es, ∃ n k, Eval fo (declared r0) e n ∧ IsQubits n k ∧ ∀ w ∈ vs, elements n = elements w.node := by
        intro e he
        obtain ⟨w, hw, k1⟩ := Operands.forall2_mem_left g2 e he
        obtain ⟨k, -, k2⟩ := Operands.forall2_mem_left g4 w hw
        exact ⟨w.node, k, k1.2, k2, g5 w hw⟩
      have hpair : Forall2 (AsMany fo (declared r0)) es es' := by
        refine Operands.forall2_of_all (P := fun e => e ∈ es) (fun e e' he he' => ?_) hlen (fun _ h => h) hsub
        obtain ⟨n, k, k1, k2, k3⟩ := key e he
        obtain ⟨w', hw', b1⟩ := Operands.forall2_mem_left g2 e' he'
        obtain ⟨k', -, b2⟩ := Operands.forall2_mem_left g4 w' hw'
        exact ⟨n, w'.node, k1, b1.2, k3 w' hw', .inl ⟨k, k', k2, b2⟩⟩
      obtain ⟨vs', hv'⟩ := Operands.evalAll_of (fo := fo) (D := declared r0) (es := es') fun e he => by
        obtain ⟨n, _, h, _⟩ := key e (hsub e he)
        exact ⟨n, h⟩
      obtain ⟨r', k1, k2⟩ := C97_as_many ha (.gate l as g) hs h h0 hshape hpair hv'
      exact ⟨r', vs', k1, hv', k2⟩

namespace Operands

theorem eval_name {D : List VarLink} (hD : DeclsOk D) {y : VarLink} (hy : y ∈ D) (l : Option Loc) :
    Eval fo D (.ident l y.name) (.variableRef y) :=
  .ident (.var ((builtin_none fo).1 (hD.notBuiltin y hy)) hy rfl)

theorem get_upTo (n : Int) (k : Nat) : (upTo (0, n - 1))[k]? = if (k : Int) < n then some (k : Int) else none := by
  unfold upTo
  simp only [List.getElem?_map, Int.sub_zero, Int.sub_add_cancel]
  by_cases h : (k : Int) < n
  · rw [if_pos h, List.getElem?_range (by omega)]; simp
  · rw [if_neg h, List.getElem?_eq_none (by simp; omega)]; rfl

theorem place_written {D : List VarLink} (hD : DeclsOk D) {e : Expr F} {x : Str} {ns : List Int} (h : Written fo D e x ns) {n : ValueNode F}
    (hn : Eval fo D e n) : ∃ z, z.name = x ∧ z ∈ D ∧ elements n = ns.length ∧
      ∀ k, k < ns.length → place k n = ns[k]?.map fun i => (z, i) := by
  obtain ⟨_, he⟩ := env_of (fo := fo) hD
  cases h with
  | @whole l y hy =>
    cases eval_det he hn (eval_name hD hy l)
    refine ⟨y, rfl, hy, ?_, fun k hk => ?_⟩
    · simp [elements, upTo]
    · have hk' : (k : Int) < y.typ.size.toInt := by
        simp only [upTo, List.length_map, List.length_range] at hk; omega
      rw [get_upTo, if_pos hk']
      rfl
  | @elements l l' y ixs bs hy hb =>
    obtain ⟨z, is, rfl, g2, g3, g4, g5⟩ := eval_index_iff.1 hn
    cases eval_det he g2 (eval_name hD hy l')
    obtain ⟨bs', k1, k2, k3⟩ := evalIndices_bounds g4
    cases bounds_list_det he k1 hb
    refine ⟨y, rfl, hy, ?_, fun k hk => ?_⟩
    · rw [← k3]; simp [Spec.elements]
    · rw [← k3]
      simp only [place, List.getElem?_map, Option.map_map]
      rfl

end Operands

namespace Operands

theorem gate_arity {D : List VarLink} {g : Gate F} {n : Nat} {s : SGate F} (h : GateOk fo D g n s) : n = 1 ∨ n = 2 := by
  cases h with
  | named h => exact C30_gate_set.2.2 _ h
  | inv => exact .inl rfl
  | pow => exact .inl rfl
  | ctrl => exact .inr rfl

/-- The variable a reference is about. -/
def about : ValueNode F → Option VarLink
  | .variableRef x => some x
  | .indexRef x _ => some x
  | _ => none

theorem about_bits {n : ValueNode F} {k : Kind} (h : IsBits n k) : ∃ x, about n = some x ∧ (x.typ.kind = .bit ∨ x.typ.kind = .bitArray) := by
  obtain ⟨h1, h2⟩ := h
  unfold kindOf at h1
  split at h1
  all_goals first
    | (cases h1; rcases h2 with h | h <;> cases h; done)
    | (cases h1; exact ⟨_, rfl, h2⟩)
    | (refine ⟨_, rfl, ?_⟩; unfold elementKind at h1; split at h1 <;> cases h1 <;> simp_all)

theorem about_qubits {n : ValueNode F} {k : Kind} (h : IsQubits n k) :
    ∃ x, about n = some x ∧ (x.typ.kind = .qubit ∨ x.typ.kind = .qubitArray) := by
  obtain ⟨h1, h2⟩ := h
  unfold kindOf at h1
  split at h1
  all_goals first
    | (cases h1; rcases h2 with h | h <;> cases h; done)
    | (cases h1; exact ⟨_, rfl, h2⟩)
    | (refine ⟨_, rfl, ?_⟩; unfold elementKind at h1; split at h1 <;> cases h1 <;> simp_all)

theorem place_about {n : ValueNode F} {k : Nat} (hk : k < elements n) : ∃ x i, about n = some x ∧ place k n = some (x, i) := by
  cases n with
  | variableRef x => exact ⟨x, k, rfl, rfl⟩
  | indexRef x is => exact ⟨x, (is[k]'hk).1.toInt, rfl, by
      simp only [place]; rw [List.getElem?_eq_getElem (show k < is.length from hk)]; rfl⟩
  | _ => simp [elements] at hk

theorem places_differ {n m : ValueNode F} {k k' : Kind} (hn : IsBits n k) (hm : IsQubits m k') {i : Nat} (hi : i < elements n)
    (h : place i n = place i m) : False := by
  obtain ⟨x, j, h1, h2⟩ := place_about hi
  obtain ⟨x', h3, h4⟩ := about_bits hn
  obtain ⟨y, h5, h6⟩ := about_qubits hm
  have h7 : about m = some x := by
    rw [h2] at h
    cases m with
    | variableRef z => simp [place] at h; simp [about, h.1]
    | indexRef z is =>
      simp only [place] at h
      cases hz : is[i]? with
      | none => rw [hz] at h; simp at h
      | some w => rw [hz] at h; simp at h; simp [about, h.1]
    | _ => simp [place] at h
  rw [h1] at h3
  rw [h7] at h5
  cases h3
  cases h5
  rcases h4 with h4 | h4 <;> rcases h6 with h6 | h6 <;> rw [h4] at h6 <;> cases h6

end Operands

/-- C98 is false: `CNOT q, q` is accepted, for every qubit variable `q`. -/
theorem C98_refuted {v : Version} {a : Analyzer F} (ha : Analyzer.default fo v = .ok a) {p : ProgramAst F} (hs : ShapedProgram p)
    {r : SProgram F} (h : Accepts fo a p r) {y : SVariable F} (hy : y ∈ r.variables)
    (hk : y.typ.kind = .qubit ∨ y.typ.kind = .qubitArray) :
    ∃ r' t, Accepts fo a (andThen p (.gate none [] (.mk none [] c!"CNOT" none []) [.ident none y.name, .ident none y.name])) r' ∧
      r'.block.statements = r.block.statements ++ [t] ∧ ¬ NeverTwice t := by
  have hD := declared_ok ha hs h
  have hyD : (⟨y.uid, y.name, y.typ⟩ : VarLink) ∈ declared r := by
    simp only [declared, List.mem_reverse, List.mem_map]; exact ⟨y, hy, rfl⟩
  have he := Operands.eval_name (fo := fo) hD hyD none
  have hq : IsQubits (.variableRef ⟨y.uid, y.name, y.typ⟩ : ValueNode F) y.typ.kind := ⟨rfl, hk⟩
  have hsh : ShapedStmt (.gate none [] (.mk none [] c!"CNOT" none []) [.ident none y.name, .ident none y.name] : Stmt F) :=
    ⟨by simp [ShapedAnnotations], by show _ ∧ _; decide, by simp [ShapedGateAnnotations, ShapedAnnotations], by simp [ShapedExpr]⟩
  have hi : InstrOk fo (declared r) (.gate none [] (.mk none [] c!"CNOT" none []) [.ident none y.name, .ident none y.name])
      (.gate (refOf c!"CNOT" [y.typ.kind, y.typ.kind]) (.mk c!"CNOT" none [] [] none)
        [⟨.variableRef ⟨y.uid, y.name, y.typ⟩, none⟩, ⟨.variableRef ⟨y.uid, y.name, y.typ⟩, none⟩] [] none) :=
    .gate (.named (n := 2) (ks := []) (by decide) .nil .nil) (.cons ⟨rfl, he⟩ (.cons ⟨rfl, he⟩ .nil)) rfl
      (.cons hq (.cons hq .nil)) (by simp) .nil
  obtain ⟨r', hr⟩ := (andThen_ok_iff ha hs h hsh id).2 ⟨_, hi⟩
  obtain ⟨t, h1, h2, -⟩ := andThen_iff ha hs h hsh id hr
  cases eval_det' hD h1 hi
  refine ⟨r', _, hr, h2, fun hn => ?_⟩
  have := hn 0 _ rfl (by
    rcases hD.kinds _ hyD with ⟨_, h⟩ | ⟨_, h⟩
    · simp only at h; simp [elements, h]
    · simp only at h; simp only [elements]; omega)
  simp [operands] at this

/-- **C98, part.** A gate with two operands acts twice on a qubit exactly if the operands are written as elements of one variable that
agree somewhere. -/
theorem C98_gate_partial {v : Version} {a : Analyzer F} (ha : Analyzer.default fo v = .ok a) {p : ProgramAst F} (hs : ShapedProgram p)
    {r : SProgram F} (h : Accepts fo a p r) {before after : List (Stmt F)} {l : Option Loc} {as : List (AnnotationData F)} {g : Gate F}
    {e e' : Expr F} (hp : p.block.statements = before ++ .gate l as g [e, e'] :: after) {x y : Str} {ns ms : List Int}
    (hx : Written fo (declared r) e x ns) (hy : Written fo (declared r) e' y ms) :
    ∃ t, r.block.statements[instructions before]? = some t ∧
      (NeverTwice t ↔ ¬ (x = y ∧ ∃ (k : Nat) (i : Int), ns[k]? = some i ∧ ms[k]? = some i)) := by
  obtain ⟨t, D, h1, h2, h3⟩ := accepted_at ha hs h (s := .gate l as g [e, e']) id hp
  refine ⟨t, h1, ?_⟩
  have hD := declared_ok ha hs h
  cases h2 with
  | @gate _ _ _ _ n s vs ks sas _ g2 _ _ g5 _ =>
    cases g2 with
    | @cons _ v1 _ _ a1 g2 =>
      cases g2 with
      | @cons _ v2 _ _ a2 g2 =>
        cases g2
        obtain ⟨z, rfl, b1, b2, b3⟩ := Operands.place_written hD hx (eval_mono h3 a1.2)
        obtain ⟨z', rfl, c1, c2, c3⟩ := Operands.place_written hD hy (eval_mono h3 a2.2)
        have hlen : ns.length = ms.length := by rw [← b2, ← c2]; exact g5 _ (by simp) _ (by simp)
        have hz : z.name = z'.name ↔ z = z' := ⟨fun he => pairwise_unique hD.names b1 c1 he, fun he => he ▸ rfl⟩
        unfold NeverTwice
        simp only [operands, List.getElem?_cons_zero, Option.some.injEq, List.map_cons, List.map_nil]
        constructor
        · rintro hn ⟨hxy, k, i, k1, k2⟩
          have hk : k < ns.length := (List.getElem?_eq_some_iff.1 k1).1
          have := hn k v1 rfl (by omega)
          rw [b3 k hk, c3 k (by omega), k1, k2, hz.1 hxy] at this
          simp at this
        · rintro hn k _ rfl hk
          rw [b2] at hk
          rw [b3 k hk, c3 k (by omega)]
          obtain ⟨i, hi⟩ : ∃ i, ns[k]? = some i := ⟨_, List.getElem?_eq_getElem hk⟩
          obtain ⟨j, hj⟩ : ∃ j, ms[k]? = some j := ⟨_, List.getElem?_eq_getElem (by omega)⟩
          rw [hi, hj]
          simp only [Option.map_some, List.nodup_cons, List.mem_singleton, Option.some.injEq, Prod.mk.injEq, List.not_mem_nil, not_false_eq_true,
            List.nodup_nil, and_true]
          rintro ⟨e1, rfl⟩
          exact hn ⟨hz.2 e1, k, i, hi, hj⟩

/-- **C98, part.** All other instructions of an accepted program never have one qubit or bit for two operands: the instructions that are
not gates, and the gates with one operand. -/
theorem C98_others_partial {v : Version} {a : Analyzer F} (ha : Analyzer.default fo v = .ok a) {p : ProgramAst F} (hs : ShapedProgram p)
    {r : SProgram F} (h : Accepts fo a p r) {t : SStatement F} (ht : t ∈ r.block.statements)
    (ho : (∀ i g vs as l, t ≠ .gate i g vs as l) ∨ (operands t).length ≠ 2) : NeverTwice t := by
  obtain ⟨a', h⟩ := h
  obtain ⟨s, D, -, -, hD, h1, -⟩ := result_instr ha hs h (.inl rfl) t ht
  have one : ∀ ws : List (Value F), ws.length ≤ 1 → ∀ k, (ws.map fun w => place k w.node).Nodup := by
    intro ws hw k
    match ws, hw with
    | [], _ => simp
    | [_], _ => simp
    | _ :: _ :: _, h => simp at h
  cases h1 with
  | @gate _ _ _ _ n s vs ks sas g1 g2 g3 =>
    rcases ho with ho | ho
    · exact absurd rfl (ho _ _ _ _ _)
    · intro k _ _ _
      refine one _ ?_ k
      have := Operands.gate_arity g1
      simp only [operands] at ho ⊢
      omega
  | @measure _ _ b q _ n m kn km _ _ hb1 hb2 hq1 hq2 =>
    intro k w hw hk
    simp only [operands, List.map_cons, List.map_nil, List.nodup_cons, List.mem_singleton, List.not_mem_nil, not_false_eq_true,
      List.nodup_nil, and_true]
    simp only [operands, List.getElem?_cons_zero, Option.some.injEq] at hw
    subst hw
    intro he
    exact Operands.places_differ hb2 hq2 hk he
  | simple => exact fun k _ _ _ => one _ (by simp [operands]) k
  | wait => exact fun k _ _ _ => one _ (by simp [operands]) k
  | asm => exact fun k _ _ _ => one _ (by simp [operands]) k

/-! ## Examples -/

section Examples

open Sample

/-- C97: `CNOT` with other elements, also of another register, and with the same register twice. -/
example : messages (program [qubits c!"q" 3, qubits c!"r" 2, gate c!"CNOT" [] [slice c!"q" 0 1, name c!"r"]]) = some [] ∧
    messages (program [qubits c!"q" 3, qubits c!"r" 2, gate c!"CNOT" [] [name c!"r", slice c!"q" 1 2]]) = some [] ∧
    messages (program [qubits c!"q" 3, qubits c!"r" 2, gate c!"CNOT" [] [name c!"r", name c!"r"]]) = some [] ∧
    (messages (program [qubits c!"q" 3, qubits c!"r" 2, gate c!"CNOT" [] [name c!"q", name c!"r"]])).map List.length = some 1 := by
  decide +kernel

private def two : ProgramAst Int := program [qubits c!"q" 3, gate c!"CNOT" [] [slice c!"q" 0 1, slice c!"q" 1 2]]

private theorem two_shaped : ShapedProgram two := by
  intro s h
  simp only [two, program, List.mem_cons, List.not_mem_nil, or_false] at h
  rcases h with rfl | rfl
  · simp [qubits, ShapedStmt, ShapedAnnotations]
  · exact ⟨by simp [ShapedAnnotations], by show _ ∧ _; decide, by simp [ShapedGateAnnotations, ShapedAnnotations],
      by simp [slice, name, int, ShapedExpr, ShapedEntries]⟩

private abbrev q3 : VarLink := ⟨0, c!"q", ⟨.qubitArray, 3⟩⟩

private theorem written01 {i j : Int64} : Written Sample.fo [q3] (slice c!"q" i j) c!"q" ([(i.toInt, j.toInt)].flatMap upTo) :=
  .elements (y := q3) (List.mem_singleton_self _) (.cons (.range (c := .int i) (d := .int j) (.intLit _ _) (.same _) (.intLit _ _) (.same _)) .nil)

/-- The hypotheses of `C98_gate_partial`: `CNOT q[0:1], q[1:2]`, which never acts twice on a qubit although the operands overlap. -/
example : ∃ a r, Analyzer.default Sample.fo [3, 0] = .ok a ∧ Accepts Sample.fo a two r ∧ Written Sample.fo (declared r) (slice c!"q" 0 1) c!"q" [0, 1] ∧
    Written Sample.fo (declared r) (slice c!"q" 1 2) c!"q" [1, 2] ∧
    ¬ (c!"q" = c!"q" ∧ ∃ (k : Nat) (i : Int), [0, 1][k]? = some i ∧ [1, 2][k]? = some i) := by
  obtain ⟨a, ha⟩ := default30
  obtain ⟨r, hr⟩ := accepted ha two_shaped (by decide +kernel)
  have hv := (accepts_valid ha two_shaped hr).1.2
  have he : ∀ i j : Int64, ∀ is, EvalIndices Sample.fo [q3] [.range none (int i) (int j)] is → (∀ k ∈ is, 0 ≤ k.1.toInt ∧ k.1.toInt < 3) →
      Eval Sample.fo [q3] (slice c!"q" i j) (.indexRef q3 is) :=
    fun i j is h h' => .index (.ident (.var (x := q3) rfl (List.mem_singleton_self _) rfl)) (.inl rfl) h h'
  have h0 : ∀ i j is, RangeList none i j is → EvalIndices Sample.fo [q3] [.range none (int i) (int j)] (is ++ []) := fun i j is h =>
    .cons (.range (c := .int i) (d := .int j) (.intLit _ _) (.same _) (.intLit _ _) (.same _) h) .nil
  have h1 : Exec Sample.fo [] two.block.statements [⟨0, c!"q", ⟨.qubitArray, 3⟩, [], none⟩]
      [.gate (refOf c!"CNOT" [.qubitArray, .qubitArray]) (.mk c!"CNOT" none [] [] none)
        [⟨.indexRef q3 [(0, none), (1, none)], none⟩, ⟨.indexRef q3 [(1, none), (2, none)], none⟩] [] none] :=
    .decl (D := []) (.qubits (by decide)) ⟨by decide, by simp⟩ .nil
      (.instr (D := [q3]) (.gate (.named (n := 2) (ks := []) (by decide) .nil .nil)
        (.cons ⟨rfl, he 0 1 _ (h0 0 1 [(0, none), (1, none)] ⟨by decide, by decide, by simp⟩) (by decide)⟩
          (.cons ⟨rfl, he 1 2 _ (h0 1 2 [(1, none), (2, none)] ⟨by decide, by decide, by simp⟩) (by decide)⟩ .nil)) rfl
        (.cons ⟨rfl, .inr rfl⟩ (.cons ⟨rfl, .inr rfl⟩ .nil)) (by simp [elements]) .nil) .nil)
  have hd : declared r = [q3] := by rw [declared, (exec_det declsOk_nil hv h1).1]; rfl
  refine ⟨a, r, ha, hr, ?_, ?_, ?_⟩
  · rw [hd]; exact written01 (i := 0) (j := 1)
  · rw [hd]; exact written01 (i := 1) (j := 2)
  · rintro ⟨-, k, i, h, h'⟩
    match k with
    | 0 => simp at h h'; omega
    | 1 => simp at h h'; omega
    | k + 2 => simp at h

/-- C98: which of these programs act twice on a qubit is not checked. -/
example : messages (program [qubits c!"q" 3, gate c!"CNOT" [] [slice c!"q" 0 1, slice c!"q" 1 2]]) = some [] ∧
    messages (program [qubits c!"q" 3, gate c!"CNOT" [] [slice c!"q" 0 1, slice c!"q" 0 1]]) = some [] ∧
    messages (program [qubits c!"q" 3, gate c!"SWAP" [] [at_ c!"q" 1, at_ c!"q" 1]]) = some [] := by
  decide +kernel

end Examples

end Qasm
