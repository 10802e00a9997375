import Verif.Lemmas.Each
/-!
# One instruction per element (C91)
-/

namespace Qasm

open Spec Sem

attribute [local irreducible] defaultInstrs defaultFns defaultVars

variable {F : Type} {fo : FloatOps F}

theorem exec_map {D : List VarLink} {f : Nat → Stmt F} {P : Nat → SStatement F → Prop} {ks : List Nat}
    (h : ∀ k ∈ ks, ∃ t, InstrOk fo D (f k) t ∧ P k t) : ∃ ts, Exec fo D (ks.map f) [] ts ∧ Forall2 P ks ts := by
  induction ks with
  | nil => exact ⟨[], .nil, .nil⟩
  | cons k ks ih =>
    obtain ⟨ts, h1, h2⟩ := ih fun j hj => h j (List.mem_cons_of_mem _ hj)
    obtain ⟨t, h3, h4⟩ := h k List.mem_cons_self
    exact ⟨t :: ts, .instr h3 h1, .cons h4 h2⟩

theorem exec_map_inv {D : List VarLink} {f : Nat → Stmt F} (hf : ∀ k, ¬ IsDecl (f k)) {ks : List Nat} :
    ∀ {vs : List (SVariable F)} {ts : List (SStatement F)}, Exec fo D (ks.map f) vs ts → vs = [] ∧ ∀ k ∈ ks, ∃ t, InstrOk fo D (f k) t := by
  induction ks with
  | nil =>
    intro vs ts h
    cases h
    exact ⟨rfl, fun k hk => nomatch hk⟩
  | cons k ks ih =>
    intro vs ts h
    rw [List.map_cons] at h
    have hk := hf k
    generalize hs : f k = s at h hk
    cases h with
    | decl => exact absurd trivial hk
    | @instr _ _ _ t _ _ h1 h2 =>
      obtain ⟨rfl, h3⟩ := ih h2
      refine ⟨rfl, fun j hj => ?_⟩
      rcases List.mem_cons.1 hj with rfl | hj
      · exact ⟨t, hs ▸ h1⟩
      · exact h3 j hj

theorem apply_instr (o : Operation F) (es : List (Expr F)) : ¬ IsDecl (o.apply es) := by cases o <;> exact id

theorem shaped_items : ∀ is : List (Option Loc × Int64), ShapedEntries (F := F) (is.map fun i => .item i.1 (.intLit i.1 i.2))
  | [] => trivial
  | _ :: is => ⟨trivial, shaped_items is⟩

theorem each_shaped {o : Operation F} {rs : List Elements} {m : Nat} (hl : ∀ r ∈ rs, r.indices.length = m)
    (h : ShapedStmt (o.apply (rs.map Elements.expr))) : ∀ s ∈ each o rs m, ShapedStmt s := by
  intro s hs
  obtain ⟨k, hk, rfl⟩ := List.mem_map.1 hs
  rw [List.mem_range] at hk
  have key : ∀ e ∈ (rs.map (Elements.nth k)).map (Elements.expr (F := F)), ShapedExpr e := by
    intro e he
    obtain ⟨r', hr', rfl⟩ := List.mem_map.1 he
    obtain ⟨r, hr, rfl⟩ := List.mem_map.1 hr'
    have h1 := hl r hr
    refine ⟨?_, trivial, shaped_items _⟩
    simp [Elements.nth, List.getElem?_eq_getElem (show k < r.indices.length by omega)]
  cases o with
  | gate l as g => exact ⟨h.1, h.2.1, h.2.2.1, key⟩
  | nonGate l as name ps => exact ⟨h.1, h.2.1, h.2.2.1, key⟩

/-- **C91.** An instruction on elements of registers is accepted if and only if the instructions on the first, the second, … elements are
accepted one after the other, and then it stands for these. -/
theorem C91_each (fo : FloatOps F) (v : Version) (a : Analyzer F) (ha : Analyzer.default fo v = .ok a) (p : ProgramAst F)
    (before after : List (Stmt F)) (o : Operation F) (rs : List Elements) (m : Nat) (hm : 1 ≤ m) (hl : ∀ r ∈ rs, r.indices.length = m)
    (hs : ShapedProgram (withStatements p (before ++ o.apply (rs.map Elements.expr) :: after))) :
    (∀ r, Accepts fo a (withStatements p (before ++ o.apply (rs.map Elements.expr) :: after)) r →
      ∃ r', Accepts fo a (withStatements p (before ++ each o rs m ++ after)) r' ∧ EachResult m r r') ∧
    ∀ r', Accepts fo a (withStatements p (before ++ each o rs m ++ after)) r' →
      ∃ r, Accepts fo a (withStatements p (before ++ o.apply (rs.map Elements.expr) :: after)) r ∧ EachResult m r r' := by
  have hs' : ShapedProgram (withStatements p (before ++ each o rs m ++ after)) := by
    intro s h
    simp only [withStatements, List.mem_append] at h
    rcases h with (h | h) | h
    · exact hs s (by simp [withStatements, h])
    · exact each_shaped hl (hs _ (by simp [withStatements])) s h
    · exact hs s (by simp [withStatements, h])
  have forth : ∀ vs ts, Valid fo v (withStatements p (before ++ o.apply (rs.map Elements.expr) :: after)) vs ts →
      ∃ ts', Valid fo v (withStatements p (before ++ each o rs m ++ after)) vs ts' ∧ ∃ ts1 t us ts2, ts = ts1 ++ t :: ts2 ∧
        ts' = ts1 ++ us ++ ts2 ∧ Forall2 (fun k t' => NthInstruction k t t') (List.range m) us := by
    intro vs ts h
    obtain ⟨h0, h⟩ := h
    obtain ⟨vs1, vs2, ts1, ts2, rfl, rfl, h1, h2⟩ := exec_append.1 h
    have hi := apply_instr o (rs.map Elements.expr)
    generalize hst : o.apply (rs.map Elements.expr) = s at h2 hi
    cases h2 with
    | decl => exact absurd trivial hi
    | @instr _ _ _ t _ ts3 h3 h4 =>
      obtain ⟨us, h5, h6⟩ := exec_map (f := fun k => o.apply ((rs.map (Elements.nth k)).map Elements.expr)) (ks := List.range m)
        fun k hk => Each.instr_nth o hl (hst ▸ h3) (List.mem_range.1 hk)
      refine ⟨ts1 ++ us ++ ts3, ⟨h0, ?_⟩, ts1, t, us, ts3, rfl, rfl, h6⟩
      refine exec_append.2 ⟨vs1, vs2, ts1 ++ us, ts3, rfl, rfl, exec_append.2 ⟨vs1, [], ts1, us, by simp, rfl, h1, h5⟩, h4⟩
  constructor
  · intro r h
    obtain ⟨h1, h2, h3, -⟩ := accepts_valid ha hs h
    obtain ⟨ts', h5, ts1, t, us, ts2, e1, e2, h6⟩ := forth _ _ h1
    exact ⟨_, valid_accepts ha hs' h5, h2, h3, rfl, ts1, t, us, ts2, e1, e2, h6⟩
  · intro r' h
    obtain ⟨h1, h2, h3, -⟩ := accepts_valid ha hs' h
    obtain ⟨h0, h⟩ := h1
    have hdet := h
    obtain ⟨vs1, vs2, ts1, ts2, e1, e2, h4, h5⟩ := exec_append.1 h
    obtain ⟨ws1, ws2, us1, us2, rfl, rfl, h6, h7⟩ := exec_append.1 h4
    obtain ⟨rfl, h8⟩ := exec_map_inv (fun k => apply_instr o _) h7
    have h5 : Exec fo ((ws1.map SVariable.link).reverse ++ []) after vs2 ts2 := by simpa using h5
    obtain ⟨t, h9⟩ := Each.instr_all hm (exec_declsOk h6 declsOk_nil) o hl fun k hk => h8 k (List.mem_range.2 hk)
    have hv : Valid fo v (withStatements p (before ++ o.apply (rs.map Elements.expr) :: after)) (ws1 ++ vs2) (us1 ++ t :: ts2) :=
      ⟨h0, exec_append.2 ⟨ws1, vs2, us1, t :: ts2, rfl, rfl, h6, .instr h9 h5⟩⟩
    obtain ⟨ts', k1, ts1, t', us, ts3, k2, k3, k4⟩ := forth _ _ hv
    obtain ⟨k5, k6⟩ := exec_det declsOk_nil k1.2 hdet
    exact ⟨_, valid_accepts ha hs hv, h2.symm, h3.symm, k5, ts1, t', us, ts3, k2, by rw [← k6, k3], k4⟩

/-! ## Examples -/

section Examples

open Sample

/-- `CNOT` from two elements to two others, and a measurement of three elements. -/
example :
    (Operation.gate none [] (.mk none [] c!"CNOT" none [])).apply
        (([⟨none, none, c!"q", [(none, 0), (none, 1)]⟩, ⟨none, none, c!"q", [(none, 2), (none, 4)]⟩] : List Elements).map Elements.expr) =
      gate c!"CNOT" [] [.index none (name c!"q") [.item none (int 0), .item none (int 1)],
        .index none (name c!"q") [.item none (int 2), .item none (int 4)]] ∧
    each (Operation.gate none [] (.mk none [] c!"CNOT" none []))
        [⟨none, none, c!"q", [(none, 0), (none, 1)]⟩, ⟨none, none, c!"q", [(none, 2), (none, 4)]⟩] 2 =
      [gate c!"CNOT" [] [at_ c!"q" 0, at_ c!"q" 2], gate c!"CNOT" [] [at_ c!"q" 1, at_ c!"q" 4]] := ⟨rfl, rfl⟩

example : messages (program [qubits c!"q" 5, gate c!"CNOT" [] [.index none (name c!"q") [.item none (int 0), .item none (int 1)],
        .index none (name c!"q") [.item none (int 2), .item none (int 4)]]]) = some [] ∧
    messages (program [qubits c!"q" 5, gate c!"CNOT" [] [at_ c!"q" 0, at_ c!"q" 2], gate c!"CNOT" [] [at_ c!"q" 1, at_ c!"q" 4]]) = some [] ∧
    (messages (program [qubits c!"q" 4, gate c!"CNOT" [] [.index none (name c!"q") [.item none (int 0), .item none (int 1)],
        .index none (name c!"q") [.item none (int 2), .item none (int 4)]]])).map List.length = some 1 ∧
    (messages (program [qubits c!"q" 4, gate c!"CNOT" [] [at_ c!"q" 0, at_ c!"q" 2], gate c!"CNOT" [] [at_ c!"q" 1, at_ c!"q" 4]])).map
      List.length = some 1 := by
  decide +kernel

/-- C91: equal numbers of elements are needed: here every element of the shorter list could be used, but the instruction is rejected. -/
example : (messages (program [qubits c!"q" 5, gate c!"CNOT" [] [.index none (name c!"q") [.item none (int 0), .item none (int 1)],
        at_ c!"q" 4]])).map List.length = some 1 := by
  decide +kernel

end Examples

end Qasm
