import Verif.Lemmas.FrameScopes
/-!
# Helper lemmas: statements one after the other
-/

namespace Qasm

open Spec Sem

variable {F : Type} {fo : FloatOps F}

theorem bind_ok_iff {α β : Type} {x : Res Empty α} {f : α → Res Empty β} {y : β} : x.bind f = .ok y ↔ ∃ a, x = .ok a ∧ f a = .ok y := by
  cases x <;> simp [Res.bind]

theorem catch_add {v : Version} {sc : Scope F} {rest : List (Scope F)} {u : Nat} {l : Option Loc} {t : SStatement F} :
    catchInto ⟨v, sc :: rest, u⟩ l (Analyzer.addStatement ⟨v, sc :: rest, u⟩ t) = .ok ([], ⟨v, addOpt sc (some t) :: rest, u⟩) := by
  simp only [Analyzer.addStatement, Analyzer.modifyCurrent, Res.bind_ok, catchInto, addOpt, addTo]

theorem after_eq_ok {α : Type} {es es' : List Err} {x : Res Empty (Log α)} {y : α} (h : Log.after es x = .ok (es', y)) :
    ∃ es1, x = .ok (es1, y) := by
  cases x with
  | ok x => cases h; exact ⟨x.1, rfl⟩
  | _ => cases h

/-- An instruction adds at most one statement to the current scope and does nothing else to the analyser. -/
theorem instr_adds {v : Version} {sc : Scope F} {rest : List (Scope F)} {u : Nat} {s : Stmt F} {es : List Err} {a' : Analyzer F}
    (hd : ¬ IsDecl s) (h : visitStatement fo ⟨v, sc :: rest, u⟩ s = .ok (es, a')) : ∃ o, a' = ⟨v, addOpt sc o :: rest, u⟩ := by
  cases s with
  | var => exact absurd trivial hd
  | gate l as g ops =>
    simp only [visitStatement, visitGateInstruction, bind_ok_iff] at h
    obtain ⟨r, -, h⟩ := h
    obtain ⟨es1, h⟩ := after_eq_ok h
    split at h
    · cases h; exact ⟨none, rfl⟩
    · split at h
      · cases h; exact ⟨none, rfl⟩
      · cases h
      · cases h
      · obtain ⟨ra, -, h⟩ := bind_ok_iff.1 h
        obtain ⟨es2, h⟩ := after_eq_ok h
        rw [catch_add] at h
        cases h
        exact ⟨some _, rfl⟩
  | nonGate l as n ops ps =>
    simp only [visitStatement, visitNonGateInstruction] at h
    split at h
    · cases h; exact ⟨none, rfl⟩
    · cases h
    · cases h
    · obtain ⟨ra, -, h⟩ := bind_ok_iff.1 h
      obtain ⟨es2, h⟩ := after_eq_ok h
      rw [catch_add] at h
      cases h
      exact ⟨some _, rfl⟩
  | asm l as n c =>
    simp only [visitStatement, visitAsmDeclaration] at h
    obtain ⟨ra, -, h⟩ := bind_ok_iff.1 h
    obtain ⟨es2, h⟩ := after_eq_ok h
    rw [catch_add] at h
    cases h
    exact ⟨some _, rfl⟩

theorem addOpt_statements (sc : Scope F) (o : Option (SStatement F)) :
    (addOpt sc o).block.statements = sc.block.statements ++ o.toList := by
  cases o <;> simp [addOpt, addTo]

theorem addOpt_variables (sc : Scope F) (o : Option (SStatement F)) : (addOpt sc o).variables = sc.variables := by
  cases o <;> rfl

theorem apply_statements (x : Effect F) (sc : Scope F) : (x.apply sc).block.statements = sc.block.statements ++ x.statements := by
  simp [Effect.apply, blockAfter_statements]

theorem apply_variables (x : Effect F) (sc : Scope F) : (x.apply sc).variables = sc.variables ++ x.variables := rfl

/-- What an instruction does depends on the tables only. -/
theorem instr_effect (s : Stmt F) (hd : ¬ IsDecl s) (scs0 : List (Scope F)) (u : Nat) :
    ∃ r : Res Empty (List Err × Option (SStatement F)), ∀ (v : Version) (sc : Scope F) (rest : List (Scope F)),
      (sc :: rest).map bare = scs0 →
      ∃ f : Option (SStatement F) → Scope F,
        visitStatement fo ⟨v, sc :: rest, u⟩ s = (r.bind fun x => .ok (x.1, ⟨v, f x.2 :: rest, u⟩)) ∧
        (∀ o, bare (f o) = bare sc) ∧ (∀ o, (f o).block.statements = sc.block.statements ++ o.toList) ∧
        ∀ o, (f o).variables = sc.variables := by
  obtain ⟨r, -, h⟩ := visitStatement_effect fo scs0 u s
  refine ⟨r.bind fun x => .ok (x.1, x.2.statements.head?), fun v sc rest hb => ⟨addOpt sc, ?_, bare_addOpt sc, addOpt_statements sc,
    addOpt_variables sc⟩⟩
  rw [h v sc rest hb]
  cases r with
  | ok x =>
    simp only [Res.bind_ok]
    have h := h v sc rest hb
    rw [Res.bind_ok] at h
    obtain ⟨o, ho⟩ := instr_adds hd h
    simp only [Analyzer.mk.injEq, List.cons.injEq, and_true, true_and] at ho
    have hs := apply_statements x.2 sc
    rw [ho.1, addOpt_statements] at hs
    have hs := List.append_cancel_left hs
    rw [ho.1, ho.2, ← hs]
    cases o <;> rfl
  | _ => rfl

end Qasm
