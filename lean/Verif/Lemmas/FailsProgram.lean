import Verif.Lemmas.FailsStmt
import Verif.Lemmas.Accept
/-!
# Helper lemmas: the errors of whole programs
-/

namespace Qasm

open Spec Sem

variable {F : Type}

attribute [local irreducible] defaultInstrs defaultFns defaultVars

theorem visitStatement_of_fails {fo : FloatOps F} {D : List VarLink} (hD : DeclsOk D) (v : Version) (u : Nat) (b : SBlock F)
    (vars : List (SVariable F)) {s : Stmt F} (hs : ShapedStmt s) (hd : ¬ IsDecl s) {m : Str} {p : Option Loc}
    (h : StmtFails fo D s m p) :
    visitStatement fo (stateOf fo v D u b vars) s = .ok ([⟨m, p⟩], stateOf fo v D u b vars) := by
  have henv : EnvOk fo D (stateOf fo v D u b vars).scopes := stateOf_env hD v u b vars
  cases s with
  | var => exact absurd trivial hd
  | gate l as g es => rw [visitStatement]; exact visitGateInstruction_of_fails henv hs.2.1 h
  | nonGate l as name es ps => rw [visitStatement]; exact visitNonGate_of_fails henv hs.2.1 hs.2.2.1 h
  | asm => cases h

theorem visitStatement_fails {fo : FloatOps F} {D : List VarLink} (hD : DeclsOk D) (v : Version) (u : Nat) (b : SBlock F)
    (vars : List (SVariable F)) {s : Stmt F} (hs : ShapedStmt s) (hp : PlainStmt s) (hd : ¬ IsDecl s) {e : Err}
    {errs : List Err} {a' : Analyzer F} (h : visitStatement fo (stateOf fo v D u b vars) s = .ok (e :: errs, a')) :
    StmtFails fo D s e.message e.location := by
  have henv : EnvOk fo D (stateOf fo v D u b vars).scopes := stateOf_env hD v u b vars
  cases s with
  | var => exact absurd trivial hd
  | gate l as g es =>
    rw [visitStatement] at h
    exact visitGateInstruction_fails henv l as g es hs.2.1 hp (addStatement_total fo v D u b vars) h
  | nonGate l as name es ps =>
    rw [visitStatement] at h
    exact visitNonGate_fails henv l as name es ps hs.2.1 hs.2.2.1 hp (addStatement_total fo v D u b vars) h
  | asm l as name code =>
    have hp : as = [] := hp
    subst hp
    obtain ⟨a'', ha''⟩ := addStatement_total fo v D u b vars (.asm name code [] l)
    rw [visitStatement, visitAsmDeclaration] at h
    simp [visitAnnotations, ha'', catchInto, Log.after] at h

theorem visitBlock_errors {fo : FloatOps F} (v : Version) (ss : List (Stmt F)) (hs : ∀ s ∈ ss, ShapedStmt s)
    (hp : ∀ s ∈ ss, PlainStmt s) :
    ∀ (D : List VarLink) (u : Nat) (b : SBlock F) (vars : List (SVariable F)) (errs : List Err) (a' : Analyzer F), DeclsOk D →
    visitBlock fo (stateOf fo v D u b vars) ss = .ok (errs, a') → Errors fo D u ss errs := by
  induction ss with
  | nil => intro D u b vars errs a' _ h; cases h; exact .nil
  | cons s ss ih =>
    intro D u b vars errs a' hD h
    have ih := ih (fun s hs' => hs s (by simp [hs'])) (fun s hs' => hp s (by simp [hs']))
    have hs := hs s (by simp)
    have hp := hp s (by simp)
    rw [visitBlock] at h
    have rest : ∀ {es : List Err} {r : Res Empty (Log (Analyzer F))}, Log.after es r = .ok (errs, a') →
        ∃ es', r = .ok (es', a') ∧ errs = es ++ es' := by
      intro es r hr
      cases r with
      | ok x => cases hr; exact ⟨_, rfl, rfl⟩
      | err x => exact x.elim
      | exn c => cases hr
      | ub => cases hr
    by_cases hd : IsDecl s
    · cases s with
      | gate => exact hd.elim
      | nonGate => exact hd.elim
      | asm => exact hd.elim
      | var l as name typ =>
        have hp : as = [] := hp
        subst hp
        have ha : EvalAnnotations fo D ([] : List (AnnotationData F)) [] := .nil
        rcases visitVariable_spec hD v u b vars l [] name typ ha with ⟨t, g1, g2, g3⟩ | ⟨t, e, g1, g2, g4, g3⟩ | ⟨e, g1, g4, g3⟩
        · rw [g3, Res.bind_ok] at h
          obtain ⟨es', h1, rfl⟩ := rest h
          exact .decl g1 g2 (ih _ _ _ _ _ _ (declsOk_cons hD g1 g2) h1)
        · rw [g3, Res.bind_ok] at h
          obtain ⟨es', h1, rfl⟩ := rest h
          obtain ⟨_, rfl⟩ := g4
          exact .redeclared g1 g2 (.redeclared g1 g2) (ih _ _ _ _ _ _ hD h1)
        · obtain ⟨m, g5, g6⟩ := visitStatement_badType (fo := fo) (D := D) v u b vars l [] name typ g1
          rw [g6, Res.bind_ok] at h
          obtain ⟨es', h1, rfl⟩ := rest h
          exact .badType g1 g5 (ih _ _ _ _ _ _ hD h1)
    · rcases visitStatement_cases (fo := fo) hD v u b vars s hs hd with ⟨t, g1, g2⟩ | ⟨g1, g2⟩ | ⟨e, errs', a1, g1, g2⟩
      · rw [g1, Res.bind_ok] at h
        obtain ⟨es', h1, rfl⟩ := rest h
        exact .instr g2 (ih _ _ _ _ _ _ hD h1)
      · rw [g1] at h; cases h
      · have g3 := visitStatement_fails hD v u b vars hs hp hd g1
        obtain ⟨rfl, rfl, _⟩ := g2 hp
        rw [g1, Res.bind_ok] at h
        obtain ⟨es', h1, rfl⟩ := rest h
        exact .badInstr hd g3 (ih _ _ _ _ _ _ hD h1)

theorem visitBlock_of_errors {fo : FloatOps F} (v : Version) {ss : List (Stmt F)} {D : List VarLink} {u : Nat}
    {errs : List Err} (h : Errors fo D u ss errs) (hs : ∀ s ∈ ss, ShapedStmt s) (hp : ∀ s ∈ ss, PlainStmt s) :
    ∀ (b : SBlock F) (vars : List (SVariable F)), DeclsOk D →
    ∃ a', visitBlock fo (stateOf fo v D u b vars) ss = .ok (errs, a') := by
  induction h with
  | nil => intro b vars _; exact ⟨_, rfl⟩
  | @decl D u l as name typ ss t es h1 h2 _ ih =>
    intro b vars hD
    have ih := ih (fun s hs' => hs s (by simp [hs'])) (fun s hs' => hp s (by simp [hs']))
    have hp : as = [] := hp _ (List.mem_cons_self ..)
    subst hp
    have ha : EvalAnnotations fo D ([] : List (AnnotationData F)) [] := .nil
    rw [visitBlock]
    rcases visitVariable_spec hD v u b vars l [] name typ ha with ⟨t', g1, g2, g3⟩ | ⟨t', e, _, g2, _⟩ | ⟨e, g1, _⟩
    · have := typeOk_det h1 g1
      subst this
      obtain ⟨a', h3⟩ := ih b (vars ++ [⟨u, name.name, t, [], name.loc⟩]) (declsOk_cons hD g1 g2)
      rw [g3, Res.bind_ok]
      exact ⟨a', by simp only [h3]; rfl⟩
    · exact absurd h2 g2
    · exact absurd ⟨_, h1⟩ g1
  | @redeclared D u l as name typ ss t m p es h1 h2 h3 _ ih =>
    intro b vars hD
    have ih := ih (fun s hs' => hs s (by simp [hs'])) (fun s hs' => hp s (by simp [hs']))
    have hp : as = [] := hp _ (List.mem_cons_self ..)
    subst hp
    have ha : EvalAnnotations fo D ([] : List (AnnotationData F)) [] := .nil
    rw [visitBlock]
    rcases visitVariable_spec hD v u b vars l [] name typ ha with ⟨t', _, g2, _⟩ | ⟨t', e, g1, _, g4, g3⟩ | ⟨e, g1, _⟩
    · exact absurd g2 h2
    · obtain ⟨rfl, k1, _⟩ := declFails_message h3
      rw [k1 ⟨_, h1⟩]
      obtain ⟨_, rfl⟩ := g4
      obtain ⟨a', h3⟩ := ih b (vars ++ [⟨u, name.name, t', [], name.loc⟩]) hD
      rw [g3, Res.bind_ok]
      exact ⟨a', by simp only [h3]; rfl⟩
    · exact absurd ⟨_, h1⟩ g1
  | @badType D u l as name typ ss m p es h1 h2 _ ih =>
    intro b vars hD
    have ih := ih (fun s hs' => hs s (by simp [hs'])) (fun s hs' => hp s (by simp [hs']))
    obtain ⟨m', g5, g6⟩ := visitStatement_badType (fo := fo) (D := D) v u b vars l as name typ h1
    obtain ⟨rfl, _, k1⟩ := declFails_message h2
    obtain ⟨_, _, k2⟩ := declFails_message g5
    have : m = m' := by
      have := (k1 h1).symm.trans (k2 h1)
      injection this with this
      injection this
    subst this
    obtain ⟨a', h3⟩ := ih b vars hD
    rw [visitBlock, g6, Res.bind_ok]
    exact ⟨a', by simp only [h3]; rfl⟩
  | @instr D u s ss t es h1 _ ih =>
    intro b vars hD
    have ih := ih (fun s hs' => hs s (by simp [hs'])) (fun s hs' => hp s (by simp [hs']))
    obtain ⟨a', h3⟩ := ih (addTo b t) vars hD
    rw [visitBlock, visitStatement_of_ok hD v _ b vars h1, Res.bind_ok]
    exact ⟨a', by simp only [h3]; rfl⟩
  | badInstr hd h1 _ ih =>
    intro b vars hD
    have ih := ih (fun s hs' => hs s (by simp [hs'])) (fun s hs' => hp s (by simp [hs']))
    obtain ⟨a', h3⟩ := ih b vars hD
    rw [visitBlock, visitStatement_of_fails hD v _ b vars (hs _ (List.mem_cons_self ..)) hd h1, Res.bind_ok]
    exact ⟨a', by simp only [h3]; rfl⟩

/-! ## The version -/

theorem versionErrors_iff (v : Version) (node : VersionAst) (es : List Err) :
    VersionErrors v node es ↔ (visitVersion v node).1 = es := by
  have hp : ∀ w : Version, Version.print w = versionText w := fun w => joinStr_intercalate _ _
  by_cases h : VersionOk v node.items
  · rw [visitVersion_of_ok h]
    constructor
    · intro hv
      cases hv with
      | supported => rfl
      | negative h1 h2 => have := h.1 _ h1; omega
      | unsupported _ h2 => exact absurd h.2 h2
    · rintro rfl; exact .supported h
  · by_cases h1 : ∃ c ∈ node.items, c.toInt < 0
    · obtain ⟨c, hc, hlt⟩ := h1
      have : (visitVersion v node).1 = [⟨c!"invalid version component", node.loc⟩] := by
        unfold visitVersion
        rw [if_pos (List.any_eq_true.mpr ⟨c, hc, by simpa using (lt_zero_iff c).mpr hlt⟩)]
        rfl
      rw [this]
      constructor
      · intro hv
        cases hv with
        | supported hs => exact absurd hs h
        | negative => rfl
        | unsupported h2 => have := h2 _ hc; omega
      · rintro rfl; exact .negative hc hlt
    · have h2 : ∀ c ∈ node.items, 0 ≤ c.toInt := fun c hc => by
        have : ¬ c.toInt < 0 := fun hlt => h1 ⟨c, hc, hlt⟩
        omega
      have h3 : ¬ VersionSame node.items v := fun h3 => h ⟨h2, h3⟩
      have : (visitVersion v node).1 = [⟨c!"the only cQASM version supported is " ++ versionText v ++
          c!", but the cQASM file is version " ++ versionText node.items, node.loc⟩] := by
        unfold visitVersion
        rw [if_neg, if_pos, hp, hp]
        · rfl
        · have : Version.eq node.items v = false := by
            rw [← Bool.not_eq_true]; exact fun h => h3 ((C08_eq _ _).mp h)
          simp [this]
        · rw [List.any_eq_true]
          rintro ⟨c, hc, hlt⟩
          have := h2 c hc
          have := (lt_zero_iff c).mp (by simpa using hlt)
          omega
      rw [this]
      constructor
      · intro hv
        cases hv with
        | supported hs => exact absurd hs h
        | negative h4 h5 => exact absurd ⟨_, h4, h5⟩ h1
        | unsupported => rfl
      · rintro rfl; exact .unsupported h2 h3

end Qasm
