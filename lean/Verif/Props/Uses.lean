import Verif.Lemmas.Uses
import Verif.Lemmas.FrameScopes
import Verif.Lemmas.Analyze
import Verif.Spec.Sample
/-!
# A registered name concerns only programs that use it (C88)
-/

namespace Qasm

open Spec Sem Uses

variable {F : Type} {fo : FloatOps F} {X : List Key}

/-- **C88.** Registering a name does not change what the analysis of a program returns that does not use the name: neither the tree nor
the errors nor whether it is undefined. -/
theorem C88_registration {c : Call F} {k : Key} (hc : c.registers = some k) {a b : Analyzer F} (h : c.on a = .ok b) {p : ProgramAst F}
    (hp : Avoids [k] p) : outcome (analyze fo b p) = outcome (analyze fo a p) :=
  (Uses.analyze_same (call_other hc List.mem_cons_self h) p hp).outcome.symm

/-- The history without the names does the same on a similar analyser. -/
theorem answers_without {es : List (Event F)} {a b : Analyzer F} {rs : List (Result (SProgram F))} (h : Answers fo es a rs b) :
    ∀ {a' : Analyzer F}, Same X a a' → (∀ p, .analyze p ∈ es → Avoids X p) → ∃ b', Answers fo (without X es) a' rs b' ∧ Same X b b' := by
  induction h with
  | nil => intro a' hs _; exact ⟨a', .nil, hs⟩
  | @ok c es a b rs d h _ ih =>
    intro a' hs hp
    have hp' : ∀ p, .analyze p ∈ es → Avoids X p := fun p h => hp p (List.mem_cons_of_mem _ h)
    by_cases hr : (Event.call c).registersOneOf X = true
    · have hw : without X (.call c :: es) = without X es := by simp [without, hr]
      rw [hw]
      simp only [Event.registersOneOf] at hr
      split at hr
      · rename_i k hk
        exact ih ((call_other hk (List.contains_iff_mem.1 hr) h).symm.trans hs) hp'
      · cases hr
    · have hw : without X (.call c :: es) = .call c :: without X es := by simp [without, hr]
      rw [hw]
      have hk : ∀ k ∈ c.registers, k ∉ X := by
        intro k hk hx
        apply hr
        rw [Option.mem_def] at hk
        simp only [Event.registersOneOf, hk]
        exact List.contains_iff_mem.2 hx
      rcases call_same hk hs with ⟨b1, b1', h1, h2, h3⟩ | ⟨e, h1, h2⟩ | ⟨h1, h2⟩
      · rw [h] at h1
        cases h1
        obtain ⟨b', h4, h5⟩ := ih h3 hp'
        exact ⟨b', .ok h2 h4, h5⟩
      · rw [h] at h1; cases h1
      · rw [h] at h1; cases h1
  | @error c es a e rs d h _ ih =>
    intro a' hs hp
    have hp' : ∀ p, .analyze p ∈ es → Avoids X p := fun p h => hp p (List.mem_cons_of_mem _ h)
    by_cases hr : (Event.call c).registersOneOf X = true
    · have hw : without X (.call c :: es) = without X es := by simp [without, hr]
      rw [hw]
      exact ih hs hp'
    · have hw : without X (.call c :: es) = .call c :: without X es := by simp [without, hr]
      rw [hw]
      have hk : ∀ k ∈ c.registers, k ∉ X := by
        intro k hk hx
        apply hr
        rw [Option.mem_def] at hk
        simp only [Event.registersOneOf, hk]
        exact List.contains_iff_mem.2 hx
      rcases call_same hk hs with ⟨b1, b1', h1, h2, h3⟩ | ⟨e, h1, h2⟩ | ⟨h1, h2⟩
      · rw [h] at h1; cases h1
      · obtain ⟨b', h4, h5⟩ := ih hs hp'
        exact ⟨b', .error h2 h4, h5⟩
      · rw [h] at h1; cases h1
  | @analyze p es a b r rs d h _ ih =>
    intro a' hs hp
    have hw : without X (.analyze p :: es) = .analyze p :: without X es := rfl
    rw [hw]
    have ho := Uses.analyze_same (fo := fo) hs p (hp p List.mem_cons_self)
    rw [h] at ho
    generalize hr : analyze fo a' p = r' at ho
    cases ho with
    | ok h3 =>
      obtain ⟨b', h4, h5⟩ := ih h3 fun p h => hp p (List.mem_cons_of_mem _ h)
      exact ⟨b', .analyze hr h4, h5⟩

/-- **C88.** Whatever is done with an analyser, in any order: if no program uses the names `X`, all results are those of the history
without the registrations of these names. -/
theorem C88_history {es : List (Event F)} {a b : Analyzer F} {rs : List (Result (SProgram F))} (h : Answers fo es a rs b)
    (hp : ∀ p, .analyze p ∈ es → Avoids X p) : ∃ b', Answers fo (without X es) a rs b' :=
  (answers_without h (Same.refl a) hp).imp fun _ h => h.1

theorem registers_runs {c : Call F} {k : Key} (hc : c.registers = some k) {a : Analyzer F} (ha : a.scopes ≠ []) :
    (∃ b, c.on a = .ok b ∧ b.scopes.length = a.scopes.length) ∨ ∃ e, c.on a = .err e := by
  obtain ⟨v, ss, u⟩ := a
  cases c with
  | push => cases hc
  | pop => cases hc
  | var n x =>
    cases ss with
    | nil => exact absurd rfl ha
    | cons s ss =>
      simp only [Call.on, Analyzer.registerVariable, Analyzer.modifyCurrent, VariableTable.add]
      split
      · exact .inr ⟨_, rfl⟩
      · exact .inl ⟨_, rfl, rfl⟩
  | instruction i =>
    cases ss with
    | nil => exact absurd rfl ha
    | cons s ss => exact .inl ⟨_, rfl, rfl⟩
  | function n ps f =>
    have key : ∀ ss : List (Scope F), ss ≠ [] → ∃ ts, Analyzer.modifyLast (fun s => { s with fnTable := FnTable.add s.fnTable n ps f }) ss = .ok ts ∧
        ts.length = ss.length := by
      intro ss
      induction ss with
      | nil => intro h; exact absurd rfl h
      | cons s ss ih =>
        intro _
        cases ss with
        | nil => exact ⟨_, rfl, rfl⟩
        | cons t ss =>
          obtain ⟨ts, h1, h2⟩ := ih (by simp)
          refine ⟨s :: ts, ?_, by simp [h2]⟩
          rw [Analyzer.modifyLast, h1]; rfl
    obtain ⟨ts, h1, h2⟩ := key ss ha
    refine .inl ⟨⟨v, ts, u⟩, ?_, h2⟩
    simp only [Call.on, Analyzer.registerFunction, h1]
    rfl

theorem analyze_length {a b : Analyzer F} {p : ProgramAst F} {r : Result (SProgram F)} (ha : a.scopes ≠ [])
    (h : analyze fo a p = .ok (b, r)) : b.scopes.length = a.scopes.length := by
  obtain ⟨v, ss, u⟩ := a
  cases ss with
  | nil => exact absurd rfl ha
  | cons s ss =>
    obtain ⟨r, -, hr⟩ := visitBlock_effect fo p.block.statements ((s :: ss).map bare) u
    unfold analyze visitProgram at h
    rw [hr v s ss rfl] at h
    cases r with
    | err e => exact e.elim
    | exn c => cases h
    | ub => cases h
    | ok x =>
      simp only [Res.bind_ok] at h
      split at h
      · cases h
      · cases h; rfl

/-- The history with the names does the same on a similar analyser. -/
theorem answers_with {es : List (Event F)} : ∀ {a a' b' : Analyzer F} {rs : List (Result (SProgram F))}, Answers fo (without X es) a' rs b' →
    Same X a a' → (∀ p, .analyze p ∈ es → Avoids X p) → a.scopes ≠ [] → Kept a.scopes.length es → ∃ b, Answers fo es a rs b := by
  induction es with
  | nil => intro a a' b' rs h hs hp ha hk; cases h; exact ⟨a, .nil⟩
  | cons ev es ih =>
    intro a a' b' rs h hs hp ha hkept
    have hp' : ∀ p, .analyze p ∈ es → Avoids X p := fun p h => hp p (List.mem_cons_of_mem _ h)
    cases ev with
    | analyze p =>
      have hw : without X (.analyze p :: es) = .analyze p :: without X es := rfl
      rw [hw] at h
      cases h with
      | @analyze _ _ _ b r rs _ h1 h2 =>
        have ho := Uses.analyze_same (fo := fo) hs p (hp p List.mem_cons_self)
        rw [h1] at ho
        generalize hr : analyze fo a p = r' at ho
        cases ho with
        | @ok b1 _ _ h3 =>
          have hl := analyze_length ha hr
          obtain ⟨b, hb⟩ := ih h2 h3 hp' (fun h0 => ha (by rw [h0] at hl; exact List.eq_nil_of_length_eq_zero hl.symm))
            (by rw [hl]; simpa only [Kept] using hkept)
          exact ⟨b, .analyze hr hb⟩
    | call c =>
      by_cases hr : (Event.call c).registersOneOf X = true
      · have hw : without X (.call c :: es) = without X es := by simp [without, hr]
        rw [hw] at h
        simp only [Event.registersOneOf] at hr
        split at hr
        · rename_i k hk
          have hkept : Kept a.scopes.length es := by
            cases c with
            | push => cases hk
            | pop => cases hk
            | _ => simpa only [Kept] using hkept
          rcases registers_runs hk ha with ⟨b, h1, h2⟩ | ⟨e, h1⟩
          · obtain ⟨d, hd⟩ := ih h ((call_other hk (List.contains_iff_mem.1 hr) h1).symm.trans hs) hp'
              (fun h0 => ha (by rw [h0] at h2; exact List.eq_nil_of_length_eq_zero h2.symm)) (by rw [h2]; exact hkept)
            exact ⟨d, .ok h1 hd⟩
          · obtain ⟨d, hd⟩ := ih h hs hp' ha hkept
            exact ⟨d, .error h1 hd⟩
        · cases hr
      · have hw : without X (.call c :: es) = .call c :: without X es := by simp [without, hr]
        rw [hw] at h
        have hk : ∀ k ∈ c.registers, k ∉ X := by
          intro k hk hx
          apply hr
          rw [Option.mem_def] at hk
          simp only [Event.registersOneOf, hk]
          exact List.contains_iff_mem.2 hx
        cases h with
        | @ok _ _ _ b1' _ _ h1 h2 =>
          rcases call_same hk hs with ⟨b1, b1'', k1, k2, k3⟩ | ⟨e, k1, k2⟩ | ⟨k1, k2⟩
          · rw [h1] at k2
            cases k2
            have hl : b1.scopes ≠ [] ∧ Kept b1.scopes.length es := by
              cases hreg : c.registers with
              | some k =>
                rcases registers_runs hreg ha with ⟨b, m1, m2⟩ | ⟨e, m1⟩
                · rw [k1] at m1
                  cases m1
                  refine ⟨fun h0 => ha (by rw [h0] at m2; exact List.eq_nil_of_length_eq_zero m2.symm), ?_⟩
                  rw [m2]
                  cases c with
                  | push => cases hreg
                  | pop => cases hreg
                  | _ => simpa only [Kept] using hkept
                · rw [k1] at m1; cases m1
              | none =>
                cases c with
                | push => cases k1; exact ⟨by simp [Analyzer.pushScope], by simpa [Kept, Analyzer.pushScope] using hkept⟩
                | pop =>
                  simp only [Kept] at hkept
                  obtain ⟨v, ss, u⟩ := a
                  cases ss with
                  | nil => exact absurd rfl ha
                  | cons s ss =>
                    cases k1
                    refine ⟨?_, by simpa using hkept.2⟩
                    rintro h0
                    have h0 : ss = [] := h0
                    simp [h0] at hkept
                | _ => cases hreg
            obtain ⟨d, hd⟩ := ih h2 k3 hp' hl.1 hl.2
            exact ⟨d, .ok k1 hd⟩
          · rw [h1] at k2; cases k2
          · rw [h1] at k2; cases k2
        | @error _ _ _ e _ _ h1 h2 =>
          rcases call_same hk hs with ⟨b1, b1'', k1, k2, k3⟩ | ⟨e', k1, k2⟩ | ⟨k1, k2⟩
          · rw [h1] at k2; cases k2
          · have hkept : Kept a.scopes.length es := by
              cases c with
              | push => cases k1
              | pop =>
                obtain ⟨v, ss, u⟩ := a
                cases ss with
                | nil => cases k1
                | cons s ss => cases k1
              | _ => simpa only [Kept] using hkept
            obtain ⟨d, hd⟩ := ih h2 hs hp' ha hkept
            exact ⟨d, .error k1 hd⟩
          · rw [h1] at k2; cases k2

/-- **C88.** The other direction: as long as a scope is left, registering names that no program uses does no harm. -/
theorem C88_harmless {es : List (Event F)} {a b : Analyzer F} {rs : List (Result (SProgram F))} (h : Answers fo (without X es) a rs b)
    (hp : ∀ p, .analyze p ∈ es → Avoids X p) (ha : a.scopes ≠ []) (hk : Kept a.scopes.length es) : ∃ b', Answers fo es a rs b' :=
  answers_with h (Same.refl a) hp ha hk

/-! ## Order -/

theorem same_nil {k k' : Key} (hk : k ≠ k') {a b : Analyzer F} (h : Same [k] a b) (h' : Same [k'] a b) : Same [] a b := by
  refine ⟨h.version, h.uid, ?_⟩
  have h1 := h.scopes
  have h2 := h'.scopes
  clear h h'
  generalize a.scopes = ss at h1 h2
  generalize b.scopes = ts at h1 h2
  have key : ∀ x : Key, x ∉ [k] ∨ x ∉ [k'] := by
    intro x
    by_cases hx : x = k
    · right; simpa [hx] using hk
    · left; simpa using hx
  induction h1 with
  | nil => exact .nil
  | cons h _ ih =>
    cases h2 with
    | cons h' hs =>
      refine .cons ⟨h.block, h.variables, fun n _ => ?_, fun n _ => ?_, fun n _ => ?_⟩ (ih hs)
      · rcases key (.value, n) with hx | hx
        · exact h.values n hx
        · exact h'.values n hx
      · rcases key (.function, n) with hx | hx
        · exact h.functions n hx
        · exact h'.functions n hx
      · rcases key (.instruction, n) with hx | hx
        · exact h.instructions n hx
        · exact h'.instructions n hx

theorem without_nil (es : List (Event F)) : without [] es = es := by
  unfold without
  rw [List.filter_eq_self]
  intro e _
  cases e with
  | analyze p => rfl
  | call c => simp only [Event.registersOneOf]; split <;> rfl

theorem answers_same {es : List (Event F)} {a a' b : Analyzer F} {rs : List (Result (SProgram F))} (h : Answers fo es a rs b)
    (hs : Same [] a a') : ∃ b', Answers fo es a' rs b' ∧ Same [] b b' := by
  have := answers_without h hs fun p _ s _ k _ => List.not_mem_nil
  rwa [without_nil] at this

theorem answers_append {es fs : List (Event F)} {a b : Analyzer F} {rs : List (Result (SProgram F))} :
    Answers fo (es ++ fs) a rs b ↔ ∃ rs1 rs2 d, Answers fo es a rs1 d ∧ Answers fo fs d rs2 b ∧ rs = rs1 ++ rs2 := by
  constructor
  · intro h
    induction es generalizing a rs with
    | nil => exact ⟨[], rs, a, .nil, h, rfl⟩
    | cons e es ih =>
      cases h with
      | ok h1 h2 => obtain ⟨rs1, rs2, d, h3, h4, h5⟩ := ih h2; exact ⟨rs1, rs2, d, .ok h1 h3, h4, h5⟩
      | error h1 h2 => obtain ⟨rs1, rs2, d, h3, h4, h5⟩ := ih h2; exact ⟨rs1, rs2, d, .error h1 h3, h4, h5⟩
      | analyze h1 h2 =>
        obtain ⟨rs1, rs2, d, h3, h4, h5⟩ := ih h2
        exact ⟨_ :: rs1, rs2, d, .analyze h1 h3, h4, by rw [h5]; rfl⟩
  · rintro ⟨rs1, rs2, d, h1, h2, rfl⟩
    induction h1 with
    | nil => exact h2
    | ok h _ ih => exact .ok h (ih h2)
    | error h _ ih => exact .error h (ih h2)
    | analyze h _ ih => exact .analyze h (ih h2)

/-- Two registrations in the other order. -/
theorem calls_swap {c d : Call F} {k k' : Key} (hc : c.registers = some k) (hd : d.registers = some k') (hk : k ≠ k') {es : List (Event F)}
    {a b : Analyzer F} {rs : List (Result (SProgram F))} (h : Answers fo (.call c :: .call d :: es) a rs b) :
    ∃ b', Answers fo (.call d :: .call c :: es) a rs b' := by
  have hc' : ∀ x ∈ c.registers, x ∉ [k'] := by
    intro x hx
    rw [hc, Option.mem_def] at hx
    cases hx
    simpa using hk
  have hd' : ∀ x ∈ d.registers, x ∉ [k] := by
    intro x hx
    rw [hd, Option.mem_def] at hx
    cases hx
    simpa using hk.symm
  cases h with
  | @ok _ _ _ a1 _ _ h1 h2 =>
    have s1 : Same [k] a a1 := call_other hc List.mem_cons_self h1
    cases h2 with
    | @ok _ _ _ a2 _ _ h3 h4 =>
      rcases call_same hd' s1 with ⟨b1, x, k1, k2, k3⟩ | ⟨e, k1, k2⟩ | ⟨k1, k2⟩
      · rw [h3] at k2
        cases k2
        have s2 : Same [k'] a b1 := call_other hd List.mem_cons_self k1
        rcases call_same hc' s2 with ⟨y, b2, m1, m2, m3⟩ | ⟨e, m1, m2⟩ | ⟨m1, m2⟩
        · rw [h1] at m1
          cases m1
          have s3 : Same [k] a2 b2 := k3.symm.trans (call_other hc List.mem_cons_self m2)
          have s4 : Same [k'] a2 b2 := (call_other hd List.mem_cons_self h3).symm.trans m3
          obtain ⟨b', h5, -⟩ := answers_same h4 (same_nil hk s3 s4)
          exact ⟨b', .ok k1 (.ok m2 h5)⟩
        · rw [h1] at m1; cases m1
        · rw [h1] at m1; cases m1
      · rw [h3] at k2; cases k2
      · rw [h3] at k2; cases k2
    | @error _ _ _ e _ _ h3 h4 =>
      rcases call_same hd' s1 with ⟨b1, x, k1, k2, k3⟩ | ⟨e, k1, k2⟩ | ⟨k1, k2⟩
      · rw [h3] at k2; cases k2
      · exact ⟨b, .error k1 (.ok h1 h4)⟩
      · rw [h3] at k2; cases k2
  | @error _ _ _ e _ _ h1 h2 =>
    cases h2 with
    | @ok _ _ _ a2 _ _ h3 h4 =>
      have s2 : Same [k'] a a2 := call_other hd List.mem_cons_self h3
      rcases call_same hc' s2 with ⟨y, b2, m1, m2, m3⟩ | ⟨e, m1, m2⟩ | ⟨m1, m2⟩
      · rw [h1] at m1; cases m1
      · exact ⟨b, .ok h3 (.error m2 h4)⟩
      · rw [h1] at m1; cases m1
    | @error _ _ _ e' _ _ h3 h4 => exact ⟨b, .error h3 (.error h1 h4)⟩

/-- **C88.** Names of different sorts, or different names, can be registered in either order, at any time: all results are the same. -/
theorem C88_order {c d : Call F} {k k' : Key} (hc : c.registers = some k) (hd : d.registers = some k') (hk : k ≠ k')
    {es fs : List (Event F)} {a b : Analyzer F} {rs : List (Result (SProgram F))}
    (h : Answers fo (es ++ .call c :: .call d :: fs) a rs b) : ∃ b', Answers fo (es ++ .call d :: .call c :: fs) a rs b' := by
  obtain ⟨rs1, rs2, x, h1, h2, rfl⟩ := answers_append.1 h
  obtain ⟨b', h3⟩ := calls_swap hc hd hk h2
  exact ⟨b', answers_append.2 ⟨rs1, rs2, x, h1, h3, rfl⟩⟩

/-! ## Examples -/

namespace Sample

/-- The messages of every analysis in a history, if all of it returns. -/
def history (es : List (Event Int)) (a : Analyzer Int) : Option (List (List Str)) :=
  match es with
  | [] => some []
  | .call c :: es =>
    match c.on a with
    | .ok b => history es b
    | .err _ => history es a
    | _ => none
  | .analyze p :: es =>
    match analyze Sample.fo a p with
    | .ok (b, r) => (history es b).map ((r.errors.map Err.message) :: ·)
    | _ => none

/-- `history` follows `Answers`. -/
theorem history_answers {es : List (Event Int)} : ∀ {a : Analyzer Int} {ms : List (List Str)}, history es a = some ms →
    ∃ rs b, Answers Sample.fo es a rs b ∧ rs.map (·.errors.map Err.message) = ms := by
  induction es with
  | nil => intro a ms h; cases h; exact ⟨[], a, .nil, rfl⟩
  | cons e es ih =>
    intro a ms h
    cases e with
    | call c =>
      simp only [history] at h
      split at h
      · rename_i b hb
        obtain ⟨rs, d, h1, h2⟩ := ih h
        exact ⟨rs, d, .ok hb h1, h2⟩
      · rename_i b hb
        obtain ⟨rs, d, h1, h2⟩ := ih h
        exact ⟨rs, d, .error hb h1, h2⟩
      · cases h
    | analyze p =>
      simp only [history] at h
      split at h
      · rename_i b r hb
        cases hh : history es b with
        | none => rw [hh] at h; cases h
        | some ms' =>
          rw [hh] at h
          cases h
          obtain ⟨rs, d, h1, h2⟩ := ih hh
          exact ⟨r :: rs, d, .analyze hb h1, by simp [h2]⟩
      · cases h

/-- `history` on a default analyser. -/
def fromDefault (es : List (Event Int)) : Option (List (List Str)) :=
  match Analyzer.default Sample.fo [3, 0] with
  | .ok a => history es a
  | _ => none

/-- A constant, a function and an instruction. -/
def threeNames : List (Event Int) :=
  [.call (.var c!"q" ⟨.constInt 3, none⟩), .call (.function c!"sin" [.bare .int] fun _ => .err ⟨c!"no", none⟩),
    .call (.instruction ⟨c!"H", [.bare .bit]⟩)]

/-- The keys of `threeNames`. -/
def registeredNames : List Key := [(.value, c!"q"), (.function, c!"sin"), (.instruction, c!"H")]

/-- A program with an error that uses none of these names. -/
def stranger : ProgramAst Int := program [qubits c!"r" 2, gate c!"X" [] [at_ c!"r" 7], gate c!"Rx" [.call none c!"cos" [name c!"pi"]] [name c!"r"]]

/-- A program that uses all of `registeredNames`. -/
def taker : ProgramAst Int := program [bits c!"b" 2, gate c!"H" [] [name c!"b"], gate c!"Rx" [.call none c!"sin" [name c!"q"]] [name c!"b"]]

end Sample

open Sample in
/-- C88: the registrations change nothing for `stranger`, but a lot for `taker`. -/
example : Avoids registeredNames stranger ∧ ¬ Avoids registeredNames taker ∧ without registeredNames (threeNames ++ [.analyze stranger]) = [.analyze stranger] ∧
    Kept 1 (threeNames ++ [.analyze stranger]) := by
  refine ⟨?_, ?_, rfl, trivial⟩
  · unfold Avoids; decide +kernel
  · unfold Avoids; decide +kernel

open Sample in
example : fromDefault (threeNames ++ [.analyze stranger]) = fromDefault [.analyze stranger] ∧
    (fromDefault [.analyze stranger]).map (·.map List.length) = some [1] ∧
    fromDefault (threeNames ++ [.analyze taker]) ≠ fromDefault [.analyze taker] := by
  decide +kernel

open Sample in
/-- C88: with the same name the order matters; the registration that came last is found. -/
example : fromDefault [.call (.var c!"k" ⟨.constInt 1, none⟩), .call (.var c!"k" ⟨.constInt 0, none⟩),
      .analyze (program [qubits c!"r" 2, gate c!"X" [] [.index none (name c!"r") [.item none (.bin none .div (int 1) (name c!"k"))]]])] ≠
    fromDefault [.call (.var c!"k" ⟨.constInt 0, none⟩), .call (.var c!"k" ⟨.constInt 1, none⟩),
      .analyze (program [qubits c!"r" 2, gate c!"X" [] [.index none (name c!"r") [.item none (.bin none .div (int 1) (name c!"k"))]]])] := by
  decide +kernel

end Qasm
