import Verif.Spec.Again
/-!
# Lemmas about analysing the same program again
-/

namespace Qasm

open Spec

variable {F : Type} {fo : FloatOps F} {ls : List (Level F)}

namespace Again

/-- The level has more variables, whose names mean nothing in the outer scopes. -/
structure Grows (ls : List (Level F)) (r r' : Level F) : Prop where
  functions : r'.functions = r.functions
  instructions : r'.instructions = r.instructions
  vars : ∃ new, r'.vars = r.vars ++ new ∧ ∀ x ∈ new, ∀ v, ¬ Seen x.1 v ls

theorem Grows.refl (r : Level F) : Grows ls r r := ⟨rfl, rfl, [], (List.append_nil _).symm, fun _ h => by cases h⟩

theorem seen {r r' : Level F} (h : Grows ls r r') {name : Str} {v : Value F} (hs : Seen name v (r :: ls)) :
    Seen name v (r' :: ls) := by
  obtain ⟨new, e, hn⟩ := h.vars
  cases hs with
  | @here _ _ older newer h1 h2 => exact .here (older := older) (newer := newer ++ new) (by rw [e, h1]; simp) h2
  | outer h1 h2 =>
    refine .outer ?_ h2
    rw [e, List.map_append, List.mem_append]
    rintro (h3 | h3)
    · exact h1 h3
    · obtain ⟨x, hx, rfl⟩ := List.mem_map.1 h3
      exact hn x hx v h2

theorem returns {r r' : Level F} (h : Grows ls r r') {name : Str} {args : List (Value F)} {v : Value F}
    (hr : Returns fo (r :: ls) name args v) : Returns fo (r' :: ls) name args v := by
  obtain ⟨g, f, args', h1, h2, h3⟩ := hr
  cases ls with
  | nil =>
    cases h1
    exact ⟨r', f, args', rfl, by rw [h.functions]; exact h2, h3⟩
  | cons l ls => exact ⟨g, f, args', by rw [List.getLast?_cons_cons] at h1 ⊢; exact h1, h2, h3⟩

theorem chosen {r r' : Level F} (h : Grows ls r r') {name : Str} {args args' : List (Value F)} {i : Instruction}
    (hc : ChosenInstr fo name args i args' (r :: ls)) : ChosenInstr fo name args i args' (r' :: ls) := by
  cases hc with
  | here h1 => exact .here (by rw [h.instructions]; exact h1)
  | outer h1 h2 => exact .outer (by rw [h.instructions]; exact h1) h2

mutual
theorem evalIn {r r' : Level F} (g : Grows ls r r') : ∀ {e : Expr F} {v : Value F}, EvalIn fo (r :: ls) e v → EvalIn fo (r' :: ls) e v
  | _, _, .boolLit l b => .boolLit l b
  | _, _, .intLit l b => .intLit l b
  | _, _, .floatLit l b => .floatLit l b
  | _, _, .ident h => .ident (seen g h)
  | _, _, .index h1 h2 h3 h4 => .index (evalIn g h1) h2 (indicesIn g h3) h4
  | _, _, .call h1 h2 => .call (argsIn g h1) (returns g h2)
  | _, _, .un h1 h2 => .un (evalIn g h1) (returns g h2)
  | _, _, .bin h1 h2 h3 => .bin (evalIn g h1) (evalIn g h2) (returns g h3)
  | _, _, .tern h1 h2 h3 h4 => .tern (evalIn g h1) (evalIn g h2) (evalIn g h3) (returns g h4)
theorem argsIn {r r' : Level F} (g : Grows ls r r') : ∀ {es : List (Expr F)} {vs : List (Value F)},
    ArgsIn fo (r :: ls) es vs → ArgsIn fo (r' :: ls) es vs
  | _, _, .nil => .nil
  | _, _, .cons h1 h2 => .cons (evalIn g h1) (argsIn g h2)
theorem indicesIn {r r' : Level F} (g : Grows ls r r') : ∀ {xs : List (IndexEntry F)} {is : List (Int64 × Option Loc)},
    IndicesIn fo (r :: ls) xs is → IndicesIn fo (r' :: ls) xs is
  | _, _, .nil => .nil
  | _, _, .cons h1 h2 => .cons (entryIn g h1) (indicesIn g h2)
theorem entryIn {r r' : Level F} (g : Grows ls r r') : ∀ {x : IndexEntry F} {is : List (Int64 × Option Loc)},
    EntryIn fo (r :: ls) x is → EntryIn fo (r' :: ls) x is
  | _, _, .item h1 h2 => .item (evalIn g h1) h2
  | _, _, .range h1 h2 h3 h4 h5 h6 => .range (evalIn g h1) h2 (evalIn g h3) h4 h5 h6
end

theorem annotationsIn {r r' : Level F} (g : Grows ls r r') {as : List (AnnotationData F)} {sas : List (SAnnotation F)}
    (h : AnnotationsIn fo (r :: ls) as sas) : AnnotationsIn fo (r' :: ls) as sas := by
  unfold AnnotationsIn at h ⊢
  induction h with
  | nil => exact .nil
  | cons h1 _ ih =>
    obtain ⟨a, b, c, d⟩ := h1
    refine .cons ⟨a, b, c, ?_⟩ ih
    revert d
    generalize AnnotationData.operands _ = x
    generalize SAnnotation.operands _ = y
    intro d
    induction d with
    | nil => exact .nil
    | cons h2 _ ih => exact .cons (evalIn g h2) ih

theorem gateHere {r r' : Level F} (g : Grows ls r r') {gt : Gate F} {n : Nat} {s : SGate F}
    (h : GateHere fo (r :: ls) gt n s) : GateHere fo (r' :: ls) gt n s := by
  induction h with
  | named h1 h2 h3 h4 => exact .named h1 (argsIn g h2) h3 (annotationsIn g h4)
  | modified h1 _ h3 h4 h5 ih => exact .modified h1 ih (argsIn g h3) h4 (annotationsIn g h5)

theorem instrIn {r r' : Level F} (g : Grows ls r r') {s : Stmt F} {t : SStatement F} (h : InstrIn fo (r :: ls) s t) :
    InstrIn fo (r' :: ls) s t := by
  cases h with
  | gate h1 h2 h3 h4 h5 => exact .gate (gateHere g h1) (argsIn g h2) (chosen g h3) h4 (annotationsIn g h5)
  | nonGate h1 h2 h3 h4 h5 h6 h7 => exact .nonGate (argsIn g h1) (chosen g h2) (argsIn g h3) h4 h5 h6 (annotationsIn g h7)
  | asm h => exact .asm (annotationsIn g h)

/-- The level after an analysis has more variables. -/
theorem grows {r r' : Level F} {u : Nat} {ss : List (Stmt F)} {vs : List (SVariable F)} {ts : List (SStatement F)}
    {bad : List (Stmt F × Err)} (h : AnalysisIn fo ls r u ss vs ts bad r') (hn : ∀ name ∈ declaredNames ss, ∀ v, ¬ Seen name v ls) :
    Grows ls r r' := by
  induction h with
  | nil => exact .refl _
  | decl _ _ _ ih =>
    obtain ⟨h1, h2, new, h3, h4⟩ := ih fun x hx => hn x (List.mem_cons_of_mem _ hx)
    refine ⟨h1, h2, _ :: new, h3.trans (List.append_assoc ..), fun x hx => ?_⟩
    rcases List.mem_cons.1 hx with rfl | hx
    · exact hn _ (List.mem_cons_self ..)
    · exact h4 x hx
  | instr h1 _ ih =>
    refine ih fun x hx => hn x ?_
    cases h1 <;> exact hx
  | badType _ _ _ ih | redeclared _ _ _ ih => exact ih fun x hx => hn x (List.mem_cons_of_mem _ hx)
  | @badInstr r u s ss vs ts bad r' e h1 _ _ _ ih =>
    refine ih fun x hx => hn x ?_
    cases s with
    | var => exact absurd trivial h1
    | _ => exact hx

/-- A second analysis of the same statements. -/
theorem again {r r' : Level F} {u : Nat} {ss : List (Stmt F)} {vs : List (SVariable F)} {ts : List (SStatement F)}
    (h : AnalysisIn fo ls r u ss vs ts [] r') (hn : ∀ name ∈ declaredNames ss, ∀ v, ¬ Seen name v ls) (w : Nat) :
    ∃ bad, AnalysisIn fo ls r' w ss (numbered w vs) ts bad r' ∧ bad.map (·.2) = redeclarations ss := by
  generalize hb : ([] : List (Stmt F × Err)) = bad at h
  induction h generalizing w with
  | nil => exact ⟨[], .nil, rfl⟩
  | @decl r u l as name typ ss t vs ts bad r' h1 h2 h3 ih =>
    subst hb
    have hn' := fun x hx => hn x (List.mem_cons_of_mem _ hx)
    obtain ⟨bad, h4, h5⟩ := ih hn' (w + 1) rfl
    obtain ⟨_, _, new, h6, _⟩ := grows h3 hn'
    refine ⟨(.var l as name typ, ⟨c!"trying to redeclare variable '" ++ name.name ++ c!"'", l⟩) :: bad, .redeclared h1 ?_ h4, ?_⟩
    · rw [h6]; simp
    · simp only [List.map_cons, h5]; rfl
  | instr h1 h2 ih =>
    subst hb
    have hn' : ∀ name ∈ declaredNames _, ∀ v, ¬ Seen name v ls := fun x hx => hn x (by cases h1 <;> exact hx)
    obtain ⟨bad, h4, h5⟩ := ih hn' w rfl
    exact ⟨bad, .instr (instrIn (grows h2 hn') h1) h4, by rw [h5]; cases h1 <;> rfl⟩
  | badType => cases hb
  | redeclared => cases hb
  | badInstr => cases hb

end Again

end Qasm
