import Verif.Model.Compare
import Verif.Props.Order
/-!
# C110: comparing source locations
-/

namespace Qasm

open Spec Sem Syn

variable {F : Type} {fo : FloatOps F}

private theorem index_compare (a b : Index) :
    (a.compare b = .lt ↔ PosLe a b ∧ a ≠ b) ∧ (a.compare b = .eq ↔ a = b) ∧ (a.compare b = .gt ↔ PosLe b a ∧ a ≠ b) := by
  obtain ⟨l, c⟩ := a
  obtain ⟨m, d⟩ := b
  simp only [Index.compare, PosLe, ne_eq, Index.mk.injEq]
  rcases Nat.lt_trichotomy l m with h | h | h
  · rw [Nat.compare_eq_lt.2 h]
    refine ⟨⟨fun _ => by omega, fun _ => rfl⟩, ⟨nofun, fun _ => by omega⟩, ⟨nofun, fun _ => by omega⟩⟩
  · subst h
    rw [Nat.compare_eq_eq.2 rfl]
    rcases Nat.lt_trichotomy c d with h | h | h
    · rw [Nat.compare_eq_lt.2 h]
      refine ⟨⟨fun _ => by omega, fun _ => rfl⟩, ⟨nofun, fun _ => by omega⟩, ⟨nofun, fun _ => by omega⟩⟩
    · rw [Nat.compare_eq_eq.2 h]
      refine ⟨⟨nofun, fun _ => by omega⟩, ⟨fun _ => by omega, fun _ => rfl⟩, ⟨nofun, fun _ => by omega⟩⟩
    · rw [Nat.compare_eq_gt.2 h]
      refine ⟨⟨nofun, fun _ => by omega⟩, ⟨nofun, fun _ => by omega⟩, ⟨fun _ => by omega, fun _ => rfl⟩⟩
  · rw [Nat.compare_eq_gt.2 h]
    refine ⟨⟨nofun, fun _ => by omega⟩, ⟨nofun, fun _ => by omega⟩, ⟨fun _ => by omega, fun _ => rfl⟩⟩

private theorem index_same (a b : Index) : a.same b = true ↔ a = b := by
  obtain ⟨l, c⟩ := a
  obtain ⟨m, d⟩ := b
  simp [Index.same]

private theorem range_same (a b : Range) : a.same b = true ↔ a = b := by
  obtain ⟨l, c⟩ := a
  obtain ⟨m, d⟩ := b
  simp [Range.same, index_same]

/-- C110. Locations are equal exactly if they have the same file name, or both none, and the same range. -/
theorem C110_equal (a b : Loc) : a.same b = true ↔ a = b := by
  obtain ⟨l, c⟩ := a
  obtain ⟨m, d⟩ := b
  simp [Loc.same, range_same]

/-- C110. `a < b` exactly if `a` begins earlier in the text, or they begin together and `a` ends earlier. -/
theorem C110_less (a b : Loc) : a.less b = true ↔
    ¬ PosLe b.range.first a.range.first ∨ a.range.first = b.range.first ∧ ¬ PosLe b.range.last a.range.last := by
  obtain ⟨f, ⟨⟨l1, c1⟩, ⟨l2, c2⟩⟩⟩ := a
  obtain ⟨g, ⟨⟨m1, d1⟩, ⟨m2, d2⟩⟩⟩ := b
  have h1 := index_compare ⟨l1, c1⟩ ⟨m1, d1⟩
  have h2 := index_compare ⟨l2, c2⟩ ⟨m2, d2⟩
  simp only [Loc.less, Loc.compare, Range.compare, beq_iff_eq]
  cases h : Index.compare ⟨l1, c1⟩ ⟨m1, d1⟩ <;> cases h' : Index.compare ⟨l2, c2⟩ ⟨m2, d2⟩ <;>
    simp [h, h', PosLe, Ordering.then] at h1 h2 ⊢ <;> omega

private theorem index_swap (a b : Index) : b.compare a = (a.compare b).swap := by
  simp only [Index.compare, Ordering.swap_then, Nat.compare_swap]

private theorem lessEq_iff (a b : Loc) : a.lessEq b = true ↔ ¬ b.less a = true := by
  have h : b.compare a = (a.compare b).swap := by
    simp only [Loc.compare, Range.compare, Ordering.swap_then, ← index_swap]
  simp only [Loc.lessEq, Loc.less, h]
  cases a.compare b <;> decide

/-- C110. Locations of the same file are totally ordered, and the order agrees with `==`: exactly one of `a < b`, `a == b`,
`b < a` holds, and `a <= b` is `a < b` or `a == b`. -/
theorem C110_order (a b : Loc) (h : a.fileName = b.fileName) :
    (a.less b = true ∧ a.same b = false ∧ b.less a = false ∨ a.less b = false ∧ a.same b = true ∧ b.less a = false ∨
      a.less b = false ∧ a.same b = false ∧ b.less a = true) ∧
    (a.lessEq b = true ↔ a.less b = true ∨ a.same b = true) := by
  have e1 := C110_less a b
  have e2 := C110_less b a
  have e5 := C110_equal a b
  rw [lessEq_iff]
  obtain ⟨f, ⟨⟨l1, c1⟩, ⟨l2, c2⟩⟩⟩ := a
  obtain ⟨g, ⟨⟨m1, d1⟩, ⟨m2, d2⟩⟩⟩ := b
  simp only at h
  subst h
  simp only [PosLe, Loc.mk.injEq, Range.mk.injEq, Index.mk.injEq, true_and] at e1 e2 e5
  simp only [← Bool.not_eq_true, e1, e2, e5]
  omega

/-- C110, refuted across files: of two locations with the same range in different files neither is less, but they are not
equal. A sorted container of locations drops one of them. -/
theorem C110_files_refuted (f g : Option Str) (h : f ≠ g) (r : Range) :
    (Loc.mk f r).less ⟨g, r⟩ = false ∧ (Loc.mk g r).less ⟨f, r⟩ = false ∧ (Loc.mk f r).same ⟨g, r⟩ = false ∧
    (Loc.mk f r).lessEq ⟨g, r⟩ = true := by
  have e1 := C110_less ⟨f, r⟩ ⟨g, r⟩
  have e2 := C110_less ⟨g, r⟩ ⟨f, r⟩
  have e3 := C110_equal ⟨f, r⟩ ⟨g, r⟩
  have hp : ∀ i : Index, PosLe i i := fun i => .inr ⟨rfl, Nat.le_refl _⟩
  simp only [hp, not_true_eq_false, and_false, or_false, iff_false, Bool.not_eq_true] at e1 e2
  simp only [Loc.mk.injEq, h, false_and, iff_false, Bool.not_eq_true] at e3
  exact ⟨e1, e2, e3, (lessEq_iff _ _).2 (by rw [e2]; simp)⟩

/-- C110. Whatever the files, `<` is irreflexive and transitive, and of two locations with different ranges one is less.
Missing: locations of different files are ordered as well. -/
theorem C110_any_partial (a b c : Loc) :
    a.less a = false ∧ (a.less b = true → b.less c = true → a.less c = true) ∧
    (a.less b = false → b.less a = false → a.range = b.range) := by
  have e1 := C110_less a b
  have e2 := C110_less b a
  have e3 := C110_less b c
  have e4 := C110_less a c
  have e5 := C110_less a a
  obtain ⟨f, ⟨⟨l1, c1⟩, ⟨l2, c2⟩⟩⟩ := a
  obtain ⟨g, ⟨⟨m1, d1⟩, ⟨m2, d2⟩⟩⟩ := b
  obtain ⟨k, ⟨⟨n1, x1⟩, ⟨n2, x2⟩⟩⟩ := c
  simp only [← Bool.not_eq_true, e1, e2, e3, e4, e5]
  clear e1 e2 e3 e4 e5
  simp only [PosLe, Range.mk.injEq, Index.mk.injEq]
  refine ⟨by simp, fun h1 h2 => by omega, fun h1 h2 => by omega⟩

/-- A location that ends before another begins is less. -/
theorem less_of_before {a b : Loc} (h : Before (some a) (some b)) : a.less b = true := by
  obtain ⟨x, y, hx, hy, h1, h2, h3⟩ := h
  cases hx
  cases hy
  rw [C110_less]
  obtain ⟨f, ⟨⟨l1, c1⟩, ⟨l2, c2⟩⟩⟩ := a
  obtain ⟨g, ⟨⟨m1, d1⟩, ⟨m2, d2⟩⟩⟩ := b
  simp only [PosLe, ne_eq, Index.mk.injEq] at *
  omega

/-- C110. The errors of one analysis are reported in ascending order, so no two of them are at the same place, and sorting
them by location changes nothing. So are the instructions of the result. -/
theorem C110_ascending {v : Version} {a a' : Analyzer F} (ha : Analyzer.default fo v = .ok a) (an : Antlr F) {text : Str}
    {file : Option Str} {r : Result (SProgram F)} (h : analyzeString fo an a text file = .ok (a', r)) :
    (errorPlaces r).Pairwise (fun l m => ∃ x y, l = some x ∧ m = some y ∧ x.less y = true) ∧
    ∀ p, r.root = some p →
      (instructionPlaces p).Pairwise (fun l m => ∃ x y, l = some x ∧ m = some y ∧ x.less y = true) := by
  have key : ∀ {l m : Option Loc}, Before l m → ∃ x y, l = some x ∧ m = some y ∧ x.less y = true := by
    intro l m hb
    have hb' := hb
    obtain ⟨x, y, rfl, rfl, _⟩ := hb
    exact ⟨x, y, rfl, rfl, less_of_before hb'⟩
  exact ⟨(C96_errors ha an h).imp key, fun p hp => (C96_instructions ha an h hp).1.imp key⟩

/-! ## Examples -/

example : (Loc.mk (some c!"a.cq") ⟨⟨1, 9⟩, ⟨1, 10⟩⟩).less ⟨some c!"a.cq", ⟨⟨2, 1⟩, ⟨2, 3⟩⟩⟩ = true := rfl
example : (Loc.mk none ⟨⟨1, 9⟩, ⟨1, 10⟩⟩).less ⟨none, ⟨⟨1, 9⟩, ⟨1, 12⟩⟩⟩ = true := rfl
example : (Loc.mk none ⟨⟨1, 9⟩, ⟨1, 12⟩⟩).lessEq ⟨none, ⟨⟨1, 9⟩, ⟨1, 10⟩⟩⟩ = false := rfl
example : (Loc.mk (some c!"z.cq") ⟨⟨1, 1⟩, ⟨1, 2⟩⟩).less ⟨some c!"a.cq", ⟨⟨1, 2⟩, ⟨1, 3⟩⟩⟩ = true := rfl
example : Before (some (Loc.mk none ⟨⟨1, 9⟩, ⟨1, 10⟩⟩)) (some ⟨none, ⟨⟨1, 10⟩, ⟨1, 11⟩⟩⟩) :=
  ⟨_, _, rfl, rfl, .inr ⟨rfl, by decide⟩, by decide, .inr ⟨rfl, by decide⟩⟩

end Qasm
