import Verif.Spec.Layout
import Verif.Lemmas.Dressed
import Verif.Props.Parser
/-!
# Cutting token lists at separators
-/

namespace Qasm

open Spec TokKind

section generic

variable {α β : Type} {p : α → Bool}

theorem splitAt_ne (l : List α) : splitAt p l ≠ [] := by
  cases l with
  | nil => simp [splitAt]
  | cons a l =>
    simp only [splitAt]
    split
    · simp
    · split <;> simp

theorem splitAt_append {us : List α} (hu : ∀ a ∈ us, p a = false) (l : List α) :
    ∃ x xs, splitAt p l = x :: xs ∧ splitAt p (us ++ l) = (us ++ x) :: xs := by
  induction us with
  | nil =>
    cases h : splitAt p l with
    | nil => exact absurd h (splitAt_ne l)
    | cons x xs => exact ⟨x, xs, rfl, by simpa using h⟩
  | cons a us ih =>
    obtain ⟨x, xs, h1, h2⟩ := ih (fun b hb => hu b (List.mem_cons_of_mem _ hb))
    exact ⟨x, xs, h1, by simp [splitAt, hu a (List.mem_cons_self ..), h2]⟩

theorem pieces_nil : pieces p [] = [] := rfl

theorem pieces_sep {a : α} {l : List α} (h : p a = true) : pieces p (a :: l) = pieces p l := by
  simp [pieces, splitAt, h]

theorem pieces_seps {seps l : List α} (h : ∀ a ∈ seps, p a = true) : pieces p (seps ++ l) = pieces p l := by
  induction seps with
  | nil => rfl
  | cons a seps ih =>
    rw [List.cons_append, pieces_sep (h a (List.mem_cons_self ..)), ih (fun b hb => h b (List.mem_cons_of_mem _ hb))]

/-- The list is empty or starts with a separator. -/
def Fresh (p : α → Bool) (l : List α) : Prop := ∀ a, l.head? = some a → p a = true

theorem pieces_piece {us l : List α} (hne : us ≠ []) (hu : ∀ a ∈ us, p a = false) (hl : Fresh p l) :
    pieces p (us ++ l) = us :: pieces p l := by
  obtain ⟨x, xs, h1, h2⟩ := splitAt_append hu l
  unfold pieces
  rw [h1, h2]
  have hx : x = [] := by
    cases l with
    | nil => simp [splitAt] at h1; exact h1.1
    | cons a l =>
      have := hl a rfl
      simp [splitAt, this] at h1
      exact h1.1
  subst hx
  simp [hne]

theorem pieces_inv {l : List α} {x : List α} {xs : List (List α)} (h : pieces p l = x :: xs) :
    ∃ seps rest, l = seps ++ (x ++ rest) ∧ (∀ a ∈ seps, p a = true) ∧ x ≠ [] ∧ (∀ a ∈ x, p a = false) ∧ Fresh p rest ∧
      pieces p rest = xs := by
  induction l with
  | nil => simp [pieces_nil] at h
  | cons a l ih =>
    by_cases ha : p a = true
    · rw [pieces_sep ha] at h
      obtain ⟨seps, rest, rfl, h1, h2⟩ := ih h
      refine ⟨a :: seps, rest, rfl, ?_, h2⟩
      intro b hb
      rcases List.mem_cons.1 hb with rfl | hb
      · exact ha
      · exact h1 b hb
    · let us := (a :: l).takeWhile (fun b => !p b)
      let rest := (a :: l).dropWhile (fun b => !p b)
      have e : a :: l = us ++ rest := List.takeWhile_append_dropWhile.symm
      have hne : us ≠ [] := by simp [us, ha]
      have hu : ∀ b ∈ us, p b = false := by
        intro b hb
        have := List.all_eq_true.1 List.all_takeWhile b hb
        simpa using this
      have hf : Fresh p rest := by
        intro b hb
        have := List.head?_dropWhile_not (fun b => !p b) (a :: l)
        rw [show List.dropWhile (fun b => !p b) (a :: l) = rest from rfl, hb] at this
        simpa using this
      rw [e, pieces_piece hne hu hf] at h
      obtain ⟨rfl, rfl⟩ := List.cons.inj h
      exact ⟨[], rest, by simpa using e, by simp, hne, hu, hf, rfl⟩

theorem pieces_inv_nil {l : List α} (h : pieces p l = []) : ∀ a ∈ l, p a = true := by
  induction l with
  | nil => simp
  | cons a l ih =>
    by_cases ha : p a = true
    · rw [pieces_sep ha] at h
      intro b hb
      rcases List.mem_cons.1 hb with rfl | hb
      · exact ha
      · exact ih h b hb
    · obtain ⟨x, xs, h1, h2⟩ := splitAt_append (us := [a]) (p := p) (by simpa using ha) l
      unfold pieces at h
      rw [show a :: l = [a] ++ l from rfl, h2] at h
      simp at h

theorem splitAt_map {q : β → Bool} {f : α → β} (h : ∀ a, q (f a) = p a) (l : List α) :
    splitAt q (l.map f) = (splitAt p l).map (List.map f) := by
  induction l with
  | nil => rfl
  | cons a l ih =>
    simp only [List.map_cons, splitAt, h]
    by_cases hp : p a = true
    · simp [hp, ih]
    · simp only [hp, ih]
      cases splitAt p l <;> simp

theorem pieces_map {q : β → Bool} {f : α → β} (h : ∀ a, q (f a) = p a) (l : List α) :
    pieces q (l.map f) = (pieces p l).map (List.map f) := by
  unfold pieces
  rw [splitAt_map h, List.filter_map]
  congr 1
  apply List.filter_congr
  intro x _
  cases x <;> rfl

theorem pieces_replace {seps seps' a b : List α} (h : ∀ x ∈ seps, p x = true) (h' : ∀ x ∈ seps', p x = true)
    (hne : seps ≠ []) (hne' : seps' ≠ []) : pieces p (a ++ (seps ++ b)) = pieces p (a ++ (seps' ++ b)) := by
  induction hn : a.length using Nat.strongRecOn generalizing a with
  | _ n ih =>
    cases a with
    | nil => rw [List.nil_append, List.nil_append, pieces_seps h, pieces_seps h']
    | cons x a =>
      by_cases hx : p x = true
      · rw [List.cons_append, pieces_sep hx, List.cons_append, pieces_sep hx]
        exact ih a.length (by simp at hn; omega) rfl
      · let us := (x :: a).takeWhile (fun b => !p b)
        let rest := (x :: a).dropWhile (fun b => !p b)
        have e : x :: a = us ++ rest := List.takeWhile_append_dropWhile.symm
        have hune : us ≠ [] := by simp [us, hx]
        have hu : ∀ b ∈ us, p b = false := by
          intro b hb
          have := List.all_eq_true.1 List.all_takeWhile b hb
          simpa using this
        have hf : ∀ s : List α, (∀ y ∈ s, p y = true) → s ≠ [] → Fresh p (rest ++ (s ++ b)) := by
          intro s hs hsn y hy
          cases hr : rest with
          | nil =>
            rw [hr] at hy
            cases s with
            | nil => exact absurd rfl hsn
            | cons z s =>
              simp at hy; subst hy
              exact hs _ (List.mem_cons_self ..)
          | cons z zs =>
            have := List.head?_dropWhile_not (fun b => !p b) (x :: a)
            rw [show List.dropWhile (fun b => !p b) (x :: a) = rest from rfl, hr] at this
            rw [hr] at hy
            simp at this hy
            rw [← hy]; exact this
        have hlen : rest.length < n := by
          have := congrArg List.length e
          rw [List.length_append] at this
          have := List.length_pos_iff.2 hune
          omega
        rw [e, List.append_assoc, List.append_assoc, pieces_piece hune hu (hf _ h hne), pieces_piece hune hu (hf _ h' hne'),
          ih rest.length hlen rfl]

theorem pieces_end {seps a : List α} (h : ∀ x ∈ seps, p x = true) : pieces p (a ++ seps) = pieces p a := by
  by_cases hne : seps = []
  · simp [hne]
  · induction hn : a.length using Nat.strongRecOn generalizing a with
    | _ n ih =>
      cases a with
      | nil =>
        have := pieces_seps (l := []) h
        simpa using this
      | cons x a =>
        by_cases hx : p x = true
        · rw [List.cons_append, pieces_sep hx, pieces_sep hx]
          exact ih a.length (by simp at hn; omega) rfl
        · let us := (x :: a).takeWhile (fun b => !p b)
          let rest := (x :: a).dropWhile (fun b => !p b)
          have e : x :: a = us ++ rest := List.takeWhile_append_dropWhile.symm
          have hune : us ≠ [] := by simp [us, hx]
          have hu : ∀ b ∈ us, p b = false := by
            intro b hb
            have := List.all_eq_true.1 List.all_takeWhile b hb
            simpa using this
          have hf0 : Fresh p rest := by
            intro b hb
            have := List.head?_dropWhile_not (fun b => !p b) (x :: a)
            rw [show List.dropWhile (fun b => !p b) (x :: a) = rest from rfl, hb] at this
            simpa using this
          have hf : Fresh p (rest ++ seps) := by
            intro y hy
            cases hr : rest with
            | nil =>
              rw [hr] at hy
              cases seps with
              | nil => exact absurd rfl hne
              | cons z s =>
                simp at hy; subst hy
                exact h _ (List.mem_cons_self ..)
            | cons z zs =>
              rw [hr] at hy
              exact hf0 y (by rw [hr]; simpa using hy)
          have hlen : rest.length < n := by
            have := congrArg List.length e
            rw [List.length_append] at this
            have := List.length_pos_iff.2 hune
            omega
          rw [e, List.append_assoc, pieces_piece hune hu hf, pieces_piece hune hu hf0, ih rest.length hlen rfl]

end generic

/-! ## Programs as pieces -/

/-- The token is a separator. -/
def isSep (t : Token) : Bool := separatorKinds.contains t.kind

theorem isSep_iff {t : Token} : isSep t = true ↔ t.kind ∈ separatorKinds := by simp [isSep]

/-- What statements are made of. -/
theorem stmt_piece {us : List Token} {s : PStmt} (h : DerivesStmt us s) : us ≠ [] ∧ ∀ t ∈ us, isSep t = false := by
  refine ⟨Parser.stmt_ne h, fun t ht => ?_⟩
  have := Parser.stmt_end h t ht
  cases hs : isSep t with
  | false => rfl
  | true =>
    rw [isSep_iff] at hs
    exact absurd hs (fun hs => this (by
      simp only [separatorKinds, List.mem_cons, List.not_mem_nil, or_false] at hs
      rcases hs with hs | hs <;> simp [hs, Parser.endKinds]))

theorem block_pieces {R : List Token → PStmt → Prop} (hR : ∀ us s, R us s → DerivesStmt us s) {ts : List Token} {ss : List PStmt}
    (h : Block R ts ss) : ∃ us e, ts = us ++ [e] ∧ e.kind = eof ∧ Fresh isSep us ∧ Forall2 R (pieces isSep us) ss := by
  induction h with
  | nil hs he =>
    refine ⟨_, _, rfl, he, ?_, ?_⟩
    · intro a ha
      exact isSep_iff.2 (hs a (List.mem_of_head? ha))
    · have := pieces_seps (p := isSep) (l := []) (fun a ha => isSep_iff.2 (hs a ha))
      rw [List.append_nil] at this
      rw [this]
      exact .nil
  | @cons seps us vs s ss hs hne hr _ ih =>
    obtain ⟨vs', e, rfl, he, hf, hp⟩ := ih
    refine ⟨seps ++ us ++ vs', e, by simp, he, ?_, ?_⟩
    · intro a ha
      cases seps with
      | nil => exact absurd rfl hne
      | cons b seps =>
        simp at ha
        subst ha
        exact isSep_iff.2 (hs _ (List.mem_cons_self ..))
    · obtain ⟨h1, h2⟩ := stmt_piece (hR _ _ hr)
      rw [List.append_assoc, pieces_seps (fun a ha => isSep_iff.2 (hs a ha)), pieces_piece h1 h2 hf]
      exact .cons hr hp

theorem pieces_block {R : List Token → PStmt → Prop} {e : Token} (he : e.kind = eof) {xs : List (List Token)} {ss : List PStmt}
    (h : Forall2 R xs ss) : ∀ us, pieces isSep us = xs → Fresh isSep us → Block R (us ++ [e]) ss := by
  induction h with
  | nil =>
    intro us hp _
    exact .nil (fun t ht => isSep_iff.1 (pieces_inv_nil hp t ht)) he
  | @cons piece _ _ _ hr _ ih =>
    intro us hp hf
    obtain ⟨seps, rest, rfl, h1, h2, h3, h4, h5⟩ := pieces_inv hp
    have := Block.cons (seps := seps) (fun t ht => isSep_iff.1 (h1 t ht)) ?_ hr (ih rest h5 h4)
    · simpa using this
    · rintro rfl
      cases hx : piece with
      | nil => exact h2 hx
      | cons a x =>
        have := hf a (by simp [hx])
        rw [h3 a (by simp [hx])] at this
        cases this

theorem program_pieces {R : List Token → PStmt → Prop} (hR : ∀ us s, R us s → DerivesStmt us s) {ts : List Token} {pr : PProgram}
    (h : Program R ts pr) : ∃ us e v, ts = us ++ [e] ∧ e.kind = eof ∧ v.kind = version ∧ pr.version.kind = versionNumber ∧
      ∃ xs, pieces isSep us = [v, pr.version] :: xs ∧ Forall2 R xs pr.statements := by
  cases h with
  | @mk seps _ v n _ hs hv hn hb =>
    obtain ⟨us, e, rfl, he, hf, hp⟩ := block_pieces hR hb
    refine ⟨seps ++ v :: n :: us, e, v, by simp, he, hv, hn, _, ?_, hp⟩
    rw [pieces_seps (fun a ha => isSep_iff.2 (hs a ha))]
    refine pieces_piece (us := [_, _]) (by simp) ?_ hf
    intro t ht
    cases hs : isSep t with
    | false => rfl
    | true =>
      rw [isSep_iff] at hs
      simp only [separatorKinds, List.mem_cons, List.not_mem_nil, or_false] at hs ht
      rcases ht with rfl | rfl
      · rw [hv] at hs; simp at hs
      · rw [hn] at hs; simp at hs

theorem pieces_program {R : List Token → PStmt → Prop} {us : List Token} {e v n : Token} (he : e.kind = eof) (hv : v.kind = version)
    (hn : n.kind = versionNumber) {xs : List (List Token)} {ss : List PStmt} (hp : pieces isSep us = [v, n] :: xs)
    (h : Forall2 R xs ss) : Program R (us ++ [e]) ⟨n, ss⟩ := by
  obtain ⟨seps, rest, rfl, h1, -, -, h4, h5⟩ := pieces_inv hp
  have := Program.mk (fun t ht => isSep_iff.1 (h1 t ht)) hv hn (pieces_block he h rest h5 h4)
  simpa using this

theorem sameTokens {x y : List Token} (h : x.map (fun t => (t.kind, t.text)) = y.map (fun t => (t.kind, t.text))) :
    Forall2 SameToken x y := by
  induction x generalizing y with
  | nil => cases y <;> simp at h; exact .nil
  | cons a x ih =>
    cases y with
    | nil => simp at h
    | cons b y =>
      simp only [List.map_cons, List.cons.injEq, Prod.mk.injEq] at h
      exact .cons h.1 (ih h.2)

/-- The same pieces have the same trees, up to positions. -/
theorem chosen_same {xs ys : List (List Token)} {ss : List PStmt} (h : Forall2 Chosen xs ss)
    (he : xs.map (List.map fun t => (t.kind, t.text)) = ys.map (List.map fun t => (t.kind, t.text))) :
    ∃ ss', Forall2 Chosen ys ss' ∧ Forall2 DressedStmt ss ss' := by
  induction h generalizing ys with
  | nil => cases ys <;> simp at he; exact ⟨[], .nil, .nil⟩
  | cons h _ ih =>
    cases ys with
    | nil => simp at he
    | cons y ys =>
      rw [List.map_cons, List.map_cons, List.cons.injEq] at he
      obtain ⟨s', hs', ha⟩ := chosen_alike h (sameTokens he.1)
      obtain ⟨ss', hss', ha'⟩ := ih he.2
      exact ⟨s' :: ss', .cons hs' hss', .cons ha ha'⟩

/-- Two token lists with the same pieces have the same trees, up to positions. -/
theorem program_same_pieces {us us' : List Token} {e e' : Token} (he' : e'.kind = eof)
    (hp : (pieces isSep us).map (List.map fun t => (t.kind, t.text)) = (pieces isSep us').map (List.map fun t => (t.kind, t.text)))
    {pr : PProgram} (h : Program Chosen (us ++ [e]) pr) : ∃ pr', Program Chosen (us' ++ [e']) pr' ∧ DressedProgram pr pr' := by
  obtain ⟨us1, e1, v, h1, h2, h3, h4, xs, h5, h6⟩ := program_pieces (fun _ _ h => h.1) h
  obtain ⟨rfl, h1⟩ := List.append_inj' h1 rfl
  clear h1
  rw [h5] at hp
  cases hp' : pieces isSep us' with
  | nil => rw [hp'] at hp; simp at hp
  | cons y ys =>
    rw [hp', List.map_cons (a := y), List.map_cons, List.cons.injEq] at hp
    obtain ⟨hp1, hp2⟩ := hp
    have s1 := sameTokens hp1
    obtain ⟨v', y, rfl, hv', s1⟩ := forall2_cons_left s1
    obtain ⟨n', y, rfl, hn', s1⟩ := forall2_cons_left s1
    cases forall2_nil_left s1
    obtain ⟨ss', hss', ha⟩ := chosen_same h6 hp2
    exact ⟨⟨n', ss'⟩, pieces_program he' (hv'.1 ▸ h3) (hn'.1 ▸ h4) hp' hss', hn', ha⟩

end Qasm
