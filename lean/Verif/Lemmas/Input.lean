import Verif.Model.Input
/-!
# Helper lemmas: decoding inverts encoding
-/

namespace Qasm.Input

theorem char_toNat_ofNat {n : Nat} (h : n < 0xD800 ∨ 0xDFFF < n) (h' : n < 0x110000) : (Char.ofNat n).toNat = n := by
  have : n.isValidChar := by unfold Nat.isValidChar; omega
  simp [Char.ofNat, this, Char.toNat, Char.ofNatAux]

theorem toNat_ofNat_lt {n : Nat} (h : n < 256) : (UInt8.ofNat n).toNat = n := by
  simp [UInt8.toNat_ofNat', Nat.mod_eq_of_lt h]

theorem char_valid (c : Char) : (c.toNat < 0xD800 ∨ 0xDFFF < c.toNat) ∧ c.toNat < 0x110000 := by
  have := c.valid
  simp only [UInt32.isValidChar, Nat.isValidChar] at this
  unfold Char.toNat
  omega

theorem scalar_toNat (c : Char) {least : Nat} (h : least ≤ c.toNat) : scalar least c.toNat = some c := by
  have := char_valid c
  rw [scalar, if_pos ⟨h, this⟩, Char.ofNat_toNat]

theorem scalar_some {least n : Nat} {c : Char} (h : scalar least n = some c) : least ≤ n ∧ c.toNat = n := by
  unfold scalar at h
  split at h
  · rename_i g
    cases h
    exact ⟨g.1, char_toNat_ofNat g.2.1 g.2.2⟩
  · cases h

theorem cont_some {b : UInt8} {y : Nat} (h : cont b = some y) : b.toNat = 0x80 + y ∧ y < 64 := by
  unfold cont at h
  split at h
  · simp only [Option.some.injEq] at h; omega
  · cases h

theorem cont_ofNat {y : Nat} (h : y < 64) : cont (UInt8.ofNat (y + 128)) = some y := by
  unfold cont
  rw [toNat_ofNat_lt (by omega), if_pos (by omega)]
  simp

theorem utf8_eq (c : Char) : String.utf8EncodeChar c =
    if c.toNat ≤ 0x7f then [UInt8.ofNat c.toNat]
    else if c.toNat ≤ 0x7ff then [UInt8.ofNat (c.toNat / 64 % 32 + 192), UInt8.ofNat (c.toNat % 64 + 128)]
    else if c.toNat ≤ 0xffff then
      [UInt8.ofNat (c.toNat / 4096 % 16 + 224), UInt8.ofNat (c.toNat / 64 % 64 + 128), UInt8.ofNat (c.toNat % 64 + 128)]
    else [UInt8.ofNat (c.toNat / 262144 % 8 + 240), UInt8.ofNat (c.toNat / 4096 % 64 + 128), UInt8.ofNat (c.toNat / 64 % 64 + 128),
      UInt8.ofNat (c.toNat % 64 + 128)] := by
  rfl

theorem decodeChar_encode (c : Char) (bs : Bytes) : decodeChar (String.utf8EncodeChar c ++ bs) = some (c, bs) := by
  have hv := char_valid c
  rw [utf8_eq]
  split
  · simp only [List.cons_append, List.nil_append, decodeChar]
    rw [toNat_ofNat_lt (by omega), if_pos (by omega), scalar_toNat c (by omega)]
    rfl
  · split
    · simp only [List.cons_append, List.nil_append, decodeChar]
      rw [toNat_ofNat_lt (by omega), if_neg (by omega), if_pos (by omega), cont_ofNat (by omega)]
      simp only [Option.bind_eq_bind, Option.bind_some]
      rw [show (c.toNat / 64 % 32 + 192 - 192) * 64 + c.toNat % 64 = c.toNat by omega, scalar_toNat c (by omega)]
      rfl
    · split
      · simp only [List.cons_append, List.nil_append, decodeChar]
        rw [toNat_ofNat_lt (by omega), if_neg (by omega), if_neg (by omega), if_pos (by omega), cont_ofNat (by omega),
          cont_ofNat (by omega)]
        simp only [Option.bind_eq_bind, Option.bind_some]
        rw [show ((c.toNat / 4096 % 16 + 224 - 224) * 64 + c.toNat / 64 % 64) * 64 + c.toNat % 64 = c.toNat by omega,
          scalar_toNat c (by omega)]
        rfl
      · simp only [List.cons_append, List.nil_append, decodeChar]
        rw [toNat_ofNat_lt (by omega), if_neg (by omega), if_neg (by omega), if_neg (by omega), if_pos (by omega),
          cont_ofNat (by omega), cont_ofNat (by omega), cont_ofNat (by omega)]
        simp only [Option.bind_eq_bind, Option.bind_some]
        rw [show (((c.toNat / 262144 % 8 + 240 - 240) * 64 + c.toNat / 4096 % 64) * 64 + c.toNat / 64 % 64) * 64 + c.toNat % 64
          = c.toNat by omega, scalar_toNat c (by omega)]
        rfl

theorem eq_ofNat {b : UInt8} {n : Nat} (h : b.toNat = n) : b = UInt8.ofNat n := by
  rw [← h, UInt8.ofNat_toNat]

theorem decodeChar_some {bs rest : Bytes} {c : Char} (h : decodeChar bs = some (c, rest)) :
    bs = String.utf8EncodeChar c ++ rest := by
  cases bs with
  | nil => cases h
  | cons a bs =>
    have ha := a.toNat_lt
    have hv := char_valid c
    simp only [decodeChar] at h
    rw [utf8_eq]
    split at h
    · simp only [Option.map_eq_some_iff, Prod.mk.injEq] at h
      obtain ⟨c', h1, rfl, rfl⟩ := h
      obtain ⟨h2, h3⟩ := scalar_some h1
      rw [if_pos (by omega), eq_ofNat (show a.toNat = c'.toNat from h3.symm)]
      rfl
    · split at h
      · cases bs with
        | nil => cases h
        | cons b bs =>
          simp only [Option.bind_eq_bind, Option.bind_eq_some_iff, Option.map_eq_some_iff, Prod.mk.injEq] at h
          obtain ⟨y, hy, c', h1, rfl, rfl⟩ := h
          obtain ⟨h2, h3⟩ := scalar_some h1
          have hy := cont_some hy
          rw [if_neg (by omega), if_pos (by omega),
            eq_ofNat (show a.toNat = c'.toNat / 64 % 32 + 192 by omega), eq_ofNat (show b.toNat = c'.toNat % 64 + 128 by omega)]
          rfl
      · split at h
        · match bs, h with
          | b :: c0 :: bs, h =>
            simp only [Option.bind_eq_bind, Option.bind_eq_some_iff, Option.map_eq_some_iff, Prod.mk.injEq] at h
            obtain ⟨y, hy, z, hz, c', h1, rfl, rfl⟩ := h
            obtain ⟨h2, h3⟩ := scalar_some h1
            have hy := cont_some hy
            have hz := cont_some hz
            rw [if_neg (by omega), if_neg (by omega), if_pos (by omega),
              eq_ofNat (show a.toNat = c'.toNat / 4096 % 16 + 224 by omega),
              eq_ofNat (show b.toNat = c'.toNat / 64 % 64 + 128 by omega), eq_ofNat (show c0.toNat = c'.toNat % 64 + 128 by omega)]
            rfl
        · split at h
          · match bs, h with
            | b :: c0 :: d :: bs, h =>
              simp only [Option.bind_eq_bind, Option.bind_eq_some_iff, Option.map_eq_some_iff, Prod.mk.injEq] at h
              obtain ⟨y, hy, z, hz, w, hw, c', h1, rfl, rfl⟩ := h
              obtain ⟨h2, h3⟩ := scalar_some h1
              have hy := cont_some hy
              have hz := cont_some hz
              have hw := cont_some hw
              rw [if_neg (by omega), if_neg (by omega), if_neg (by omega),
                eq_ofNat (show a.toNat = c'.toNat / 262144 % 8 + 240 by omega),
                eq_ofNat (show b.toNat = c'.toNat / 4096 % 64 + 128 by omega),
                eq_ofNat (show c0.toNat = c'.toNat / 64 % 64 + 128 by omega), eq_ofNat (show d.toNat = c'.toNat % 64 + 128 by omega)]
              rfl
          · cases h

theorem encode_ne_nil (c : Char) : String.utf8EncodeChar c ≠ [] := by
  rw [utf8_eq]
  split
  · simp
  · split
    · simp
    · split <;> simp

theorem decodeAll_encode (t : Str) : ∀ n, (utf8 t).length ≤ n → decodeAll n (utf8 t) = some t := by
  induction t with
  | nil => intro n _; cases n <;> rfl
  | cons c t ih =>
    intro n hn
    have hu : utf8 (c :: t) = String.utf8EncodeChar c ++ utf8 t := by simp [utf8]
    rw [hu] at hn ⊢
    cases he : String.utf8EncodeChar c with
    | nil => exact absurd he (encode_ne_nil c)
    | cons b bs =>
      rw [he] at hn
      have hd := decodeChar_encode c (utf8 t)
      rw [he] at hd
      cases n with
      | zero => simp at hn
      | succ n =>
        simp only [List.cons_append] at hd ⊢
        rw [decodeAll, hd]
        simp only [Option.bind_eq_bind, Option.bind_some]
        rw [ih n (by simp at hn; omega)]
        rfl

theorem decodeAll_some {t : Str} : ∀ {n : Nat} {bs : Bytes}, decodeAll n bs = some t → bs = utf8 t := by
  induction t with
  | nil =>
    intro n bs h
    cases bs with
    | nil => rfl
    | cons b bs =>
      cases n with
      | zero => cases h
      | succ n =>
        rw [decodeAll] at h
        cases hd : decodeChar (b :: bs) with
        | none => rw [hd] at h; cases h
        | some x => rw [hd] at h; simp at h
  | cons c t ih =>
    intro n bs h
    cases bs with
    | nil => cases n <;> cases h
    | cons b bs =>
      cases n with
      | zero => cases h
      | succ n =>
        rw [decodeAll] at h
        cases hd : decodeChar (b :: bs) with
        | none => rw [hd] at h; cases h
        | some x =>
          obtain ⟨c', rest⟩ := x
          rw [hd] at h
          simp only [Option.bind_eq_bind, Option.bind_some, Option.map_eq_some_iff, List.cons.injEq] at h
          obtain ⟨t', h1, rfl, rfl⟩ := h
          rw [decodeChar_some hd, ih h1]
          simp [utf8]

theorem decodeAll_iff (bs : Bytes) (t : Str) : decodeAll bs.length bs = some t ↔ bs = utf8 t :=
  ⟨decodeAll_some, fun h => by subst h; exact decodeAll_encode t _ (Nat.le_refl _)⟩

end Qasm.Input
