import Verif.Model.Text
import Verif.Spec.Text
/-!
# Properties of the string utilities (C51, C52, C53 first half, C60, C61)
-/

namespace Qasm
open Text Spec

/-! ## C51: URL encoding -/

private theorem isalnum_table : ∀ n : Fin 256,
    (isalnum (UInt8.ofNat n.val) = true ↔ (Char.ofNat n.val).isAlphanum = true) := by decide +kernel

private theorem u8_eq (c : UInt8) : UInt8.ofNat c.toNat = c := by simp

private theorem isalnum_iff (c : UInt8) : isalnum c = true ↔ (Char.ofNat c.toNat).isAlphanum = true := by
  have := isalnum_table ⟨c.toNat, c.toNat_lt⟩
  simpa using this

private theorem toNat_ofNat_lt (n : Nat) (h : n < 256) : (Char.ofNat n).toNat = n := by
  have : n.isValidChar := Or.inl (by omega)
  simp [Char.ofNat, this, Char.toNat, Char.ofNatAux]

private theorem unreserved_iff (c : UInt8) :
    Unreserved c ↔ (isalnum c || c == 45 || c == 95 || c == 46 || c == 126) = true := by
  simp only [Unreserved, Bool.or_eq_true, beq_iff_eq, isalnum_iff]
  constructor
  · rintro (⟨ch, h, e⟩ | h)
    · rw [e, Char.ofNat_toNat]; simp [h]
    · rcases h with h | h | h | h <;> simp [h]
  · rintro ((((h | h) | h) | h) | h)
    · exact Or.inl ⟨_, h, (toNat_ofNat_lt _ c.toNat_lt).symm⟩
    all_goals simp [h]

private theorem hexVal_hexDigit : ∀ n : Fin 16, hexVal (hexDigit n.val) = some n.val := by decide

private theorem hexVal_hexDigit' (n : Nat) (h : n < 16) : hexVal (hexDigit n) = some n :=
  hexVal_hexDigit ⟨n, h⟩

/-- C51. Decoding a URL-encoded string gives back the string, for every byte string. -/
theorem C51_url_decode_encode (s : Bytes) : percentDecode (urlEncode s) = some s := by
  induction s with
  | nil => rfl
  | cons c s ih =>
    have hc := c.toNat_lt
    simp only [urlEncode, List.flatMap_cons]
    rw [show List.flatMap urlEncodeByte s = urlEncode s from rfl]
    unfold urlEncodeByte
    split
    · rename_i h
      have h37 : c ≠ 37 := by rintro rfl; revert h; decide
      simp only [List.cons_append, List.nil_append]
      unfold percentDecode
      split <;> simp_all
    · simp only [List.cons_append, List.nil_append, percentDecode]
      rw [hexVal_hexDigit' _ (by omega), hexVal_hexDigit' _ (by omega), ih]
      have : 16 * (c.toNat / 16) + c.toNat % 16 = c.toNat := by omega
      simp [this]

/-- C51. The encoder is injective. -/
theorem C51_url_injective (s t : Bytes) (h : urlEncode s = urlEncode t) : s = t := by
  have hs := C51_url_decode_encode s
  rw [h, C51_url_decode_encode t] at hs
  exact (Option.some.inj hs).symm

/-- C51. Every byte of the output is an unreserved byte or `%`. -/
theorem C51_url_safe (s : Bytes) : ∀ c ∈ urlEncode s, Unreserved c ∨ c = 37 := by
  intro c hc
  simp only [urlEncode, List.mem_flatMap] at hc
  obtain ⟨b, _, hb⟩ := hc
  unfold urlEncodeByte at hb
  split at hb
  · rename_i h
    simp at hb; subst hb
    exact Or.inl ((unreserved_iff _).2 h)
  · simp only [List.mem_cons, List.not_mem_nil, or_false] at hb
    have hx : ∀ n : Fin 16, (isalnum (hexDigit n.val)) = true := by decide
    have hb' := b.toNat_lt
    rcases hb with h | h | h
    · exact Or.inr h
    · left; rw [unreserved_iff, h]
      simp [hx ⟨b.toNat / 16, by omega⟩]
    · left; rw [unreserved_iff, h]
      simp [hx ⟨b.toNat % 16, by omega⟩]

/-- C51. Unreserved text is left alone; any other byte becomes a three byte `%XX` escape. -/
theorem C51_url_bytewise (s t : Bytes) (c : UInt8) :
    (Unreserved c → urlEncode (s ++ c :: t) = urlEncode s ++ c :: urlEncode t) ∧
    (¬ Unreserved c → ∃ x y, urlEncode (s ++ c :: t) = urlEncode s ++ [37, x, y] ++ urlEncode t ∧
      ∃ a b, hexVal x = some a ∧ hexVal y = some b ∧ c.toNat = 16 * a + b) := by
  have hc := c.toNat_lt
  constructor
  · intro h
    rw [unreserved_iff] at h
    simp [urlEncode, List.flatMap_append, urlEncodeByte, h]
  · intro h
    rw [unreserved_iff] at h
    refine ⟨_, _, ?_, _, _, hexVal_hexDigit' (c.toNat / 16) (by omega),
      hexVal_hexDigit' (c.toNat % 16) (by omega), by omega⟩
    simp [urlEncode, List.flatMap_append, urlEncodeByte, h]

example : urlEncode (utf8 c!"a b/é") = utf8 c!"a%20b%2F%C3%A9" := by decide +kernel
example : Unreserved 97 ∧ ¬ Unreserved 32 := by
  refine ⟨Or.inl ⟨'a', by decide, by decide⟩, ?_⟩
  rw [unreserved_iff]; decide

/-! ## C52: JSON encoding -/

private theorem hexVal_zero : hexVal 48 = some 0 := by decide

private theorem jsonDecode_plain (c : UInt8) (rest : Bytes) (h : ¬ (c.toNat < 32 ∨ c = 34 ∨ c = 92)) :
    jsonStringDecode (c :: rest) = (jsonStringDecode rest).map (c.toNat :: ·) := by
  have h92 : c ≠ 92 := fun e => h (Or.inr (Or.inr e))
  rw [jsonStringDecode]
  · simp [h]
  · intros; simp_all

/-- C52, ASCII part. For a string of ASCII bytes the encoded text is a valid JSON string whose content
is the string. Missing for the full property: bytes from 0x80 up, where it is false
(`C52_json_encode_non_ascii`). -/
theorem C52_json_encode_ascii_partial (s : Bytes) (h : ∀ c ∈ s, c.toNat < 128) :
    jsonStringDecode (jsonEncode s) = some (s.map UInt8.toNat) := by
  induction s with
  | nil => rfl
  | cons c s ih =>
    have hc : c.toNat < 128 := h c (by simp)
    have ih := ih fun d hd => h d (by simp [hd])
    simp only [jsonEncode, List.flatMap_cons]
    rw [show List.flatMap jsonEncodeByte s = jsonEncode s from rfl]
    unfold jsonEncodeByte jsonEscape
    split
    · simp only [List.cons_append, List.nil_append, jsonStringDecode, hexVal_zero]
      rw [hexVal_hexDigit' _ (by omega), hexVal_hexDigit' _ (by omega), ih]
      have : 16 * (c.toNat / 16) + c.toNat % 16 = c.toNat := by omega
      simp [this]
    · rename_i hn
      simp only [Bool.or_eq_true, beq_iff_eq, decide_eq_true_eq, not_or] at hn
      obtain ⟨⟨⟨h1, h2⟩, h3⟩, _⟩ := hn
      rw [List.cons_append, List.nil_append, jsonDecode_plain, ih]
      · simp
      · rintro (h | h | h)
        · omega
        · exact h1 h
        · exact h2 h

/-- Decoding what follows an encoded prefix: if the whole decodes, so does the rest. -/
private theorem jsonDecode_suffix (s rest : Bytes) (h : jsonStringDecode (jsonEncode s ++ rest) ≠ none) :
    jsonStringDecode rest ≠ none ∧ ∀ c ∈ s, c.toNat < 128 := by
  induction s with
  | nil => exact ⟨h, by simp⟩
  | cons c s ih =>
    simp only [jsonEncode, List.flatMap_cons] at h
    rw [show List.flatMap jsonEncodeByte s = jsonEncode s from rfl] at h
    have hc := c.toNat_lt
    have key : jsonStringDecode (jsonEncode s ++ rest) ≠ none ∧ c.toNat < 128 := by
      unfold jsonEncodeByte jsonEscape at h
      split at h
      · by_cases h128 : c.toNat < 128
        · refine ⟨?_, h128⟩
          intro hn
          apply h
          simp only [h128, if_true, List.cons_append, List.nil_append, jsonStringDecode, hexVal_zero]
          rw [hn]
          split <;> simp_all
        · exfalso; apply h
          have h45 : hexVal 45 = none := by decide
          simp [h128, jsonStringDecode, h45]
      · rename_i hn
        simp only [Bool.or_eq_true, beq_iff_eq, decide_eq_true_eq, not_or] at hn
        obtain ⟨⟨⟨h1, h2⟩, h3⟩, h4⟩ := hn
        refine ⟨?_, by omega⟩
        rw [List.cons_append, List.nil_append, List.cons_append, jsonDecode_plain] at h
        · intro hn; apply h; simp [hn]
        · rintro (h | h | h)
          · omega
          · exact h1 h
          · exact h2 h
    obtain ⟨k1, k2⟩ := key
    obtain ⟨i1, i2⟩ := ih k1
    refine ⟨i1, ?_⟩
    intro d hd
    rcases List.mem_cons.1 hd with rfl | hd
    · exact k2
    · exact i2 d hd

/-- C52 is false beyond ASCII: whenever the input has a byte from 0x80 up (for example any non-ASCII
UTF-8 text), the output is not a valid JSON string at all. -/
theorem C52_json_encode_non_ascii (s : Bytes) (h : ∃ c ∈ s, 128 ≤ c.toNat) :
    jsonStringDecode (jsonEncode s) = none := by
  cases hd : jsonStringDecode (jsonEncode s) with
  | none => rfl
  | some x =>
    have := (jsonDecode_suffix s [] (by simp [hd])).2
    obtain ⟨c, hc, hge⟩ := h
    have := this c hc
    omega

/-- C52 refuted on a concrete input: the two bytes of `é`. -/
theorem C52_refuted : ¬ ∀ s : Bytes, jsonStringDecode (jsonEncode s) = some (s.map UInt8.toNat) := by
  intro h
  have := h [0xC3, 0xA9]
  rw [C52_json_encode_non_ascii _ ⟨0xC3, by decide, by decide⟩] at this
  cases this

example : jsonEncode (utf8 c!"é") = utf8 c!"\\u-03D\\u-057" := by decide +kernel
example : jsonEncode (utf8 c!"a\"\n") = utf8 c!"a\\u0022\\u000A" := by decide +kernel

/-! ## C53: raw text -/

/-- C53, first half. Removing the quotes from a quoted text gives the text, whatever it contains. -/
theorem C53_remove_triple_quotes (s : Str) :
    removeTripleQuotes (c!"'''" ++ s ++ c!"'''") = .ok s := by
  unfold removeTripleQuotes
  have h1 : ¬ (c!"'''" ++ s ++ c!"'''").length < 3 := by simp
  have h2 : ¬ (c!"'''" ++ s ++ c!"'''").length < 6 := by simp
  rw [if_neg h1, if_neg h2]
  simp

/-- C53. What happens to a text that is too short to have both quotes: with fewer than three characters the call throws,
with three to five it returns all that follows the first three. -/
theorem C53_short (q s : Str) :
    (q.length < 3 → removeTripleQuotes q = .exn c!"std::out_of_range") ∧
    (q.length = 3 → s.length < 3 → removeTripleQuotes (q ++ s) = .ok s) := by
  unfold removeTripleQuotes
  refine ⟨fun h => if_pos h, fun h h' => ?_⟩
  have h1 : ¬ (q ++ s).length < 3 := by simp; omega
  have h2 : (q ++ s).length < 6 := by simp; omega
  rw [if_neg h1, if_pos h2, List.drop_append_of_le_length (by omega), List.drop_eq_nil_of_le (by omega), List.nil_append]

example : removeTripleQuotes c!"'''ab" = .ok c!"ab" ∧ removeTripleQuotes c!"''" = .exn c!"std::out_of_range" := by decide +kernel

/-! ## C60: string builder -/

private theorem pushEscape_eq (b : StringBuilder) (e : Str) : (b.pushEscape e).stream = b.stream ++ unescape e := by
  unfold StringBuilder.pushEscape
  repeat' split
  iterate 6 (rename_i h; subst h; rfl)
  rename_i h1 h2 h3 h4 h5 h6
  have hb : ∀ l : Str, e ≠ l → (e == l) = false := fun l h => by simpa using h
  simp [unescape, escapes, List.lookup_cons, hb _ h1, hb _ h2, hb _ h3, hb _ h4, hb _ h5, hb _ h6]

/-- C60. Whatever fragments are pushed, in whatever order, the built string is the concatenation of
what they stand for. -/
theorem C60_builder (b : StringBuilder) (fs : List Fragment) :
    (fs.foldl (fun b f => match f with
      | .text s => b.pushString s
      | .escape s => b.pushEscape s) b).stream = b.stream ++ fs.flatMap Fragment.denote := by
  induction fs generalizing b with
  | nil => simp
  | cons f fs ih =>
    rw [List.foldl_cons, ih]
    cases f with
    | text s => simp [StringBuilder.pushString, Fragment.denote]
    | escape s => simp [pushEscape_eq, Fragment.denote]

example : (([.text c!"a", .escape c!"\\n", .escape c!"\\x"] : List Fragment).flatMap Fragment.denote)
    = c!"a\n\\x" := by decide

/-! ## C61: case folding -/

private theorem tolower_table : ∀ n : Fin 256, tolower (UInt8.ofNat n.val) = lower (UInt8.ofNat n.val) := by
  decide +kernel

private theorem tolower_eq (c : UInt8) : tolower c = lower c := by
  have := tolower_table ⟨c.toNat, c.toNat_lt⟩
  simpa using this

private theorem tolower_idem (c : UInt8) : tolower (tolower c) = tolower c := by
  have : ∀ n : Fin 256, tolower (tolower (UInt8.ofNat n.val)) = tolower (UInt8.ofNat n.val) := by decide +kernel
  have := this ⟨c.toNat, c.toNat_lt⟩
  simpa using this

/-- C61. `to_lowercase` replaces exactly the 26 ASCII capitals, byte by byte. -/
theorem C61_to_lowercase (s : Bytes) : toLowercase s = s.map lower := by
  simp [toLowercase, tolower_eq]

/-- C61. `to_lowercase` is idempotent and keeps the length. -/
theorem C61_to_lowercase_idem (s : Bytes) :
    toLowercase (toLowercase s) = toLowercase s ∧ (toLowercase s).length = s.length := by
  simp [toLowercase, tolower_idem]

/-- C61. `equal_case_insensitive` holds exactly when the lower-cased strings are equal. -/
theorem C61_equal_iff (s t : Bytes) : equalCaseInsensitive s t = true ↔ s.map lower = t.map lower := by
  induction s generalizing t with
  | nil => cases t <;> simp [equalCaseInsensitive]
  | cons a s ih =>
    cases t with
    | nil => simp [equalCaseInsensitive]
    | cons b t => simp [equalCaseInsensitive, ih, tolower_eq]

/-- C61. `equal_case_insensitive` is an equivalence relation. -/
theorem C61_equal_equivalence : Equivalence fun s t => equalCaseInsensitive s t = true := by
  refine ⟨fun s => ?_, fun {s t} h => ?_, fun {s t u} h h' => ?_⟩
  · rw [C61_equal_iff]
  · rw [C61_equal_iff] at *; exact h.symm
  · rw [C61_equal_iff] at *; exact h.trans h'

example : equalCaseInsensitive (utf8 c!"QuBit") (utf8 c!"qUBIT") = true ∧
    equalCaseInsensitive (utf8 c!"a") (utf8 c!"b") = false := by decide

end Qasm
