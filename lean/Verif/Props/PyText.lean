import Verif.Spec.PyText
import Verif.Props.Api
import Verif.Props.Input
/-!
# Texts and bytes between Python and C++ (C124)
-/

namespace Qasm

open Spec

attribute [local irreducible] defaultInstrs defaultFns defaultVars

variable {F : Type} {fo : FloatOps F}

namespace PyTexts

theorem decodeChar_ascii {b : UInt8} {bs : Bytes} (h : b.toNat < 0x80) : Input.decodeChar (b :: bs) ≠ none := by
  simp only [Input.decodeChar, if_pos h, Input.scalar]
  rw [if_pos (by omega)]
  simp

theorem rest_lt {b : UInt8} {bs rest : Bytes} {c : Char} (h : Input.decodeChar (b :: bs) = some (c, rest)) :
    rest.length ≤ bs.length := by
  have h1 := congrArg List.length (Input.decodeChar_some h)
  have h2 := List.length_pos_iff.2 (Input.encode_ne_nil c)
  simp only [List.length_cons, List.length_append] at h1
  omega

theorem encode_decode : ∀ n (bs : Bytes), bs.length ≤ n → Py.encode (Py.decode n bs) = .ok bs := by
  intro n
  induction n with
  | zero => intro bs h; cases bs with
    | nil => rfl
    | cons b bs => simp at h
  | succ n ih =>
    intro bs h
    cases bs with
    | nil => rfl
    | cons b bs =>
      simp only [List.length_cons] at h
      rw [Py.decode]
      cases hd : Input.decodeChar (b :: bs) with
      | some x =>
        obtain ⟨c, rest⟩ := x
        have := rest_lt hd
        simp only [Py.encode, ih rest (by omega), Res.bind_ok, Input.decodeChar_some hd]
      | none =>
        have hb : 0x80 ≤ b.toNat := Nat.le_of_not_lt fun h => decodeChar_ascii h hd
        have hb' := b.toNat_lt
        simp only [Py.encode]
        rw [if_pos (by omega), ih bs (by omega), Res.bind_ok, Nat.add_sub_cancel_left, UInt8.ofNat_toNat]

theorem decode_utf8 (s : Str) : ∀ n, (utf8 s).length ≤ n → Py.decode n (utf8 s) = pyStr s := by
  induction s with
  | nil => intro n _; cases n <;> rfl
  | cons c s ih =>
    intro n hn
    have hu : utf8 (c :: s) = String.utf8EncodeChar c ++ utf8 s := by simp [utf8]
    rw [hu] at hn ⊢
    have hd := Input.decodeChar_encode c (utf8 s)
    cases he : String.utf8EncodeChar c with
    | nil => exact absurd he (Input.encode_ne_nil c)
    | cons b bs =>
      rw [he] at hn hd
      cases n with
      | zero => simp at hn
      | succ n =>
        simp only [List.cons_append, List.length_cons, List.length_append] at hn hd ⊢
        rw [Py.decode, hd]
        simp only [ih n (by omega)]
        rfl

theorem encode_str (s : Str) : Py.encode (pyStr s) = .ok (utf8 s) := by
  induction s with
  | nil => rfl
  | cons c s ih =>
    show Py.encode (.char c :: pyStr s) = _
    simp only [Py.encode, ih, Res.bind_ok]
    simp [utf8]

theorem argument_str (s : Str) : Py.argument (pyStr s) = .ok s := by
  induction s with
  | nil => rfl
  | cons c s ih =>
    show Py.argument (.char c :: pyStr s) = _
    simp only [Py.argument, ih, Res.bind_ok]

theorem argument_surrogate {t : Py.Text} (h : HasSurrogate t) : Py.argument t = .exn c!"TypeError" := by
  obtain ⟨n, h⟩ := h
  induction t with
  | nil => cases h
  | cons x t ih =>
    cases x with
    | surrogate k => rfl
    | char c =>
      rcases List.mem_cons.1 h with h | h
      · cases h
      · rw [Py.argument, ih h]; rfl

theorem either (t : Py.Text) : HasSurrogate t ∨ ∃ s, t = pyStr s := by
  induction t with
  | nil => exact .inr ⟨[], rfl⟩
  | cons x t ih =>
    cases x with
    | surrogate k => exact .inl ⟨k, List.mem_cons_self⟩
    | char c =>
      rcases ih with ⟨n, h⟩ | ⟨s, rfl⟩
      · exact .inl ⟨n, List.mem_cons_of_mem _ h⟩
      · exact .inr ⟨c :: s, rfl⟩

theorem not_both (s : Str) : ¬ HasSurrogate (pyStr s) := by
  rintro ⟨n, h⟩
  obtain ⟨c, -, h⟩ := List.mem_map.1 h
  cases h

theorem isText (s : Str) : IsTextOf (utf8 s) (noMark s) := by
  cases s with
  | nil => exact .inr ⟨rfl, by rintro ⟨r, h⟩; cases h⟩
  | cons c s =>
    have hu : utf8 (c :: s) = String.utf8EncodeChar c ++ utf8 s := by simp [utf8]
    rw [noMark]
    split
    · next h =>
      subst h
      refine .inl ?_
      rw [hu, show String.utf8EncodeChar '\ufeff' = bom by decide +kernel]
    · next h =>
      refine .inr ⟨rfl, ?_⟩
      rintro ⟨r, hr⟩
      have h1 := Input.decodeChar_encode c (utf8 s)
      have h2 := Input.decodeChar_encode '\ufeff' r
      rw [show String.utf8EncodeChar '\ufeff' = bom by decide +kernel, ← hr, hu, h1] at h2
      simp only [Option.some.injEq, Prod.mk.injEq] at h2
      exact h h2.1

end PyTexts

open PyTexts

/-- C124. The bytes that C++ returns reach the deserialiser unchanged, whatever they are: what Python encodes is what C++ gave out. -/
theorem C124_bytes (bs : Bytes) : Py.encode (Py.ofBytes bs) = .ok bs := encode_decode _ _ (Nat.le_refl _)

/-- C124. So different strings never look the same in Python. -/
theorem C124_injective {bs bs' : Bytes} (h : Py.ofBytes bs = Py.ofBytes bs') : bs = bs' := by
  have := C124_bytes bs
  rw [h, C124_bytes] at this
  cases this; rfl

/-- C124. Texts arrive as they are; the code points that are not characters are for bytes that are not UTF-8. -/
theorem C124_text (bs : Bytes) (s : Str) : Py.ofBytes bs = pyStr s ↔ bs = utf8 s := by
  constructor
  · intro h
    have := C124_bytes bs
    rw [h, encode_str] at this
    cases this; rfl
  · rintro rfl; exact decode_utf8 s _ (Nat.le_refl _)

/-- C124. A `str` from C++ has a surrogate exactly if the bytes are not UTF-8. -/
theorem C124_surrogates (bs : Bytes) : HasSurrogate (Py.ofBytes bs) ↔ ¬ ∃ s, bs = utf8 s := by
  constructor
  · rintro h ⟨s, hs⟩
    rw [(C124_text bs s).2 hs] at h
    exact not_both s h
  · intro h
    rcases either (Py.ofBytes bs) with h' | ⟨s, hs⟩
    · exact h'
    · exact absurd ⟨s, (C124_text bs s).1 hs⟩ h

/-- CBOR with a byte that is not UTF-8, and a message with an umlaut. -/
example : Py.ofBytes [0xA1, 0x41, 0xC3, 0xA9, 0xC3] = [.surrogate 0xDCA1, .char 'A', .char 'é', .surrogate 0xDCC3] ∧
    Py.ofBytes (utf8 c!"é") = [.char 'é'] ∧ Py.encode [.surrogate 0xD800] = .exn c!"UnicodeEncodeError" := by
  refine ⟨?_, ?_, ?_⟩ <;> decide +kernel

theorem outcome_eq {ρ σ : Type} (de : Bytes → σ) (ser : Option ρ → Bytes) (r : Result ρ) :
    Py.outcome de (Py.toStrings ser r) = .ok (pyOutcome de ser r) := by
  obtain ⟨root, errs⟩ := r
  cases errs with
  | nil =>
    simp only [Py.outcome, Py.toStrings, List.isEmpty_nil, if_true, List.map_cons, List.map_nil, C124_bytes, Res.bind_ok, pyOutcome]
  | cons e es =>
    have key : ∀ e : Err, Py.ofBytes (utf8 e.what) = pyStr e.what := fun e => (C124_text _ _).2 rfl
    simp only [Py.outcome, Py.toStrings, List.isEmpty_cons, Bool.false_eq_true, if_false, List.map_cons, List.map_map, Function.comp_def,
      key, pyOutcome, List.drop_succ_cons, List.drop_zero]

/-- C124. Parsing a Python text gives the deserialisation of exactly the bytes of the tree that the text has, or one message, which
arrives as it is. A byte order mark at the beginning is ignored. -/
theorem C124_parse {ρ : Type} (an : Antlr F) (ser : Option (ProgramAst F) → Bytes) (de : Bytes → ρ) (s file : Str) :
    (∃ p, HasAst an (Api.optionalName file) (noMark s) p ∧
      Py.parseString an ser de (pyStr s) (pyStr file) = .ok (.tree (de (ser (some p))))) ∨
    ((∀ p, ¬ HasAst an (Api.optionalName file) (noMark s) p) ∧
      ∃ e, Syn.parseString an (noMark s) (Api.optionalName file) = .ok ⟨none, [e]⟩ ∧
        Py.parseString an ser de (pyStr s) (pyStr file) = .ok (.errors [pyStr e.what])) := by
  have key : Py.parseString an ser de (pyStr s) (pyStr file) =
      (Py.call (Syn.parseString an (noMark s) (Api.optionalName file))).bind fun r => .ok (pyOutcome de ser r) := by
    simp only [Py.parseString, argument_str, Res.bind_ok, (C82_utf8_partial an (isText s) (Api.optionalName file)).1, outcome_eq]
  rcases C48_outcome an (noMark s) (Api.optionalName file) with ⟨p, hp⟩ | ⟨e, he⟩
  · exact .inl ⟨p, hasAst_iff.2 hp, by rw [key, hp]; rfl⟩
  · refine .inr ⟨fun p hp => ?_, e, he, by rw [key, he]; rfl⟩
    have := hasAst_iff.1 hp
    rw [he] at this; cases this

/-- C124. Analysing a Python text gives the deserialisation of exactly the bytes of the tree, or all messages in order, and leaves the
analyser as the analysis of the text does. -/
theorem C124_analyze {ρ : Type} (an : Antlr F) (ser : Option (SProgram F) → Bytes) (de : Bytes → ρ) (a : Analyzer F) (s file : Str) :
    Py.analyzeString fo an ser de a (pyStr s) (pyStr file) =
      (Py.call (Syn.analyzeString fo an a (noMark s) (Api.optionalName file))).bind fun r => .ok (r.1, pyOutcome de ser r.2) := by
  simp only [Py.analyzeString, argument_str, Res.bind_ok,
    (C82_entry_points (fo := fo) an a (isText s) [] (Api.optionalName file)).2.2.1, outcome_eq]

/-- C124. A text or file name with a surrogate, which UTF-8 cannot encode, is refused before the parser sees it; parsing a text
raises no other exception. -/
theorem C124_refused {ρ : Type} (an : Antlr F) (ser : Option (ProgramAst F) → Bytes) (de : Bytes → ρ) (t file : Py.Text) (c : Str) :
    Py.parseString an ser de t file = .exn c ↔ (HasSurrogate t ∨ HasSurrogate file) ∧ c = c!"TypeError" := by
  rcases either t with ht | ⟨s, rfl⟩
  · rw [Py.parseString, argument_surrogate ht]
    constructor
    · intro h; cases h; exact ⟨.inl ht, rfl⟩
    · rintro ⟨-, rfl⟩; rfl
  · rcases either file with hf | ⟨f, rfl⟩
    · rw [Py.parseString, argument_str, Res.bind_ok, argument_surrogate hf]
      constructor
      · intro h; cases h; exact ⟨.inr hf, rfl⟩
      · rintro ⟨-, rfl⟩; rfl
    · constructor
      · intro h
        rcases C124_parse an ser de s f with ⟨p, -, hp⟩ | ⟨-, e, -, he⟩
        · rw [hp] at h; cases h
        · rw [he] at h; cases h
      · rintro ⟨h | h, -⟩
        · exact absurd h (not_both s)
        · exact absurd h (not_both f)

/-- C124. The same for an analysis: a text or file name with a surrogate is refused; the exceptions for other texts are those of the
analysis in C++. -/
theorem C124_analyze_refused {ρ : Type} (an : Antlr F) (ser : Option (SProgram F) → Bytes) (de : Bytes → ρ) (a : Analyzer F)
    (t file : Py.Text) :
    ((HasSurrogate t ∨ HasSurrogate file) ∧ Py.analyzeString fo an ser de a t file = .exn c!"TypeError") ∨
    ∃ s f, t = pyStr s ∧ file = pyStr f ∧ ∀ c, Py.analyzeString fo an ser de a t file = .exn c →
      ∃ c', Syn.analyzeString fo an a (noMark s) (Api.optionalName f) = .exn c' ∧ c = Py.pyClass c' := by
  rcases either t with ht | ⟨s, rfl⟩
  · exact .inl ⟨.inl ht, by rw [Py.analyzeString, argument_surrogate ht]; rfl⟩
  · rcases either file with hf | ⟨f, rfl⟩
    · exact .inl ⟨.inr hf, by rw [Py.analyzeString, argument_str, Res.bind_ok, argument_surrogate hf]; rfl⟩
    · refine .inr ⟨s, f, rfl, rfl, fun c h => ?_⟩
      rw [C124_analyze] at h
      cases hr : Syn.analyzeString fo an a (noMark s) (Api.optionalName f) with
      | ok r => rw [hr] at h; cases h
      | err e =>
        rw [Syn.analyzeString] at hr
        rcases C48_outcome an (noMark s) (Api.optionalName f) with ⟨p, hp⟩ | ⟨e', he⟩
        · rw [hp, Res.bind_ok] at hr
          cases hx : Sem.analyzeParse fo a ⟨some p, []⟩ with
          | err x => exact x.elim
          | ok x => rw [hx] at hr; cases hr
          | exn x => rw [hx] at hr; cases hr
          | ub => rw [hx] at hr; cases hr
        · rw [he, Res.bind_ok] at hr
          cases hx : Sem.analyzeParse fo a ⟨none, [e']⟩ with
          | err x => exact x.elim
          | ok x => rw [hx] at hr; cases hr
          | exn x => rw [hx] at hr; cases hr
          | ub => rw [hx] at hr; cases hr
      | exn c' => rw [hr] at h; cases h; exact ⟨c', rfl, rfl⟩
      | ub => rw [hr] at h; cases h

/-- C124. Which exception an analysis that throws raises, and that it raises one only if it throws. -/
theorem C124_thrown {ρ : Type} (an : Antlr F) (ser : Option (SProgram F) → Bytes) (de : Bytes → ρ) (a : Analyzer F) (s file : Str) :
    (Syn.analyzeString fo an a (noMark s) (Api.optionalName file) = .exn c!"std::runtime_error" →
      Py.analyzeString fo an ser de a (pyStr s) (pyStr file) = .exn c!"RuntimeError") ∧
    (Syn.analyzeString fo an a (noMark s) (Api.optionalName file) = .exn c!"std::invalid_argument" →
      Py.analyzeString fo an ser de a (pyStr s) (pyStr file) = .exn c!"ValueError") ∧
    (Syn.analyzeString fo an a (noMark s) (Api.optionalName file) = .exn c!"std::out_of_range" →
      Py.analyzeString fo an ser de a (pyStr s) (pyStr file) = .exn c!"IndexError") ∧
    (Syn.analyzeString fo an a (noMark s) (Api.optionalName file) = .ub ↔
      Py.analyzeString fo an ser de a (pyStr s) (pyStr file) = .ub) := by
  rw [C124_analyze]
  refine ⟨fun h => by rw [h]; rfl, fun h => by rw [h]; rfl, fun h => by rw [h]; rfl, fun h => by rw [h]; rfl, fun h => ?_⟩
  cases hr : Syn.analyzeString fo an a (noMark s) (Api.optionalName file) with
  | ub => rfl
  | ok r => rw [hr] at h; cases h
  | err e => rw [hr] at h; cases h
  | exn c => rw [hr] at h; cases h

/-- C124. Of a file Python gets what it gets of the text in it. If there is no such file, a `RuntimeError`; if the file is not UTF-8,
a `SystemError`. -/
theorem C124_file {ρ : Type} (an : Antlr F) (ser : Option (ProgramAst F) → Bytes) (de : Bytes → ρ) (path : Str) :
    (∀ data s, IsTextOf data s → Py.parseFile an ser de (some data) (pyStr path) =
      (Py.call (Syn.parseString an s none)).bind fun r => .ok (pyOutcome de ser r)) ∧
    (∀ data, (¬ ∃ s, IsTextOf data s) → Py.parseFile an ser de (some data) (pyStr path) = .exn c!"SystemError") ∧
    Py.parseFile an ser de none (pyStr path) = .exn c!"RuntimeError" := by
  refine ⟨fun data s h => ?_, fun data h => ?_, ?_⟩
  · simp only [Py.parseFile, argument_str, Res.bind_ok, Input.parseFile, (C82_utf8_partial an h none).1, outcome_eq]
  · have hl : Input.load data = none := by
      cases hl : Input.load data with
      | none => rfl
      | some t => exact absurd ⟨t, (C82_load data t).1 hl⟩ h
    simp only [Py.parseFile, argument_str, Res.bind_ok, Input.parseFile, Input.parseString, hl]
    rfl
  · simp only [Py.parseFile, argument_str, Res.bind_ok]
    rfl

/-- C124. JSON reaches Python as it is: encoded as UTF-8, it is what C++ wrote. -/
theorem C124_json (an : Antlr F) (dump : Option (ProgramAst F) → Bytes) (s file : Str) :
    ∃ r t, Syn.parseString an (noMark s) (Api.optionalName file) = .ok r ∧
      Py.parseJson an dump (pyStr s) (pyStr file) = .ok t ∧ Py.encode t = .ok (r.toJson dump) := by
  have key : Py.parseJson an dump (pyStr s) (pyStr file) =
      (Py.call (Syn.parseString an (noMark s) (Api.optionalName file))).bind fun r => .ok (Py.ofBytes (r.toJson dump)) := by
    simp only [Py.parseJson, argument_str, Res.bind_ok, (C82_utf8_partial an (isText s) (Api.optionalName file)).1]
  rcases C48_outcome an (noMark s) (Api.optionalName file) with ⟨p, hp⟩ | ⟨e, he⟩
  · exact ⟨_, _, hp, by rw [key, hp]; rfl, C124_bytes _⟩
  · exact ⟨_, _, he, by rw [key, he]; rfl, C124_bytes _⟩

namespace PyTexts

theorem utf8_low {s : Str} (h : ∀ c ∈ s, c.toNat < 0x80) : IsAscii (utf8 s) := by
  intro b hb
  obtain ⟨c, hc, hb⟩ := List.mem_flatMap.1 hb
  have := h c hc
  rw [Input.utf8_eq, if_pos (by omega)] at hb
  rw [List.mem_singleton.1 hb, Input.toNat_ofNat_lt (by omega)]
  exact this

theorem append_low {x y : Bytes} (hx : IsAscii x) (hy : IsAscii y) : IsAscii (x ++ y) := fun b hb =>
  (List.mem_append.1 hb).elim (hx b) (hy b)

theorem hex_low {n : Nat} (h : n < 16) : (Text.hexDigit n).toNat < 0x80 := by
  rw [Text.hexDigit, Input.toNat_ofNat_lt] <;> split <;> omega

theorem json_low (bs : Bytes) : IsAscii (Text.jsonEncode bs) := by
  intro b hb
  obtain ⟨c, -, hb⟩ := List.mem_flatMap.1 hb
  have hc := c.toNat_lt
  rw [Text.jsonEncodeByte] at hb
  split at hb
  · rw [Text.jsonEscape] at hb
    split at hb
    · simp only [List.mem_cons, List.not_mem_nil, or_false] at hb
      rcases hb with rfl | rfl | rfl | rfl | rfl | rfl
      · decide
      · decide
      · decide
      · decide
      · exact hex_low (by omega)
      · exact hex_low (by omega)
    · simp only [List.mem_cons, List.not_mem_nil, or_false] at hb
      rcases hb with rfl | rfl | rfl | rfl | rfl | rfl
      · decide
      · decide
      · decide
      · decide
      · exact hex_low (by omega)
      · exact hex_low (by omega)
  · next h =>
    simp only [Bool.or_eq_true, decide_eq_true_eq, not_or] at h
    rw [List.mem_singleton.1 hb]
    omega

theorem url_low (bs : Bytes) : IsAscii (Text.urlEncode bs) := by
  intro b hb
  obtain ⟨c, -, hb⟩ := List.mem_flatMap.1 hb
  have hc := c.toNat_lt
  rw [Text.urlEncodeByte] at hb
  split at hb
  · next h =>
    rw [List.mem_singleton.1 hb]
    simp only [Text.isalnum, Bool.or_eq_true, Bool.and_eq_true, decide_eq_true_eq, beq_iff_eq] at h
    rcases h with (((h | rfl) | rfl) | rfl) | rfl
    · revert h; simp; omega
    all_goals decide
  · simp only [List.mem_cons, List.not_mem_nil, or_false] at hb
    rcases hb with rfl | rfl | rfl
    · decide
    · exact hex_low (by omega)
    · exact hex_low (by omega)

theorem nat_low (n : Nat) : ∀ c ∈ decNat n, c.toNat < 0x80 := by
  intro c hc
  have := decNat_digits n c hc
  simp only [Char.isDigit, Bool.and_eq_true, decide_eq_true_eq, UInt32.le_iff_toNat_le] at this
  have h2 := this.2
  show c.val.toNat < 0x80
  have h3 : '9'.val.toNat = 57 := rfl
  omega

theorem error_low (e : Err) : IsAscii e.toJson := by
  have hr : IsAscii e.relatedInformation := by
    rw [Err.relatedInformation]
    split
    · exact append_low (append_low (append_low (append_low (utf8_low (by decide)) (url_low _)) (utf8_low (by decide))) (json_low _))
        (utf8_low (by decide))
    · intro b hb; cases hb
  rw [Err.toJson]
  refine append_low (append_low (append_low (append_low (utf8_low ?_) (json_low _)) (utf8_low (by decide))) hr) (utf8_low (by decide))
  intro c hc
  simp only [List.mem_append] at hc
  rcases hc with (((((((hc | hc) | hc) | hc) | hc) | hc) | hc) | hc) | hc
  · exact (by decide : ∀ c ∈ c!"{\"range\":{\"start\":{\"line\":", c.toNat < 0x80) c hc
  · exact nat_low _ c hc
  · exact (by decide : ∀ c ∈ c!",\"character\":", c.toNat < 0x80) c hc
  · exact nat_low _ c hc
  · exact (by decide : ∀ c ∈ c!"},\"end\":{\"line\":", c.toNat < 0x80) c hc
  · exact nat_low _ c hc
  · exact (by decide : ∀ c ∈ c!",\"character\":", c.toNat < 0x80) c hc
  · exact nat_low _ c hc
  · exact (by decide : ∀ c ∈ c!"}},\"message\":\"", c.toNat < 0x80) c hc

theorem joined_low : ∀ es : List Err, IsAscii (Result.joinBytes (utf8 c!",") (es.map Err.toJson))
  | [] => fun b hb => (by cases hb)
  | [e] => error_low e
  | e :: e' :: es => append_low (append_low (error_low e) (utf8_low (by decide))) (joined_low (e' :: es))

theorem decode_low : ∀ bs : Bytes, IsAscii bs → bs = utf8 (bs.map fun b => Char.ofNat b.toNat)
  | [], _ => rfl
  | b :: bs, h => by
    have hb := h b List.mem_cons_self
    have ih := decode_low bs fun x hx => h x (List.mem_cons_of_mem _ hx)
    have hu : ∀ (c : Char) (s : Str), utf8 (c :: s) = String.utf8EncodeChar c ++ utf8 s := fun c s => by simp [utf8]
    rw [List.map_cons, hu, ← ih, Input.utf8_eq, Input.char_toNat_ofNat (by omega) (by omega), if_pos (by omega), UInt8.ofNat_toNat]
    rfl

end PyTexts

open PyTexts

/-- C124. The JSON of errors is ASCII, whatever the messages and file names are; so it is the same text in every encoding that extends ASCII,
and each of its bytes is one character in Python. -/
theorem C124_ascii {ρ : Type} (dump : Option ρ → Bytes) (r : Result ρ) (h : r.errors ≠ []) :
    IsAscii (r.toJson dump) ∧ Py.ofBytes (r.toJson dump) = (r.toJson dump).map fun b => .char (Char.ofNat b.toNat) := by
  have ha : IsAscii (r.toJson dump) := by
    obtain ⟨root, es⟩ := r
    cases es with
    | nil => exact absurd rfl h
    | cons e es => exact append_low (append_low (utf8_low (by decide)) (joined_low (e :: es))) (utf8_low (by decide))
  refine ⟨ha, ?_⟩
  rw [(C124_text _ _).2 (decode_low _ ha), pyStr, List.map_map]
  rfl

/-- An error with a message and a file name that are not ASCII. -/
example : (Result.mk (ρ := Unit) none [⟨c!"ä", some ⟨some c!"é.cq", ⟨⟨1, 1⟩, ⟨1, 2⟩⟩⟩⟩]).errors ≠ [] ∧
    ¬ IsAscii (utf8 c!"ä") := ⟨by simp, fun h => absurd (h 0xC3 (by decide +kernel)) (by decide)⟩

/-- C124. Making an analyser in Python: it succeeds for the strings that mean 3.0. Another version gives a `ValueError`, like a string that is
no version; a number that does not fit gives an `IndexError`; a string with a surrogate a `TypeError`. Which strings these are is said in
`C09_rejected`. -/
theorem C124_new (fo : FloatOps F) (withoutDefaults : Bool) :
    (∀ s, (∃ a, Py.newAnalyzer fo (pyStr s) withoutDefaults = .ok a) ↔ ∃ v, Means30 s v) ∧
    (∀ s a, Py.newAnalyzer fo (pyStr s) withoutDefaults = .ok a ↔ Api.newV3x fo s withoutDefaults = .ok a) ∧
    (∀ s v, Version.ofString s = .ok v → ¬ VersionSame v [3, 0] → Py.newAnalyzer fo (pyStr s) withoutDefaults = .exn c!"ValueError") ∧
    (∀ s, Version.ofString s = .exn c!"std::invalid_argument" → Py.newAnalyzer fo (pyStr s) withoutDefaults = .exn c!"ValueError") ∧
    (∀ s, Version.ofString s = .exn c!"std::out_of_range" → Py.newAnalyzer fo (pyStr s) withoutDefaults = .exn c!"IndexError") ∧
    (∀ t, HasSurrogate t → Py.newAnalyzer fo t withoutDefaults = .exn c!"TypeError") := by
  have key : ∀ s a, Py.newAnalyzer fo (pyStr s) withoutDefaults = .ok a ↔ Api.newV3x fo s withoutDefaults = .ok a := by
    intro s a
    rw [Py.newAnalyzer, argument_str, Res.bind_ok]
    cases Api.newV3x fo s withoutDefaults with
    | ok x => exact ⟨fun h => by cases h; rfl, fun h => by cases h; rfl⟩
    | err e => exact ⟨fun h => (by cases h), fun h => (by cases h)⟩
    | exn c => exact ⟨fun h => (by cases h), fun h => (by cases h)⟩
    | ub => exact ⟨fun h => (by cases h), fun h => (by cases h)⟩
  refine ⟨fun s => ?_, key, fun s v h hv => ?_, fun s h => ?_, fun s h => ?_, fun t h => ?_⟩
  · constructor
    · rintro ⟨a, h⟩
      exact newV3x_means ((key s a).1 h)
    · rintro ⟨v, hv⟩
      cases withoutDefaults
      · exact ⟨_, (key s _).2 (newV3x_default hv)⟩
      · exact ⟨_, (key s _).2 (newV3x_state hv)⟩
  · rw [Py.newAnalyzer, argument_str, Res.bind_ok, (C66_exception fo s withoutDefaults).1 v h hv]; rfl
  · rw [Py.newAnalyzer, argument_str, Res.bind_ok, (C66_exception fo s withoutDefaults).2 _ h]; rfl
  · rw [Py.newAnalyzer, argument_str, Res.bind_ok, (C66_exception fo s withoutDefaults).2 _ h]; rfl
  · rw [Py.newAnalyzer, argument_surrogate h]; rfl

/-- Strings of all these kinds. -/
example : (∃ v, Means30 c!"3.0" v) ∧ (∃ v, Version.ofString c!"3.1" = .ok v ∧ ¬ VersionSame v [3, 0]) ∧
    Version.ofString c!"three" = .exn c!"std::invalid_argument" ∧ Version.ofString c!"3.3000000000" = .exn c!"std::out_of_range" ∧
    HasSurrogate [.surrogate 0xD800] := by
  refine ⟨⟨[3, 0], by decide +kernel, fun _ => rfl⟩, ⟨[3, 1], by decide +kernel, fun h => ?_⟩, by decide +kernel, by decide +kernel, ⟨_, List.mem_cons_self⟩⟩
  exact absurd ((C08_eq _ _).2 h) (by decide +kernel)

/-- A text with a byte order mark that has a tree, one that has an error, and one with a surrogate. The tree is serialised as bytes that
are not UTF-8. -/
example : Py.parseString Sample.antlr (fun _ => [0xFF, 0x41]) id (pyStr c!"\ufeffversion 3; qubit é") [] ≠ .ok (.tree [0xFF, 0x41]) ∧
    Py.parseString Sample.antlr (fun _ => [0xFF, 0x41]) id (pyStr c!"\ufeffversion 3; qubit q // é") [] = .ok (.tree [0xFF, 0x41]) ∧
    Py.parseString Sample.antlr (fun _ => [0xFF, 0x41]) id (pyStr c!"version 3" ++ [.surrogate 0xDCE9]) [] = .exn c!"TypeError" := by
  refine ⟨?_, ?_, ?_⟩ <;> decide +kernel

end Qasm
