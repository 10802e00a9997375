import Verif.Model.Err
import Verif.Spec.Location
import Verif.Props.Text
/-!
# Properties of source locations, errors and results (C05, C49, C50 basis, C54)
-/

namespace Qasm
open Spec

/-! ## C49: ranges -/

private theorem lt_iff (a b : Index) : Index.lt a b = true ↔ ¬ PosLe b a := by
  simp only [Index.lt, PosLe, Bool.or_eq_true, decide_eq_true_eq, Bool.and_eq_true, beq_iff_eq]
  omega

theorem posLe_antisymm {a b : Index} (h : PosLe a b) (h' : PosLe b a) : a = b := by
  obtain ⟨la, ca⟩ := a; obtain ⟨lb, cb⟩ := b
  simp only [PosLe] at h h'
  have : la = lb := by omega
  have : ca = cb := by omega
  simp [*]

theorem posLe_refl (a : Index) : PosLe a a := Or.inr ⟨rfl, Nat.le_refl _⟩

theorem posLe_trans {a b c : Index} (h : PosLe a b) (h' : PosLe b c) : PosLe a c := by
  simp only [PosLe] at *; omega

theorem posLe_of_not {a b : Index} (h : ¬ PosLe b a) : PosLe a b := by
  simp only [PosLe] at *; omega

theorem max_spec (a b : Index) : PosLe a (Index.max a b) ∧ PosLe b (Index.max a b) ∧
    ∀ c, PosLe a c → PosLe b c → PosLe (Index.max a b) c := by
  unfold Index.max
  split
  · rename_i h
    rw [lt_iff] at h
    exact ⟨posLe_of_not h, posLe_refl _, fun _ _ h => h⟩
  · rename_i h
    rw [lt_iff, Classical.not_not] at h
    exact ⟨posLe_refl _, h, fun _ h _ => h⟩

theorem min_spec (a b : Index) : PosLe (Index.min a b) a ∧ PosLe (Index.min a b) b ∧
    ∀ c, PosLe c a → PosLe c b → PosLe c (Index.min a b) := by
  unfold Index.min
  split
  · rename_i h
    rw [lt_iff] at h
    exact ⟨posLe_of_not h, posLe_refl _, fun _ _ h => h⟩
  · rename_i h
    rw [lt_iff, Classical.not_not] at h
    exact ⟨posLe_refl _, h, fun _ h _ => h⟩

/-- C49. A constructed range starts at the given position and ends at the given one, or at the start
if that is later; so `first <= last` always. -/
theorem C49_range_ordered (f l : Index) :
    (Range.mk' f l).first = f ∧ PosLe f (Range.mk' f l).last ∧
    (PosLe f l → (Range.mk' f l).last = l) ∧ (PosLe l f → (Range.mk' f l).last = f) := by
  have h := max_spec l f
  refine ⟨rfl, h.2.1, fun hl => ?_, fun hl => ?_⟩
  · exact posLe_antisymm (h.2.2 l (posLe_refl _) hl) h.1
  · exact posLe_antisymm (h.2.2 f hl (posLe_refl _)) h.2.1

/-- C49. Expanding a location gives the smallest range that includes the old range and covers the new
position; the file name is kept. -/
theorem C49_expand_hull (l : Loc) (i : Index) :
    (l.expandToInclude i).fileName = l.fileName ∧
    Includes (l.expandToInclude i).range l.range ∧
    (PosLe l.range.first l.range.last → Covers (l.expandToInclude i).range i) ∧
    ∀ r : Range, Includes r l.range → Covers r i → Includes r (l.expandToInclude i).range := by
  have hm := min_spec l.range.first i
  have hx := max_spec l.range.last i
  exact ⟨rfl, ⟨hm.1, hx.1⟩, fun _ => ⟨hm.2.1, hx.2.1⟩,
    fun r hr hc => ⟨hm.2.2 _ hr.1 hc.1, hx.2.2 _ hr.2 hc.2⟩⟩

/-- C49. Expansion keeps `first <= last`. -/
theorem C49_expand_ordered (l : Loc) (i : Index) (h : PosLe l.range.first l.range.last) :
    PosLe (l.expandToInclude i).range.first (l.expandToInclude i).range.last := by
  have hm := (min_spec l.range.first i).1
  have hx := (max_spec l.range.last i).1
  simp only [Loc.expandToInclude, PosLe] at *
  omega

/-- C49. The order of expansions does not matter. -/
theorem C49_expand_comm (l : Loc) (i j : Index) :
    (l.expandToInclude i).expandToInclude j = (l.expandToInclude j).expandToInclude i := by
  have mm : ∀ a b c : Index, Index.min (Index.min a b) c = Index.min (Index.min a c) b := by
    intro a b c
    have h1 := min_spec a b; have h2 := min_spec (Index.min a b) c
    have h3 := min_spec a c; have h4 := min_spec (Index.min a c) b
    apply posLe_antisymm
    · refine h4.2.2 _ (h3.2.2 _ ?_ h2.2.1) ?_
      · exact posLe_trans h2.1 h1.1
      · exact posLe_trans h2.1 h1.2.1
    · refine h2.2.2 _ (h1.2.2 _ ?_ h4.2.1) ?_
      · exact posLe_trans h4.1 h3.1
      · exact posLe_trans h4.1 h3.2.1
  have mx : ∀ a b c : Index, Index.max (Index.max a b) c = Index.max (Index.max a c) b := by
    intro a b c
    have h1 := max_spec a b; have h2 := max_spec (Index.max a b) c
    have h3 := max_spec a c; have h4 := max_spec (Index.max a c) b
    apply posLe_antisymm
    · refine h2.2.2 _ (h1.2.2 _ ?_ h4.2.1) ?_
      · exact posLe_trans h3.1 h4.1
      · exact posLe_trans h3.2.1 h4.1
    · refine h4.2.2 _ (h3.2.2 _ ?_ h2.2.1) ?_
      · exact posLe_trans h1.1 h2.1
      · exact posLe_trans h1.2.1 h2.1
  simp only [Loc.expandToInclude, mm l.range.first i j, mx l.range.last i j]

/-- C49. A location never carries an empty file name; any other name is kept. -/
theorem C49_file_name (f : Option Str) (r : Range) :
    (Loc.mk' f r).fileName ≠ some [] ∧ (f ≠ some [] → (Loc.mk' f r).fileName = f) ∧
    (f = some [] → (Loc.mk' f r).fileName = none) ∧ (Loc.mk' f r).range = r := by
  unfold Loc.mk'
  refine ⟨?_, ?_, ?_, rfl⟩ <;> · dsimp only; split <;> simp_all

example : (Loc.mk none (Range.mk' ⟨2, 5⟩ ⟨2, 9⟩)).expandToInclude ⟨1, 7⟩ = ⟨none, ⟨⟨1, 7⟩, ⟨2, 9⟩⟩⟩ := by decide
example : Range.mk' ⟨2, 5⟩ ⟨1, 9⟩ = ⟨⟨2, 5⟩, ⟨2, 5⟩⟩ := by decide

/-! ## C50: adding context never overwrites a location -/

/-- C50. `context` fills in a missing location with the node's, and changes nothing else. -/
theorem C50_context (e : Err) (n : Option Loc) :
    (e.context n).message = e.message ∧
    (∀ l, e.location = some l → (e.context n).location = some l) ∧
    (e.location = none → (e.context n).location = n) := by
  obtain ⟨m, l⟩ := e
  cases l <;> simp [Err.context]

/-- C50. With a chain of contexts, the first located node wins (the innermost one, since handlers run
from the inside out). -/
theorem C50_context_chain (m : Str) (ns : List (Option Loc)) :
    (ns.foldl Err.context ⟨m, none⟩) = ⟨m, (ns.filterMap id).head?⟩ := by
  induction ns with
  | nil => rfl
  | cons n ns ih =>
    cases n with
    | none => simpa [Err.context] using ih
    | some l =>
      have : ∀ (ns : List (Option Loc)), ns.foldl Err.context ⟨m, some l⟩ = ⟨m, some l⟩ := by
        intro ns
        induction ns with
        | nil => rfl
        | cons n ns ih => simpa [Err.context] using ih
      simp [Err.context, this]

/-- C50/C54. An error message is never empty, whatever the constructor and its argument. -/
theorem C54_message_nonempty (m : Str) (n : Option Loc) (f : Option Str) (r : Range) :
    (Err.mkNode m n).message ≠ [] ∧ (Err.mk0 m).message ≠ [] ∧ (Err.mkRange m f r).message ≠ [] ∧
    (m ≠ [] → (Err.mkNode m n).message = m ∧ (Err.mk0 m).message = m ∧ (Err.mkRange m f r).message = m) := by
  have hn : Err.normMsg m ≠ [] := by
    unfold Err.normMsg; split
    · decide
    · rename_i h; simpa using h
  refine ⟨?_, ?_, ?_, ?_⟩
  · rw [Err.mkNode, (C50_context _ _).1]; exact hn
  · rw [Err.mk0, Err.mkNode, (C50_context _ _).1]; exact hn
  · exact hn
  · intro hm
    have : Err.normMsg m = m := by
      unfold Err.normMsg; rw [if_neg (by simpa using hm)]
    refine ⟨?_, ?_, this⟩
    · rw [Err.mkNode, (C50_context _ _).1]; exact this
    · rw [Err.mk0, Err.mkNode, (C50_context _ _).1]; exact this

/-! ## C54: rendering -/

private theorem takeWhile_all {p : Char → Bool} {l : Str} (h : ∀ c ∈ l, p c = true) : l.takeWhile p = l := by
  induction l with
  | nil => rfl
  | cons c l ih =>
    rw [List.takeWhile_cons, if_pos (h c (by simp)), ih fun d hd => h d (by simp [hd])]

/-- C54. Text of an error without location. -/
theorem C54_what_unlocated (m : Str) (hm : m ≠ []) (h0 : Char.ofNat 0 ∉ m) :
    (Err.mk m none).what = c!"Error: " ++ m := by
  have hw : (Err.mk m none).whatMessage = c!"Error: " ++ m := by
    simp [Err.whatMessage, Err.normMsg, hm]
  unfold Err.what
  rw [hw, takeWhile_all]
  intro c hc
  rcases List.mem_append.1 hc with h | h
  · clear hc; revert c; decide
  · rw [bne_iff_ne]; rintro rfl; exact h0 h

/-- C54. Text of an error with a location: the printed location between ` at ` and `: `. -/
theorem C54_what_located (m : Str) (l : Loc) (hm : m ≠ []) (h0 : Char.ofNat 0 ∉ m)
    (hl : Char.ofNat 0 ∉ l.print) :
    (Err.mk m (some l)).what = c!"Error at " ++ l.print ++ c!": " ++ m := by
  have hw : (Err.mk m (some l)).whatMessage = c!"Error at " ++ l.print ++ c!": " ++ m := by
    simp [Err.whatMessage, Err.normMsg, hm]
  unfold Err.what
  rw [hw, takeWhile_all]
  intro c hc
  simp only [List.mem_append] at hc
  rcases hc with ((h | h) | h) | h
  · revert c; decide
  · rw [bne_iff_ne]; rintro rfl; exact hl h
  · revert c; decide
  · rw [bne_iff_ne]; rintro rfl; exact h0 h

/-- C54. How a location is printed, for the locations the parser produces (line and column known). -/
theorem C54_print_location (file : Option Str) (r : Range) (hl : 0 < r.first.line) (hc : 0 < r.first.column) :
    let start := file.getD c!"<unknown file name>" ++ c!":" ++ decNat r.first.line ++ c!":" ++ decNat r.first.column
    (r.first = r.last → (Loc.mk file r).print = start) ∧
    (r.first.line = r.last.line → r.first.column < r.last.column →
      (Loc.mk file r).print = start ++ c!".." ++ decNat r.last.column) ∧
    (r.first.line < r.last.line →
      (Loc.mk file r).print = start ++ c!".." ++ decNat r.last.line ++ c!":" ++ decNat r.last.column) := by
  have h1 : ¬ r.first.line = 0 := by omega
  have h2 : ¬ r.first.column = 0 := by omega
  simp only [Loc.print, if_neg h1, if_neg h2]
  refine ⟨fun h => ?_, fun h h' => ?_, fun h => ?_⟩
  · simp [h, Loc.unknownFileName]
  · simp [h, h', Loc.unknownFileName]
  · have : ¬ r.last.line = r.first.line := by omega
    simp [this, h, Loc.unknownFileName]

/-- C54. Without a line number only the file name is printed; without a column only line numbers. -/
theorem C54_print_location_partial_info (file : Option Str) (f l : Index) :
    (f.line = 0 → (Loc.mk file ⟨f, l⟩).print = file.getD c!"<unknown file name>") ∧
    (0 < f.line → f.column = 0 → (Loc.mk file ⟨f, l⟩).print =
      file.getD c!"<unknown file name>" ++ c!":" ++ decNat f.line
        ++ (if f.line < l.line then c!".." ++ decNat l.line else [])) := by
  refine ⟨fun h => ?_, fun h h' => ?_⟩
  · simp [Loc.print, h, Loc.unknownFileName]
  · have : ¬ f.line = 0 := by omega
    simp only [Loc.print, if_neg this, h', if_true, Loc.unknownFileName, GT.gt]
    split <;> simp

private theorem utf8_append (a b : Str) : utf8 (a ++ b) = utf8 a ++ utf8 b := by simp [utf8]

private theorem utf8_cons (a : Char) (b : Str) : utf8 (a :: b) = utf8 [a] ++ utf8 b := by simp [utf8]

private theorem jsonEncode_unknown :
    Text.jsonEncode (utf8 Err.unknownErrorMessage) = utf8 c!"<unknown error message>" := by decide +kernel

set_option maxRecDepth 4000 in
/-- C54. The JSON of an error is an LSP diagnostic: the four range numbers (0 when unknown), the
message JSON-encoded, severity 1, and the percent-encoded file name when one is known. -/
theorem C54_to_json (e : Err) :
    e.toJson = (jsonDiagnostic
      (match e.location with | some l => l.range | none => ⟨⟨0, 0⟩, ⟨0, 0⟩⟩)
      (Text.jsonEncode (utf8 e.message))
      (e.location.bind fun l => l.fileName.map fun f => Text.urlEncode (utf8 f))).render := by
  have key : ∀ (r : Range) (m : Bytes),
      utf8 (c!"{\"range\":{\"start\":{\"line\":" ++ decNat r.first.line
        ++ c!",\"character\":" ++ decNat r.first.column
        ++ c!"},\"end\":{\"line\":" ++ decNat r.last.line
        ++ c!",\"character\":" ++ decNat r.last.column
        ++ c!"}},\"message\":\"") ++ m ++ utf8 c!"\",\"severity\":1" =
      utf8 ['{'] ++ (utf8 ['"'] ++ utf8 c!"range" ++ utf8 ['"', ':'] ++ (jsonRange r).render ++ utf8 [',']
        ++ (utf8 ['"'] ++ utf8 c!"message" ++ utf8 ['"', ':'] ++ (utf8 ['"'] ++ m ++ utf8 ['"']) ++ utf8 [',']
        ++ (utf8 ['"'] ++ utf8 c!"severity" ++ utf8 ['"', ':'] ++ utf8 (Nat.toDigits 10 1)))) := by
    intro r m
    have h1 : utf8 (Nat.toDigits 10 1) = utf8 ['1'] := by decide +kernel
    rw [h1]
    simp only [jsonRange, jsonPos, Json.render, renderFields, decNat, utf8, List.flatMap_append,
      List.flatMap_cons, List.flatMap_nil, List.append_nil, List.append_assoc]
  obtain ⟨m, l⟩ := e
  cases l with
  | none =>
    simp only [Err.toJson, Err.relatedInformation, jsonDiagnostic, Option.bind_none, List.append_nil]
    rw [key ⟨⟨0, 0⟩, ⟨0, 0⟩⟩]
    simp only [Json.render, renderFields, List.append_assoc]
  | some l =>
    obtain ⟨f, r⟩ := l
    cases f with
    | none =>
      simp only [Err.toJson, Err.relatedInformation, jsonDiagnostic, Option.bind_some, Option.map_none,
        List.append_nil]
      rw [key]
      simp only [Json.render, renderFields, List.append_assoc]
    | some f =>
      simp only [Err.toJson, Err.relatedInformation, jsonDiagnostic, Option.bind_some, Option.map_some]
      rw [key, jsonEncode_unknown]
      have h0 : utf8 (Nat.toDigits 10 0) = utf8 ['0'] := by decide +kernel
      simp only [Json.render, renderFields, List.cons_append, List.nil_append, renderItems, jsonRelated,
        jsonRange, jsonPos, h0]
      simp only [utf8, List.flatMap_cons, List.flatMap_nil, List.append_nil, List.append_assoc]

/-- C54. For an ASCII message the `message` field, read as JSON, is the message. -/
theorem C54_json_message_ascii (e : Err) (h : ∀ c ∈ utf8 e.message, c.toNat < 128) :
    ∃ raw, jsonStringDecode raw = some ((utf8 e.message).map UInt8.toNat) ∧
      ∃ r rel, e.toJson = (jsonDiagnostic r raw rel).render :=
  ⟨_, C52_json_encode_ascii_partial _ h, _, _, C54_to_json e⟩

example : (Err.mk c!"bad" (some ⟨some c!"a.cq", ⟨⟨3, 1⟩, ⟨3, 4⟩⟩⟩)).what = c!"Error at a.cq:3:1..4: bad" := by
  decide +kernel
example : (Err.mk c!"bad" (some ⟨none, ⟨⟨3, 1⟩, ⟨3, 4⟩⟩⟩)).toJson =
    utf8 c!"{\"range\":{\"start\":{\"line\":3,\"character\":1},\"end\":{\"line\":3,\"character\":4}},\"message\":\"bad\",\"severity\":1}" := by
  decide +kernel

/-! ## C05: AST and errors are never delivered together -/

/-- C05. Without errors `to_strings` is the serialised AST alone, `to_json` the dumped AST, and
`unwrap` returns the root and writes nothing. -/
theorem C05_success {ρ : Type} (r : Result ρ) (ser : Option ρ → Str) (dump : Option ρ → Bytes)
    (h : r.errors = []) :
    r.toStrings ser = [ser r.root] ∧ r.toJson dump = dump r.root ∧ r.unwrap = ([], .ok r.root) := by
  simp [Result.toStrings, Result.toJson, Result.unwrap, h]

/-- C05. With errors `to_strings` has an empty first string and then one message per error in order,
independent of the root; `unwrap` throws. -/
theorem C05_failure {ρ : Type} (r : Result ρ) (ser : Option ρ → Str) (dump : Option ρ → Bytes)
    (h : r.errors ≠ []) :
    (r.toStrings ser).length = r.errors.length + 1 ∧
    (r.toStrings ser)[0]? = some [] ∧
    (∀ i, (r.toStrings ser)[i + 1]? = (r.errors[i]?).map Err.what) ∧
    (∀ root', (Result.mk root' r.errors).toStrings ser = r.toStrings ser ∧
      (Result.mk root' r.errors).toJson dump = r.toJson dump) ∧
    r.unwrap.2 = .exn c!"AnalysisFailed" := by
  have hf : r.errors.isEmpty = false := by simpa using h
  simp [Result.toStrings, Result.toJson, Result.unwrap, hf]

/-- C05. The JSON of a failure is an object with the one key `errors`: the diagnostics in order. -/
theorem C05_failure_json {ρ : Type} (r : Result ρ) (dump : Option ρ → Bytes) (h : r.errors ≠ []) :
    ∃ ds : List Json, r.toJson dump = (Json.obj [(utf8 c!"errors", .arr ds)]).render ∧
      ds.map Json.render = r.errors.map Err.toJson := by
  have hf : r.errors.isEmpty = false := by simpa using h
  let diag : Err → Json := fun e => jsonDiagnostic
      (match e.location with | some l => l.range | none => ⟨⟨0, 0⟩, ⟨0, 0⟩⟩)
      (Text.jsonEncode (utf8 e.message))
      (e.location.bind fun l => l.fileName.map fun f => Text.urlEncode (utf8 f))
  have hd : ∀ e, (diag e).render = e.toJson := fun e => (C54_to_json e).symm
  have hj : ∀ es : List Err, Result.joinBytes (utf8 c!",") (es.map Err.toJson) = renderItems (es.map diag) := by
    intro es
    induction es with
    | nil => rfl
    | cons e es ih =>
      cases es with
      | nil => simp [Result.joinBytes, renderItems, hd]
      | cons e' es =>
        simp only [List.map_cons, Result.joinBytes, renderItems, hd] at ih ⊢
        rw [ih]
  refine ⟨r.errors.map diag, ?_, ?_⟩
  · simp only [Result.toJson, hf, Bool.false_eq_true, if_false, Result.errorsToJson, hj, Json.render, renderFields]
    simp only [utf8, List.flatMap_cons, List.flatMap_nil, List.append_nil, List.append_assoc]
  · simp [hd]

/-- C05. What `unwrap` writes before throwing: the messages, one per line. -/
theorem C05_unwrap_text {ρ : Type} (root : Option ρ) (e : Err) (es : List Err) :
    (Result.mk root (e :: es)).unwrap.1 = e.what ++ es.flatMap fun e => '\n' :: e.what := by
  simp only [Result.unwrap, List.isEmpty_cons, Bool.false_eq_true, if_false]
  induction es generalizing e with
  | nil => simp [joinStr]
  | cons e' es ih => simp [joinStr, List.append_assoc] at ih ⊢; exact ih e'

example : (Result.mk (some 3) [⟨c!"x", none⟩, ⟨c!"y", none⟩]).toStrings (fun _ => c!"AST") =
    [[], c!"Error: x", c!"Error: y"] := by decide

end Qasm
