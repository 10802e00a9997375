import Verif.Lemmas.Syntactic
import Verif.Props.Parser
import Verif.Props.Lexer
import Verif.Props.Text
/-!
# The trees built for gates, statements and programs
-/

namespace Qasm

open Spec TokKind

variable {F : Type}

namespace Syn

theorem part_perm {α : Type} {an : Antlr F} {file : Option Str} {us vs : List Token} {r : Res Err α} {P : α → Prop}
    (h : Part an file us r P) (hs : ∀ t, t ∈ us ↔ t ∈ vs) : Part an file vs r P :=
  part_mono h (fun t ht => (hs t).1 ht) (fun t ht => .inl ((hs t).2 ht))

theorem part_cons {α : Type} {an : Antlr F} {file : Option Str} {t : Token} {us : List Token} {r : Res Err α} {P : α → Prop}
    (h : Part an file us r P) (hr : Representable an.stod t) : Part an file (t :: us) r P :=
  part_mono h (fun t ht => List.mem_cons_of_mem _ ht) fun t' ht => by
    rcases List.mem_cons.1 ht with rfl | ht
    · exact .inr hr
    · exact .inl ht

/-- The optional parameter list. -/
def OptDerives : List Token → Option (List PExpr) → Prop
  | us, none => us = []
  | us, some es => ∃ o c vs, us = o :: vs ++ [c] ∧ o.kind = openParens ∧ Derives vs (.exprs es) ∧ c.kind = closeParens

theorem opt_visited (an : Antlr F) (file : Option Str) {us : List Token} {ps : Option (List PExpr)} (hd : OptDerives us ps)
    (hl : ∀ t ∈ us, Lexed t) :
    Part an file us (optExprs an file ps) fun v => Tree an.stod file (.exprs (ps.getD [])) (.exprs v) := by
  cases ps with
  | none => subst hd; exact part_pure .exprs0
  | some es =>
    obtain ⟨o, c, vs, rfl, ho, hd, hc⟩ := hd
    have h := visited an file hd (fun t ht => hl t (by simp [ht]))
    refine part_cons ?_ (representable_of ho)
    refine part_perm (part_cons h (representable_of hc)) ?_
    intro t; simp [or_comm]

theorem gate_visited (an : Antlr F) (file : Option Str) {us : List Token} {g : PGate} (hd : DerivesGate us g)
    (hl : ∀ t ∈ us, Lexed t) : Part an file us (gate an file g) fun v => GateTree an.stod file g v := by
  induction hd with
  | @inv kw d us g hk hdd _ ih =>
    have ih := ih (fun t ht => hl t (by simp [ht]))
    refine part_cons (part_cons ?_ (representable_of hdd)) (representable_of hk)
    simp only [gate]
    refine part_last ih (fun v hv => .inv (at_annotation _ _) hv) ?_
    intro h w hw
    cases hw with | inv _ hw => exact h _ hw
  | @pow kw o c d us vs e g hk ho he hc hdd _ ih =>
    have ih := ih (fun t ht => hl t (by simp [ht]))
    have ih' := visited an file he (fun t ht => hl t (by simp [ht]))
    refine part_cons (part_cons ?_ (representable_of ho)) (representable_of hk)
    refine part_perm (us := c :: d :: (vs ++ us)) (part_cons (part_cons ?_ (representable_of hdd)) (representable_of hc)) ?_
    · simp only [gate]
      refine part_bind ih (fun v hv => part_last ih' (fun w hw => .pow (at_annotation _ _) hw hv) ?_) ?_
      · intro h w hw
        cases hw with | pow _ hw _ => exact h _ hw
      · intro h w hw
        cases hw with | pow _ _ hw => exact h _ hw
    · intro t
      simp only [List.append_eq, List.mem_cons, List.mem_append]
      constructor
      · rintro (h | h | h | h) <;> simp [h]
      · rintro (h | h | h | h) <;> simp [h]
  | @ctrl kw d us g hk hdd _ ih =>
    have ih := ih (fun t ht => hl t (by simp [ht]))
    refine part_cons (part_cons ?_ (representable_of hdd)) (representable_of hk)
    simp only [gate]
    refine part_last ih (fun v hv => .ctrl (at_annotation _ _) hv) ?_
    intro h w hw
    cases hw with | ctrl _ hw => exact h _ hw
  | @named name hn =>
    refine part_cons ?_ (representable_of hn)
    exact part_pure (.named (at_annotation _ _) .exprs0)
  | @parameters name o c us es hn ho hd hc =>
    have h := opt_visited an file (ps := some es) ⟨o, c, us, rfl, ho, hd, hc⟩ (fun t ht => hl t (List.mem_cons_of_mem _ ht))
    refine part_cons ?_ (representable_of hn)
    simp only [gate]
    refine part_last h (fun v hv => .named (at_annotation _ _) hv) ?_
    intro h w hw
    cases hw with | named _ hw => exact h _ hw

theorem typeName_mem {k : TokKind} (h : k ∈ [qubitType, bitType]) : (k, typeName k) ∈ typeNodes := by
  simp only [List.mem_cons, List.not_mem_nil, or_false] at h
  rcases h with rfl | rfl <;> simp [typeName, typeNodes]

theorem gateLoc_eq (g : Gate F) : gateLoc g = locOfGate g := by cases g; rfl

theorem lexed_text {t : Token} (h : Lexed t) {k : TokKind} (hk : t.kind = k) (hne : k ≠ eof) : Text k t.text := by
  rcases h with h | h
  · exact absurd (hk ▸ h) hne
  · exact hk ▸ h.1

theorem measure_part (an : Antlr F) (file : Option Str) {us vs ws : List Token} {kw eq : Token} {ps : Option (List PExpr)} {b q : PExpr}
    (hb : Derives us (.expr b)) (he : eq.kind = equals) (hk : kw.kind = TokKind.measure) (hps : OptDerives vs ps)
    (hq : Derives ws (.expr q)) (hl1 : ∀ t ∈ us, Lexed t) (hl2 : ∀ t ∈ vs, Lexed t) (hl3 : ∀ t ∈ ws, Lexed t) :
    Part an file (us ++ eq :: kw :: (vs ++ ws)) (stmt an file (.measure kw ps b q)) fun v => StmtTree an.stod file (.measure kw ps b q) v := by
  have h1 := visited an file hb hl1
  have h2 := opt_visited an file hps hl2
  have h3 := visited an file hq hl3
  refine part_perm (us := eq :: kw :: (vs ++ (us ++ ws))) (part_cons (part_cons ?_ (representable_of hk)) (representable_of he)) ?_
  · simp only [stmt]
    refine part_bind h2 (fun u hu => part_bind h1 (fun v hv => part_last h3 (fun w hw => .measure (at_annotation _ _) hu hv hw) ?_) ?_) ?_
    · intro h w hw
      cases hw with | measure _ _ _ hw => exact h _ hw
    · intro h w hw
      cases hw with | measure _ _ hw _ => exact h _ hw
    · intro h w hw
      cases hw with | measure _ hw _ _ => exact h _ hw
  · intro t
    simp only [List.mem_cons, List.mem_append]
    constructor
    · rintro (h | h | h | h | h) <;> simp [h]
    · rintro (h | h | h | h | h) <;> simp [h]

theorem stmt_visited (an : Antlr F) (file : Option Str) {us : List Token} {s : PStmt} (hd : DerivesStmt us s)
    (hl : ∀ t ∈ us, Lexed t) : Part an file us (stmt an file s) fun v => StmtTree an.stod file s v := by
  cases hd with
  | @var kw name hk hn =>
    refine part_cons (part_cons ?_ (representable_of hn)) (representable_mem hk (by decide))
    exact part_pure (.var (typeName_mem hk) (at_annotation _ _) (at_annotation _ _))
  | @array kw o n c name hk ho hn hc hna =>
    refine part_cons (part_cons ?_ (representable_of ho)) (representable_mem hk (by decide))
    refine part_perm (us := [c, name, n]) (part_cons (part_cons ?_ (representable_of hna)) (representable_of hc)) ?_
    · have hx := (lexed_text (hl n (by simp)) hn (by decide)).2
      simp only [stmt, arraySize]
      rcases Nat.lt_or_ge maxInt (numeral n.text) with hf | hf
      · rw [getInt_err file _ _ hx hf]
        refine .inr ⟨_, rfl, ⟨n, by simp, ?_⟩, ?_⟩
        · obtain ⟨loc, h⟩ := syntaxError_spec file n.line n.column (m := c!"value '" ++ n.text ++ c!"' is out of the INTEGER_LITERAL range") (by simp)
          refine ⟨0, n.text, _, loc, .int hn hf, ?_⟩
          simpa using h
        · intro v h
          cases h with
          | array _ h _ _ => have := intOf_fits h; omega
      · obtain ⟨m, h1, h2⟩ := getInt_ok file n.line n.column hx hf
        rw [h1]
        exact .inl ⟨_, rfl, .array (typeName_mem hk) h2 (at_annotation _ _) (spans_typeLoc _ _ _ _), by simpa [Representable, hn] using hf⟩
    · intro t
      simp only [List.mem_cons, List.not_mem_nil, or_false]
      constructor
      · rintro (h | h | h) <;> simp [h]
      · rintro (h | h | h) <;> simp [h]
  | @gate us vs g es hg he =>
    have h1 := gate_visited an file hg (fun t ht => hl t (by simp [ht]))
    have h2 := visited an file he (fun t ht => hl t (by simp [ht]))
    simp only [stmt]
    refine part_bind h1 (fun v hv => part_last h2 (fun w hw => ?_) ?_) ?_
    · rw [gateLoc_eq]; exact .gate hv hw
    · intro h w hw
      cases hw with | gate _ hw => exact h _ hw
    · intro h w hw
      cases hw with | gate hw _ => exact h _ hw
  | @measure eq kw us vs b q hb he hk hq =>
    exact measure_part an file (vs := []) hb he hk rfl hq (fun t ht => hl t (by simp [ht])) (by simp) (fun t ht => hl t (by simp [ht]))
  | @measureParameters eq kw o c us vs ws b q es hb he hk ho hes hc hq =>
    have := measure_part an file (vs := o :: vs ++ [c]) (ps := some es) hb he hk ⟨o, c, vs, rfl, ho, hes, hc⟩ hq
      (fun t ht => hl t (by simp [ht])) (fun t ht => hl t (by simp at ht ⊢; rcases ht with h | h | h <;> simp [h]))
      (fun t ht => hl t (by simp [ht]))
    simpa using this
  | @simple kw us e hk he =>
    have h := visited an file he (fun t ht => hl t (by simp [ht]))
    refine part_cons ?_ (representable_mem hk (by decide))
    simp only [stmt]
    refine part_last h (fun v hv => .simple (at_annotation _ _) hv) ?_
    intro h w hw
    cases hw with | simple _ hw => exact h _ hw
  | @wait kw o c us vs p e hk ho hp hc he =>
    have h1 := visited an file hp (fun t ht => hl t (by simp [ht]))
    have h2 := visited an file he (fun t ht => hl t (by simp [ht]))
    refine part_cons (part_cons ?_ (representable_of ho)) (representable_of hk)
    refine part_perm (us := c :: (us ++ vs)) (part_cons ?_ (representable_of hc)) ?_
    · simp only [stmt]
      refine part_bind h1 (fun v hv => part_last h2 (fun w hw => .wait (at_annotation _ _) hv hw) ?_) ?_
      · intro h w hw
        cases hw with | wait _ _ hw => exact h _ hw
      · intro h w hw
        cases hw with | wait _ hw _ => exact h _ hw
    · intro t
      simp only [List.append_eq, List.mem_cons, List.mem_append]
      constructor
      · rintro (h | h | h) <;> simp [h]
      · rintro (h | h | h) <;> simp [h]
  | @asm kw o name c raw hk ho hn hc hr =>
    refine part_cons (part_cons (part_cons (part_cons (part_cons ?_ (representable_of hr)) (representable_of hc))
      (representable_of hn)) (representable_of ho)) (representable_of hk)
    obtain ⟨u, hu⟩ := lexed_text (hl raw (by simp)) hr (by decide)
    simp only [stmt, hu]
    rw [C53_remove_triple_quotes]
    exact part_pure (.asm hu)

/-! ## Programs -/

theorem seps_representable {stod : Str → Option F} {seps : List Token} (h : Separators seps) :
    ∀ t ∈ seps, Representable stod t := fun t ht => representable_mem (h t ht) (by decide)

theorem part_append {α : Type} {an : Antlr F} {file : Option Str} {vs us : List Token} {r : Res Err α} {P : α → Prop}
    (h : Part an file us r P) (hr : ∀ t ∈ vs, Representable an.stod t) : Part an file (vs ++ us) r P :=
  part_mono h (fun t ht => List.mem_append_right _ ht) fun t ht => (List.mem_append.1 ht).elim (fun h => .inr (hr t h)) .inl

theorem block_visited (an : Antlr F) (file : Option Str) {ts : List Token} {ss : List PStmt} (hb : Block DerivesStmt ts ss)
    (hl : ∀ t ∈ ts, Lexed t) : Part an file ts (stmts an file ss) fun vs => Forall2 (StmtTree an.stod file) ss vs := by
  induction hb with
  | @nil seps e hs he =>
    refine part_mono (us := []) (part_pure .nil) (by simp) ?_
    intro t ht
    rcases List.mem_append.1 ht with ht | ht
    · exact .inr (seps_representable hs t ht)
    · simp only [List.mem_cons, List.not_mem_nil, or_false] at ht
      subst ht
      exact .inr (representable_of he)
  | @cons seps us vs s ss hs hne hd _ ih =>
    have ih := ih (fun t ht => hl t (by simp [ht]))
    have h := stmt_visited an file hd (fun t ht => hl t (by simp [ht]))
    rw [List.append_assoc]
    refine part_append ?_ (seps_representable hs)
    simp only [stmts]
    refine part_bind h (fun v hv => part_last ih (fun w hw => .cons hv hw) ?_) ?_
    · intro h w hw
      cases hw with | cons _ hw => exact h _ hw
    · intro h w hw
      cases hw with | cons hw _ => exact h _ hw

theorem digits_no_dot {w : Str} (h : ∀ c ∈ w, Digit c) : ∀ c ∈ w, (c != '.') = true := by
  intro c hc
  have := h c hc
  simp only [Digit, List.mem_cons, List.not_mem_nil, or_false] at this
  rcases this with h | h | h | h | h | h | h | h | h | h <;> subst h <;> decide

theorem takeWhile_dot {a b : Str} (h : ∀ c ∈ a, (c != '.') = true) : (a ++ '.' :: b).takeWhile (· != '.') = a := by
  induction a with
  | nil => rfl
  | cons c a ih =>
    rw [List.cons_append, List.takeWhile_cons, if_pos (h c (by simp)), ih fun d hd => h d (by simp [hd])]

theorem dropWhile_dot {a b : Str} (h : ∀ c ∈ a, (c != '.') = true) : (a ++ '.' :: b).dropWhile (· != '.') = '.' :: b := by
  induction a with
  | nil => rfl
  | cons c a ih =>
    rw [List.cons_append, List.dropWhile_cons, if_pos (h c (by simp)), ih fun d hd => h d (by simp [hd])]

theorem dropWhile_all {a : Str} (h : ∀ c ∈ a, (c != '.') = true) : a.dropWhile (· != '.') = [] := by
  induction a with
  | nil => rfl
  | cons c a ih =>
    rw [List.dropWhile_cons, if_pos (h c (by simp)), ih fun d hd => h d (by simp [hd])]

theorem components_one {w : Str} (h : ∀ c ∈ w, Digit c) : components w = [w] := by
  have h1 : w.takeWhile (· ≠ '.') = w := takeWhile_all (p := fun c => decide (c ≠ '.')) (by simpa using digits_no_dot h)
  simp only [components, h1]
  rw [if_neg (by omega)]

theorem components_two {a b : Str} (h : ∀ c ∈ a, Digit c) : components (a ++ '.' :: b) = [a, b] := by
  have h1 : (a ++ '.' :: b).takeWhile (· ≠ '.') = a := by
    have := takeWhile_dot (b := b) (digits_no_dot h)
    rw [← this]
    congr 1
    · funext c; by_cases hc : c = '.' <;> simp [hc]
    · rw [this]
  simp only [components, h1]
  rw [if_pos (by simp)]
  simp

/-- The tree of the version statement. -/
def VersionTree (file : Option Str) (t : Token) (v : VersionAst) : Prop :=
  Forall2 IntOf (components t.text) v.items ∧ At file t v.loc

theorem version_visited (an : Antlr F) (file : Option Str) {t : Token} (hk : t.kind = versionNumber) (hl : Lexed t) :
    Part an file [t] (version file t) (VersionTree file t) := by
  have hx := lexed_text hl hk (by decide)
  have err : ∀ off w, Faulty an.stod t off w c!"INTEGER_LITERAL" →
      LiteralError an.stod file t (syntaxError file t.line (t.column + off) (c!"value '" ++ w ++ c!"' is out of the INTEGER_LITERAL range")) := by
    intro off w hf
    obtain ⟨loc, h⟩ := syntaxError_spec file t.line (t.column + off) (m := c!"value '" ++ w ++ c!"' is out of the INTEGER_LITERAL range") (by simp)
    exact ⟨off, w, _, loc, hf, by simpa using h⟩
  rcases hx with ⟨-, hx⟩ | ⟨a, b, hx, ⟨-, ha⟩, ⟨-, hb⟩⟩
  · have hc := components_one hx
    have e1 : t.text.takeWhile (· != '.') = t.text := takeWhile_all (digits_no_dot hx)
    have e2 := dropWhile_all (digits_no_dot hx)
    simp only [version, e1, e2]
    rcases Nat.lt_or_ge maxInt (numeral t.text) with hf | hf
    · rw [getInt_err file _ _ hx hf]
      refine .inr ⟨_, rfl, ⟨t, by simp, err 0 _ (.major hk hc hf)⟩, ?_⟩
      rintro ⟨ns, l⟩ ⟨h, -⟩
      rw [hc] at h
      simp only at h
      cases h with | cons h _ => have := intOf_fits h; omega
    · obtain ⟨n, h1, h2⟩ := getInt_ok file t.line t.column hx hf
      rw [h1]
      refine .inl ⟨_, rfl, ⟨?_, at_annotation _ _⟩, ?_⟩
      · rw [hc]; exact .cons h2 .nil
      · simp [Representable, hk, hc, hf]
  · have hc : components t.text = [a, b] := by rw [hx]; exact components_two ha
    have e1 : t.text.takeWhile (· != '.') = a := by rw [hx]; exact takeWhile_dot (digits_no_dot ha)
    have e2 : t.text.dropWhile (· != '.') = '.' :: b := by rw [hx]; exact dropWhile_dot (digits_no_dot ha)
    simp only [version, e1, e2]
    rcases Nat.lt_or_ge maxInt (numeral a) with hf | hf
    · rw [getInt_err file _ _ ha hf]
      refine .inr ⟨_, rfl, ⟨t, by simp, err 0 _ (.major hk hc hf)⟩, ?_⟩
      rintro ⟨ns, l⟩ ⟨h, -⟩
      rw [hc] at h
      simp only at h
      cases h with | cons h _ => have := intOf_fits h; omega
    · obtain ⟨m, h1, h2⟩ := getInt_ok file t.line t.column ha hf
      rw [h1]
      rcases Nat.lt_or_ge maxInt (numeral b) with hg | hg
      · simp only [Res.bind_ok]
        rw [getInt_err file _ _ hb hg]
        refine .inr ⟨_, rfl, ⟨t, by simp, err _ _ (.minor hk hc hg)⟩, ?_⟩
        rintro ⟨ns, l⟩ ⟨h, -⟩
        rw [hc] at h
        simp only at h
        cases h with | cons _ h => cases h with | cons h _ => have := intOf_fits h; omega
      · obtain ⟨n, h3, h4⟩ := getInt_ok file t.line (t.column + (a.length + 1)) hb hg
        simp only [Res.bind_ok]
        rw [h3]
        refine .inl ⟨_, rfl, ⟨?_, at_annotation _ _⟩, ?_⟩
        · rw [hc]; exact .cons h2 (.cons h4 .nil)
        · simp [Representable, hk, hc, hf, hg]

theorem program_visited (an : Antlr F) (file : Option Str) {ts : List Token} {pr : PProgram} (hp : Program DerivesStmt ts pr)
    (hl : ∀ t ∈ ts, Lexed t) : Part an file ts (program an file pr) fun v => ProgramTree an.stod file pr v := by
  obtain ⟨hs, hv, hn, hb⟩ := hp
  refine part_append ?_ (seps_representable hs)
  refine part_cons ?_ (representable_of hv)
  have h1 := version_visited an file hn (hl _ (by simp))
  have h2 := block_visited an file hb (fun t ht => hl t (by simp [ht]))
  simp only [program]
  refine part_bind (us := [_]) h1 (fun v hv => part_last h2 (fun w hw => .mk hv.1 hv.2 hw) ?_) ?_
  · intro h w hw
    cases hw with | mk _ _ hw => exact h _ hw
  · intro h w hw
    cases hw with | mk h1 h2 _ => exact h ⟨_, _⟩ ⟨h1, h2⟩

/-! ## Trees are unique -/

theorem at_unique {file : Option Str} {t : Token} {l l' : Option Loc} (h : At file t l) (h' : At file t l') : l = l' := by
  rw [at_iff] at h h'; rw [h, h']

theorem unary_unique {k : TokKind} {u v : UnOp} (h : (k, u) ∈ unaryNodes) (h' : (k, v) ∈ unaryNodes) : u = v := by
  revert h h'; cases k <;> cases u <;> cases v <;> decide +kernel

theorem binary_unique {k : TokKind} {u v : BinOp} (h : (k, u) ∈ binaryNodes) (h' : (k, v) ∈ binaryNodes) : u = v := by
  have key : ∀ p ∈ binaryNodes, ∀ q ∈ binaryNodes, p.1 = q.1 → p.2 = q.2 := by decide +kernel
  exact key _ h _ h' rfl

theorem type_unique {k : TokKind} {u v : Str} (h : (k, u) ∈ typeNodes) (h' : (k, v) ∈ typeNodes) : u = v := by
  have key : ∀ p ∈ typeNodes, ∀ q ∈ typeNodes, p.1 = q.1 → p.2 = q.2 := by decide +kernel
  exact key _ h _ h' rfl

theorem tree_unique {stod : Str → Option F} {file : Option Str} {ph : Phrase} {n n' : Node F} (h : Tree stod file ph n)
    (h' : Tree stod file ph n') : n = n' := by
  induction h generalizing n' with
  | parens _ ih => cases h' with | parens h => exact ih h
  | plus hk _ ih =>
    cases h' with
    | plus _ h => exact ih h
    | pre hm => rw [hk] at hm; exact absurd hm (by simp [unaryNodes])
  | pre hm ha _ ih =>
    cases h' with
    | plus hk _ => rw [hk] at hm; exact absurd hm (by simp [unaryNodes])
    | pre hm' ha' h =>
      cases ih h; cases unary_unique hm hm'; cases at_unique ha ha'; rfl
  | bin hm ha _ _ ih1 ih2 =>
    cases h' with
    | bin hm' ha' h1 h2 => cases ih1 h1; cases ih2 h2; cases binary_unique hm hm'; cases at_unique ha ha'; rfl
  | tern ha _ _ _ ih1 ih2 ih3 =>
    cases h' with
    | tern ha' h1 h2 h3 => cases ih1 h1; cases ih2 h2; cases ih3 h3; cases at_unique ha ha'; rfl
  | call ha _ ih => cases h' with | call ha' h => cases ih h; cases at_unique ha ha'; rfl
  | index ha _ ih => cases h' with | index ha' h => cases ih h; cases at_unique ha ha'; rfl
  | ident hk ha =>
    cases h' with
    | ident _ ha' => cases at_unique ha ha'; rfl
    | _ => simp_all
  | true hk hx ha =>
    cases h' with
    | true _ _ ha' => cases at_unique ha ha'; rfl
    | _ => simp_all
  | false hk hx ha =>
    cases h' with
    | false _ _ ha' => cases at_unique ha ha'; rfl
    | _ => simp_all
  | int hk hx ha =>
    cases h' with
    | int _ hx' ha' => cases at_unique ha ha'; cases intOf_unique hx hx'; rfl
    | _ => simp_all
  | float hk hx ha =>
    cases h' with
    | float _ hx' ha' => cases at_unique ha ha'; rw [hx] at hx'; cases hx'; rfl
    | _ => simp_all
  | exprs0 => cases h'; rfl
  | exprsN _ _ ih1 ih2 => cases h' with | exprsN h1 h2 => cases ih1 h1; cases ih2 h2; rfl
  | item _ ih => cases h' with | item h => cases ih h; rfl
  | range _ _ ih1 ih2 => cases h' with | range h1 h2 => cases ih1 h1; cases ih2 h2; rfl
  | entries0 => cases h'; rfl
  | entriesN _ _ ih1 ih2 => cases h' with | entriesN h1 h2 => cases ih1 h1; cases ih2 h2; rfl

theorem gateTree_unique {stod : Str → Option F} {file : Option Str} {g : PGate} {v w : Gate F} (h : GateTree stod file g v)
    (h' : GateTree stod file g w) : v = w := by
  induction h generalizing w with
  | inv ha _ ih => cases h' with | inv ha' h => cases ih h; cases at_unique ha ha'; rfl
  | pow ha he _ ih => cases h' with | pow ha' he' h => cases ih h; cases at_unique ha ha'; cases tree_unique he he'; rfl
  | ctrl ha _ ih => cases h' with | ctrl ha' h => cases ih h; cases at_unique ha ha'; rfl
  | named ha he => cases h' with | named ha' he' => cases at_unique ha ha'; cases tree_unique he he'; rfl

theorem stmtTree_unique {stod : Str → Option F} {file : Option Str} {s : PStmt} {v w : Stmt F} (h : StmtTree stod file s v)
    (h' : StmtTree stod file s w) : v = w := by
  cases h with
  | var hm ha hk => cases h' with | var hm' ha' hk' => cases type_unique hm hm'; cases at_unique ha ha'; cases at_unique hk hk'; rfl
  | array hm hi ha hk =>
    cases h' with | array hm' hi' ha' hk' => cases spans_unique hk hk'; cases type_unique hm hm'; cases at_unique ha ha'; cases intOf_unique hi hi'; rfl
  | gate hg he => cases h' with | gate hg' he' => cases gateTree_unique hg hg'; cases tree_unique he he'; rfl
  | measure ha h1 h2 h3 =>
    cases h' with
    | measure ha' h1' h2' h3' =>
      cases at_unique ha ha'; cases tree_unique h1 h1'; cases tree_unique h2 h2'; cases tree_unique h3 h3'; rfl
  | simple ha h1 => cases h' with | simple ha' h1' => cases at_unique ha ha'; cases tree_unique h1 h1'; rfl
  | wait ha h1 h2 =>
    cases h' with | wait ha' h1' h2' => cases at_unique ha ha'; cases tree_unique h1 h1'; cases tree_unique h2 h2'; rfl
  | asm hx =>
    cases h' with
    | asm hx' =>
      rw [hx, List.append_assoc, List.append_assoc] at hx'
      have := List.append_cancel_right (List.append_cancel_left hx')
      subst this; rfl

theorem forall2_unique {α β : Type} {R : α → β → Prop} (hR : ∀ a b c, R a b → R a c → b = c) {l : List α} {m n : List β}
    (h : Forall2 R l m) (h' : Forall2 R l n) : m = n := by
  induction h generalizing n with
  | nil => cases h'; rfl
  | cons h _ ih => cases h' with | cons h1 h2 => cases hR _ _ _ h h1; cases ih h2; rfl

theorem programTree_unique {stod : Str → Option F} {file : Option Str} {p : PProgram} {v w : ProgramAst F}
    (h : ProgramTree stod file p v) (h' : ProgramTree stod file p w) : v = w := by
  cases h with
  | mk h1 h2 h3 =>
    cases h' with
    | mk h1' h2' h3' =>
      cases forall2_unique (R := IntOf) (fun _ _ _ => intOf_unique) h1 h1'
      cases at_unique h2 h2'
      cases forall2_unique (R := StmtTree stod file) (fun _ _ _ => stmtTree_unique) h3 h3'
      rfl

/-! ## The lexer delivers tokens with texts of their types -/

theorem identifier_winner {m : Lexer.Mode} {s w : Str} (h : Winner m s identifier w) :
    w ∉ keywords.map (·.1) ∧ w ≠ c!"true" ∧ w ≠ c!"false" := by
  have hm : m = .default := by
    cases m with
    | default => rfl
    | versionStatement => exact absurd (Lexer.winner_mem h) (by decide)
  subst hm
  have hw : Word w := Lexer.winner_text h
  obtain ⟨r, hr⟩ := Lexer.winner_prefix h
  subst hr
  have hs : ∀ c, r.head? = some c → ¬ Letter c ∧ ¬ Digit c := by
    intro c hc
    obtain ⟨r', rfl⟩ : ∃ r', r = c :: r' := by
      cases r with
      | nil => cases hc
      | cons d r' => cases hc; exact ⟨r', rfl⟩
    have key : ¬ (Letter c ∨ Digit c) := by
      intro hcd
      obtain ⟨d, u, rfl, hd, hu⟩ := hw
      have hx : Text identifier ((d :: u) ++ [c]) := by
        refine ⟨d, u ++ [c], by simp, hd, ?_⟩
        intro e he
        rcases List.mem_append.1 he with he | he
        · exact hu e he
        · simp only [List.mem_cons, List.not_mem_nil, or_false] at he; subst he; exact hcd
      have hle := Lexer.winner_max h (Lexer.winner_mem h) (Lexer.candidate_of_text (by simp [EndsEarly]) hx ⟨r', by simp⟩)
      simp only [List.length_append, List.length_cons, List.length_nil] at hle
      omega
    exact ⟨fun h => key (.inl h), fun h => key (.inr h)⟩
  have hk := (Lexer.winner_unique h (Lexer.word_winner hw hs)).1
  rcases C40_kinds w with h1 | ⟨_, _, h1⟩ | ⟨h1, h2, h3, _⟩
  · rw [← hk] at h1
    exact absurd h1 (by
      have : ∀ p ∈ keywords, p.2 ≠ identifier := by decide
      exact fun h => this _ h rfl)
  · rw [← hk] at h1; cases h1
  · refine ⟨?_, h2, h3⟩
    intro hm
    obtain ⟨⟨a, b⟩, hp, rfl⟩ := List.mem_map.1 hm
    exact h1 _ hp

theorem cut_lexed {m m' : Lexer.Mode} {s rest : Str} {segs : List (TokKind × Str)} (h : Cut m s segs m' rest) (before : Str) :
    ∀ t ∈ tokensOf before segs, t.kind ≠ eof ∧ Lexed t := by
  induction h generalizing before with
  | nil => simp [tokensOf]
  | @cons m m' k w s rest segs hw _ ih =>
    intro t ht
    simp only [tokensOf] at ht
    split at ht
    · exact ih _ t ht
    · rcases List.mem_cons.1 ht with rfl | ht
      · refine ⟨?_, .inr ⟨Lexer.winner_text hw, ?_⟩⟩
        · intro hk
          have := Lexer.winner_mem hw
          simp only at hk
          rw [hk] at this
          cases m <;> exact absurd this (by decide)
        · intro hk
          simp only at hk
          subst hk
          exact identifier_winner hw
      · exact ih _ t ht

/-- The tokens end with the end of the file, which is nowhere else, and all have texts of their types. -/
theorem lexed {s : Str} {ts : List Token} (h : Lexer.lex s = .ok ts) :
    ∃ us e, ts = us ++ [e] ∧ e.kind = eof ∧ (∀ t ∈ us, t.kind ≠ eof) ∧ ∀ t ∈ ts, Lexed t := by
  obtain ⟨segs, m, hc, -, rfl⟩ := (C39_tokens s ts).1 h
  have hl := cut_lexed hc []
  refine ⟨_, _, rfl, rfl, fun t ht => (hl t ht).1, ?_⟩
  intro t ht
  rcases List.mem_append.1 ht with ht | ht
  · exact (hl t ht).2
  · simp only [List.mem_cons, List.not_mem_nil, or_false] at ht
    subst ht
    exact .inl rfl

end Syn

end Qasm
