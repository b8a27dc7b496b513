import Verif.Lemmas.PyReason

/-!
The messages of Python exceptions about booleans, strings, bytes, enums, durations, times and `Any`.
-/

set_option linter.unusedSimpArgs false

namespace PGV.Py
open PGV PGV.Py.Code PGV.Spec.PyReason
open PGV.Spec hiding lenient

variable {P : PEnv} {e : ElemT} {nm : String}

theorem same_bool {a b : Bool} : Same (.bool a) (.bool b) ↔ a = b := by simp [Same]
theorem same_str {a b : PStr} : Same (.str a) (.str b) ↔ a = b := by simp [Same]
theorem same_bytes {a b : Bytes} : Same (.bytes a) (.bytes b) ↔ a = b := by simp [Same]
theorem same_enum {a b : Int} : Same (.enum a) (.enum b) ↔ a = b := by simp [Same]
theorem same_secs {a b : Int} : Same (.secs a) (.secs b) ↔ a = b := by simp [Same]

theorem tells_boolCode {r : BoolRules} : Tells P e (.bool r) nm .bool (boolCode nm r) :=
  tells_gen fun _ => tells_raise' {} fun v => by
    simp only [itemReading, valueText, same_bool, bne_eq_false_iff_eq]

theorem tells_inCode {α : Type} [BEq α] [LawfulBEq α] {T : TypeRules} {shown : α → PItem} {ok : Bool}
    {ins notIns : List α} (hs : ∀ a b, Same (shown a) (shown b) ↔ a = b) :
    Tells P e T nm shown (inCode nm shown ok ins notIns) := by
  refine .seq (tells_gen fun _ => tells_ite (fun _ => ?_) fun _ => tells_none)
    (tells_gen fun _ => tells_ite (fun _ => ?_) fun _ => tells_none)
  · refine tells_raise' {} fun v => ?_
    simp only [itemReading, listText, List.mem_map, Bool.not_eq_false', List.contains_iff_mem]
    constructor
    · intro h; exact ⟨_, ⟨v, h, rfl⟩, (hs _ _).2 rfl⟩
    · rintro ⟨_, ⟨c, hc, rfl⟩, h⟩
      rw [(hs _ _).1 h]; exact hc
  · refine tells_raise' {} fun v => ?_
    simp only [itemReading, listText, List.mem_map, ← Bool.not_eq_true, List.contains_iff_mem]
    constructor
    · rintro h _ ⟨c, hc, rfl⟩ hh
      rw [(hs _ _).1 hh] at h; exact h hc
    · intro h hv
      exact h _ ⟨v, hv, rfl⟩ ((hs _ _).2 rfl)

theorem tells_enumCode {declared : List Int} (he : declared = enumValues e) {r : EnumRules} :
    Tells P e (.enum r) nm .enum (enumCode nm declared r) := by
  subst he
  refine .seq (tells_gen fun _ => tells_raise' {} fun v => ?_)
    (.seq (tells_inCode fun a b => same_enum) (tells_gen fun _ => tells_raise' {} fun v => ?_))
  · simp only [itemReading, valueText, same_enum, bne_eq_false_iff_eq]
  · simp only [itemReading, bareText, Bool.not_eq_false', List.contains_iff_mem]
    constructor
    · rintro h _ ⟨⟩
      cases e with
      | enum vs => exact ⟨vs, rfl, h⟩
      | _ => cases h
    · intro h
      obtain ⟨d, rfl, hd⟩ := h v rfl
      exact hd

/-! ### Strings -/

theorem startswith_iff {α : Type} [BEq α] [LawfulBEq α] (s p : List α) : startswith s p = true ↔ p <+: s := by
  rw [startswith, Java.isPrefixOf_iff]

theorem endswith_iff {α : Type} [BEq α] [LawfulBEq α] (s p : List α) : endswith s p = true ↔ p <:+ s := by
  rw [endswith, Java.isPrefixOf_iff, List.reverse_prefix]

theorem tells_strLen {T : TypeRules} {r : StringRules} : Tells P e T nm .str (strLen nm r) := by
  refine .seq (tells_genPos fun n => ?_) (.seq (tells_genPos fun n => ?_) (.seq (tells_genPos fun n => ?_)
    (.seq (tells_genPos fun n => ?_) (.seq (tells_genPos fun n => ?_) (tells_genPos fun n => ?_)))))
  · exact tells_raise' {} fun v => by simp [itemReading, sizeText, lengthOf]
  · exact tells_raise' {} fun v => by simp [itemReading, sizeText, lengthOf]
  · exact tells_raise' {} fun v => by simp [itemReading, sizeText, lengthOf]
  · exact tells_raise' { bytes := true } fun v => by simp [itemReading, sizeText, lengthOf]
  · exact tells_raise' { bytes := true } fun v => by simp [itemReading, sizeText, lengthOf]
  · exact tells_raise' { bytes := true } fun v => by simp [itemReading, sizeText, lengthOf]

theorem tells_genText {T : TypeRules} {o : Option Bytes} {k : PStr → Code PStr} (h : ∀ l, Tells P e T nm .str (k l)) :
    Tells P e T nm .str (genText P o k) := by
  refine tells_gen fun _ => ?_
  split
  · exact h _
  · exact tells_none

theorem tells_strAffix {T : TypeRules} {r : StringRules} : Tells P e T nm .str (strAffix P nm r) := by
  refine .seq (tells_genText fun l => ?_) (.seq (tells_genText fun l => ?_) (.seq (tells_genText fun l => ?_)
    (tells_genText fun l => ?_)))
  · exact tells_raise' {} fun v => by simp [itemReading, valueText, startswith_iff]
  · exact tells_raise' {} fun v => by simp [itemReading, valueText, endswith_iff]
  · exact tells_raise' {} fun v => by simp [itemReading, valueText, contains_iff]
  · exact tells_raise' {} fun v => by simp [itemReading, valueText, ← contains_iff]

theorem anchored_ex {body : PStr → Bool} {t : PStr} :
    anchored body t = true ↔ ∃ u, (t = u ∨ t = u ++ [0x0A]) ∧ body u = true := by
  simp only [anchored, Bool.or_eq_true, Bool.and_eq_true, beq_iff_eq]
  constructor
  · rintro (h | ⟨h1, h2⟩)
    · exact ⟨t, .inl rfl, h⟩
    · refine ⟨t.dropLast, .inr ?_, h2⟩
      have hne : t ≠ [] := by rintro rfl; cases h1
      have := List.dropLast_concat_getLast hne
      rw [List.getLast?_eq_some_getLast hne] at h1
      rw [Option.some.inj h1] at this
      exact this.symm
  · rintro ⟨u, rfl | rfl, h⟩
    · exact .inl h
    · exact .inr ⟨by simp, by simpa using h⟩

theorem headerName_ex (u : PStr) :
    headerNameBody u = true ↔ ∃ r, (u = r ∨ u = 0x3A :: r) ∧ r ≠ [] ∧ ∀ c ∈ r, headerNameChar c = true := by
  have colon : headerNameChar 0x3A = false := by decide
  unfold headerNameBody
  split
  · rename_i t
    simp only [Bool.and_eq_true, Bool.not_eq_true', List.isEmpty_eq_false_iff, List.all_eq_true]
    constructor
    · rintro ⟨h1, h2⟩; exact ⟨t, .inr rfl, h1, h2⟩
    · rintro ⟨r, rfl | h, h1, h2⟩
      · have := h2 0x3A List.mem_cons_self
        rw [colon] at this; cases this
      · cases h; exact ⟨h1, h2⟩
  · rename_i t ht
    simp only [Bool.and_eq_true, Bool.not_eq_true', List.isEmpty_eq_false_iff, List.all_eq_true]
    constructor
    · rintro ⟨h1, h2⟩; exact ⟨_, .inl rfl, h1, h2⟩
    · rintro ⟨r, rfl | h, h1, h2⟩
      · exact ⟨h1, h2⟩
      · exact absurd h (ht r)

theorem known_text {k : KnownRegex} {strict : Option Bool} {test : PStr → Bool}
    (h : knownRegex k strict = some (some test)) (t : PStr) :
    test t = true ↔ KnownText (regexName k strict) t := by
  unfold knownRegex at h
  have hv : ∀ c, headerValueChar c = true ↔ c = 9 ∨ (0x20 ≤ c ∧ c ≠ 0x7F) := by
    intro c
    simp [headerValueChar]
    omega
  have hs : ∀ c, headerStringChar c = true ↔ c ≠ 0 ∧ c ≠ 0x0A ∧ c ≠ 0x0D := by
    intro c
    simp [headerStringChar, and_assoc]
  cases k with
  | unknown => simp at h
  | other n => simp at h
  | headerName =>
    simp only [Option.some.injEq] at h
    subst h
    rw [anchored_ex]
    unfold regexName KnownText
    cases strict.getD true
    · simp only [Bool.not_false, if_true, Bool.false_eq_true, if_false, List.all_eq_true, hs]
    · simp only [Bool.not_true, if_true, Bool.false_eq_true, if_false, headerName_ex]
  | headerValue =>
    simp only [Option.some.injEq] at h
    subst h
    rw [anchored_ex]
    unfold regexName KnownText
    cases strict.getD true
    · simp only [Bool.not_false, if_true, Bool.false_eq_true, if_false, List.all_eq_true, hs]
    · simp only [Bool.not_true, if_true, Bool.false_eq_true, if_false, List.all_eq_true, hv]

theorem tells_strPattern {T : TypeRules} {r : StringRules} : Tells P e T nm .str (strPattern P nm r) := by
  unfold strPattern
  split
  · exact tells_none
  · rename_i test ht
    refine tells_raise' {} fun v => ?_
    simp only [itemReading, Bool.not_eq_false', known_text ht]
    constructor
    · rintro h _ ⟨⟩; exact h
    · intro h; exact h v rfl
  · refine tells_gen fun _ => tells_ite (fun _ => ?_) fun _ => tells_none
    intro v n t h
    rw [run_stmt] at h
    split at h
    · cases h
    · rename_i hf
      cases h
      refine ⟨rfl, .inr ⟨{}, ?_, fun u hu => .inr ?_⟩⟩
      · simp only [itemReading]
        intro h
        rw [h v rfl] at hf; cases hf
      · simp only [itemReading]
        rintro _ ⟨⟩
        rw [run_stmt] at hu
        split at hu
        · assumption
        · cases hu
        · cases hu
    · cases h

theorem email_text (v : PStr) : validateEmail P v = some true ↔ EmailText P v := validateEmail_iff P v

theorem tells_strFormat {r : StringRules} : Tells P e (.string r) nm .str (strFormat P nm r) := by
  refine .seq (tells_gen fun _ => ?_) (.seq (tells_gen fun hg => ?_) (.seq (tells_gen fun _ => ?_)
    (.seq (tells_gen fun _ => ?_) (.seq (tells_gen fun _ => ?_) (.seq (tells_gen fun _ => ?_)
    (.seq (tells_gen fun hg => ?_) (.seq (tells_gen fun hg => ?_) (tells_gen fun _ => ?_))))))))
  · intro v n t h
    rw [run_stmt] at h
    split at h
    · cases h
    · rename_i hf
      cases h
      refine ⟨rfl, .inr ⟨{}, ?_, fun u hu => .inr ?_⟩⟩
      · simp only [itemReading, bareText]
        intro h
        rw [(email_text v).2 (h v rfl)] at hf; cases hf
      · simp only [itemReading, bareText]
        rintro _ ⟨⟩
        rw [run_stmt] at hu
        split at hu
        · exact (email_text u).1 ‹_›
        · cases hu
        · cases hu
    · cases h
  · refine tells_mis fun v _ w _ => .inl ⟨?_, rfl⟩
    unfold StringRules.getHostname at hg
    split at hg
    · rename_i hw; rw [hw, hg]
    · cases hg
  · refine tells_raise' {} fun v => ?_
    simp only [itemReading, bareText, Bool.not_eq_false', Bool.or_eq_true, hostName_pstr]
    constructor
    · rintro h _ ⟨⟩; exact h
    · intro h; exact h v rfl
  · exact tells_raise' {} fun v => by simp [itemReading, bareText]
  · exact tells_raise' {} fun v => by simp [itemReading, bareText]
  · exact tells_raise' {} fun v => by simp [itemReading, bareText]
  · have hk : r.wellKnown = some (.uri true) := by
      unfold StringRules.getUri at hg
      split at hg
      · rename_i hw; rw [hw, hg]
      · cases hg
    intro v n t h
    rw [run_stmt] at h
    split at h
    · rename_i url hu
      split at h
      · cases h
      · rename_i hb
        cases h
        refine ⟨rfl, ?_⟩
        cases hs : url.scheme with
        | true => exact .inl fun w hw => .inr (.inl ⟨hk, rfl, v, url, hw, hu, hs⟩)
        | false =>
          refine .inr ⟨{}, ?_, fun u hu' => .inr ?_⟩
          · simp only [itemReading, bareText]
            intro h
            obtain ⟨url', h1, h2⟩ := h v rfl
            rw [hu] at h1; cases h1
            rw [hs] at h2; cases h2
          · simp only [itemReading, bareText]
            rintro _ ⟨⟩
            rw [run_stmt] at hu'
            split at hu'
            · rename_i url' hx
              split at hu'
              · rename_i hb'
                simp only [Bool.and_eq_true] at hb'
                exact ⟨url', hx, hb'.1.1⟩
              · cases hu'
            · cases hu'
    · cases h
  · intro v n t h
    rw [run_stmt] at h
    split at h
    · split at h
      · cases h
        refine ⟨rfl, .inl fun w _ => .inr (.inr ⟨?_, rfl⟩)⟩
        unfold StringRules.getUriRef at hg
        split at hg
        · rename_i hw; rw [hw, hg]
        · cases hg
      · cases h
    · cases h
  · refine tells_raise {} (fun v hv hr => ?_) (fun u hu => .inl fun w hw => .inr ⟨rfl, u, hw, by simpa using hu⟩)
    simp only [itemReading, bareText] at hr
    obtain ⟨b, hb, rfl⟩ := hr v rfl
    rw [uuidOk_of P b hb] at hv
    cases hv

theorem tells_strCode {r : StringRules} : Tells P e (.string r) nm .str (strCode P nm r) := by
  have body : Tells P e (.string r) nm .str
      (genOpt r.const (fun c =>
        match literal P c with
        | some l => raiseIf nm [.s "not equal to ", .item (.str l)] fun x => x != l
        | none => none) ;;
      inCode nm .str (listOk P (r.ins ++ r.notIns)) (r.ins.map pstr) (r.notIns.map pstr) ;;
      strLen nm r ;; strPattern P nm r ;; strAffix P nm r ;; strFormat P nm r) := by
    refine .seq (tells_genOpt fun c _ => ?_) (.seq (tells_inCode fun a b => same_str)
      (.seq tells_strLen (.seq tells_strPattern (.seq tells_strAffix tells_strFormat))))
    split
    · refine tells_raise' {} fun v => ?_
      simp only [itemReading, valueText, same_str, bne_eq_false_iff_eq]
    · exact tells_none
  unfold strCode
  simp only
  split
  · rename_i hi
    refine body.block fun u t hu v hv => .inl ⟨(optB_iff _).1 hi, ?_⟩
    have : u = [] := by simpa using hu
    rw [hv, this]
  · exact body

theorem tells_inline {T : TypeRules} {r : StringRules} {c : Code PStr} (h : Tells P e T nm .str c) :
    Tells P e T nm .str (inline r c) := tells_ite (fun _ => tells_none) fun _ => h

theorem tells_ignoring {α : Type} {T : TypeRules} {view : α → PItem} {g : Bool} {test : α → Bool} {c : Code α}
    (h : Tells P e T nm view c) (hx : g = true → ∀ u t, test u = false → IEx P T t (view u)) :
    Tells P e T nm view (if g then block test c else c) :=
  tells_ite (fun hg => h.block (hx hg)) fun _ => h

theorem tells_bytesCode {r : BytesRules} : Tells P e (.bytes r) nm .bytes (bytesCode P nm r) := by
  unfold bytesCode
  simp only
  refine tells_ignoring ?_ ?_
  rotate_left
  · intro hi u t hu v hv
    refine ⟨(optB_iff _).1 hi, ?_⟩
    have : u = [] := by simpa using hu
    rw [hv, this]
  ·
    refine .seq (tells_genOpt fun c _ => tells_ite (fun _ => ?_) fun _ => tells_none)
      (.seq (tells_inCode fun a b => same_bytes)
      (.seq (tells_genPos fun n => ?_) (.seq (tells_genPos fun n => ?_) (.seq (tells_genPos fun n => ?_)
      (.seq (tells_gen fun _ => ?_) (.seq (tells_gen fun _ => ?_) (.seq (tells_gen fun _ => ?_)
      (.seq (tells_gen fun _ => ?_)
      (.seq (tells_gen fun _ => tells_ite (fun _ => ?_) fun _ => tells_none)
      (.seq (tells_gen fun _ => tells_ite (fun _ => ?_) fun _ => tells_none)
        (tells_gen fun _ => tells_ite (fun _ => ?_) fun _ => tells_none)))))))))))
    · exact tells_raise' {} fun v => by simp only [itemReading, valueText, same_bytes, bne_eq_false_iff_eq]
    · exact tells_raise' {} fun v => by simp [itemReading, sizeText, lengthOf]
    · exact tells_raise' {} fun v => by simp [itemReading, sizeText, lengthOf]
    · exact tells_raise' {} fun v => by simp [itemReading, sizeText, lengthOf]
    · exact tells_raise' {} fun v => by simp [itemReading, bareText]; omega
    · exact tells_raise' {} fun v => by simp [itemReading, bareText]
    · exact tells_raise' {} fun v => by simp [itemReading, bareText]
    · intro v n t h
      rw [run_stmt] at h
      split at h
      · cases h
      · cases h; exact ⟨rfl, .inl fun w _ => rfl⟩
      · cases h
    · exact tells_raise' {} fun v => by simp [itemReading, valueText, contains_iff]
    · exact tells_raise' {} fun v => by simp [itemReading, valueText, startswith_iff]
    · exact tells_raise' {} fun v => by simp [itemReading, valueText, endswith_iff]

/-! ### Durations and times -/

theorem tells_timeRange {T : TypeRules} {glued : Bool} {lt lte gt gte : Option Int}
    (hm : ∀ a b u l w, (lt = some u ∨ lte = some u) → (gt = some l ∨ gte = some l) → ¬ l < u →
      Misstated P T [.s "is not in range ", .pair a b] w) :
    Tells P e T nm .secs (timeRange nm glued lt lte gt gte) := by
  have range : ∀ (s : Sense) (up lo : Int) (test : Int → Bool),
      (∀ x, test x = false ↔ (lo < x ∨ s.low = true ∧ x = lo) ∧ (x < up ∨ s.high = true ∧ x = up)) →
      Tells P e T nm .secs (raiseIf nm [.s "is not in range ", .pair (.secs up) (.secs lo)] test) := by
    intro s up lo test h
    refine tells_raise' s fun v => ?_
    simp only [itemReading, Between, Below, same_secs, h]
  have glue : ∀ (why : Text) (t : Int → Bool), Tells P e T nm .secs (raiseIf nm why t) →
      Tells P e T nm .secs (if glued = true then none else raiseIf nm why t) :=
    fun _ _ h => tells_ite (fun _ => tells_none) fun _ => h
  unfold timeRange
  simp only
  split
  · refine tells_ite (fun _ => range {} _ _ _ fun x => by simp) (fun h => glue _ _ (tells_mis fun v _ w _ => ?_))
    exact hm _ _ _ _ w (.inl rfl) (.inl rfl) h
  · refine tells_ite (fun _ => range { low := true } _ _ _ fun x => by simp; omega)
      (fun h => glue _ _ (tells_mis fun v _ w _ => ?_))
    exact hm _ _ _ _ w (.inl rfl) (.inr rfl) h
  · exact glue _ _ (tells_raise' {} fun v => by simp [itemReading, valueText, Below])
  · refine tells_ite (fun _ => range { high := true } _ _ _ fun x => by simp; omega)
      (fun h => glue _ _ (tells_mis fun v _ w _ => ?_))
    exact hm _ _ _ _ w (.inr rfl) (.inl rfl) h
  · refine tells_ite (fun _ => range { low := true, high := true } _ _ _ fun x => by simp; omega)
      (fun h => glue _ _ (tells_mis fun v _ w _ => ?_))
    exact hm _ _ _ _ w (.inr rfl) (.inr rfl) h
  · exact glue _ _ (tells_raise' {} fun v => by simp [itemReading, valueText, Below, same_secs]; omega)
  · exact tells_raise' {} fun v => by simp [itemReading, valueText, Below]
  · exact tells_raise' {} fun v => by simp [itemReading, valueText, Below, same_secs]; omega
  · exact tells_nothing

theorem tells_durBody {r : DurationRules} : Tells P e (.duration r) nm .secs (durBody nm r) := by
  refine .seq tells_pass (.seq (tells_genOpt fun c _ => ?_) (.seq (tells_gen fun _ => ?_) (.seq (tells_gen fun hn => ?_)
    (tells_timeRange ?_))))
  · exact tells_raise' {} fun v => by simp only [itemReading, valueText, same_secs, bne_eq_false_iff_eq]
  · refine tells_raise' {} fun v => ?_
    simp only [itemReading, listText, List.mem_map, Bool.not_eq_false', List.contains_iff_mem]
    constructor
    · rintro ⟨d, hd, rfl⟩; exact ⟨_, ⟨d, hd, rfl⟩, rfl⟩
    · rintro ⟨_, ⟨d, hd, rfl⟩, h⟩; exact ⟨d, hd, (same_secs.1 h).symm⟩
  · refine tells_mis fun v _ w _ => .inr ⟨?_, rfl⟩
    intro h; rw [h] at hn; cases hn
  · intro a b u l w hu hl h
    refine .inl ⟨⟨a, b, rfl⟩, ?_⟩
    have ex : ∀ (o : Option PDur) x, o.map durLit = some x → ∃ d, o = some d ∧ durLit d = x := by
      intro o x ho; cases o with
      | none => cases ho
      | some d => exact ⟨d, rfl, Option.some.inj ho⟩
    obtain ⟨du, h1, rfl⟩ : ∃ d, (r.lt = some d ∨ r.lte = some d) ∧ durLit d = u := by
      rcases hu with hu | hu <;> obtain ⟨d, hd, rfl⟩ := ex _ _ hu
      · exact ⟨d, .inl hd, rfl⟩
      · exact ⟨d, .inr hd, rfl⟩
    obtain ⟨dl, h2, rfl⟩ : ∃ d, (r.gt = some d ∨ r.gte = some d) ∧ durLit d = l := by
      rcases hl with hl | hl <;> obtain ⟨d, hd, rfl⟩ := ex _ _ hl
      · exact ⟨d, .inl hd, rfl⟩
      · exact ⟨d, .inr hd, rfl⟩
    exact ⟨du, dl, h1, h2, h⟩

theorem tells_tsBody {r : TimestampRules} : Tells P e (.timestamp r) nm .secs (tsBody P nm r) := by
  refine .seq tells_pass (.seq (tells_genOpt fun c _ => ?_) (tells_ite (fun _ => tells_timeRange ?_) fun _ => ?_))
  · exact tells_raise' {} fun v => by simp only [itemReading, valueText, same_secs, bne_eq_false_iff_eq]
  · intro a b u l w hu hl h
    refine .inl ⟨⟨a, b, rfl⟩, ?_⟩
    have ex : ∀ (o : Option PTime) x, o.map tsLit = some x → ∃ d, o = some d ∧ tsLit d = x := by
      intro o x ho; cases o with
      | none => cases ho
      | some d => exact ⟨d, rfl, Option.some.inj ho⟩
    obtain ⟨du, h1, rfl⟩ : ∃ d, (r.lt = some d ∨ r.lte = some d) ∧ tsLit d = u := by
      rcases hu with hu | hu <;> obtain ⟨d, hd, rfl⟩ := ex _ _ hu
      · exact ⟨d, .inl hd, rfl⟩
      · exact ⟨d, .inr hd, rfl⟩
    obtain ⟨dl, h2, rfl⟩ : ∃ d, (r.gt = some d ∨ r.gte = some d) ∧ tsLit d = l := by
      rcases hl with hl | hl <;> obtain ⟨d, hd, rfl⟩ := ex _ _ hl
      · exact ⟨d, .inl hd, rfl⟩
      · exact ⟨d, .inr hd, rfl⟩
    exact ⟨du, dl, h1, h2, h⟩
  · unfold tsNow
    simp only
    split
    · rename_i h _
      exact tells_mis fun v _ w _ => .inr ⟨.inl (by rw [h]; simp), _, rfl⟩
    · exact tells_raise' {} fun v => by simp [itemReading, bareText]
    · rename_i h _
      exact tells_mis fun v _ w _ => .inr ⟨.inr (by rw [h]; simp), _, rfl⟩
    · exact tells_raise' {} fun v => by simp [itemReading, bareText]
    · refine tells_raise' {} fun v => ?_
      generalize hw : durLit _ = w
      simp only [itemReading, valueText, Bool.or_eq_false_iff, decide_eq_false_iff_not]
      constructor
      · rintro ⟨h1, h2⟩ _ _ ⟨⟩ ⟨⟩; exact ⟨by omega, by omega⟩
      · intro h
        have := h _ _ rfl rfl
        exact ⟨by omega, by omega⟩
    · exact tells_nothing

end PGV.Py
