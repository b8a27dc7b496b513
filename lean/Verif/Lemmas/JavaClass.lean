import Verif.Lemmas.JavaNames
import Verif.Spec.JavaNames

set_option linter.unusedSimpArgs false

/-!
Class names of messages, and names of constants.
-/

namespace PGV.JavaNames
open PGV
open PGV.Cpp (Ident isLow isUp isDig upperOf lowerOf upperCamel)
open PGV.Props (low_facts up_facts dig_facts)
open PGV.Spec.JavaNames

theorem clean_of : ∀ (s : Ident) (b : Bool), (∀ a v x r, s = a ++ v :: x :: r → isLow v = true → isUp x = true →
      (a = [] → b = true) → (∀ y, a.getLast? = some y → isLow y = false ∧ isUp y = false) →
      ∃ y, r.head? = some y ∧ isLow y = true) → clean b s = true
  | [], _, _ => rfl
  | v :: t, b, h => by
    simp only [clean, Bool.and_eq_true]
    constructor
    · cases t with
      | nil => simp
      | cons x r =>
        by_cases hb : b = true
        · by_cases hv : isLow v = true
          · by_cases hx : isUp x = true
            · obtain ⟨y, hy, hl⟩ := h [] v x r rfl hv hx (fun _ => hb) (by simp)
              simp [hy, hl]
            · simp [hx]
          · simp [hv]
        · simp [hb]
    · refine clean_of t _ ?_
      intro a v' x r e hv hx ha hlast
      refine h (v :: a) v' x r (by simp [e]) hv hx (by simp) ?_
      intro y hy
      cases a with
      | nil =>
        simp at hy
        subst hy
        simpa [isLetter] using ha rfl
      | cons z a =>
        rw [List.getLast?_cons_cons] at hy
        exact hlast y hy

/-- The condition of `sanitize_eq`, as a user would say it. -/
theorem clean_of_noLone {s : Ident} (h : ¬ LoneLower s) : clean true s = true := by
  refine clean_of s true ?_
  intro a v x r e hv hx _ ha
  rcases hr : r.head? with _ | y
  · exact absurd ⟨a, v, x, r, e, hv, hx, ha, by simp [hr]⟩ h
  · refine ⟨y, rfl, ?_⟩
    cases hl : isLow y with
    | true => rfl
    | false =>
      refine absurd ⟨a, v, x, r, e, hv, hx, ha, ?_⟩ h
      intro z hz
      rw [hr] at hz
      cases hz
      exact hl

/-! ### Messages -/

/-- No lower-case letter comes first (if `cap`) or after a digit. -/
def settled (cap : Bool) : Ident → Bool
  | [] => true
  | c :: t => !(cap && isLow c) && settled (isDig c) t

theorem protoc_settled : ∀ (s : Ident), (∀ c ∈ s, isLow c = true ∨ isUp c = true ∨ isDig c = true) → ∀ cap,
    settled cap s = true → protocLoop cap s = s
  | [], _, _, _ => rfl
  | c :: t, hc, cap, h => by
    have ih := protoc_settled t (fun x hx => hc x (by simp [hx]))
    simp only [settled, Bool.and_eq_true] at h
    obtain ⟨h1, h2⟩ := h
    rcases hc c (by simp) with hl | hu | hd
    · rw [(low_facts hl).2.1] at h2
      have : cap = false := by simpa [hl] using h1
      subst this
      simp [protocLoop, hl, ih false h2]
    · rw [(up_facts hu).2.1] at h2
      simp [protocLoop, up_facts hu, hu, ih false h2]
    · rw [hd] at h2
      simp [protocLoop, dig_facts hd, hd, ih true h2]

theorem clean_settled : ∀ (s : Ident), (∀ c ∈ s, isLow c = true ∨ isUp c = true ∨ isDig c = true) → ∀ cap,
    settled cap s = true → clean cap s = true
  | [], _, _, _ => rfl
  | c :: t, hc, cap, h => by
    have ih := clean_settled t (fun x hx => hc x (by simp [hx]))
    simp only [settled, Bool.and_eq_true] at h
    obtain ⟨h1, h2⟩ := h
    simp only [clean, Bool.and_eq_true]
    refine ⟨by rw [h1, Bool.true_or], ?_⟩
    have : (!isLetter c) = isDig c := by
      rcases hc c (by simp) with hl | hu | hd
      · simp [isLetter, hl, low_facts hl]
      · simp [isLetter, hu, up_facts hu]
      · simp [isLetter, hd, dig_facts hd]
    rw [this]
    exact ih _ h2

/-- The condition, as a user would say it. -/
theorem settled_iff : ∀ (s : Ident) (cap : Bool), settled cap s = true ↔
    ¬ ∃ a v r, s = a ++ v :: r ∧ isLow v = true ∧ ((a = [] ∧ cap = true) ∨ ∃ y, a.getLast? = some y ∧ isDig y = true)
  | [], cap => by simp [settled]
  | c :: t, cap => by
    simp only [settled, Bool.and_eq_true, settled_iff t]
    constructor
    · rintro ⟨h1, h2⟩ ⟨a, v, r, e, hv, ha⟩
      cases a with
      | nil =>
        simp at e ha
        obtain ⟨rfl, rfl⟩ := e
        simp [ha, hv] at h1
      | cons z a =>
        simp only [List.cons_append, List.cons.injEq] at e
        obtain ⟨rfl, rfl⟩ := e
        refine h2 ⟨a, v, r, rfl, hv, ?_⟩
        rcases ha with ha | ⟨y, hy, hd⟩
        · cases ha.1
        cases a with
        | nil =>
          simp at hy
          subst hy
          exact .inl ⟨rfl, hd⟩
        | cons w a =>
          rw [List.getLast?_cons_cons] at hy
          exact .inr ⟨y, hy, hd⟩
    · intro h
      refine ⟨?_, ?_⟩
      · cases hc : cap && isLow c with
        | false => rfl
        | true =>
          simp only [Bool.and_eq_true] at hc
          exact absurd ⟨[], c, t, rfl, hc.2, .inl ⟨rfl, hc.1⟩⟩ h
      · rintro ⟨a, v, r, rfl, hv, ha⟩
        refine h ⟨c :: a, v, r, rfl, hv, .inr ?_⟩
        rcases ha with ⟨rfl, hd⟩ | ⟨y, hy, hd⟩
        · exact ⟨c, by simp, hd⟩
        · refine ⟨y, ?_, hd⟩
          cases a with
          | nil => simp at hy
          | cons z a => rw [List.getLast?_cons_cons]; exact hy

theorem settled_startsLow (s : Ident) : settled true s = true ↔ ¬ StartsLow s := by
  rw [settled_iff]
  simp only [StartsLow, and_true]

/-- The name with each underscore written out. -/
def escaped : Ident → Ident
  | [] => []
  | c :: t => if c = '_' then escapeText ++ escaped t else c :: escaped t

theorem escape_eq : ∀ (s : Ident), replaceIn ['_'] escapeText 0 s = escaped s
  | [] => rfl
  | c :: t => by
    rw [replaceIn, escaped]
    by_cases h : c = '_'
    · subst h
      rw [if_pos rfl, if_pos (by simp [List.isPrefixOf])]
      simp only [List.length_singleton, Nat.sub_self]
      rw [escape_eq t]
    · rw [if_neg h, if_neg (by simpa [List.isPrefixOf] using fun e => h e.symm), escape_eq t]

/-- Leaving out `k` characters. -/
theorem replaceIn_drop (old new : Ident) : ∀ (a t : Ident), replaceIn old new a.length (a ++ t) = replaceIn old new 0 t
  | [], _ => rfl
  | _ :: a, t => by
    simp only [List.length_cons, List.cons_append]
    rw [replaceIn, replaceIn_drop old new a t]

theorem escapeText_eq : escapeText = 'U' :: "nderscoreUnderscoreUnderscore".toList := by decide

/-- A text that starts like the escape after its first letter starts like it. -/
theorem escaped_prefix : ∀ (p : Ident) (s rest : Ident), 'U' ∉ p → '_' ∉ p → (p ++ rest).isPrefixOf (escaped s) = true →
    ∃ s', s = p ++ s'
  | [], s, _, _, _, _ => ⟨s, rfl⟩
  | x :: p, [], rest, _, _, h => by simp [escaped, List.isPrefixOf] at h
  | x :: p, c :: s, rest, hU, h_, h => by
    rw [escaped] at h
    by_cases hc : c = '_'
    · subst hc
      rw [if_pos rfl, escapeText_eq] at h
      simp [List.isPrefixOf] at h
      exact absurd h.1 (by simp at hU; exact fun e => hU.1 e.symm)
    · rw [if_neg hc] at h
      simp only [List.cons_append, List.isPrefixOf, Bool.and_eq_true, beq_iff_eq] at h
      obtain ⟨rfl, h⟩ := h
      obtain ⟨s', rfl⟩ := escaped_prefix p s rest (by simp at hU; exact hU.2) (by simp at h_; exact h_.2) h
      exact ⟨s', rfl⟩

/-- Taking the escapes out again, for a name without the word "Underscore". -/
theorem unescape_escaped : ∀ (s : Ident), (∀ a b, s ≠ a ++ "Underscore".toList ++ b) →
    replaceIn escapeText ['_'] 0 (escaped s) = s
  | [], _ => rfl
  | c :: t, h => by
    have ih := unescape_escaped t (fun a b e => h (c :: a) b (by simp [e]))
    rw [escaped]
    by_cases hc : c = '_'
    · subst hc
      rw [if_pos rfl]
      have e1 : escapeText ++ escaped t = 'U' :: ("nderscoreUnderscoreUnderscore".toList ++ escaped t) := by
        rw [escapeText_eq]; rfl
      rw [e1, replaceIn, ← e1, if_pos (by simp)]
      have e2 : escapeText.length - 1 = ("nderscoreUnderscoreUnderscore".toList).length := by decide
      rw [e2, replaceIn_drop, ih]
      rfl
    · rw [if_neg hc, replaceIn, if_neg, ih]
      intro hp
      rw [escapeText_eq] at hp
      simp only [List.isPrefixOf, Bool.and_eq_true, beq_iff_eq] at hp
      obtain ⟨rfl, hp⟩ := hp
      have e3 : "nderscoreUnderscoreUnderscore".toList = "nderscore".toList ++ "UnderscoreUnderscore".toList := by decide
      rw [e3] at hp
      obtain ⟨s', rfl⟩ := escaped_prefix _ _ _ (by decide) (by decide) hp
      exact h [] s' (by
        have : "Underscore".toList = 'U' :: "nderscore".toList := by decide
        rw [this]; rfl)

theorem escapeText_letters : ∀ c ∈ escapeText, isLow c = true ∨ isUp c = true := by decide

theorem escaped_chars {s : Ident} (h : Identifier s) : ∀ c ∈ escaped s, isLow c = true ∨ isUp c = true ∨ isDig c = true := by
  induction s with
  | nil => simp [escaped]
  | cons x t ih =>
    intro c hc
    have ih := ih (fun y hy => h y (by simp [hy]))
    rw [escaped] at hc
    split at hc
    · rcases List.mem_append.1 hc with hc | hc
      · rcases escapeText_letters c hc with h | h
        · exact .inl h
        · exact .inr (.inl h)
      · exact ih c hc
    · rename_i hx
      rcases List.mem_cons.1 hc with rfl | hc
      · rcases h c (by simp) with h | h | h | h
        · exact .inl h
        · exact .inr (.inl h)
        · exact .inr (.inr h)
        · exact absurd h hx
      · exact ih c hc

theorem settled_escaped : ∀ (s : Ident) (cap : Bool), settled cap (escaped s) = settled cap s
  | [], _ => rfl
  | c :: t, cap => by
    have ih := settled_escaped t
    rw [escaped]
    by_cases hc : c = '_'
    · subst hc
      rw [if_pos rfl]
      have e : ∀ (a : Ident) (z : Char) (t : Ident) (cap : Bool), settled cap (a ++ z :: t) =
          (settled cap (a ++ [z]) && settled (isDig z) t) := by
        intro a z t
        induction a with
        | nil => intro cap; simp [settled]
        | cons x a ih => intro cap; simp [settled, ih, Bool.and_assoc]
      have h1 : escapeText ++ escaped t = "UnderscoreUnderscoreUnderscor".toList ++ 'e' :: escaped t := by
        have : escapeText = "UnderscoreUnderscoreUnderscor".toList ++ ['e'] := by decide
        rw [this, List.append_assoc]
        rfl
      rw [h1, e]
      have h2 : settled cap ("UnderscoreUnderscoreUnderscor".toList ++ ['e']) = true := by cases cap <;> decide
      have h3 : isDig 'e' = false := by decide
      have h4 : isDig '_' = false := by decide
      have h5 : isLow '_' = false := by decide
      rw [h2, h3, Bool.true_and, settled, h4, h5, ih]
      simp
    · rw [if_neg hc, settled, settled, ih]

/-- The validator's class is named after the message. -/
theorem classNameMessage_eq {n : Ident} (hi : Identifier n) (hs : ¬ StartsLow n)
    (hu : ∀ a b, n ≠ a ++ "Underscore".toList ++ b) : classNameMessage n = n := by
  have hset : settled true (escaped n) = true := by rw [settled_escaped, settled_startsLow]; exact hs
  rw [classNameMessage, escape_eq, sanitize_eq _ (clean_settled _ (escaped_chars hi) true hset), protocCap,
    protoc_settled _ (escaped_chars hi) true hset, unescape_escaped n hu]

theorem words_head (c : Char) (t : Ident) : ∃ t', words .idle (c :: t) = c :: t' := ⟨_, rfl⟩

/-- The class name of a message that starts with a lower-case letter starts with an upper-case one. -/
theorem classNameMessage_low {c : Char} {t : Ident} (hc : isLow c = true) :
    ∃ x r, classNameMessage (c :: t) = x :: r ∧ x ≠ c := by
  have h_ : c ≠ '_' := (low_facts hc).1
  have hup : isLow (upperOf c) = false := by
    cases h : isLow (upperOf c) with
    | false => rfl
    | true =>
      have h1 := (low_iff _).1 h
      have h2 := (low_iff _).1 hc
      rw [upperOf, if_pos hc, toNat_ofNat (by omega)] at h1
      omega
  have hs : ∃ r, sanitizeClassName (c :: escaped t) = upperOf c :: r := by
    rw [sanitize_protoc, protoc_toSnake]
    have h1 : makeInvalidUnderscores (c :: escaped t) = c :: makeInvalidUnderscores (escaped t) := by
      simp [makeInvalidUnderscores, hc]
    rw [h1]
    have h2 : underscoreBetweenUpper false (c :: makeInvalidUnderscores (escaped t)) =
        c :: underscoreBetweenUpper (isUp c) (makeInvalidUnderscores (escaped t)) := by
      simp [underscoreBetweenUpper]
    rw [h2]
    obtain ⟨t', h3⟩ := words_head c (underscoreBetweenUpper (isUp c) (makeInvalidUnderscores (escaped t)))
    rw [h3]
    simp [snakeLoop, sep_low hc, lowerOf_other (low_facts hc).2.2.1, protocLoop, hc]
  obtain ⟨r, hs⟩ := hs
  rw [classNameMessage, escape_eq, escaped, if_neg h_, hs, replaceIn]
  split
  · exact ⟨'_', _, rfl, fun e => h_ e.symm⟩
  · refine ⟨_, _, rfl, fun e => ?_⟩
    rw [e, hc] at hup
    cases hup

/-! ### Accessors -/

theorem upperAfterNumber_append (b : Ident) (hb : ∀ d, upperAfterNumber d b = b) :
    ∀ (a : Ident) (d : Bool), upperAfterNumber d (a ++ b) = upperAfterNumber d a ++ b
  | [], d => hb d
  | c :: a, d => by simp [upperAfterNumber, upperAfterNumber_append b hb a]

theorem fieldAccessor_eq {f : NamedField} (hi : Identifier f.name) : fieldAccessor f =
    "get".toList ++ protocCap f.name ++ match f.kind with
      | .one => []
      | .list => "List".toList
      | .map => "Map".toList := by
  have e := camel_eq f.name (ident_plain hi)
  have h1 : ∀ d, upperAfterNumber d "List".toList = "List".toList := by intro d; cases d <;> decide
  have h2 : ∀ d, upperAfterNumber d "Map".toList = "Map".toList := by intro d; cases d <;> decide
  unfold fieldAccessor
  cases f.kind with
  | one => simp only [e, List.append_nil]
  | list => simp only [upperAfterNumber_append _ h1, e, List.append_assoc]
  | map => simp only [upperAfterNumber_append _ h2, e, List.append_assoc]

theorem digits_ne_nil (n : Nat) : (toString n).toList ≠ [] := by
  intro h
  have : (toString n).toList = Nat.toDigits 10 n := by
    simp [toString, Nat.repr]
  rw [this] at h
  have := Nat.length_toDigits_pos (b := 10) (n := n)
  rw [h] at this
  simp at this

theorem methodName_iff (forbidden : Ident → Bool) (others : List NamedField) (f : NamedField) :
    protocMethodName forbidden others f = protocCap f.name ↔
      forbidden f.name = false ∧ ∀ g ∈ others, clashes forbidden f g = false := by
  have hd := digits_ne_nil f.number
  have hl : 0 < (toString f.number).toList.length := List.length_pos_iff.2 hd
  unfold protocMethodName
  by_cases hc : others.any (clashes forbidden f) = true
  · rw [if_pos hc]
    constructor
    · intro h
      have := congrArg List.length h
      unfold protocFieldCap at this
      split at this <;> simp only [List.length_append, List.length_singleton] at this <;> omega
    · rintro ⟨-, h⟩
      obtain ⟨g, hg, hcl⟩ := List.any_eq_true.1 hc
      rw [h g hg] at hcl
      cases hcl
  · rw [if_neg hc]
    have hall : ∀ g ∈ others, clashes forbidden f g = false := by
      intro g hg
      cases h : clashes forbidden f g with
      | false => rfl
      | true => exact absurd (List.any_eq_true.2 ⟨g, hg, h⟩) hc
    refine Iff.trans ?_ (and_iff_left hall).symm
    unfold protocFieldCap
    constructor
    · intro h
      split at h
      · have := congrArg List.length h
        simp at this
      · rename_i hf; simpa using hf
    · intro h
      rw [h]; rfl

/-! ### Oneofs -/

/-- A lower-case letter right after a digit. -/
def digitLow (d : Bool) : Ident → Bool
  | [] => false
  | c :: t => (d && isLow c) || digitLow (isDig c) t

theorem camel_noDigitLow : ∀ (s : Ident), (∀ c ∈ s, Plain c) → ∀ (capT capP d : Bool), digitLow d s = false →
    capP = (capT || d) → toCamelLoop capT s = protocLoop capP s
  | [], _, _, _, _, _, _ => rfl
  | c :: t, h, capT, capP, d, hd, he => by
    have ih := camel_noDigitLow t (fun x hx => h x (by simp [hx]))
    simp only [digitLow, Bool.or_eq_false_iff] at hd
    subst he
    rcases h c (by simp) with hl | hu | hg | rfl | rfl
    · have : d = false := by simpa [hl] using hd.1
      subst this
      have hd2 := hd.2
      rw [(low_facts hl).2.1] at hd2
      simp [toCamelLoop, protocLoop, hl, low_facts hl, sep_low hl, ih false false false hd2 rfl]
    · have hd2 := hd.2
      rw [(up_facts hu).2.1] at hd2
      simp [toCamelLoop, protocLoop, hu, up_facts hu, sep_up hu, ih false false false hd2 rfl]
    · have hd2 := hd.2
      rw [hg] at hd2
      simp [toCamelLoop, protocLoop, hg, dig_facts hg, sep_dig hg, ih false true true hd2 rfl]
    · have hd2 := hd.2
      rw [under_facts.2.2] at hd2
      simp [toCamelLoop, protocLoop, under_facts, isSep, ih true true false hd2 rfl]
    · have hd2 := hd.2
      rw [space_facts.2.2] at hd2
      simp [toCamelLoop, protocLoop, space_facts, isSep, ih true true false hd2 rfl]

theorem digitLow_mono {d : Bool} {s : Ident} (h : digitLow d s = false) : digitLow false s = false := by
  cases s with
  | nil => rfl
  | cons c t =>
    simp only [digitLow, Bool.or_eq_false_iff] at h ⊢
    exact ⟨by simp, h.2⟩

theorem digitLow_words : ∀ (s : Ident) (st : WordState) (d : Bool), digitLow d s = false → digitLow d (words st s) = false
  | [], st, d, _ => by cases st <;> simp [words, digitLow, space_facts]
  | c :: t, st, d, h => by
    have ih := digitLow_words t
    have h' := digitLow_mono h
    simp only [digitLow, Bool.or_eq_false_iff] at h h'
    cases st <;> simp only [words]
    · simp [digitLow, h.1, ih _ _ h.2]
    · split
      · simp [digitLow, space_facts, ih _ _ h.2]
      · simp [digitLow, h.1, ih _ _ h.2]
    · split
      · simp [digitLow, h.1, ih _ _ h.2]
      · simp [digitLow, space_facts, ih _ _ h.2]

theorem digitLow_append : ∀ (a b : Ident) (d : Bool), digitLow d (a ++ b) = false → digitLow d a = false
  | [], _, _, _ => rfl
  | c :: a, b, d, h => by
    simp only [List.cons_append, digitLow, Bool.or_eq_false_iff] at h ⊢
    exact ⟨h.1, digitLow_append a b _ h.2⟩

theorem digitLow_spaces : ∀ (n : Nat) (s : Ident), digitLow false (List.replicate n ' ' ++ s) = digitLow false s
  | 0, _ => rfl
  | n + 1, s => by
    rw [List.replicate_succ, List.cons_append, digitLow, space_facts.2.2, digitLow_spaces n]
    simp

theorem toCamel_eq {s : Ident} (hi : Identifier s) (h : digitLow false s = false) : toCamel s = protocCap s := by
  have hw := digitLow_words s .idle false h
  obtain ⟨a, b, e⟩ := trim_spec (words .idle s)
  rw [e] at hw
  have ht : digitLow false (trim (words .idle s)) = false := by
    have := digitLow_append _ _ _ hw
    rwa [digitLow_spaces] at this
  rw [toCamel, camel_noDigitLow _ (fun c hc => plain_words s (ident_plain hi) .idle c (mem_trim hc)) true true false ht rfl,
    protocLoop_trim, protoc_words s (ident_plain hi) .idle true (by simp), protocCap]

theorem digitLow_false : ∀ (s : Ident) (d : Bool), (∀ a v r, s = a ++ v :: r → isLow v = true →
      (a = [] → d = false) ∧ ∀ y, a.getLast? = some y → isDig y = false) → digitLow d s = false
  | [], _, _ => rfl
  | c :: t, d, h => by
    simp only [digitLow, Bool.or_eq_false_iff]
    constructor
    · cases hl : isLow c with
      | false => simp
      | true => simp [(h [] c t rfl hl).1 rfl]
    · refine digitLow_false t _ ?_
      intro a v r e hv
      have := h (c :: a) v r (by simp [e]) hv
      refine ⟨?_, ?_⟩
      · rintro rfl
        exact this.2 c (by simp)
      · intro y hy
        cases a with
        | nil => simp at hy
        | cons z a => exact this.2 y (by rw [List.getLast?_cons_cons]; exact hy)

/-! ### Constants -/

/-- How a field's name appears in the names of its constants. -/
def spelled (f : Ident) : Ident := (snakeLoop true (words .idle f)).map upperOf

theorem words_under : ∀ (f rest : Ident) (st : WordState),
    words st (f ++ '_' :: rest) = words st f ++ '_' :: words .idle rest
  | [], rest, st => by
    have h' : isLetter '_' = false := by decide
    have h'' : isDig '_' = false := by decide
    cases st <;> simp [words, h', h'']
  | c :: f, rest, st => by
    cases st <;> simp only [List.cons_append, words, words_under f]
    · split <;> simp
    · split <;> simp

theorem snakeLoop_under : ∀ (a r : Ident) (q : Bool), snakeLoop q (a ++ '_' :: r) = snakeLoop q a ++ '_' :: snakeLoop true r
  | [], r, q => by
    have : caseChanges '_' r = false := by cases r <;> simp [caseChanges, under_facts]
    have hs : isSep '_' = true := by decide
    simp [snakeLoop, this, hs]
  | c :: a, r, q => by
    have : caseChanges c (a ++ '_' :: r) = caseChanges c a := by
      cases a <;> simp [caseChanges, under_facts]
    simp only [List.cons_append, snakeLoop, this, snakeLoop_under a]
    split
    · split <;> simp
    · split <;> simp

theorem trim_id {s : Ident} (h1 : s.head? ≠ some ' ') (h2 : s.getLast? ≠ some ' ') : trim s = s := by
  have dw : ∀ l : Ident, l.head? ≠ some ' ' → l.dropWhile (· == ' ') = l := by
    intro l hl
    cases l with
    | nil => rfl
    | cons c t =>
      rw [List.dropWhile_cons_of_neg]
      simpa using hl
  rw [trim, dw s h1, dw s.reverse (by rwa [List.head?_reverse]), List.reverse_reverse]

theorem constantText_eq {f i r : Ident} (hf : ' ' ∉ f) (hlast : (words .idle (i ++ '_' :: r)).getLast? ≠ some ' ')
    (hne : words .idle (i ++ '_' :: r) ≠ []) :
    constantText f i r = spelled f ++ '_' :: (snakeLoop true (words .idle (i ++ '_' :: r))).map upperOf := by
  have e : f ++ ['_'] ++ i ++ ['_'] ++ r = f ++ '_' :: (i ++ '_' :: r) := by simp
  rw [constantText, toScreamingSnake, e, words_under, trim_id, snakeLoop_under, List.map_append, List.map_cons]
  · rw [spelled]
    have : upperOf '_' = '_' := by decide
    rw [this]
  · cases f with
    | nil => simp [words]
    | cons c t =>
      simp [words]
      rintro rfl
      simp at hf
  · cases hw : words .idle (i ++ '_' :: r) with
    | nil => exact absurd hw hne
    | cons x l =>
      rw [hw] at hlast
      rw [List.getLast?_append]
      simp only [List.getLast?_cons_cons]
      cases hl : (x :: l).getLast? with
      | none => simp at hl
      | some y =>
        rw [hl] at hlast
        simpa using hlast

end PGV.JavaNames
