import Verif.Java.Names
import Verif.Props.CppNames

set_option linter.unusedSimpArgs false

/-!
How `strcase` and protoc's Java generator spell the same name.
-/

namespace PGV.JavaNames
open PGV
open PGV.Cpp (Ident isLow isUp isDig upperOf lowerOf upperCamel)
open PGV.Props (low_facts up_facts dig_facts)

/-- A character of an identifier, or a space. -/
def Plain (c : Char) : Prop := isLow c = true ∨ isUp c = true ∨ isDig c = true ∨ c = '_' ∨ c = ' '

theorem under_facts : isLow '_' = false ∧ isUp '_' = false ∧ isDig '_' = false := by decide
theorem space_facts : isLow ' ' = false ∧ isUp ' ' = false ∧ isDig ' ' = false := by decide

theorem upperOf_dig {c : Char} (h : isDig c = true) : upperOf c = c := by
  rw [upperOf, (dig_facts h).2.2]; rfl

theorem upperOf_up {c : Char} (h : isUp c = true) : upperOf c = c := by
  rw [upperOf, (up_facts h).2.2]; rfl

theorem sep_low {c : Char} (h : isLow c = true) : isSep c = false := by
  have h1 : c ≠ '_' := (low_facts h).1
  have h2 : c ≠ ' ' := by rintro rfl; rw [space_facts.1] at h; cases h
  have h3 : c ≠ '-' := by rintro rfl; revert h; decide
  simp [isSep, h1, h2, h3]

theorem sep_up {c : Char} (h : isUp c = true) : isSep c = false := by
  have h1 : c ≠ '_' := (up_facts h).1
  have h2 : c ≠ ' ' := by rintro rfl; rw [space_facts.2.1] at h; cases h
  have h3 : c ≠ '-' := by rintro rfl; revert h; decide
  simp [isSep, h1, h2, h3]

theorem sep_dig {c : Char} (h : isDig c = true) : isSep c = false := by
  have h1 : c ≠ '_' := (dig_facts h).1
  have h2 : c ≠ ' ' := by rintro rfl; rw [space_facts.2.2] at h; cases h
  have h3 : c ≠ '-' := by rintro rfl; revert h; decide
  simp [isSep, h1, h2, h3]

/-- `ToCamel` and then capitals after numbers: what protoc writes. -/
theorem camel_loop : ∀ (s : Ident), (∀ c ∈ s, Plain c) → ∀ cap digit,
    upperAfterNumber digit (toCamelLoop cap s) = protocLoop (cap || digit) s
  | [], _, _, _ => rfl
  | c :: t, h, cap, digit => by
    have ih := camel_loop t (fun x hx => h x (by simp [hx]))
    have tw : ∀ x, upperOf (upperOf x) = upperOf x := by
      intro x
      by_cases hx : isLow x = true
      · have e : upperOf x = Char.ofNat (x.toNat - 32) := by rw [upperOf, if_pos hx]
        by_cases h2 : isLow (upperOf x) = true
        · exfalso
          simp only [isLow, decide_eq_true_eq, Char.le_def, UInt32.le_iff_toNat_le] at hx h2
          have h3 : 'a'.val.toNat = 97 := rfl
          have h4 : 'z'.val.toNat = 122 := rfl
          have h1 : x.val.toNat = x.toNat := rfl
          have hn : (Char.ofNat (x.toNat - 32)).val.toNat = x.toNat - 32 := by
            have hv : Nat.isValidChar (x.toNat - 32) := Or.inl (by omega)
            rw [Char.ofNat, dif_pos hv]
            rfl
          rw [e] at h2
          omega
        · rw [upperOf, if_neg h2]
      · have e : upperOf x = x := by rw [upperOf, if_neg hx]
        rw [e, e]
    rcases h c (by simp) with hl | hu | hd | rfl | rfl
    · obtain ⟨h1, h2, h3, h4⟩ := low_facts hl
      have hud : isDig (upperOf c) = false := by
        cases hd : isDig (upperOf c) with
        | false => rfl
        | true =>
          exfalso
          have e : upperOf c = Char.ofNat (c.toNat - 32) := by rw [upperOf, if_pos hl]
          simp only [isLow, isDig, decide_eq_true_eq, Char.le_def, UInt32.le_iff_toNat_le] at hl hd
          have h3 : 'a'.val.toNat = 97 := rfl
          have h4 : 'z'.val.toNat = 122 := rfl
          have h5 : '9'.val.toNat = 57 := rfl
          have h1 : c.val.toNat = c.toNat := rfl
          have hn : (Char.ofNat (c.toNat - 32)).val.toNat = c.toNat - 32 := by
            have hv : Nat.isValidChar (c.toNat - 32) := Or.inl (by omega)
            rw [Char.ofNat, dif_pos hv]
            rfl
          rw [e] at hd
          omega
      cases cap <;> cases digit <;>
        simp [toCamelLoop, protocLoop, hl, h2, h3, upperAfterNumber, sep_low hl, ih, hud, tw]
    · obtain ⟨h1, h2, h3⟩ := up_facts hu
      cases cap <;> cases digit <;>
        simp [toCamelLoop, protocLoop, hu, h2, h3, upperAfterNumber, sep_up hu, ih, upperOf_up hu]
    · obtain ⟨h1, h2, h3⟩ := dig_facts hd
      cases cap <;> cases digit <;>
        simp [toCamelLoop, protocLoop, hd, h2, h3, upperAfterNumber, sep_dig hd, ih, upperOf_dig hd]
    · obtain ⟨h1, h2, h3⟩ := under_facts
      cases cap <;> cases digit <;>
        simp [toCamelLoop, protocLoop, h1, h2, h3, isSep, ih]
    · obtain ⟨h1, h2, h3⟩ := space_facts
      cases cap <;> cases digit <;>
        simp [toCamelLoop, protocLoop, h1, h2, h3, isSep, ih]

theorem protocLoop_space (cap : Bool) (t : Ident) : protocLoop cap (' ' :: t) = protocLoop true t := by
  obtain ⟨h1, h2, h3⟩ := space_facts
  simp [protocLoop, h1, h2, h3]

theorem protocLoop_spaces : ∀ (n : Nat) (cap : Bool), protocLoop cap (List.replicate n ' ') = []
  | 0, _ => rfl
  | n + 1, cap => by rw [List.replicate_succ, protocLoop_space, protocLoop_spaces n]

theorem protocLoop_append_spaces : ∀ (s : Ident) (cap : Bool) (n : Nat),
    protocLoop cap (s ++ List.replicate n ' ') = protocLoop cap s
  | [], cap, n => protocLoop_spaces n cap
  | c :: t, cap, n => by
    simp only [List.cons_append, protocLoop, protocLoop_append_spaces t]

/-- What `Trim` takes off. -/
theorem trim_spec (s : Ident) : ∃ a b, s = List.replicate a ' ' ++ trim s ++ List.replicate b ' ' := by
  have split : ∀ l : Ident, ∃ n, l = List.replicate n ' ' ++ l.dropWhile (· == ' ') := by
    intro l
    induction l with
    | nil => exact ⟨0, rfl⟩
    | cons c t ih =>
      by_cases hc : c = ' '
      · subst hc
        obtain ⟨n, hn⟩ := ih
        refine ⟨n + 1, ?_⟩
        rw [List.dropWhile_cons_of_pos (by simp), List.replicate_succ, List.cons_append, ← hn]
      · exact ⟨0, by rw [List.dropWhile_cons_of_neg (by simpa using hc)]; rfl⟩
  obtain ⟨a, ha⟩ := split s
  obtain ⟨b, hb⟩ := split (s.dropWhile (· == ' ')).reverse
  refine ⟨a, b, ?_⟩
  have hb' : s.dropWhile (· == ' ') = trim s ++ List.replicate b ' ' := by
    have := congrArg List.reverse hb
    rwa [List.reverse_reverse, List.reverse_append, List.reverse_replicate] at this
  rw [List.append_assoc, ← hb', ← ha]

theorem protocLoop_lead : ∀ (n : Nat) (s : Ident), protocLoop true (List.replicate n ' ' ++ s) = protocLoop true s
  | 0, _ => rfl
  | n + 1, s => by rw [List.replicate_succ, List.cons_append, protocLoop_space, protocLoop_lead n]

theorem protocLoop_trim (s : Ident) : protocLoop true (trim s) = protocLoop true s := by
  obtain ⟨a, b, h⟩ := trim_spec s
  conv => rhs; rw [h]
  rw [protocLoop_append_spaces, protocLoop_lead]

theorem mem_trim {s : Ident} {c : Char} (h : c ∈ trim s) : c ∈ s := by
  obtain ⟨a, b, e⟩ := trim_spec s
  rw [e]
  simp [h]

theorem letter_cases (c : Char) : isLetter c = true ↔ isLow c = true ∨ isUp c = true := by
  simp [isLetter]

/-- The spaces that mark numbers change no capitals. -/
theorem protoc_words : ∀ (s : Ident), (∀ c ∈ s, Plain c) → ∀ (st : WordState) (cap : Bool), (st = .digits → cap = true) →
    protocLoop cap (words st s) = protocLoop cap s
  | [], _, st, cap, _ => by cases st <;> simp [words, protocLoop, space_facts]
  | c :: t, h, st, cap, hst => by
    have ih := protoc_words t (fun x hx => h x (by simp [hx]))
    have idle : ∀ cap, protocLoop cap (c :: words (if isLetter c then WordState.letter else .idle) t) =
        protocLoop cap (c :: t) := by
      intro cap
      have hne : ∀ cap', protocLoop cap' (words (if isLetter c then WordState.letter else .idle) t) = protocLoop cap' t := by
        intro cap'
        apply ih
        split <;> simp
      simp only [protocLoop, hne]
    have idle' : ∀ cap, protocLoop cap (c :: words WordState.idle t) = protocLoop cap (c :: t) := by
      intro cap
      simp only [protocLoop, ih WordState.idle _ (by simp)]
    have digit : isDig c = true → ∀ cap, protocLoop cap (c :: words .digits t) = protocLoop true (c :: t) := by
      intro hd cap
      obtain ⟨h1, h2, h3⟩ := dig_facts hd
      simp [protocLoop, hd, h2, h3, ih .digits true]
    have dtrue : isDig c = true → ∀ cap, protocLoop cap (c :: t) = protocLoop true (c :: t) := by
      intro hd cap
      obtain ⟨h1, h2, h3⟩ := dig_facts hd
      simp [protocLoop, hd, h2, h3]
    cases st with
    | idle => exact idle cap
    | letter =>
      rw [words]
      split
      · rename_i hd
        rw [protocLoop_space, digit hd, dtrue hd cap]
      · exact idle cap
    | digits =>
      rw [words, hst rfl]
      split
      · rename_i hd
        exact digit hd _
      · rw [protocLoop_space]
        exact idle' _

theorem plain_words : ∀ (s : Ident), (∀ c ∈ s, Plain c) → ∀ st, ∀ c ∈ words st s, Plain c
  | [], _, st, c, hc => by
    cases st <;> simp [words] at hc
    subst hc
    exact .inr (.inr (.inr (.inr rfl)))
  | x :: t, h, st, c, hc => by
    have ih := plain_words t (fun x hx => h x (by simp [hx]))
    have hx := h x (by simp)
    have hsp : Plain ' ' := .inr (.inr (.inr (.inr rfl)))
    cases st <;> simp only [words] at hc
    · rcases List.mem_cons.1 hc with rfl | hc
      · exact hx
      · exact ih _ _ hc
    · split at hc
      · rcases List.mem_cons.1 hc with rfl | hc
        · exact hsp
        rcases List.mem_cons.1 hc with rfl | hc
        · exact hx
        · exact ih _ _ hc
      · rcases List.mem_cons.1 hc with rfl | hc
        · exact hx
        · exact ih _ _ hc
    · split at hc
      · rcases List.mem_cons.1 hc with rfl | hc
        · exact hx
        · exact ih _ _ hc
      · rcases List.mem_cons.1 hc with rfl | hc
        · exact hsp
        rcases List.mem_cons.1 hc with rfl | hc
        · exact hx
        · exact ih _ _ hc

/-- The generator's spelling of a name in a method or class is protoc's. -/
theorem camel_eq (s : Ident) (h : ∀ c ∈ s, Plain c) : upperAfterNumber false (toCamel s) = protocCap s := by
  rw [toCamel, camel_loop _ (fun c hc => plain_words s h .idle c (mem_trim hc)), Bool.or_false, protocLoop_trim,
    protoc_words s h .idle true (by simp), protocCap]

/-! ### `ToSnake` -/

theorem toNat_ofNat {n : Nat} (h : n < 0xD800) : (Char.ofNat n).toNat = n := by
  have hv : Nat.isValidChar n := Or.inl h
  rw [Char.ofNat, dif_pos hv]
  rfl

theorem low_iff (c : Char) : isLow c = true ↔ 97 ≤ c.toNat ∧ c.toNat ≤ 122 := by
  simp only [isLow, decide_eq_true_eq, Char.le_def, UInt32.le_iff_toNat_le]
  exact Iff.rfl

theorem up_iff (c : Char) : isUp c = true ↔ 65 ≤ c.toNat ∧ c.toNat ≤ 90 := by
  simp only [isUp, decide_eq_true_eq, Char.le_def, UInt32.le_iff_toNat_le]
  exact Iff.rfl

theorem dig_iff (c : Char) : isDig c = true ↔ 48 ≤ c.toNat ∧ c.toNat ≤ 57 := by
  simp only [isDig, decide_eq_true_eq, Char.le_def, UInt32.le_iff_toNat_le]
  exact Iff.rfl

theorem lowerOf_up {c : Char} (h : isUp c = true) : isLow (lowerOf c) = true ∧ upperOf (lowerOf c) = c := by
  have e : (lowerOf c).toNat = c.toNat + 32 := by
    rw [lowerOf, if_pos h, toNat_ofNat]
    have := (up_iff c).1 h
    omega
  have hl : isLow (lowerOf c) = true := by
    rw [low_iff, e]
    have := (up_iff c).1 h
    omega
  refine ⟨hl, ?_⟩
  rw [upperOf, if_pos hl, e]
  have h2 : Char.ofNat (c.toNat + 32 - 32) = c := by
    rw [Nat.add_sub_cancel]
    exact Char.ofNat_toNat c
  exact h2

theorem lowerOf_other {c : Char} (h : isUp c = false) : lowerOf c = c := by
  rw [lowerOf, h]; rfl

/-- The rest of a name, seen from a letter before it: what comes next after the spaces and underscores put in. -/
theorem caseChanges_stream (v : Char) (st : WordState) (hst : st ≠ .digits) (t : Ident)
    (ht : ∀ c ∈ t, Plain c) :
    caseChanges v (words st (underscoreBetweenUpper (isUp v) t)) = caseChanges v t := by
  cases t with
  | nil => cases st <;> simp [underscoreBetweenUpper, words, caseChanges] at hst ⊢
  | cons x r =>
    have hsp := space_facts
    have hun := under_facts
    have hw : ∀ (y : Char) (z : Ident), ∃ z', words st (y :: z) = (if st = .letter ∧ isDig y = true then ' ' else y) :: z' := by
      intro y z
      cases st with
      | digits => exact absurd rfl hst
      | idle => exact ⟨_, by simp [words]; rfl⟩
      | letter =>
        by_cases hy : isDig y = true
        · exact ⟨_, by simp [words, hy]; rfl⟩
        · exact ⟨_, by simp [words, hy]; rfl⟩
    by_cases hux : (isUp v && isUp x) = true
    · rw [underscoreBetweenUpper, if_pos hux]
      obtain ⟨z', hz⟩ := hw '_' (x :: underscoreBetweenUpper true r)
      rw [hz]
      simp only [Bool.and_eq_true] at hux
      simp [caseChanges, hun, hux, (up_facts hux.1).2.2, (up_facts hux.2).2.2]
    · rw [underscoreBetweenUpper, if_neg hux]
      obtain ⟨z', hz⟩ := hw x (underscoreBetweenUpper (isUp x) r)
      rw [hz]
      simp only [caseChanges]
      by_cases hd : isDig x = true
      · simp only [hd, and_true]
        split <;> simp [hsp, (dig_facts hd).2]
      · simp [hd]

/-- No lower-case letter that starts a word is followed by an upper-case letter without a lower-case one after it.
`b` says whether a word starts here. -/
def clean (b : Bool) : Ident → Bool
  | [] => true
  | v :: t => (!(b && isLow v) || match t with
      | x :: r => !isUp x || (r.head?.map isLow).getD false
      | [] => true) && clean (!isLetter v) t

/-- What must hold where an upper-case letter comes next: something makes it a capital again. -/
def Ready (p q capC capP : Bool) : Ident → Prop
  | [] => True
  | c :: t => if isUp c = true then p = true ∨ capC = true ∨ (q = false ∧ (t.head?.map isLow).getD false = true)
      else capC = capP

/-- What the loop lemma says of a name, for all the states the pipeline can be in. -/
def SnakeOk (w : Ident) : Prop :=
  ∀ (p : Bool) (st : WordState) (q capC capP b : Bool), clean b w = true →
      (q = true → b = true ∨ ∃ x t, w = x :: t ∧ isUp x = true) →
      (st = .digits → p = false ∧ capC = true ∧ capP = true ∧ b = true) →
      Ready p q capC capP w →
      protocLoop capC ((snakeLoop q (words st (underscoreBetweenUpper p w))).map lowerOf) = protocLoop capP w

theorem snake_core {c : Char} {t : Ident}
    (hw : ∀ x ∈ c :: t, isLow x = true ∨ isUp x = true ∨ isDig x = true ∨ x = '_') (ih : SnakeOk t)
    {st : WordState} {q capC capP b : Bool} (hcl : clean b (c :: t) = true) (hq : q = true → b = true ∨ isUp c = true)
    (hst : st = .digits → isDig c = true) (hr : Ready false q capC capP (c :: t)) :
    protocLoop capC ((snakeLoop q (c :: words st (underscoreBetweenUpper (isUp c) t))).map lowerOf) =
      protocLoop capP (c :: t) := by
  have hplain : ∀ x ∈ t, Plain x := by
    intro x hx
    rcases hw x (by simp [hx]) with h | h | h | h
    · exact .inl h
    · exact .inr (.inl h)
    · exact .inr (.inr (.inl h))
    · exact .inr (.inr (.inr (.inl h)))
  simp only [clean, Bool.and_eq_true] at hcl
  obtain ⟨hc1, hc2⟩ := hcl
  have ready : ∀ p q, Ready p q true true t := by
    intro p q
    cases t with
    | nil => trivial
    | cons x r => simp [Ready]
  rcases hw c (by simp) with hl | hu | hd | rfl
  · -- a lower-case letter
    obtain ⟨h1, h2, h3, h4⟩ := low_facts hl
    have hlet : isLetter c = true := by simp [isLetter, hl]
    have hnd : st ≠ .digits := by intro e; rw [hst e] at h2; cases h2
    have hcap : capC = capP := by simpa [Ready, h3] using hr
    have hch := caseChanges_stream c st hnd t hplain
    subst hcap
    rw [hlet] at hc2
    simp only [h3] at hch ⊢
    by_cases hx : (!q && caseChanges c t) = true
    · simp only [Bool.and_eq_true, Bool.not_eq_true'] at hx
      rw [snakeLoop, hch, hx.1, hx.2]
      obtain ⟨x, r, rfl⟩ : ∃ x r, t = x :: r := by
        cases t with
        | nil => simp [caseChanges] at hx
        | cons x r => exact ⟨x, r, rfl⟩
      have hxu : isUp x = true := by simpa [caseChanges, h3, hl] using hx.2
      have := ih false st true true false false hc2 (fun _ => .inr ⟨x, r, rfl, hxu⟩) (fun e => absurd e hnd)
        (by simp [Ready, hxu])
      simp [protocLoop, hl, lowerOf_other h3, h3, this, under_facts, lowerOf_other under_facts.2.1]
    · rw [snakeLoop, hch, if_neg hx, if_neg (by simp [sep_low hl])]
      have := ih false st false false false false hc2 (by simp) (fun e => absurd e hnd) (by
        cases t with
        | nil => trivial
        | cons x r =>
          simp only [Ready]
          split
          · rename_i hxu
            refine .inr (.inr ⟨trivial, ?_⟩)
            have hq' : q = true := by simpa [caseChanges, hl, h3, hxu] using hx
            have hb : b = true := (hq hq').resolve_right (by simp [h3])
            simpa [hb, hl, hxu] using hc1
          · trivial)
      simp [protocLoop, hl, lowerOf_other h3, this]
  · -- an upper-case letter
    obtain ⟨h1, h2, h3⟩ := up_facts hu
    have hlet : isLetter c = true := by simp [isLetter, hu]
    have hnd : st ≠ .digits := by intro e; rw [hst e] at h2; cases h2
    have hch := caseChanges_stream c st hnd t hplain
    rw [hlet] at hc2
    obtain ⟨hlo, hlu⟩ := lowerOf_up hu
    simp only [hu] at hch ⊢
    have := ih true st false false false false hc2 (by simp) (fun e => absurd e hnd) (by
      cases t with
      | nil => trivial
      | cons x r => simp only [Ready]; split <;> simp)
    by_cases hx : (!q && caseChanges c t) = true
    · rw [snakeLoop, hch, if_pos hx, if_pos hu]
      simp [protocLoop, hu, h3, hlo, hlu, this, under_facts, lowerOf_other under_facts.2.1]
    · rw [snakeLoop, hch, if_neg hx, if_neg (by simp [sep_up hu])]
      have hcap : capC = true := by
        simp only [Ready, hu, if_true] at hr
        rcases hr with h | h | ⟨h, h'⟩
        · cases h
        · exact h
        · exfalso
          apply hx
          cases t with
          | nil => simp at h'
          | cons x r =>
            have : isLow x = true := by simpa using h'
            simp [h, caseChanges, hu, this]
      simp [protocLoop, hu, h3, hlo, hlu, this, hcap]
  · -- a digit
    obtain ⟨h1, h2, h3⟩ := dig_facts hd
    have hlet : isLetter c = false := by simp [isLetter, h2, h3]
    rw [hlet] at hc2
    have hch : ∀ s, caseChanges c s = false := by intro s; cases s <;> simp [caseChanges, h2, h3]
    simp only [h2]
    rw [snakeLoop, hch, Bool.and_false, if_neg (by simp), if_neg (by simp [sep_dig hd])]
    have := ih false st false true true true hc2 (by simp) (fun _ => ⟨rfl, rfl, rfl, rfl⟩) (ready _ _)
    simp [protocLoop, hd, h2, h3, lowerOf_other h2, this]
  · -- an underscore
    obtain ⟨h1, h2, h3⟩ := under_facts
    have hlet : isLetter '_' = false := by decide
    rw [hlet] at hc2
    have hch : ∀ s, caseChanges '_' s = false := by intro s; cases s <;> simp [caseChanges, h1, h2]
    simp only [h2]
    rw [snakeLoop, hch, Bool.and_false, if_neg (by simp), if_pos (by decide)]
    have := ih false st true true true true hc2 (by simp) (fun _ => ⟨rfl, rfl, rfl, rfl⟩) (ready _ _)
    simp [protocLoop, h1, h2, h3, lowerOf_other h2, this]

theorem snake_loop : ∀ (w : Ident), (∀ c ∈ w, isLow c = true ∨ isUp c = true ∨ isDig c = true ∨ c = '_') → SnakeOk w
  | [], _ => by
    intro p st q capC capP b _ _ _ _
    cases st <;> simp [underscoreBetweenUpper, words, snakeLoop, caseChanges, isSep, protocLoop, lowerOf, space_facts, under_facts]
  | c :: t, hw => by
    intro p st q capC capP b hcl hq hst hr
    have ih := snake_loop t (fun x hx => hw x (by simp [hx]))
    have sep : ∀ (x : Char) (s : Ident) (q capC : Bool), isSep x = true → isLow x = false → isUp x = false →
        protocLoop capC ((snakeLoop q (x :: s)).map lowerOf) = protocLoop true ((snakeLoop true s).map lowerOf) := by
      intro x s q capC h1 h2 h3
      have hch : caseChanges x s = false := by cases s <;> simp [caseChanges, h2, h3]
      rw [snakeLoop, hch, Bool.and_false, if_neg (by simp), if_pos h1]
      simp [protocLoop, under_facts, lowerOf_other under_facts.2.1]
    by_cases hins : (p && isUp c) = true
    · simp only [Bool.and_eq_true] at hins
      obtain ⟨hp, hu⟩ := hins
      subst hp
      have hnd : st ≠ .digits := by intro e; have := (hst e).1; cases this
      rw [underscoreBetweenUpper, if_pos (by simp [hu])]
      have hws : words st ('_' :: c :: underscoreBetweenUpper true t) =
          '_' :: c :: words .letter (underscoreBetweenUpper (isUp c) t) := by
        have hlet : isLetter c = true := by simp [isLetter, hu]
        have h' : isLetter '_' = false := by decide
        have h'' : isDig '_' = false := by decide
        cases st with
        | digits => exact absurd rfl hnd
        | idle => simp [words, h', hlet, hu]
        | letter => simp [words, h', h'', hlet, hu]
      rw [hws, sep _ _ _ _ (by decide) under_facts.1 under_facts.2.1]
      have hr' : Ready false true true capP (c :: t) := by simp [Ready, hu]
      rw [snake_core hw ih hcl (fun _ => .inr hu) (by simp) hr']
    · rw [underscoreBetweenUpper, if_neg hins]
      have hq' : q = true → b = true ∨ isUp c = true := by
        intro h
        rcases hq h with h | ⟨x, t', e, h⟩
        · exact .inl h
        · simp only [List.cons.injEq] at e
          rw [e.1]
          exact .inr h
      have hr' : Ready false q capC capP (c :: t) := by
        simp only [Ready] at hr ⊢
        split at hr
        · rename_i hu
          rw [if_pos hu]
          simp only [hu, Bool.and_true] at hins
          simpa [hins] using hr
        · rename_i hu
          rw [if_neg hu]
          exact hr
      cases st with
      | idle =>
        rw [words]
        refine snake_core hw ih hcl hq' ?_ hr'
        split <;> simp
      | letter =>
        rw [words]
        by_cases hd : isDig c = true
        · rw [if_pos hd, sep _ _ _ _ (by decide) space_facts.1 space_facts.2.1]
          have hcap : protocLoop capP (c :: t) = protocLoop true (c :: t) := by
            simp [protocLoop, hd, dig_facts hd]
          rw [hcap]
          have hcl' : clean true (c :: t) = true := by
            simpa [clean, dig_facts hd] using hcl
          refine snake_core hw ih hcl' (fun _ => .inl rfl) (fun _ => hd) ?_
          simp [Ready, dig_facts hd]
        · rw [if_neg hd]
          refine snake_core hw ih hcl hq' ?_ hr'
          split <;> simp
      | digits =>
        obtain ⟨-, h2, h3, h4⟩ := hst rfl
        subst h2 h3 h4
        rw [words]
        by_cases hd : isDig c = true
        · rw [if_pos hd]
          exact snake_core hw ih hcl hq' (fun _ => hd) hr'
        · rw [if_neg hd, sep _ _ _ _ (by decide) space_facts.1 space_facts.2.1]
          refine snake_core hw ih hcl (fun _ => .inl rfl) (by simp) ?_
          simp [Ready]

theorem caseChanges_spaces (v : Char) (t : Ident) (n : Nat) :
    caseChanges v (t ++ List.replicate n ' ') = caseChanges v t := by
  cases t with
  | nil => cases n <;> simp [caseChanges, List.replicate_succ, space_facts]
  | cons x r => rfl

theorem snakeLoop_spaces : ∀ (n : Nat) (q : Bool), snakeLoop q (List.replicate n ' ') = List.replicate n '_'
  | 0, _ => rfl
  | n + 1, q => by
    have : caseChanges ' ' (List.replicate n ' ') = false := by
      cases n <;> simp [caseChanges, List.replicate_succ, space_facts]
    rw [List.replicate_succ, snakeLoop, this, Bool.and_false, if_neg (by simp), if_pos (by decide), snakeLoop_spaces n]
    rfl

theorem snakeLoop_append : ∀ (s : Ident) (q : Bool) (n : Nat),
    snakeLoop q (s ++ List.replicate n ' ') = snakeLoop q s ++ List.replicate n '_'
  | [], q, n => by simp [snakeLoop_spaces, snakeLoop]
  | c :: t, q, n => by
    simp only [List.cons_append, snakeLoop, caseChanges_spaces]
    split
    · split <;> simp [snakeLoop_append t]
    · split <;> simp [snakeLoop_append t]

theorem snakeLoop_lead (s : Ident) : ∀ n, snakeLoop true (List.replicate n ' ' ++ s) = List.replicate n '_' ++ snakeLoop true s
  | 0 => rfl
  | n + 1 => by
    rw [List.replicate_succ, List.cons_append, snakeLoop]
    simp only [Bool.not_true, Bool.false_and, Bool.false_eq_true, if_false]
    rw [if_pos (by decide), snakeLoop_lead s n]
    rfl

theorem protocLoop_under (cap : Bool) (t : Ident) : protocLoop cap ('_' :: t) = protocLoop true t := by
  obtain ⟨h1, h2, h3⟩ := under_facts
  simp [protocLoop, h1, h2, h3]

theorem protocLoop_unders_lead : ∀ (n : Nat) (s : Ident), protocLoop true (List.replicate n '_' ++ s) = protocLoop true s
  | 0, _ => rfl
  | n + 1, s => by rw [List.replicate_succ, List.cons_append, protocLoop_under, protocLoop_unders_lead n]

theorem protocLoop_unders : ∀ (s : Ident) (cap : Bool) (n : Nat),
    protocLoop cap (s ++ List.replicate n '_') = protocLoop cap s
  | [], cap, 0 => rfl
  | [], cap, n + 1 => by
    rw [List.replicate_succ, List.nil_append, protocLoop_under]
    simpa [protocLoop] using protocLoop_unders_lead n []
  | c :: t, cap, n => by simp only [List.cons_append, protocLoop, protocLoop_unders t]

theorem protoc_toSnake (s : Ident) :
    protocCap (toSnake s) = protocLoop true ((snakeLoop true (words .idle s)).map lowerOf) := by
  obtain ⟨a, b, h⟩ := trim_spec (words .idle s)
  have hu : lowerOf '_' = '_' := by decide
  have : snakeLoop true (words .idle s) =
      List.replicate a '_' ++ snakeLoop true (trim (words .idle s)) ++ List.replicate b '_' := by
    conv => lhs; rw [h]
    rw [snakeLoop_append, snakeLoop_lead]
  rw [this, List.map_append, List.map_append, List.map_replicate, List.map_replicate, hu, protocLoop_unders,
    protocLoop_unders_lead]
  rfl

theorem plain_under : ∀ (s : Ident), (∀ c ∈ s, Plain c) → ∀ p, ∀ c ∈ underscoreBetweenUpper p s, Plain c
  | [], _, _, c, hc => by simp [underscoreBetweenUpper] at hc
  | x :: t, h, p, c, hc => by
    have ih := plain_under t (fun y hy => h y (by simp [hy]))
    simp only [underscoreBetweenUpper] at hc
    split at hc
    · rcases List.mem_cons.1 hc with rfl | hc
      · exact .inr (.inr (.inr (.inl rfl)))
      rcases List.mem_cons.1 hc with rfl | hc
      · exact h _ (by simp)
      · exact ih _ _ hc
    · rcases List.mem_cons.1 hc with rfl | hc
      · exact h _ (by simp)
      · exact ih _ _ hc

theorem plain_snakeLoop : ∀ (s : Ident), (∀ c ∈ s, Plain c) → ∀ q, ∀ c ∈ snakeLoop q s, Plain c
  | [], _, _, c, hc => by simp [snakeLoop] at hc
  | x :: t, h, q, c, hc => by
    have ih := plain_snakeLoop t (fun y hy => h y (by simp [hy]))
    have hu : Plain '_' := .inr (.inr (.inr (.inl rfl)))
    have hx := h x (by simp)
    simp only [snakeLoop] at hc
    split at hc
    · split at hc
      · rcases List.mem_cons.1 hc with rfl | hc
        · exact hu
        rcases List.mem_cons.1 hc with rfl | hc
        · exact hx
        · exact ih _ _ hc
      · rcases List.mem_cons.1 hc with rfl | hc
        · exact hx
        rcases List.mem_cons.1 hc with rfl | hc
        · exact hu
        · exact ih _ _ hc
    · split at hc
      · rcases List.mem_cons.1 hc with rfl | hc
        · exact hu
        · exact ih _ _ hc
      · rcases List.mem_cons.1 hc with rfl | hc
        · exact hx
        · exact ih _ _ hc

theorem plain_lower {c : Char} (h : Plain c) : Plain (lowerOf c) := by
  by_cases hu : isUp c = true
  · exact .inl (lowerOf_up hu).1
  · rw [lowerOf_other (by simpa using hu)]
    exact h

theorem plain_toSnake (s : Ident) (h : ∀ c ∈ s, Plain c) : ∀ c ∈ toSnake s, Plain c := by
  intro c hc
  obtain ⟨x, hx, rfl⟩ := List.mem_map.1 hc
  refine plain_lower (plain_snakeLoop _ (fun y hy => ?_) true x hx)
  exact plain_words s h .idle y (mem_trim hy)

theorem invalid_ident (s : Ident) :
    ∀ c ∈ makeInvalidUnderscores s, isLow c = true ∨ isUp c = true ∨ isDig c = true ∨ c = '_' := by
  intro c hc
  obtain ⟨x, _, rfl⟩ := List.mem_map.1 hc
  split
  · rename_i h
    simp only [Bool.or_eq_true] at h
    rcases h with (h | h) | h
    · exact .inr (.inr (.inl h))
    · exact .inl h
    · exact .inr (.inl h)
  · exact .inr (.inr (.inr rfl))

theorem ident_plain {s : Ident} (h : ∀ c ∈ s, isLow c = true ∨ isUp c = true ∨ isDig c = true ∨ c = '_') :
    ∀ c ∈ s, Plain c := by
  intro c hc
  rcases h c hc with h | h | h | h
  · exact .inl h
  · exact .inr (.inl h)
  · exact .inr (.inr (.inl h))
  · exact .inr (.inr (.inr (.inl h)))

theorem sanitize_protoc (s : Ident) :
    sanitizeClassName s = protocCap (toSnake (underscoreBetweenUpper false (makeInvalidUnderscores s))) :=
  camel_eq _ (plain_toSnake _ (plain_under _ (ident_plain (invalid_ident s)) false))

theorem protoc_invalid : ∀ (s : Ident) (cap : Bool), protocLoop cap (makeInvalidUnderscores s) = protocLoop cap s
  | [], _ => rfl
  | c :: t, cap => by
    have ih := protoc_invalid t
    simp only [makeInvalidUnderscores, List.map_cons] at ih ⊢
    by_cases h : (isDig c || isLow c || isUp c) = true
    · rw [if_pos h]
      simp only [protocLoop, ih]
    · rw [if_neg h, protocLoop_under, ih]
      simp only [Bool.or_eq_true, not_or, Bool.not_eq_true] at h
      simp [protocLoop, h]

theorem clean_invalid : ∀ (s : Ident) (b : Bool), clean b (makeInvalidUnderscores s) = clean b s := by
  have hlow : ∀ c, isLow (if isDig c || isLow c || isUp c then c else '_') = isLow c := by
    intro c
    split
    · rfl
    · rename_i h
      simp only [Bool.or_eq_true, not_or, Bool.not_eq_true] at h
      rw [h.1.2]; decide
  have hup : ∀ c, isUp (if isDig c || isLow c || isUp c then c else '_') = isUp c := by
    intro c
    split
    · rfl
    · rename_i h
      simp only [Bool.or_eq_true, not_or, Bool.not_eq_true] at h
      rw [h.2]; decide
  intro s
  induction s with
  | nil => intro b; rfl
  | cons c t ih =>
    intro b
    simp only [makeInvalidUnderscores, List.map_cons] at ih ⊢
    simp only [clean, isLetter, hlow, hup, ih]
    cases t with
    | nil => rfl
    | cons x r =>
      simp only [List.map_cons, hup]
      cases r with
      | nil => rfl
      | cons y r => simp only [List.map_cons, List.head?_cons, Option.map_some, hlow]

/-- The generator's class name for a text is protoc's, if no lone lower-case letter is in the way. -/
theorem sanitize_eq (s : Ident) (h : clean true s = true) : sanitizeClassName s = protocCap s := by
  rw [sanitize_protoc, protoc_toSnake, protocCap, ← protoc_invalid s true]
  refine snake_loop _ (invalid_ident s) false .idle true true true true ?_ (fun _ => .inl rfl) (by simp) ?_
  · rw [clean_invalid]; exact h
  · cases makeInvalidUnderscores s with
    | nil => trivial
    | cons x r => simp [Ready]

end PGV.JavaNames
