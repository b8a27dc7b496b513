import Verif.Spec.Email
import Verif.Lemmas.JavaMsg
import Verif.Lemmas.PyOne

/-!
Mail addresses with display names, in Java and Python.
-/

set_option linter.unusedSimpArgs false

namespace PGV.Java
open PGV PGV.Spec

/-- Inside quotes after reading `x`, when `q` says whether the reader was inside before. -/
def inside (q : Bool) (x : List Nat) : Bool := q ^^ decide (x.count 0x22 % 2 = 1)

theorem inside_nil (q : Bool) : inside q [] = q := by simp [inside]

theorem inside_cons (q : Bool) (c : Nat) (x : List Nat) :
    inside q (c :: x) = inside (if c = 0x22 then !q else q) x := by
  unfold inside
  rw [List.count_cons]
  by_cases h : c = 0x22
  · subst h
    simp only [beq_self_eq_true, if_true]
    rcases Nat.mod_two_eq_zero_or_one (x.count 0x22) with h | h
    · have : (x.count 0x22 + 1) % 2 = 1 := by omega
      simp [h, this]
    · have : (x.count 0x22 + 1) % 2 = 0 := by omega
      simp [h, this]
  · simp [h]

theorem cutLoop_spec (q : Bool) (l : JString) :
    (l = cutLoop q l ∨ ∃ r, l = cutLoop q l ++ 0x3C :: r ∧ inside q (cutLoop q l) = false) ∧
    ∀ x y, cutLoop q l = x ++ 0x3C :: y → inside q x = true := by
  induction l generalizing q with
  | nil => exact ⟨.inl rfl, fun x y h => by simp [cutLoop] at h⟩
  | cons c l ih =>
    have step : ∀ q', q' = (if c = 0x22 then !q else q) → (c = 0x3C → q = true) →
        cutLoop q (c :: l) = c :: cutLoop q' l →
        (c :: l = cutLoop q (c :: l) ∨ ∃ r, c :: l = cutLoop q (c :: l) ++ 0x3C :: r ∧
          inside q (cutLoop q (c :: l)) = false) ∧
        ∀ x y, cutLoop q (c :: l) = x ++ 0x3C :: y → inside q x = true := by
      rintro q' rfl hc h
      rw [h]
      obtain ⟨h1, h2⟩ := ih (if c = 0x22 then !q else q)
      constructor
      · rcases h1 with h1 | ⟨r, h1, h3⟩
        · exact .inl (congrArg _ h1)
        · exact .inr ⟨r, by rw [List.cons_append, ← h1], by rw [inside_cons]; exact h3⟩
      · intro x y hx
        cases x with
        | nil =>
          simp only [List.nil_append, List.cons.injEq] at hx
          rw [inside_nil]; exact hc hx.1
        | cons d x =>
          simp only [List.cons_append, List.cons.injEq] at hx
          obtain ⟨rfl, hx⟩ := hx
          rw [inside_cons]; exact h2 x y hx
    by_cases h3 : c = 0x3C
    · subst h3
      cases q with
      | false =>
        refine ⟨.inr ⟨l, by simp [cutLoop], by simp [cutLoop, inside_nil]⟩, ?_⟩
        intro x y hx
        simp [cutLoop] at hx
      | true => exact step _ rfl (fun _ => rfl) (by simp [cutLoop])
    · by_cases h4 : c = 0x22
      · exact step _ rfl (fun h => absurd h h3) (by simp [cutLoop, h3, h4])
      · exact step _ rfl (fun h => absurd h h3) (by simp [cutLoop, h3, h4])

theorem cutLoop_all (q : Bool) (l : JString) (h : ∀ x y, l = x ++ 0x3C :: y → inside q x = true) :
    cutLoop q l = l := by
  rcases (cutLoop_spec q l).1 with h1 | ⟨r, h1, h2⟩
  · exact h1.symm
  · exact absurd (h _ _ h1) (by simp [h2])

theorem cutLoop_stop (q : Bool) (p r : JString) (h : ∀ x y, p = x ++ 0x3C :: y → inside q x = true)
    (hp : inside q p = false) : cutLoop q (p ++ 0x3C :: r) = p := by
  induction p generalizing q with
  | nil => rw [inside_nil] at hp; simp [cutLoop, hp]
  | cons c p ih =>
    have ih := ih (if c = 0x22 then !q else q)
      (fun x y hx => by rw [← inside_cons]; exact h (c :: x) y (by rw [hx]; rfl))
      (by rw [← inside_cons]; exact hp)
    rw [List.cons_append, cutLoop]
    by_cases h3 : c = 0x3C
    · subst h3
      have := h [] p rfl
      rw [inside_nil] at this
      simp only [this, if_true, Bool.not_true, Bool.false_eq_true, if_false] at ih ⊢
      rw [if_neg (by decide)] at ih
      rw [ih]
    · rw [if_neg h3]
      split
      · rename_i h4; rw [if_pos h4] at ih; rw [ih]
      · rename_i h4; rw [if_neg h4] at ih; rw [ih]

theorem shielded_rev {a : List Nat} :
    Shielded a ↔ ∀ x y, a.reverse = x ++ 0x3C :: y → inside false x = true := by
  constructor
  · intro h x y hx
    have := h y.reverse x.reverse (by
      have := congrArg List.reverse hx
      simpa using this)
    simpa [inside] using this
  · intro h x y hx
    have := h y.reverse x.reverse (by rw [hx]; simp)
    simpa [inside] using this

theorem swapPairs_id : ∀ {a : JString}, NoAdjacentPairs a → swapPairs a = a
  | [], _ => rfl
  | [_], _ => rfl
  | a :: b :: rest, h => by
    have h1 := h [] a b rest rfl
    have h2 : NoAdjacentPairs (b :: rest) := fun x lo hi y hx => h (a :: x) lo hi y (by rw [hx]; rfl)
    rw [swapPairs, swapPairs_id h2, if_neg]
    intro hc
    simp only [isLow, isHigh, Bool.and_eq_true, decide_eq_true_eq] at hc
    exact h1 ⟨hc.1.1, hc.1.2, hc.2.1, hc.2.2⟩

theorem noPairs_infix {s a x y : List Nat} (h : NoAdjacentPairs s) (hs : s = x ++ a ++ y) :
    NoAdjacentPairs a := by
  intro u lo hi v hu
  exact h (x ++ u) lo hi (v ++ y) (by rw [hs, hu]; simp)

theorem emailAddress_plain {s : JString} (h : s.getLast? ≠ some 0x3E) : emailAddress s = s := by
  unfold emailAddress
  rw [if_neg]
  simp [h]

theorem emailAddress_bracketed {s a : JString} (hn : NoAdjacentPairs s) (h : Bracketed s a) :
    emailAddress s = a := by
  obtain ⟨⟨name, rfl⟩, hs, hc⟩ := h
  have e : name ++ 0x3C :: (a ++ [0x3E]) = (name ++ 0x3C :: a) ++ [0x3E] := by simp
  unfold emailAddress
  rw [e, if_pos (by rw [List.getLast?_concat]; simp), List.dropLast_concat]
  have : (name ++ 0x3C :: a).reverse = a.reverse ++ 0x3C :: name.reverse := by simp
  rw [this, cutLoop_stop false _ _ (shielded_rev.1 hs) (by simp [inside, hc]), List.reverse_reverse]
  exact swapPairs_id (noPairs_infix hn (x := name ++ [0x3C]) (y := [0x3E]) (by simp))

theorem emailAddress_stray {a : JString} (hn : NoAdjacentPairs (a ++ [0x3E])) (h : Shielded a) :
    emailAddress (a ++ [0x3E]) = a := by
  unfold emailAddress
  rw [if_pos (by simp), List.dropLast_concat, cutLoop_all _ _ (shielded_rev.1 h), List.reverse_reverse]
  exact swapPairs_id (noPairs_infix hn (x := []) (y := [0x3E]) (by simp))

/-- Which of the three it is. -/
theorem email_cases (s : JString) :
    s.getLast? ≠ some 0x3E ∨ (∃ a, Bracketed s a) ∨ ∃ a, s = a ++ [0x3E] ∧ Shielded a := by
  by_cases h : s.getLast? = some 0x3E
  · right
    obtain ⟨t, rfl⟩ := List.getLast?_eq_some_iff.1 h
    obtain ⟨h1, h2⟩ := cutLoop_spec false t.reverse
    have hs : Shielded (cutLoop false t.reverse).reverse := by
      rw [shielded_rev, List.reverse_reverse]; exact h2
    rcases h1 with h1 | ⟨r, h1, h3⟩
    · right
      refine ⟨t, rfl, ?_⟩
      rw [← h1, List.reverse_reverse] at hs
      exact hs
    · left
      refine ⟨_, ⟨r.reverse, ?_⟩, hs, ?_⟩
      · have := congrArg List.reverse h1
        simp only [List.reverse_reverse, List.reverse_append, List.reverse_cons] at this
        exact (congrArg (· ++ [0x3E]) this).trans (by simp)
      · simpa [inside] using h3
  · exact .inl h

end PGV.Java

namespace PGV.Py
open PGV PGV.Spec PGV.Spec.Python

theorem split_ne (sep : Nat) (s : PStr) : ∃ p ps, split sep s = p :: ps := by
  induction s with
  | nil => exact ⟨[], [], rfl⟩
  | cons c s ih =>
    obtain ⟨p, ps, h⟩ := ih
    unfold split
    split
    · exact ⟨_, _, rfl⟩
    · rw [h]; exact ⟨_, _, rfl⟩

theorem split_append (sep : Nat) (u v p : PStr) (ps : List PStr) (hu : sep ∉ u)
    (hv : split sep v = p :: ps) : split sep (u ++ v) = (u ++ p) :: ps := by
  induction u with
  | nil => exact hv
  | cons c u ih =>
    simp only [List.mem_cons, not_or] at hu
    rw [List.cons_append, split, if_neg (fun h => hu.1 h.symm), ih hu.2]
    rfl

theorem split_none (sep : Nat) (u : PStr) (hu : sep ∉ u) : split sep u = [u] := by
  have := split_append sep u [] [] [] hu rfl
  simpa using this

theorem split_at_sep (sep : Nat) (u v : PStr) (hu : sep ∉ u) :
    split sep (u ++ sep :: v) = u :: split sep v := by
  have := split_append sep u (sep :: v) [] (split sep v) hu (by simp [split])
  simpa using this

/-- The first part of the text up to one of the separators. -/
theorem stop_at (p : Nat → Bool) (t : List Nat) :
    ∃ a rest, t = a ++ rest ∧ (∀ c ∈ a, p c = false) ∧ (rest = [] ∨ ∃ c r, rest = c :: r ∧ p c = true) := by
  induction t with
  | nil => exact ⟨[], [], rfl, by simp, .inl rfl⟩
  | cons c t ih =>
    cases h : p c with
    | true => exact ⟨[], c :: t, rfl, by simp, .inr ⟨c, t, rfl, h⟩⟩
    | false =>
      obtain ⟨a, rest, rfl, h1, h2⟩ := ih
      exact ⟨c :: a, rest, rfl, by simpa [h] using h1, h2⟩

theorem angleAddr_of {x a : PStr} (h : PyAddress x a) : angleAddr x = some a := by
  unfold PyAddress at h
  unfold angleAddr
  split at h
  · rename_i hx
    rw [if_pos (by simp [hx.1, hx.2])]
    obtain ⟨name, rest, rfl, h1, h2, h3, h4⟩ := h
    rw [split_at_sep _ _ _ h1]
    rcases h4 with rfl | ⟨r, rfl | rfl⟩
    · rw [List.append_nil, split_none _ _ h2]
      simp [index, split_none _ _ h3]
    · rw [split_at_sep _ _ _ h2]
      simp [index, split_none _ _ h3]
    · obtain ⟨p, ps, hp⟩ := split_ne 0x3C r
      have : split 0x3C (0x3E :: r) = (0x3E :: p) :: ps := by
        simp [split, hp]
      rw [split_append _ _ _ _ _ h2 this]
      simp [index, split_at_sep _ _ _ h3]
  · rename_i hx
    rw [if_neg (by simpa using hx), h]

theorem pyAddress_ex (x : PStr) : ∃ a, PyAddress x a := by
  unfold PyAddress
  split
  · rename_i hx
    obtain ⟨name, t, rfl, hn⟩ := List.eq_append_cons_of_mem hx.1
    obtain ⟨a, rest, rfl, ha, hr⟩ := stop_at (fun c => c == 0x3C || c == 0x3E) t
    refine ⟨a, name, rest, rfl, hn, ?_, ?_, ?_⟩
    · intro h; simpa using ha _ h
    · intro h; simpa using ha _ h
    · rcases hr with h | ⟨c, r, rfl, hc⟩
      · exact .inl h
      · simp only [Bool.or_eq_true, beq_iff_eq] at hc
        rcases hc with rfl | rfl
        · exact .inr ⟨r, .inl rfl⟩
        · exact .inr ⟨r, .inr rfl⟩
  · exact ⟨x, rfl⟩

theorem angleAddr_iff (x a : PStr) : angleAddr x = some a ↔ PyAddress x a := by
  constructor
  · intro h
    obtain ⟨b, hb⟩ := pyAddress_ex x
    rw [angleAddr_of hb] at h
    cases h
    exact hb
  · exact angleAddr_of

theorem atParts_of {a l h : PStr} (ha : AtParts a l h) : ∃ ps, split 0x40 a = l :: h :: ps := by
  obtain ⟨rest, rfl, h1, h2, h3⟩ := ha
  rw [split_at_sep _ _ _ h1]
  rcases h3 with rfl | ⟨r, rfl⟩
  · exact ⟨[], by rw [List.append_nil, split_none _ _ h2]⟩
  · exact ⟨_, by rw [split_at_sep _ _ _ h2]⟩

theorem atParts_ex {a : PStr} (h : 0x40 ∈ a) : ∃ l h, AtParts a l h := by
  obtain ⟨l, t, rfl, hl⟩ := List.eq_append_cons_of_mem h
  obtain ⟨u, rest, rfl, hu, hr⟩ := stop_at (fun c => c == 0x40) t
  refine ⟨l, u, rest, rfl, hl, ?_, ?_⟩
  · intro h; simpa using hu _ h
  · rcases hr with h | ⟨c, r, rfl, hc⟩
    · exact .inl h
    · exact .inr ⟨r, by simpa using hc⟩

theorem hostName_pstr (h : PStr) : validateHostName h = true ↔ ∃ host, Hostname host ∧ h = pstr host := by
  constructor
  · intro hh
    have hs := hostName_small hh
    have e : h = (h.map UInt8.ofNat).map UInt8.toNat := by
      rw [List.map_map]
      have : ∀ c ∈ h, (UInt8.toNat ∘ UInt8.ofNat) c = c := by
        intro c hc
        have := hs c hc
        simp only [Function.comp, UInt8.toNat_ofNat']
        omega
      rw [List.map_congr_left this]; simp
    have h2 : Hostname (h.map UInt8.ofNat) := by
      rw [← hostName_ascii, ← e]; exact hh
    refine ⟨_, h2, ?_⟩
    rw [pstr, runes_ascii _ (Go.hostname_bytes h2)]
    exact e
  · rintro ⟨host, hh, rfl⟩
    exact (hostName_iff host).2 hh

theorem validateEmail_iff (P : PEnv) (x : PStr) :
    validateEmail P x = some true ↔ ∃ a, PyAddress x a ∧ P.validateEmail a = true ∧ a.length ≤ 254 ∧
      ∃ l host, AtParts a l (pstr host) ∧ l.length ≤ 64 ∧ Hostname host := by
  obtain ⟨a, ha⟩ := pyAddress_ex x
  have hx := angleAddr_of ha
  have uniq : ∀ b, PyAddress x b → b = a := fun b hb => by
    have := angleAddr_of hb
    rw [hx] at this; exact (Option.some.inj this).symm
  have rhs : (∃ a, PyAddress x a ∧ P.validateEmail a = true ∧ a.length ≤ 254 ∧
      ∃ l host, AtParts a l (pstr host) ∧ l.length ≤ 64 ∧ Hostname host) ↔
      P.validateEmail a = true ∧ a.length ≤ 254 ∧
      ∃ l host, AtParts a l (pstr host) ∧ l.length ≤ 64 ∧ Hostname host := by
    constructor
    · rintro ⟨b, hb, h⟩; rw [uniq b hb] at h; exact h
    · intro h; exact ⟨a, ha, h⟩
  rw [rhs]
  unfold validateEmail
  simp only [hx]
  cases hv : P.validateEmail a with
  | false => simp
  | true =>
    simp only [Bool.not_true, Bool.false_eq_true, if_false, true_and]
    split
    · rename_i h254
      constructor
      · simp
      · intro h; omega
    · rename_i h254
      by_cases hat : 0x40 ∈ a
      · obtain ⟨l, h, hp⟩ := atParts_ex hat
        obtain ⟨ps, hs⟩ := atParts_of hp
        have uniq2 : ∀ l' h', AtParts a l' h' → l' = l ∧ h' = h := fun l' h' hp' => by
          obtain ⟨ps', hs'⟩ := atParts_of hp'
          rw [hs] at hs'
          simp only [List.cons.injEq] at hs'
          exact ⟨hs'.1.symm, hs'.2.1.symm⟩
        rw [hs]
        simp only
        constructor
        · intro hh
          split at hh
          · simp at hh
          · rename_i h64
            obtain ⟨host, h1, rfl⟩ := (hostName_pstr h).1 (by simpa using hh)
            exact ⟨by omega, l, host, hp, by omega, h1⟩
        · rintro ⟨_, l', host, hp', h64, hh⟩
          obtain ⟨rfl, rfl⟩ := uniq2 _ _ hp'
          rw [if_neg (by omega), (hostName_pstr _).2 ⟨host, hh, rfl⟩]
      · rw [split_none _ _ hat]
        simp only
        constructor
        · intro hh; split at hh <;> simp at hh
        · rintro ⟨_, l, host, ⟨rest, rfl, _⟩, _⟩
          simp at hat

theorem py_email {P : PEnv} {S : Schema} {typ : String} {f : FieldDesc} (h : OnlyField S typ f)
    (hi : NotIgnored S typ) (hT : f.typ = .one .string)
    (hr : f.rules = .mk none (.string { wellKnown := some (.email true) })) (s : Bytes) :
    PyAccepts P S typ f (.sc (.str s)) ↔ validateEmail P (pstr s) = some true := by
  rw [pyAccepts_scalar h hi hT rfl]
  unfold scalarField
  simp only [hr]
  rw [if_pos (by simp [typeText, messageText])]
  rw [run_onStr]
  simp [oneofText, strCode, optB, inCode, strLen, genPos, optN, strAffix, genText,
    optS, strFormat, StringRules.getEmail, StringRules.getHostname, StringRules.getAddress,
    StringRules.getIp, StringRules.getIpv4, StringRules.getIpv6, StringRules.getUri,
    StringRules.getUriRef, StringRules.getUuid, strPattern, StringRules.getRegex, knownRegex]
  cases hv : validateEmail P (pstr s) with
  | none => simp
  | some b => cases b <;> simp

end PGV.Py
