import Verif.Lemmas.Email
import Verif.Props.Java
import Verif.Props.Python

/-!
C83: what the e-mail rule takes for the address in Java and Python (Go: C17). Also the ASCII part of C52
for Java.
-/

set_option linter.unusedSimpArgs false

namespace PGV.Props
open PGV PGV.Spec
open PGV.Go (Env)
open PGV.Java (JEnv jstr javaAccepts_scalar)
open PGV.Py (PEnv pstr)
open PGV.Spec.Python (PyAccepts)

/-- A string field with the e-mail rule. -/
def mail : FieldDesc := Fixtures.fieldOf .string (.string { wellKnown := some (.email true) })

theorem java_email {J : JEnv} {S : Schema} {typ : String} {f : FieldDesc} (h : OnlyField S typ f)
    (hi : NotIgnored S typ) {m : Option MessageRules} (hT : f.typ = .one .string)
    (hr : f.rules = .mk m (.string { wellKnown := some (.email true) })) (s : Bytes) :
    JavaAccepts J S typ f (.sc (.str s)) ↔ J.email (Java.emailAddress (jstr s)) = true := by
  have hty : f.rules.type = .string { wellKnown := some (.email true) } := by rw [hr]; rfl
  rw [javaAccepts_scalar h hi hT rfl _ (by rw [hty]; simp), hty]
  simp [Java.scalarTpl, Java.stringTpl, Java.withOpt, Java.when, Java.strLen, Java.strAffix,
    Java.strWellKnown, StringRules.getEmail, StringRules.getAddress, StringRules.getHostname,
    StringRules.getIp, StringRules.getIpv4, StringRules.getIpv6, StringRules.getUri,
    StringRules.getUriRef, StringRules.getUuid, optB, Java.emailValid, Java.check_ok, Java.seq_ok]

/-- **C83, partial** Java: a value that does not end in `>` must be an address itself. A display name
followed by an address in angle brackets is accepted when the address is. Missing: a value that ends in
`>` but has no `<` for it is accepted when the part before the `>` is an address
(`C83_java_stray_bracket`), where the claim is that it is rejected. The hypothesis excludes values in
which two characters outside the Basic Multilingual Plane stand side by side (`C83_java_scrambled`). -/
theorem C83_java_partial (J : JEnv) (S : Schema) (typ : String) (f : FieldDesc) (h : OnlyField S typ f)
    (hi : NotIgnored S typ) (m : Option MessageRules) (hT : f.typ = .one .string)
    (hr : f.rules = .mk m (.string { wellKnown := some (.email true) })) (s : Bytes)
    (hn : NoAdjacentPairs (jstr s)) :
    JavaAccepts J S typ f (.sc (.str s)) ↔
      ((jstr s).getLast? ≠ some 0x3E ∧ J.email (jstr s) = true) ∨
      (∃ a, Bracketed (jstr s) a ∧ J.email a = true) ∨
      (∃ a, jstr s = a ++ [0x3E] ∧ Shielded a ∧ J.email a = true) := by
  rw [java_email h hi hT hr]
  constructor
  · intro hv
    rcases Java.email_cases (jstr s) with h1 | ⟨a, h1⟩ | ⟨a, h1, h2⟩
    · rw [Java.emailAddress_plain h1] at hv; exact .inl ⟨h1, hv⟩
    · rw [Java.emailAddress_bracketed hn h1] at hv; exact .inr (.inl ⟨a, h1, hv⟩)
    · rw [h1] at hn hv
      rw [Java.emailAddress_stray hn h2] at hv
      exact .inr (.inr ⟨a, h1, h2, hv⟩)
  · rintro (⟨h1, hv⟩ | ⟨a, h1, hv⟩ | ⟨a, h1, h2, hv⟩)
    · rw [Java.emailAddress_plain h1]; exact hv
    · rw [Java.emailAddress_bracketed hn h1]; exact hv
    · rw [h1] at hn ⊢
      rw [Java.emailAddress_stray hn h2]; exact hv

/-- Java libraries that take one address for valid. -/
def mailJenv (a : Bytes) : JEnv := { jenv with email := fun v => decide (v = a.map UInt8.toNat) }

theorem noPairs_ascii {s : Bytes} (h : ∀ b ∈ s, b < 0x80) : NoAdjacentPairs (jstr s) := by
  rw [Java.jstr_ascii h]
  rintro x lo hi y he ⟨h1, -⟩
  have : lo ∈ s.map UInt8.toNat := by rw [he]; simp
  obtain ⟨b, hb, rfl⟩ := List.mem_map.1 this
  have := h b hb
  rw [UInt8.lt_iff_toNat_lt] at this
  have : (0x80 : UInt8).toNat = 128 := rfl
  omega

example : OnlyField (Fixtures.only mail) "M" mail ∧ NotIgnored (Fixtures.only mail) "M" ∧
    NoAdjacentPairs (jstr (asc "Ann \"<\" <\"a<b\"@ex.org>")) ∧
    Java.emailAddress (jstr (asc "Ann \"<\" <\"a<b\"@ex.org>")) = jstr (asc "\"a<b\"@ex.org") := by
  refine ⟨Fixtures.only_field _, only_notIgnored _, noPairs_ascii (by decide), by decide⟩

/-- **C83, negation** Java accepts every ASCII address also with a stray `>` at its end: `ann@ex.org>`. -/
theorem C83_java_stray_bracket (J : JEnv) (S : Schema) (typ : String) (f : FieldDesc) (h : OnlyField S typ f)
    (hi : NotIgnored S typ) (m : Option MessageRules) (hT : f.typ = .one .string)
    (hr : f.rules = .mk m (.string { wellKnown := some (.email true) })) (s : Bytes)
    (hs : ∀ b ∈ s, b < 0x80) (h1 : 0x3C ∉ s) (h2 : 0x3E ∉ s)
    (ha : JavaAccepts J S typ f (.sc (.str s))) : JavaAccepts J S typ f (.sc (.str (s ++ [0x3E]))) := by
  have hs' : ∀ b ∈ s ++ [0x3E], b < 0x80 := by
    intro b hb
    rcases List.mem_append.1 hb with hb | hb
    · exact hs b hb
    · rw [List.mem_singleton] at hb; subst hb; decide
  rw [C83_java_partial J S typ f h hi m hT hr _ (noPairs_ascii hs')]
  rw [java_email h hi hT hr, Java.emailAddress_plain] at ha
  · refine .inr (.inr ⟨jstr s, ?_, ?_, ha⟩)
    · rw [Java.jstr_ascii hs', Java.jstr_ascii hs]; simp
    · intro x y hx
      have : 0x3C ∈ jstr s := by rw [hx]; simp
      rw [Java.jstr_ascii hs] at this
      obtain ⟨b, hb, h3⟩ := List.mem_map.1 this
      have : b = 0x3C := UInt8.toNat_inj.1 h3
      exact absurd (this ▸ hb) h1
  · intro hl
    have := List.mem_of_getLast? hl
    rw [Java.jstr_ascii hs] at this
    obtain ⟨b, hb, h3⟩ := List.mem_map.1 this
    have : b = 0x3E := UInt8.toNat_inj.1 h3
    exact absurd (this ▸ hb) h2

example : JavaAccepts (mailJenv (asc "ann@ex.org")) (Fixtures.only mail) "M" mail (.sc (.str (asc "ann@ex.org"))) ∧
    ¬ JavaAccepts (mailJenv (asc "ann@ex.org")) (Fixtures.only mail) "M" mail (.sc (.str (asc "ann@ex.org>>"))) := by
  constructor
  · rw [java_email (Fixtures.only_field mail) (only_notIgnored mail) rfl rfl]; decide +kernel
  · rw [java_email (Fixtures.only_field mail) (only_notIgnored mail) rfl rfl]; decide +kernel

/-- **C83, negation** In an address in brackets, Java swaps the halves of two characters outside the Basic
Multilingual Plane that stand side by side: the library is not asked about the address in the value. -/
theorem C83_java_scrambled :
    let pair : List Nat := [0xD83D, 0xDE00]
    Bracketed (0x3C :: (pair ++ pair ++ [0x3E])) (pair ++ pair) ∧
    Java.emailAddress (0x3C :: (pair ++ pair ++ [0x3E])) = [0xD83D, 0xD83D, 0xDE00, 0xDE00] := by
  refine ⟨⟨⟨[], rfl⟩, ?_, by decide⟩, by decide⟩
  intro x y h
  have : (0x3C : Nat) ∈ [0xD83D, 0xDE00, 0xD83D, 0xDE00] := by
    have h : [0xD83D, 0xDE00, 0xD83D, 0xDE00] = x ++ 0x3C :: y := h
    rw [h]; simp
  simp at this

/-- **C83, partial** Python: if there are a `<` and a `>` in the value, the address is what follows the
first `<`, up to the next bracket or the end; otherwise it is the whole value. It must be accepted by the
library, have at most 254 characters, at most 64 before its first `@`, and a hostname between that and
the next `@`. Missing: nothing else in the value is looked at (`C83_python_surroundings`), where the claim is
that the address ends the value. -/
theorem C83_python_partial (P : PEnv) (S : Schema) (typ : String) (f : FieldDesc) (h : OnlyField S typ f)
    (hi : NotIgnored S typ) (hT : f.typ = .one .string)
    (hr : f.rules = .mk none (.string { wellKnown := some (.email true) })) (s : Bytes) :
    PyAccepts P S typ f (.sc (.str s)) ↔
      ∃ a, PyAddress (pstr s) a ∧ P.validateEmail a = true ∧ a.length ≤ 254 ∧
        ∃ l host, AtParts a l (pstr host) ∧ l.length ≤ 64 ∧ Hostname host := by
  rw [Py.py_email h hi hT hr, Py.validateEmail_iff]

/-- Python libraries that take one address for valid. -/
def mailPenv (a : Bytes) : PEnv := { penv with validateEmail := fun v => decide (v = a.map UInt8.toNat) }

example : OnlyField (Fixtures.only mail) "M" mail ∧
    PyAccepts (mailPenv (asc "ann@ex.org")) (Fixtures.only mail) "M" mail (.sc (.str (asc "ann@ex.org"))) ∧
    ¬ PyAccepts (mailPenv (asc "ann@ex..org")) (Fixtures.only mail) "M" mail (.sc (.str (asc "ann@ex..org"))) := by
  refine ⟨Fixtures.only_field _, ?_, ?_⟩
  · rw [Py.py_email (Fixtures.only_field mail) (only_notIgnored mail) rfl rfl]; decide +kernel
  · rw [Py.py_email (Fixtures.only_field mail) (only_notIgnored mail) rfl rfl]; decide +kernel

/-- **C83, negation** Python accepts every ASCII address also in angle brackets with any text before and
after it, for instance `x> <ann@ex.org> and more`. -/
theorem C83_python_surroundings (P : PEnv) (S : Schema) (typ : String) (f : FieldDesc) (h : OnlyField S typ f)
    (hi : NotIgnored S typ) (hT : f.typ = .one .string)
    (hr : f.rules = .mk none (.string { wellKnown := some (.email true) })) (before s after : Bytes)
    (hb : ∀ b ∈ before, b < 0x80) (hs : ∀ b ∈ s, b < 0x80) (hf : ∀ b ∈ after, b < 0x80)
    (h0 : 0x3C ∉ before) (h1 : 0x3C ∉ s) (h2 : 0x3E ∉ s)
    (ha : PyAccepts P S typ f (.sc (.str s))) :
    PyAccepts P S typ f (.sc (.str (before ++ 0x3C :: (s ++ 0x3E :: after)))) := by
  have absent : ∀ (c : UInt8) (t : Bytes), c ∉ t → c.toNat ∉ t.map UInt8.toNat := by
    intro c t hc hm
    obtain ⟨b, hb, h3⟩ := List.mem_map.1 hm
    exact hc ((UInt8.toNat_inj.1 h3) ▸ hb)
  have hall : ∀ b ∈ before ++ 0x3C :: (s ++ 0x3E :: after), b < 0x80 := by
    intro b hm
    simp only [List.mem_append, List.mem_cons] at hm
    rcases hm with hm | rfl | hm | rfl | hm
    · exact hb b hm
    · decide
    · exact hs b hm
    · decide
    · exact hf b hm
  rw [C83_python_partial P S typ f h hi hT hr] at ha ⊢
  obtain ⟨a, hA, rest⟩ := ha
  have e1 : pstr s = s.map UInt8.toNat := runes_ascii s hs
  have hsa : a = s.map UInt8.toNat := by
    unfold PyAddress at hA
    rw [e1, if_neg (fun hc => absent 0x3C s h1 hc.1)] at hA
    exact hA
  refine ⟨a, ?_, rest⟩
  have e2 : pstr (before ++ 0x3C :: (s ++ 0x3E :: after)) =
      before.map UInt8.toNat ++ 0x3C :: (a ++ 0x3E :: after.map UInt8.toNat) := by
    rw [pstr, runes_ascii _ hall, hsa]; simp
  unfold PyAddress
  rw [e2, if_pos (by simp)]
  refine ⟨_, _, rfl, absent 0x3C before h0, ?_, ?_, .inr ⟨_, .inr rfl⟩⟩
  · rw [hsa]; exact absent 0x3C s h1
  · rw [hsa]; exact absent 0x3E s h2

example : PyAccepts (mailPenv (asc "ann@ex.org")) (Fixtures.only mail) "M" mail
    (.sc (.str (asc "x> <ann@ex.org> and more"))) := by
  refine C83_python_surroundings _ _ _ mail (Fixtures.only_field mail) (only_notIgnored mail) rfl rfl
    (asc "x> ") (asc "ann@ex.org") (asc " and more") (by decide) (by decide) (by decide) (by decide) (by decide)
    (by decide) ?_
  rw [Py.py_email (Fixtures.only_field mail) (only_notIgnored mail) rfl rfl]; decide +kernel

/-! ### C52, Java -/

/-- C52: Java takes exactly the ASCII strings that its domain library takes as hostnames. -/
theorem C52_java_ascii (J : JEnv) (S : Schema) (typ : String) (f : FieldDesc) (h : OnlyField S typ f)
    (hi : NotIgnored S typ) (m : Option MessageRules) (hT : f.typ = .one .string)
    (hr : f.rules = .mk m (.string { wellKnown := some (.hostname true) })) (s : Bytes) :
    JavaAccepts J S typ f (.sc (.str s)) ↔
      (∀ b ∈ s, b < 0x80) ∧ J.domain (s.map UInt8.toNat) = true := by
  have hty : f.rules.type = .string { wellKnown := some (.hostname true) } := by rw [hr]; rfl
  have key : JavaAccepts J S typ f (.sc (.str s)) ↔ Java.hostName J (jstr s) = true := by
    rw [javaAccepts_scalar h hi hT rfl _ (by rw [hty]; simp), hty]
    simp [Java.scalarTpl, Java.stringTpl, Java.withOpt, Java.when, Java.strLen, Java.strAffix,
      Java.strWellKnown, StringRules.getEmail, StringRules.getAddress, StringRules.getHostname,
      StringRules.getIp, StringRules.getIpv4, StringRules.getIpv6, StringRules.getUri,
      StringRules.getUriRef, StringRules.getUuid, optB, Java.check_ok, Java.seq_ok, Java.hostName]
  rw [key, Java.hostName, Bool.and_eq_true]
  have hasc : Java.isAscii (jstr s) = true ↔ ∀ b ∈ s, b < 0x80 := by
    constructor
    · intro ha
      refine ascii_of_runes fun r hr => ?_
      simp only [Java.isAscii, List.all_eq_true, Bool.not_eq_true', decide_eq_false_iff_not, Nat.not_lt] at ha
      by_cases h1 : r < 0x10000
      · have := ha r (List.mem_flatMap.2 ⟨r, hr, by simp [Java.utf16Rune, h1]⟩)
        omega
      · have := ha (0xD800 + (r - 0x10000) / 0x400) (List.mem_flatMap.2 ⟨r, hr, by simp [Java.utf16Rune, h1]⟩)
        omega
    · intro hb
      rw [Java.jstr_ascii hb]
      simp only [Java.isAscii, List.all_eq_true, List.mem_map, Bool.not_eq_true', decide_eq_false_iff_not,
        Nat.not_lt]
      rintro c ⟨b, hm, rfl⟩
      have := hb b hm
      rw [UInt8.lt_iff_toNat_lt] at this
      have : (0x80 : UInt8).toNat = 128 := rfl
      omega
  rw [hasc]
  constructor
  · rintro ⟨h1, h2⟩
    rw [Java.jstr_ascii h1] at h2; exact ⟨h1, h2⟩
  · rintro ⟨h1, h2⟩
    rw [Java.jstr_ascii h1]; exact ⟨h1, h2⟩

example : let f := Fixtures.fieldOf .string (.string { wellKnown := some (.hostname true) })
    OnlyField (Fixtures.only f) "M" f ∧ NotIgnored (Fixtures.only f) "M" :=
  ⟨Fixtures.only_field _, only_notIgnored _⟩

end PGV.Props
