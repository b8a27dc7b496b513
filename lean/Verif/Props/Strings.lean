import Verif.Lemmas.Host
import Verif.Props.Numbers

/-!
C13-C19: lengths, affixes, hostnames, UUIDs, e-mail addresses, IP addresses, bytes.
-/

set_option linter.unusedSimpArgs false

namespace PGV.Props
open PGV PGV.Go PGV.Spec PGV.Checker

theorem accepts_string {E : Env} {S : Schema} {typ : String} {f : FieldDesc} (h : OnlyField S typ f)
    {m : Option MessageRules} {r : StringRules} (hT : f.typ = .one .string)
    (hr : f.rules = .mk m (.string r)) (s : Bytes) :
    Accepts E S typ f (.sc (.str s)) ↔ StringOk E r s := by
  have hty : f.rules.type = .string r := by rw [hr]; rfl
  rw [accepts_scalar h hT rfl _ (by rw [hty]; trivial), hty]
  rfl

theorem accepts_bytes {E : Env} {S : Schema} {typ : String} {f : FieldDesc} (h : OnlyField S typ f)
    {m : Option MessageRules} {r : BytesRules} (hT : f.typ = .one .bytes)
    (hr : f.rules = .mk m (.bytes r)) (s : Bytes) :
    Accepts E S typ f (.sc (.bytes s)) ↔ BytesOk E r s := by
  have hty : f.rules.type = .bytes r := by rw [hr]; rfl
  rw [accepts_scalar h hT rfl _ (by rw [hty]; trivial), hty]
  rfl

theorem checkString_lens {r : StringRules} (h : (checkString (fun _ => true) r).isSome = true) :
    checkLen r.len r.minLen r.maxLen = true ∧ checkLen r.lenBytes r.minBytes r.maxBytes = true := by
  unfold checkString at h
  split at h
  · rename_i hh
    simp only [Bool.and_eq_true] at hh
    exact ⟨hh.1.1.1.1, hh.1.1.1.2⟩
  · simp at h

theorem lenOk_iff {len min max : Option Nat} (h : checkLen len min max = true) (n : Nat) :
    LenOk len min max n ↔ WithinLimits len min max n := by
  unfold checkLen at h
  cases len with
  | none => simp [LenOk, WithinLimits]
  | some k =>
    simp at h
    simp [LenOk, WithinLimits, h.1, h.2, eq_comm]

/-! ### C13 -/

/-- **C13** For a string field whose rules are length limits (any that the generator lets through),
a string, given by its code points, is accepted exactly when the number of code points respects
`len`/`min_len`/`max_len` and the number of UTF-8 bytes respects
`len_bytes`/`min_bytes`/`max_bytes`. -/
theorem C13_lengths (E : Env) (S : Schema) (typ : String) (f : FieldDesc) (h : OnlyField S typ f)
    (m : Option MessageRules) (len min max lenB minB maxB : Option Nat) (hT : f.typ = .one .string)
    (hr : f.rules = .mk m (.string
      { len := len, minLen := min, maxLen := max, lenBytes := lenB, minBytes := minB,
        maxBytes := maxB }))
    (hc : Checked f) (cs : List Nat) (hcs : ∀ c ∈ cs, CodePoint c) :
    Accepts E S typ f (.sc (.str (utf8 cs))) ↔
      WithinLimits len min max cs.length ∧ WithinLimits lenB minB maxB (utf8 cs).length := by
  have hck := checkString_lens (checked_string hc (r :=
    { len := len, minLen := min, maxLen := max, lenBytes := lenB, minBytes := minB,
      maxBytes := maxB }) (by rw [hr]; rfl))
  rw [accepts_string h hT hr]
  have hrc : runeCount (utf8 cs) = cs.length := by
    unfold runeCount utf8
    rw [runes_encode cs hcs]
  simp [StringOk, ListOk, WellKnownOk, hrc, lenOk_iff hck.1, lenOk_iff hck.2]

/-- C13 distinguishes characters from bytes: `é` is one character and two bytes. -/
example : let r : StringRules := { maxLen := some 1, minBytes := some 2 }
    let f := Fixtures.fieldOf .string (.string r)
    Checked f ∧ CodePoint 0xE9 ∧ utf8 [0xE9] = [0xC3, 0xA9] ∧
    WithinLimits none none (some 1) [0xE9].length ∧
    WithinLimits none (some 2) none (utf8 [0xE9]).length := by
  refine ⟨by unfold Checked; decide, by unfold CodePoint; decide, by decide, ?_, ?_⟩ <;>
    simp [WithinLimits, utf8, encodeRune]

/-! ### C14 -/

/-- **C14** A string field with prefix, suffix, contains and not_contains rules accepts exactly the
strings that can be split accordingly. -/
theorem C14_string (E : Env) (S : Schema) (typ : String) (f : FieldDesc) (h : OnlyField S typ f)
    (m : Option MessageRules) (pre suf con notCon : Option Bytes) (hT : f.typ = .one .string)
    (hr : f.rules = .mk m (.string
      { pfx := pre, sfx := suf, contains := con, notContains := notCon })) (s : Bytes) :
    Accepts E S typ f (.sc (.str s)) ↔
      (∀ p, pre = some p → ∃ rest, s = p ++ rest) ∧
      (∀ p, suf = some p → ∃ rest, s = rest ++ p) ∧
      (∀ p, con = some p → ∃ a b, s = a ++ p ++ b) ∧
      (∀ p, notCon = some p → ¬ ∃ a b, s = a ++ p ++ b) := by
  rw [accepts_string h hT hr]
  simp only [StringOk, ListOk, LenOk, WellKnownOk, List.IsPrefix, List.IsSuffix, List.IsInfix,
    eq_comm (b := s)]
  simp

/-- **C14** The same for bytes fields. -/
theorem C14_bytes (E : Env) (S : Schema) (typ : String) (f : FieldDesc) (h : OnlyField S typ f)
    (m : Option MessageRules) (pre suf con : Option Bytes) (hT : f.typ = .one .bytes)
    (hr : f.rules = .mk m (.bytes { pfx := pre, sfx := suf, contains := con })) (s : Bytes) :
    Accepts E S typ f (.sc (.bytes s)) ↔
      (∀ p, pre = some p → ∃ rest, s = p ++ rest) ∧
      (∀ p, suf = some p → ∃ rest, s = rest ++ p) ∧
      (∀ p, con = some p → ∃ a b, s = a ++ p ++ b) := by
  rw [accepts_bytes h hT hr]
  simp only [BytesOk, ListOk, LenOk, List.IsPrefix, List.IsSuffix, List.IsInfix, eq_comm (b := s)]
  simp

/-- **C14** Whatever other rules are given, an accepted string satisfies the affix rules (the empty
string excepted under `ignore_empty`). -/
theorem C14_necessary (E : Env) (S : Schema) (typ : String) (f : FieldDesc) (h : OnlyField S typ f)
    (m : Option MessageRules) (r : StringRules) (hT : f.typ = .one .string)
    (hr : f.rules = .mk m (.string r)) (s : Bytes) (hs : s ≠ [] ∨ r.ignoreEmpty ≠ some true)
    (ha : Accepts E S typ f (.sc (.str s))) :
    (∀ p, r.pfx = some p → ∃ rest, s = p ++ rest) ∧
    (∀ p, r.sfx = some p → ∃ rest, s = rest ++ p) ∧
    (∀ p, r.contains = some p → ∃ a b, s = a ++ p ++ b) ∧
    (∀ p, r.notContains = some p → ¬ ∃ a b, s = a ++ p ++ b) := by
  rw [accepts_string h hT hr] at ha
  rcases ha with ⟨h1, h2⟩ | ⟨-, -, -, -, h5, h6, h7, h8, -⟩
  · rcases hs with hs | hs
    · exact absurd h2 hs
    · exact absurd h1 hs
  · simp only [List.IsPrefix, List.IsSuffix, List.IsInfix, eq_comm (b := s)] at h5 h6 h7 h8
    exact ⟨h5, h6, h7, h8⟩

/-- C14's hypotheses are met. -/
example : Checked (Fixtures.fieldOf .string (.string
      { pfx := some (asc "ab"), sfx := some (asc "bc"), notContains := some (asc "x") })) ∧ ∃ rest, asc "abc" = asc "ab" ++ rest :=
  ⟨by unfold Checked; decide, asc "c", by decide⟩

/-! ### C15 -/

/-- The runes whose Unicode lower-case form is ASCII although they are not: the Kelvin sign and the
dotted capital I. In Go's `unicode.ToLower` there are no others. -/
def OddCase : List Nat := [0x212A, 0x0130]

/-- **C15, partial** The hostname rule accepts exactly the hostnames, for every byte string in which
neither the Kelvin sign (U+212A) nor the dotted capital I (U+0130) occurs. `hlow` says that
`unicode.ToLower` maps no other non-ASCII rune to an ASCII one. For the two exceptions see
`C15_kelvin_accepted`. -/
theorem C15_hostname_partial (E : Env) (S : Schema) (typ : String) (f : FieldDesc)
    (h : OnlyField S typ f) (m : Option MessageRules) (hT : f.typ = .one .string)
    (hr : f.rules = .mk m (.string { wellKnown := some (.hostname true) }))
    (hlow : ∀ r, 0x80 ≤ r → r ∉ OddCase → 0x80 ≤ E.lowerRune r)
    (s : Bytes) (hs : ∀ r ∈ runes s, r ∉ OddCase) :
    Accepts E S typ f (.sc (.str s)) ↔ Hostname s := by
  rw [accepts_string h hT hr, ← hostname_iff (E := E) fun r hr hr2 => hlow r hr2 (hs r hr)]
  simp [StringOk, ListOk, LenOk, WellKnownOk]

/-- **C15, negation** With Go's lower-casing, the hostname rule accepts the Kelvin sign (three bytes
E2 84 AA), which is not a letter of the hostname grammar. -/
theorem C15_kelvin_accepted (E : Env) (hk : E.lowerRune 0x212A = 0x6B) (S : Schema) (typ : String)
    (f : FieldDesc) (h : OnlyField S typ f) (m : Option MessageRules) (hT : f.typ = .one .string)
    (hr : f.rules = .mk m (.string { wellKnown := some (.hostname true) })) :
    Accepts E S typ f (.sc (.str [0xE2, 0x84, 0xAA])) ∧ ¬ Hostname [0xE2, 0x84, 0xAA] := by
  constructor
  · rw [accepts_string h hT hr]
    have hl : goLower E [0xE2, 0x84, 0xAA] = [0x6B] := by
      unfold goLower
      rw [if_neg (by decide)]
      rw [show runes [0xE2, 0x84, 0xAA] = [0x212A] by decide]
      simp [hk, encodeRune]
    have : HostnameOk (goLower E) [0xE2, 0x84, 0xAA] := by
      refine ⟨by decide, [0xE2, 0x84, 0xAA], .inr ⟨rfl, by decide⟩, [[0x6B]], by simp, ?_, ?_⟩
      · rw [hl]; decide
      · intro l hl; simp at hl; subst hl; unfold LabelOk; decide
    simp [StringOk, ListOk, LenOk, WellKnownOk, this]
  · intro hh
    have := hostname_bytes hh 0xE2 (by simp)
    revert this; decide

/-- C15_hostname_partial applies to a hostname with a trailing dot, and to a string that is not a
hostname. -/
example : (∀ r ∈ runes (asc "Ex-1.org."), r ∉ OddCase) ∧ Hostname (asc "Ex-1.org.") ∧
    ¬ Hostname (asc "a..b") ∧
    (∀ r, 0x80 ≤ r → r ∉ OddCase → 0x80 ≤ Fixtures.env.lowerRune r) := by
  have hex : ∀ l ∈ [asc "Ex-1", asc "org"], 1 ≤ l.length ∧ l.length ≤ 63 ∧ (∀ b ∈ l, LabelByte b) ∧
      l.head? ≠ some 0x2D ∧ l.getLast? ≠ some 0x2D := by decide
  refine ⟨by decide, ⟨by decide, [asc "Ex-1", asc "org"], by decide, hex, .inr (by decide)⟩, ?_,
    fun r hr _ => hr⟩
  intro hh
  rw [← hostname_ascii (E := Fixtures.env) (by decide), ← validateHostname_iff] at hh
  revert hh; decide

/-! ### C16 -/

/-- **C16** The uuid rule accepts exactly the 36-character 8-4-4-4-12 hexadecimal form. -/
theorem C16_uuid (E : Env) (S : Schema) (typ : String) (f : FieldDesc) (h : OnlyField S typ f)
    (m : Option MessageRules) (hT : f.typ = .one .string)
    (hr : f.rules = .mk m (.string { wellKnown := some (.uuid true) })) (s : Bytes) :
    Accepts E S typ f (.sc (.str s)) ↔ UuidOk s := by
  rw [accepts_string h hT hr]
  simp [StringOk, ListOk, LenOk, WellKnownOk]

/-- C16: a UUID has 36 bytes. -/
theorem C16_length (s : Bytes) (h : UuidOk s) : s.length = 36 := by
  obtain ⟨g1, g2, g3, g4, g5, rfl, h1, h2, h3, h4, h5⟩ := h
  simp [h1.1, h2.1, h3.1, h4.1, h5.1]

/-- There are UUIDs, in either case. -/
example : UuidOk (asc "00000000-00AA-00bb-0000-00000000000f") := by
  refine ⟨asc "00000000", asc "00AA", asc "00bb", asc "0000", asc "00000000000f", by decide, ?_⟩
  unfold HexRun HexDigit
  decide

/-! ### C17 -/

/-- **C17** A string is accepted by the email rule exactly when it parses as a mail address of at
most 254 bytes whose part before the first `@` has at most 64 bytes and whose rest is a hostname
(of the plain grammar when it is ASCII; see C15 for other bytes). -/
theorem C17_email (E : Env) (S : Schema) (typ : String) (f : FieldDesc) (h : OnlyField S typ f)
    (m : Option MessageRules) (hT : f.typ = .one .string)
    (hr : f.rules = .mk m (.string { wellKnown := some (.email true) })) (s : Bytes) :
    Accepts E S typ f (.sc (.str s)) ↔
      ∃ addr, E.parseMail s = .ok addr ∧ addr.length ≤ 254 ∧
      ∃ loc host : Bytes, addr = loc ++ 0x40 :: host ∧ (0x40 : UInt8) ∉ loc ∧ loc.length ≤ 64 ∧
        HostnameOk (goLower E) host ∧ ((∀ b ∈ host, b < 0x80) → Hostname host) := by
  rw [accepts_string h hT hr]
  simp only [StringOk, ListOk, LenOk, WellKnownOk, EmailOk]
  simp only [reduceCtorEq, false_and, false_or, false_implies, implies_true, true_and, ne_eq,
    not_true_eq_false, List.not_mem_nil, and_true]
  constructor
  · rintro ⟨a, h1, h2, loc, host, h3, h4, h5, h6⟩
    exact ⟨a, h1, h2, loc, host, h3, h4, h5, h6, fun ha => (hostname_ascii ha).1 h6⟩
  · rintro ⟨a, h1, h2, loc, host, h3, h4, h5, h6, -⟩
    exact ⟨a, h1, h2, loc, host, h3, h4, h5, h6⟩

/-- **C17** The address rule accepts exactly the strings that the hostname rule accepts and the
strings that the ip rule accepts. -/
theorem C17_address (E : Env) (S : Schema) (f fHost fIp : FieldDesc) (typ tHost tIp : String)
    (h : OnlyField S typ f) (hH : OnlyField S tHost fHost) (hI : OnlyField S tIp fIp)
    (hT : f.typ = .one .string) (hTH : fHost.typ = .one .string) (hTI : fIp.typ = .one .string)
    (hr : f.rules = .mk none (.string { wellKnown := some (.address true) }))
    (hrH : fHost.rules = .mk none (.string { wellKnown := some (.hostname true) }))
    (hrI : fIp.rules = .mk none (.string { wellKnown := some (.ip true) })) (s : Bytes) :
    Accepts E S typ f (.sc (.str s)) ↔
      Accepts E S tHost fHost (.sc (.str s)) ∨ Accepts E S tIp fIp (.sc (.str s)) := by
  rw [accepts_string h hT hr, accepts_string hH hTH hrH, accepts_string hI hTI hrI]
  simp [StringOk, ListOk, LenOk, WellKnownOk]

/-- **C17** The ip, ipv4 and ipv6 rules: whatever the IP parser, ip accepts exactly what parses, ipv4
what parses to an IPv4 address and ipv6 what parses to another one; so ip is the disjoint union. -/
theorem C17_ip (E : Env) (S : Schema) (typ : String) (f : FieldDesc) (h : OnlyField S typ f)
    (m : Option MessageRules) (w : StrWellKnown) (hT : f.typ = .one .string)
    (hr : f.rules = .mk m (.string { wellKnown := some w })) (s : Bytes) :
    (w = .ip true → (Accepts E S typ f (.sc (.str s)) ↔ ∃ ip, E.parseIP s = some ip)) ∧
    (w = .ipv4 true → (Accepts E S typ f (.sc (.str s)) ↔ ∃ ip, E.parseIP s = some ip ∧ IPv4Bytes ip)) ∧
    (w = .ipv6 true →
      (Accepts E S typ f (.sc (.str s)) ↔ ∃ ip, E.parseIP s = some ip ∧ ¬ IPv4Bytes ip)) ∧
    (w = .uri true → (Accepts E S typ f (.sc (.str s)) ↔ E.parseURL s = .ok true)) ∧
    (w = .uriRef true → (Accepts E S typ f (.sc (.str s)) ↔ ∃ abs, E.parseURL s = .ok abs)) := by
  rw [accepts_string h hT hr]
  refine ⟨?_, ?_, ?_, ?_, ?_⟩ <;> rintro rfl <;> simp [StringOk, ListOk, LenOk, WellKnownOk]

/-- An environment whose mail parser knows one address. -/
def mailEnv : Env :=
  { Fixtures.env with
    parseMail := fun s => if s = asc "Ann <ann@ex.org>" then .ok (asc "ann@ex.org") else .error "no"
    parseIP := fun s => if s = asc "::1" then some (List.replicate 15 0 ++ [1]) else none
    mail_at := by
      intro s a h
      split at h
      · cases h; decide
      · cases h }

/-- C17's right-hand side is satisfiable. -/
example : EmailOk mailEnv (asc "Ann <ann@ex.org>") :=
  (validateEmail_iff mailEnv (asc "Ann <ann@ex.org>")).1 (by decide)

/-! ### C18, C19 -/

/-- **C18** IP rules on bytes. -/
theorem C18_ip_bytes (E : Env) (S : Schema) (typ : String) (f : FieldDesc) (h : OnlyField S typ f)
    (m : Option MessageRules) (w : BytesWellKnown) (hT : f.typ = .one .bytes)
    (hr : f.rules = .mk m (.bytes { wellKnown := some w })) (s : Bytes) :
    (w = .ip true → (Accepts E S typ f (.sc (.bytes s)) ↔ s.length = 4 ∨ s.length = 16)) ∧
    (w = .ipv4 true → (Accepts E S typ f (.sc (.bytes s)) ↔ s.length = 4 ∨
      ∃ a b c d, s = [0, 0, 0, 0, 0, 0, 0, 0, 0, 0, 0xFF, 0xFF, a, b, c, d])) ∧
    (w = .ipv6 true → (Accepts E S typ f (.sc (.bytes s)) ↔ s.length = 16 ∧
      ¬ ∃ a b c d, s = [0, 0, 0, 0, 0, 0, 0, 0, 0, 0, 0xFF, 0xFF, a, b, c, d])) := by
  have hv4 : IPv4Bytes s ↔ s.length = 4 ∨
      ∃ a b c d, s = [0, 0, 0, 0, 0, 0, 0, 0, 0, 0, 0xFF, 0xFF, a, b, c, d] := by
    unfold IPv4Bytes
    refine or_congr_right ?_
    constructor
    · rintro ⟨v4, hlen, rfl⟩
      match v4, hlen with
      | [a, b, c, d], _ => exact ⟨a, b, c, d, rfl⟩
    · rintro ⟨a, b, c, d, rfl⟩
      exact ⟨[a, b, c, d], rfl, rfl⟩
  rw [accepts_bytes h hT hr]
  refine ⟨?_, ?_, ?_⟩ <;> rintro rfl
  · simp [BytesOk, ListOk, LenOk, IPBytes]
  · simp only [BytesOk, ListOk, LenOk, ← hv4]; simp
  · rw [BytesOk]
    simp only [ListOk, LenOk, hv4, IPBytes]
    simp
    constructor
    · rintro ⟨h1 | h1, h2, h3⟩
      · exact absurd h1 h2
      · exact ⟨h1, h3⟩
    · rintro ⟨h1, h2⟩
      exact ⟨.inr h1, by omega, h2⟩

/-- C18's fields are accepted by the generator, and both kinds of 16-byte values exist. -/
example : Checked (Fixtures.fieldOf .bytes (.bytes { wellKnown := some (.ipv6 true) })) ∧
    (∃ a b c d : UInt8, [0, 0, 0, 0, 0, 0, 0, 0, 0, 0, 0xFF, 0xFF, 1, 2, 3, 4] =
      [0, 0, 0, 0, 0, 0, 0, 0, 0, 0, 0xFF, 0xFF, a, b, c, d]) :=
  ⟨by unfold Checked; decide, 1, 2, 3, 4, rfl⟩

/-- **C19, partial** Bytes rules, for rule sets in which `const` is not the empty string and `len`
is not combined with `min_len` or `max_len` (see `C19_empty_const_ignored` and
`C19_len_overrides`): a value is accepted exactly when its length respects the limits, the affix
rules hold, it is in `in` if given and not in `not_in`, equals `const` if given, and satisfies the
IP and pattern rules. -/
theorem C19_bytes_partial (E : Env) (S : Schema) (typ : String) (f : FieldDesc)
    (h : OnlyField S typ f) (m : Option MessageRules) (r : BytesRules) (hT : f.typ = .one .bytes)
    (hr : f.rules = .mk m (.bytes r)) (hc : Checked f) (hi : r.ignoreEmpty ≠ some true)
    (hcst : r.const ≠ some []) (hlen : r.len = none ∨ (r.minLen = none ∧ r.maxLen = none))
    (s : Bytes) :
    Accepts E S typ f (.sc (.bytes s)) ↔
      WithinLimits r.len r.minLen r.maxLen s.length ∧
      (∀ p, r.pfx = some p → ∃ rest, s = p ++ rest) ∧
      (∀ p, r.sfx = some p → ∃ rest, s = rest ++ p) ∧
      (∀ p, r.contains = some p → ∃ a b, s = a ++ p ++ b) ∧
      (r.ins ≠ [] → s ∈ r.ins) ∧ s ∉ r.notIns ∧
      (∀ c, r.const = some c → s = c) ∧
      (r.wellKnown = some (.ip true) → IPBytes s) ∧
      (r.wellKnown = some (.ipv4 true) → IPv4Bytes s) ∧
      (r.wellKnown = some (.ipv6 true) → IPBytes s ∧ ¬ IPv4Bytes s) ∧
      (∀ p, r.pattern = some p → E.matchRe p s = true) := by
  have hck := checked_bytes hc (by rw [hr]; rfl)
  simp only [checkBytes, Bool.and_eq_true, checkIns_iff, List.length_eq_zero_iff] at hck
  have hins := hck.1.1.2
  rw [accepts_bytes h hT hr]
  have hl : checkLen r.len r.minLen r.maxLen = true := by
    unfold checkLen
    rcases hlen with hlen | hlen
    · simp [hlen]
    · cases r.len <;> simp [hlen.1, hlen.2]
  simp only [BytesOk, hi, false_and, false_or, lenOk_iff hl, List.IsPrefix, List.IsSuffix,
    List.IsInfix, eq_comm (b := s)]
  refine and_congr_right fun _ => and_congr_right fun _ => and_congr_right fun _ =>
    and_congr_right fun _ => ?_
  have e1 : ListOk (· = ·) r.ins r.notIns s ↔ (r.ins ≠ [] → s ∈ r.ins) ∧ s ∉ r.notIns := by
    unfold ListOk
    constructor
    · rintro ⟨h1, h2⟩
      refine ⟨fun hne => ?_, ?_⟩
      · obtain ⟨k, hk, rfl⟩ := h1 hne; exact hk
      · rcases hins with h4 | h4
        · exact fun hmem => h2 h4 s hmem rfl
        · simp [h4]
    · rintro ⟨h1, h2⟩
      exact ⟨fun hne => ⟨s, h1 hne, rfl⟩, fun _ k hk he => h2 (he ▸ hk)⟩
  have e2 : (∀ k, r.const = some k → k ≠ [] → s = k) ↔ ∀ c, r.const = some c → s = c := by
    constructor
    · intro hh c hcc
      exact hh c hcc (fun he => hcst (by rw [hcc, he]))
    · intro hh c hcc _; exact hh c hcc
  rw [e1, e2, and_assoc]
  refine and_congr_right fun _ => and_congr_right fun _ => and_congr_right fun _ => ?_
  rw [← and_assoc, ← and_assoc]
  refine and_congr_left fun _ => ?_
  cases hw : r.wellKnown with
  | none => simp
  | some w => cases w <;> rename_i b <;> cases b <;> simp

/-- **C19, negation** A bytes field whose `const` is the empty string accepts every value. -/
theorem C19_empty_const_ignored (E : Env) (S : Schema) (typ : String) (f : FieldDesc)
    (h : OnlyField S typ f) (m : Option MessageRules) (hT : f.typ = .one .bytes)
    (hr : f.rules = .mk m (.bytes { const := some [] })) (s : Bytes) :
    Accepts E S typ f (.sc (.bytes s)) := by
  rw [accepts_bytes h hT hr]
  simp [BytesOk, ListOk, LenOk]

/-- **C19, negation** The generator accepts `len` beside `min_len` and `max_len` on a bytes field,
and then only `len` is enforced: here `len: 3`, `min_len: 5` accepts three bytes. -/
theorem C19_len_overrides (E : Env) (S : Schema) (typ : String) (f : FieldDesc)
    (h : OnlyField S typ f) (hT : f.typ = .one .bytes)
    (hr : f.rules = .mk none (.bytes { len := some 3, minLen := some 5 })) :
    Checked f ∧ ∀ s : Bytes, Accepts E S typ f (.sc (.bytes s)) ↔ s.length = 3 := by
  constructor
  · obtain ⟨n, t, rules⟩ := f
    simp only at hT hr
    subst hT hr
    unfold Checked
    simp [checkField, checkFieldRules, checkTypeRules, mustType, Ty.embed, Ty.isRepeated,
      Ty.protoType, ElemT.protoType, checkBytes, checkMinMax, checkIns, checkPattern,
      FieldRules.message]
  · intro s
    rw [accepts_bytes h hT hr]
    simp [BytesOk, ListOk, LenOk]

/-- C19's hypotheses are met by a non-trivial rule set. -/
example : let r : BytesRules := { minLen := some 2, maxLen := some 8, pfx := some [1], notIns := [[1, 2]] }
    Checked (Fixtures.fieldOf .bytes (.bytes r)) ∧ r.const ≠ some [] ∧ r.len = none := by
  refine ⟨by unfold Checked; decide, by simp, rfl⟩

end PGV.Props
