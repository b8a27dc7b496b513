import Verif.Spec.Checks
import Verif.Spec.GoCompile
import Verif.Spec.Api

/-!
Exactly which rules the generator lets through, for each kind of rules, in terms of the declared
type and the rules only.
-/

namespace PGV.Spec
open PGV

/-- Prefixes, suffixes and contained strings, with the longest text that may be required. -/
def Affix (p : Bytes) (pfx sfx contains : Option Bytes) : Prop :=
  pfx = some p ∨ sfx = some p ∨ contains = some p

/-- The rules say `well_known_regex`, with a number other than 0. -/
def NamesRegex (r : StringRules) : Prop := ∃ k, r.wellKnown = some (.regex k) ∧ k ≠ .unknown

/-- The rules say `well_known_regex` with one of the two numbers that have a meaning. -/
def NamesHeader (r : StringRules) : Prop :=
  r.wellKnown = some (.regex .headerName) ∨ r.wellKnown = some (.regex .headerValue)

/-- String rules that are let through. -/
structure StringRulesOk (compiles : Bytes → Bool) (r : StringRules) : Prop where
  lists : r.ins = [] ∨ r.notIns = []
  chars : Ordered r.minLen r.maxLen ∧ Exclusive r.len r.minLen r.maxLen
  bytes : Ordered r.minBytes r.maxBytes ∧ Exclusive r.lenBytes r.minBytes r.maxBytes
  /-- a string of `n` characters has at least `n` bytes -/
  maxima : Ordered r.maxLen r.maxBytes
  fit : ∀ k, r.maxLen = some k ∨ r.maxBytes = some k → k < 9223372036854775808
  affixes : ∀ p, Affix p r.pfx r.sfx r.contains →
    (∀ k, r.maxLen = some k → CharsAtMost p k) ∧ (∀ k, r.maxBytes = some k → p.length ≤ k)
  pattern : ∀ p, r.pattern = some p → compiles p = true ∧ r.ins = [] ∧ ¬ NamesRegex r
  header : NamesHeader r → r.ins = []

/-- Bytes rules that are let through. -/
structure BytesRulesOk (compiles : Bytes → Bool) (r : BytesRules) : Prop where
  lists : r.ins = [] ∨ r.notIns = []
  ordered : Ordered r.minLen r.maxLen
  fit : ∀ k, r.maxLen = some k → k < 9223372036854775808
  affixes : ∀ p, Affix p r.pfx r.sfx r.contains → ∀ k, r.maxLen = some k → p.length ≤ k
  pattern : ∀ p, r.pattern = some p → compiles p = true ∧ r.ins = []

/-- Duration rules that are let through; `Same` says when two durations are equal. -/
structure DurationRulesOk (Same : PDur → PDur → Prop) (r : DurationRules) : Prop where
  valid : ∀ d, r.const = some d ∨ r.lt = some d ∨ r.lte = some d ∨ r.gt = some d ∨ r.gte = some d ∨
    d ∈ r.ins ∨ d ∈ r.notIns → ValidDuration d
  bounds : Consistent Same r.ins r.notIns r.const r.lt r.lte r.gt r.gte

/-- Rules of each kind that are let through on values of type `t`. The type is not looked at for Any,
Duration and Timestamp rules. Durations are equal if their lengths, limited to what a
`time.Duration` holds, are; timestamps are equal if their instants in nanoseconds are equal
modulo 2^64. -/
def RulesOk (compiles : Bytes → Bool) (t : FieldT) : TypeRules → Prop
  | .unset => True
  | .num k r => Suits t (.num k r) ∧ NumConsistent r
  | .bool r => Suits t (.bool r)
  | .string r => Suits t (.string r) ∧ StringRulesOk compiles r
  | .bytes r => Suits t (.bytes r) ∧ BytesRulesOk compiles r
  | .enum r => ∃ vs, t = .one (.enum vs) ∧ (r.ins = [] ∨ r.notIns = []) ∧
      (r.definedOnly = some true → ∀ i ∈ r.ins, i ∈ vs)
  | .repeated r _ => ∃ e, t = .rep e ∧ Ordered r.minItems r.maxItems ∧
      (r.unique = some true → ∀ n w, e ≠ .embed n w)
  | .map r _ _ => ∃ k v, t = .map k v ∧ Ordered r.minPairs r.maxPairs ∧
      (r.noSparse = some true → ∃ n w, v = .embed n w)
  | .any r => r.ins = [] ∨ r.notIns = []
  | .duration r => DurationRulesOk (fun a b => heldLength a = heldLength b) r
  | .timestamp r =>
      TsConsistent (fun a b => (18446744073709551616 : Int) ∣ instant a - instant b) r

/-- Message rules (`required`, `skip`) that are let through on a field: on singular messages other than Any,
Duration and Timestamp, and `skip` without rules for the value of a wrapper. -/
def MessageRulesOk (f : FieldDesc) : Prop :=
  ∀ m tr, f.rules = .mk (some m) tr →
    (∃ n w, f.typ = .one (.embed n w) ∧ w ≠ some .any ∧ w ≠ some .duration ∧ w ≠ some .timestamp) ∧
    (m.skip = some true → tr = .unset)

/-- What a parsed descriptor guarantees: limits are uint64 and strings are UTF-8. -/
def ParsedRules : TypeRules → Prop
  | .string r => (∀ k, r.maxLen = some k ∨ r.maxBytes = some k → k < 18446744073709551616) ∧
      (∀ p, Affix p r.pfx r.sfx r.contains → ∃ cs : List Nat, (∀ c ∈ cs, CodePoint c) ∧ p = utf8 cs)
  | .bytes r => ∀ k, r.maxLen = some k → k < 18446744073709551616
  | _ => True

/-- The three patterns of header names and values are patterns that Go's regexp compiles. -/
def HeadersCompile (compiles : Bytes → Bool) : Prop :=
  ∀ p, p = Checker.httpHeaderName ∨ p = Checker.httpHeaderValue ∨ p = Checker.headerString → compiles p = true

end PGV.Spec
