import Verif.Spec.Local
import Verif.Spec.Rules

/-!
What it means to loosen rules: to drop some, to widen limits and lists, or to exempt values.
-/

namespace PGV.Spec.Looser
open PGV PGV.Spec

/-- A rule is kept or dropped. -/
def Kept {α : Type} (a b : Option α) : Prop := b = a ∨ b = none

/-- A flag that demands something is kept or no longer set. -/
def Off (a b : Option Bool) : Prop := b = some true → a = some true

/-- A flag that exempts something is kept or newly set. -/
def On (a b : Option Bool) : Prop := a = some true → b = some true

/-- A minimum is kept, lowered or dropped. -/
def Lower (a b : Option Nat) : Prop := ∀ n, b = some n → ∃ m, a = some m ∧ n ≤ m

/-- A maximum is kept, raised or dropped. -/
def Higher (a b : Option Nat) : Prop := ∀ n, b = some n → ∃ m, a = some m ∧ m ≤ n

/-- Lengths: the exact length is kept, or there is none and the limits are loosened, or the exact length gives way to
limits between which it is. -/
inductive Lengths : (len min max len' min' max' : Option Nat) → Prop
  | exact {k min max min' max'} : Lengths (some k) min max (some k) min' max'
  | limits {min max min' max'} : Lower min min' → Higher max max' → Lengths none min max none min' max'
  | about {k min max min' max'} : (∀ n, min' = some n → n ≤ k) → (∀ n, max' = some n → k ≤ n) →
      Lengths (some k) min max none min' max'

/-- `in` is kept, extended or dropped; what `not_in` lists is fewer (and nothing, if there was an `in`). -/
structure Lists {α : Type} (ins notIns ins' notIns' : List α) : Prop where
  more : ins' ≠ [] → ins ≠ [] ∧ ∀ a ∈ ins, a ∈ ins'
  fewer : ins' = [] → (ins = [] ∧ ∀ a ∈ notIns', a ∈ notIns) ∨ notIns' = []

/-- The limits of a range have the upper one above the lower one, if there are both: an interval, not all but one. -/
def Interval (upper lower : Option Bound) : Prop := ∀ u l, upper = some u → lower = some l → l.value < u.value

/-- Limits: both are kept; or both are dropped; or one or both of an interval are moved outwards or dropped. -/
inductive Limits : (upper lower upper' lower' : Option Bound) → Prop
  | kept {u l} : Limits u l u l
  | dropped {u l} : Limits u l none none
  | wider {u l u' l'} : Interval u l → Interval u' l' →
      (∀ b', u' = some b' → ∃ b, u = some b ∧ (b.value < b'.value ∨ b.value = b'.value ∧ (b'.strict = true → b.strict = true))) →
      (∀ b', l' = some b' → ∃ b, l = some b ∧ (b'.value < b.value ∨ b.value = b'.value ∧ (b'.strict = true → b.strict = true))) →
      Limits u l u' l'

structure Numbers (r r' : NumRules) : Prop where
  const : Kept r.const r'.const
  limits : Limits (numUpper r) (numLower r) (numUpper r') (numLower r')
  lists : Lists r.ins r.notIns r'.ins r'.notIns
  empty : On r.ignoreEmpty r'.ignoreEmpty

structure Strings (r r' : StringRules) : Prop where
  const : Kept r.const r'.const
  chars : Lengths r.len r.minLen r.maxLen r'.len r'.minLen r'.maxLen
  bytes : Lengths r.lenBytes r.minBytes r.maxBytes r'.lenBytes r'.minBytes r'.maxBytes
  pattern : Kept r.pattern r'.pattern
  pfx : Kept r.pfx r'.pfx
  sfx : Kept r.sfx r'.sfx
  contains : Kept r.contains r'.contains
  notContains : Kept r.notContains r'.notContains
  lists : Lists r.ins r.notIns r'.ins r'.notIns
  format : Kept r.wellKnown r'.wellKnown
  empty : On r.ignoreEmpty r'.ignoreEmpty

structure ByteStrings (r r' : BytesRules) : Prop where
  const : Kept r.const r'.const
  len : Lengths r.len r.minLen r.maxLen r'.len r'.minLen r'.maxLen
  pattern : Kept r.pattern r'.pattern
  pfx : Kept r.pfx r'.pfx
  sfx : Kept r.sfx r'.sfx
  contains : Kept r.contains r'.contains
  lists : Lists r.ins r.notIns r'.ins r'.notIns
  format : Kept r.wellKnown r'.wellKnown
  empty : On r.ignoreEmpty r'.ignoreEmpty

structure Enums (r r' : EnumRules) : Prop where
  const : Kept r.const r'.const
  defined : Off r.definedOnly r'.definedOnly
  lists : Lists r.ins r.notIns r'.ins r'.notIns

structure Anys (r r' : AnyRules) : Prop where
  required : Off r.required r'.required
  lists : Lists r.ins r.notIns r'.ins r'.notIns

/-- Durations: limits are kept, or all dropped. -/
structure Durations (r r' : DurationRules) : Prop where
  required : Off r.required r'.required
  const : Kept r.const r'.const
  limits : (r'.lt = r.lt ∧ r'.lte = r.lte ∧ r'.gt = r.gt ∧ r'.gte = r.gte) ∨
    (r'.lt = none ∧ r'.lte = none ∧ r'.gt = none ∧ r'.gte = none)
  lists : Lists r.ins r.notIns r'.ins r'.notIns

/-- Timestamps: limits are kept, or all dropped; rules about the present are kept (possibly without `within`, if there is
`lt_now` or `gt_now`), or all dropped. Rules about the present are not looked at beside limits, so that limits must not
be dropped before them. -/
structure Timestamps (r r' : TimestampRules) : Prop where
  required : Off r.required r'.required
  const : Kept r.const r'.const
  limits : (r'.lt = r.lt ∧ r'.lte = r.lte ∧ r'.gt = r.gt ∧ r'.gte = r.gte) ∨
    (r'.lt = none ∧ r'.lte = none ∧ r'.gt = none ∧ r'.gte = none ∧ r'.ltNow = none ∧ r'.gtNow = none ∧ r'.within = none)
  present : (r'.ltNow = r.ltNow ∧ r'.gtNow = r.gtNow ∧
      (r'.within = r.within ∨ r'.within = none ∧ (r.ltNow ≠ none ∨ r.gtNow ≠ none))) ∨
    (r'.ltNow = none ∧ r'.gtNow = none ∧ r'.within = none)

/-- Rules of one kind. -/
inductive Typ : TypeRules → TypeRules → Prop
  | unset : Typ .unset .unset
  | num {k r r'} : Numbers r r' → Typ (.num k r) (.num k r')
  | bool {r r'} : Kept r.const r'.const → Typ (.bool r) (.bool r')
  | string {r r'} : Strings r r' → Typ (.string r) (.string r')
  | bytes {r r'} : ByteStrings r r' → Typ (.bytes r) (.bytes r')
  | enum {r r'} : Enums r r' → Typ (.enum r) (.enum r')
  | any {r r'} : Anys r r' → Typ (.any r) (.any r')
  | duration {r r'} : Durations r r' → Typ (.duration r) (.duration r')
  | timestamp {r r'} : Timestamps r r' → Typ (.timestamp r) (.timestamp r')

/-- `required` is kept or dropped, `skip` is kept or added. -/
structure Msg (m m' : Option MessageRules) : Prop where
  required : msgRequired m' = true → msgRequired m = true
  skip : msgSkip m = true → msgSkip m' = true

/-- Rules on one value of a type: all rules may be dropped if it is no message. -/
inductive Elem : ElemT → FieldRules → FieldRules → Prop
  | rules {e r r'} : Typ r.type r'.type → Msg r.message r'.message → Elem e r r'
  | dropped {e r r'} : e.isEmbed = false → r'.type = .unset → Elem e r r'

/-- Rules on a field. When all rules on a list or a map are dropped, so are those on items, keys and values. -/
inductive Field : FieldT → FieldRules → FieldRules → Prop
  | same {t r} : Field t r r
  | one {e r r'} : Elem e r r' → Field (.one e) r r'
  | list {e m m' r r' items items'} : Lower r.minItems r'.minItems → Higher r.maxItems r'.maxItems →
      Off r.unique r'.unique → On r.ignoreEmpty r'.ignoreEmpty → Elem e items items' →
      Field (.rep e) (.mk m (.repeated r items)) (.mk m' (.repeated r' items'))
  | listDropped {e m r items r'} : Elem e items .absent → r'.type = .unset →
      Field (.rep e) (.mk m (.repeated r items)) r'
  | map {kt vt m m' r r' keys keys' values values'} : Lower r.minPairs r'.minPairs → Higher r.maxPairs r'.maxPairs →
      Off r.noSparse r'.noSparse → On r.ignoreEmpty r'.ignoreEmpty → Elem kt keys keys' →
      Elem vt values values' → Field (.map kt vt) (.mk m (.map r keys values)) (.mk m' (.map r' keys' values'))
  | mapDropped {kt vt m r keys values r'} : Elem vt values .absent → r'.type = .unset →
      Field (.map kt vt) (.mk m (.map r keys values)) r'

/-- Fields of the same names and types, with looser rules. -/
def Fields (l l' : List FieldDesc) : Prop :=
  ∀ f' ∈ l', ∃ f ∈ l, f.name = f'.name ∧ f.typ = f'.typ ∧ Field f.typ f.rules f'.rules

/-- A message type with looser rules: on fields, on members of oneofs, and on which oneofs are required; or with its rules
switched off. -/
structure Message (d d' : MsgDesc) : Prop where
  ignored : d.ignored = true → d'.ignored = true
  disabled : d.disabled = true → d'.disabled = true
  fields : Fields d.fields d'.fields
  oneofs : ∀ o' ∈ d'.oneofs, ∃ o ∈ d.oneofs, o.name = o'.name ∧ (o'.required = true → o.required = true) ∧
    (o.fields.map (·.name)).Nodup ∧ Fields o.fields o'.fields

/-- All types of messages in `v`, at any depth, have looser rules in `S'` than in `S`. -/
def Schemas (S S' : Schema) (v : Val) : Prop :=
  ∀ typ fs os, Part (.msg typ fs os) v →
    (∃ d d', S typ = .generated d ∧ S' typ = .generated d' ∧ Message d d') ∨
    (S typ = S' typ ∧ ∀ d, S typ ≠ .generated d)

end PGV.Spec.Looser
