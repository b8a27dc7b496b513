import Verif.Core.Bytes
import Verif.Core.Num
import Verif.Core.Time

/-!
The rule messages of validate/validate.proto. An `optional` field is an `Option`; `repeated` is a
list; a `oneof` is an `Option` of an inductive. Getters follow the generated Go getters: the value
if set, else the default.
-/

namespace PGV

/-- FloatRules .. SFixed64Rules (validate.proto:69-498): twelve structurally identical messages. -/
structure NumRules where
  const : Option Num := none
  lt : Option Num := none
  lte : Option Num := none
  gt : Option Num := none
  gte : Option Num := none
  ins : List Num := []
  notIns : List Num := []
  ignoreEmpty : Option Bool := none
  deriving DecidableEq, Repr

/-- BoolRules (validate.proto:501-504). -/
structure BoolRules where
  const : Option Bool := none
  deriving DecidableEq, Repr

/-- KnownRegex (validate.proto:624-633). proto2 enums are closed for known numbers, but an unknown
number can be carried by `GetWellKnownRegex`; `other` is such a number. -/
inductive KnownRegex
  | unknown | headerName | headerValue | other (n : Int)
  deriving DecidableEq, Repr

/-- The `well_known` oneof of StringRules (validate.proto:569-609). -/
inductive StrWellKnown
  | email (b : Bool) | hostname (b : Bool) | ip (b : Bool) | ipv4 (b : Bool) | ipv6 (b : Bool)
  | uri (b : Bool) | uriRef (b : Bool) | address (b : Bool) | uuid (b : Bool)
  | regex (k : KnownRegex)
  deriving DecidableEq, Repr

/-- StringRules (validate.proto:507-621). -/
structure StringRules where
  const : Option Bytes := none
  len : Option Nat := none
  minLen : Option Nat := none
  maxLen : Option Nat := none
  lenBytes : Option Nat := none
  minBytes : Option Nat := none
  maxBytes : Option Nat := none
  pattern : Option Bytes := none
  pfx : Option Bytes := none
  sfx : Option Bytes := none
  contains : Option Bytes := none
  notContains : Option Bytes := none
  ins : List Bytes := []
  notIns : List Bytes := []
  wellKnown : Option StrWellKnown := none
  strict : Option Bool := none
  ignoreEmpty : Option Bool := none
  deriving DecidableEq, Repr

namespace StringRules
/-- Getters of the `well_known` oneof: the flag when that member is set, else false
(validate/validate.proto:569-614). -/
def getEmail (r : StringRules) : Bool := match r.wellKnown with | some (.email b) => b | _ => false
/-- The same for `hostname` (validate/validate.proto:569-614). -/
def getHostname (r : StringRules) : Bool :=
  match r.wellKnown with | some (.hostname b) => b | _ => false
/-- The same for `ip` (validate/validate.proto:569-614). -/
def getIp (r : StringRules) : Bool := match r.wellKnown with | some (.ip b) => b | _ => false
/-- The same for `ipv4` (validate/validate.proto:569-614). -/
def getIpv4 (r : StringRules) : Bool := match r.wellKnown with | some (.ipv4 b) => b | _ => false
/-- The same for `ipv6` (validate/validate.proto:569-614). -/
def getIpv6 (r : StringRules) : Bool := match r.wellKnown with | some (.ipv6 b) => b | _ => false
/-- The same for `uri` (validate/validate.proto:569-614). -/
def getUri (r : StringRules) : Bool := match r.wellKnown with | some (.uri b) => b | _ => false
/-- The same for `uri_ref` (validate/validate.proto:569-614). -/
def getUriRef (r : StringRules) : Bool :=
  match r.wellKnown with | some (.uriRef b) => b | _ => false
/-- The same for `address` (validate/validate.proto:569-614). -/
def getAddress (r : StringRules) : Bool :=
  match r.wellKnown with | some (.address b) => b | _ => false
/-- The same for `uuid` (validate/validate.proto:569-614). -/
def getUuid (r : StringRules) : Bool := match r.wellKnown with | some (.uuid b) => b | _ => false
/-- The same for `well_known_regex` (validate/validate.proto:569-614). -/
def getRegex (r : StringRules) : KnownRegex :=
  match r.wellKnown with | some (.regex k) => k | _ => .unknown
end StringRules

/-- The `well_known` oneof of BytesRules (validate.proto:677-689). -/
inductive BytesWellKnown
  | ip (b : Bool) | ipv4 (b : Bool) | ipv6 (b : Bool)
  deriving DecidableEq, Repr

/-- BytesRules (validate.proto:636-694). -/
structure BytesRules where
  const : Option Bytes := none
  len : Option Nat := none
  minLen : Option Nat := none
  maxLen : Option Nat := none
  pattern : Option Bytes := none
  pfx : Option Bytes := none
  sfx : Option Bytes := none
  contains : Option Bytes := none
  ins : List Bytes := []
  notIns : List Bytes := []
  wellKnown : Option BytesWellKnown := none
  ignoreEmpty : Option Bool := none
  deriving DecidableEq, Repr

namespace BytesRules
/-- `GetIp()` (validate/validate.proto:677-690). -/
def getIp (r : BytesRules) : Bool := match r.wellKnown with | some (.ip b) => b | _ => false
/-- `GetIpv4()` (validate/validate.proto:677-690). -/
def getIpv4 (r : BytesRules) : Bool := match r.wellKnown with | some (.ipv4 b) => b | _ => false
/-- `GetIpv6()` (validate/validate.proto:677-690). -/
def getIpv6 (r : BytesRules) : Bool := match r.wellKnown with | some (.ipv6 b) => b | _ => false
end BytesRules

/-- EnumRules (validate.proto:697-712). -/
structure EnumRules where
  const : Option Int := none
  definedOnly : Option Bool := none
  ins : List Int := []
  notIns : List Int := []
  deriving DecidableEq, Repr

/-- MessageRules (validate.proto:716-723). -/
structure MessageRules where
  skip : Option Bool := none
  required : Option Bool := none
  deriving DecidableEq, Repr

/-- RepeatedRules (validate.proto:726-748) without `items`. -/
structure RepeatedRules where
  minItems : Option Nat := none
  maxItems : Option Nat := none
  unique : Option Bool := none
  ignoreEmpty : Option Bool := none
  deriving DecidableEq, Repr

/-- MapRules (validate.proto:751-775) without `keys` and `values`. -/
structure MapRules where
  minPairs : Option Nat := none
  maxPairs : Option Nat := none
  noSparse : Option Bool := none
  ignoreEmpty : Option Bool := none
  deriving DecidableEq, Repr

/-- AnyRules (validate.proto:779-790). -/
structure AnyRules where
  required : Option Bool := none
  ins : List Bytes := []
  notIns : List Bytes := []
  deriving DecidableEq, Repr

/-- DurationRules (validate.proto:794-824). -/
structure DurationRules where
  required : Option Bool := none
  const : Option PDur := none
  lt : Option PDur := none
  lte : Option PDur := none
  gt : Option PDur := none
  gte : Option PDur := none
  ins : List PDur := []
  notIns : List PDur := []
  deriving DecidableEq, Repr

/-- TimestampRules (validate.proto:828-863). -/
structure TimestampRules where
  required : Option Bool := none
  const : Option PTime := none
  lt : Option PTime := none
  lte : Option PTime := none
  gt : Option PTime := none
  gte : Option PTime := none
  ltNow : Option Bool := none
  gtNow : Option Bool := none
  within : Option PDur := none
  deriving DecidableEq, Repr

mutual
/-- FieldRules (validate.proto:36-66): `absent` is a nil pointer, `mk` a present message with its
optional `message` member and the `type` oneof. -/
inductive FieldRules
  | absent
  | mk (message : Option MessageRules) (type : TypeRules)
/-- The `type` oneof of FieldRules; `unset` when no member is set (validate/validate.proto:38-65). -/
inductive TypeRules
  | unset
  | num (k : NumKind) (r : NumRules)
  | bool (r : BoolRules)
  | string (r : StringRules)
  | bytes (r : BytesRules)
  | enum (r : EnumRules)
  | repeated (r : RepeatedRules) (items : FieldRules)
  | map (r : MapRules) (keys values : FieldRules)
  | any (r : AnyRules)
  | duration (r : DurationRules)
  | timestamp (r : TimestampRules)
end

/-- `rules.GetMessage()` / `rules.Message` (validate/validate.proto:37, templates/shared/context.go:169,176). -/
def FieldRules.message : FieldRules → Option MessageRules
  | .absent => none
  | .mk m _ => m

/-- `rules.GetType()` (validate/validate.proto:38, templates/shared/context.go:120). -/
def FieldRules.type : FieldRules → TypeRules
  | .absent => .unset
  | .mk _ t => t

/-- `GetX()` of an optional bool (validate/validate.proto:101 and others). -/
def optB (b : Option Bool) : Bool := b.getD false
/-- `GetX()` of an optional uint64 (validate/validate.proto:507-560). -/
def optN (n : Option Nat) : Nat := n.getD 0
/-- `GetX()` of an optional string or bytes (validate/validate.proto:507-694). -/
def optS (s : Option Bytes) : Bytes := s.getD []

/-- `GetRequired` on possibly nil MessageRules (validate/validate.proto:722). -/
def msgRequired (m : Option MessageRules) : Bool :=
  match m with | some r => optB r.required | none => false
/-- `GetSkip` on possibly nil MessageRules (validate/validate.proto:719). -/
def msgSkip (m : Option MessageRules) : Bool :=
  match m with | some r => optB r.skip | none => false

end PGV
