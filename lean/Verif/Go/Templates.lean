import Verif.Go.Known

/-!
The per-rule-kind templates of templates/goshared and templates/go: for each, what the code
generated from given rules does to a given value.
-/

namespace PGV.Go
open PGV Exec

/-- templates/goshared/ltgt.go:3-89 (ltgtTpl). -/
def ltgtTpl (all : Bool) (c : Ctx) (r : NumRules) (val : Num) : Exec :=
  match r.lt with
  | some lt =>
    match r.gt with
    | some gt =>
      if lt.tplGt gt then
        when (val.le gt || val.ge lt)
          (report all (err c [.s "value must be inside range (", .num gt, .s ", ", .num lt, .s ")"]))
      else
        when (val.ge lt && val.le gt)
          (report all (err c [.s "value must be outside range [", .num lt, .s ", ", .num gt, .s "]"]))
    | none =>
      match r.gte with
      | some gte =>
        if lt.tplGt gte then
          when (val.lt gte || val.ge lt)
            (report all (err c [.s "value must be inside range [", .num gte, .s ", ", .num lt, .s ")"]))
        else
          when (val.ge lt && val.lt gte)
            (report all (err c [.s "value must be outside range [", .num lt, .s ", ", .num gte, .s ")"]))
      | none => when (val.ge lt) (report all (err c [.s "value must be less than ", .num lt]))
  | none =>
    match r.lte with
    | some lte =>
      match r.gt with
      | some gt =>
        if lte.tplGt gt then
          when (val.le gt || val.gt lte)
            (report all (err c [.s "value must be inside range (", .num gt, .s ", ", .num lte, .s "]"]))
        else
          when (val.gt lte && val.le gt)
            (report all (err c [.s "value must be outside range (", .num lte, .s ", ", .num gt, .s "]"]))
      | none =>
        match r.gte with
        | some gte =>
          if lte.tplGt gte then
            when (val.lt gte || val.gt lte)
              (report all (err c [.s "value must be inside range [", .num gte, .s ", ", .num lte, .s "]"]))
          else
            when (val.gt lte && val.lt gte)
              (report all (err c [.s "value must be outside range (", .num lte, .s ", ", .num gte, .s ")"]))
        | none =>
          when (val.gt lte) (report all (err c [.s "value must be less than or equal to ", .num lte]))
    | none =>
      match r.gt with
      | some gt => when (val.le gt) (report all (err c [.s "value must be greater than ", .num gt]))
      | none =>
        match r.gte with
        | some gte =>
          when (val.lt gte)
            (report all (err c [.s "value must be greater than or equal to ", .num gte]))
        | none => skip

/-- templates/goshared/const.go:3-11 (constTpl) on numbers. -/
def numConstTpl (all : Bool) (c : Ctx) (r : NumRules) (val : Num) : Exec :=
  match r.const with
  | some k => when (!val.eq k) (report all (err c [.s "value must equal ", .num k]))
  | none => skip

/-- templates/goshared/in.go:3-17 (inTpl) on numbers. The lookup tables are Go maps keyed by the
listed values (templates/goshared/msg.go:136-150); membership is Go's `==`. -/
def numInTpl (all : Bool) (c : Ctx) (r : NumRules) (val : Num) : Exec :=
  if !r.ins.isEmpty then
    when (!(r.ins.any fun k => val.eq k)) (report all (err c [.s "value must be in list ", .nums r.ins]))
  else if !r.notIns.isEmpty then
    when (r.notIns.any fun k => val.eq k)
      (report all (err c [.s "value must not be in list ", .nums r.notIns]))
  else skip

/-- templates/goshared/num.go:3-16 (numTpl). -/
def numTpl (all : Bool) (c : Ctx) (r : NumRules) (val : Num) : Exec :=
  let body := numConstTpl all c r val ;; ltgtTpl all c r val ;; numInTpl all c r val
  if optB r.ignoreEmpty then when (!val.isZero) body else body

/-- constTpl on bools (registered as "bool", templates/goshared/register.go:72). -/
def boolTpl (all : Bool) (c : Ctx) (r : BoolRules) (val : Bool) : Exec :=
  match r.const with
  | some k => when (val != k) (report all (err c [.s "value must equal ", .bool k]))
  | none => skip

/-- constTpl on strings (templates/goshared/const.go:3-11). -/
def strConstTpl (all : Bool) (c : Ctx) (r : StringRules) (val : Bytes) : Exec :=
  match r.const with
  | some k => when (val != k) (report all (err c [.s "value must equal ", .bytes k]))
  | none => skip

/-- inTpl on strings (templates/goshared/in.go:3-17). -/
def strInTpl (all : Bool) (c : Ctx) (r : StringRules) (val : Bytes) : Exec :=
  if !r.ins.isEmpty then
    when (!(r.ins.contains val)) (report all (err c [.s "value must be in list ", .bytess r.ins]))
  else if !r.notIns.isEmpty then
    when (r.notIns.contains val)
      (report all (err c [.s "value must not be in list ", .bytess r.notIns]))
  else skip

/-- templates/goshared/string.go:13-46: length in runes. -/
def strLenTpl (all : Bool) (c : Ctx) (r : StringRules) (val : Bytes) : Exec :=
  if r.len.isSome || (r.minLen.isSome && r.maxLen.isSome && optN r.minLen == optN r.maxLen) then
    if r.len.isSome then
      when (runeCount val != optN r.len)
        (report all (err c [.s "value length must be ", .nat (optN r.len), .s " runes"]))
    else
      when (runeCount val != optN r.minLen)
        (report all (err c [.s "value length must be ", .nat (optN r.minLen), .s " runes"]))
  else if r.minLen.isSome then
    if r.maxLen.isSome then
      when (decide (runeCount val < optN r.minLen) || decide (runeCount val > optN r.maxLen))
        (report all (err c [.s "value length must be between ", .nat (optN r.minLen), .s " and ",
          .nat (optN r.maxLen), .s " runes, inclusive"]))
    else
      when (decide (runeCount val < optN r.minLen))
        (report all (err c [.s "value length must be at least ", .nat (optN r.minLen), .s " runes"]))
  else if r.maxLen.isSome then
    when (decide (runeCount val > optN r.maxLen))
      (report all (err c [.s "value length must be at most ", .nat (optN r.maxLen), .s " runes"]))
  else skip

/-- templates/goshared/string.go:48-82: length in bytes. -/
def strLenBytesTpl (all : Bool) (c : Ctx) (r : StringRules) (val : Bytes) : Exec :=
  if r.lenBytes.isSome ||
      (r.minBytes.isSome && r.maxBytes.isSome && optN r.minBytes == optN r.maxBytes) then
    if r.lenBytes.isSome then
      when (val.length != optN r.lenBytes)
        (report all (err c [.s "value length must be ", .nat (optN r.lenBytes), .s " bytes"]))
    else
      when (val.length != optN r.minBytes)
        (report all (err c [.s "value length must be ", .nat (optN r.minBytes), .s " bytes"]))
  else if r.minBytes.isSome then
    if r.maxBytes.isSome then
      when (decide (val.length < optN r.minBytes) || decide (val.length > optN r.maxBytes))
        (report all (err c [.s "value length must be between ", .nat (optN r.minBytes), .s " and ",
          .nat (optN r.maxBytes), .s " bytes, inclusive"]))
    else
      when (decide (val.length < optN r.minBytes))
        (report all (err c [.s "value length must be at least ", .nat (optN r.minBytes), .s " bytes"]))
  else if r.maxBytes.isSome then
    when (decide (val.length > optN r.maxBytes))
      (report all (err c [.s "value length must be at most ", .nat (optN r.maxBytes), .s " bytes"]))
  else skip

/-- templates/goshared/string.go:84-114: prefix, suffix, contains, not_contains. -/
def strAffixTpl (all : Bool) (c : Ctx) (r : StringRules) (val : Bytes) : Exec :=
  when (r.pfx.isSome && !hasPrefix val (optS r.pfx))
    (report all (err c [.s "value does not have prefix ", .bytes (optS r.pfx)])) ;;
  when (r.sfx.isSome && !hasSuffix val (optS r.sfx))
    (report all (err c [.s "value does not have suffix ", .bytes (optS r.sfx)])) ;;
  when (r.contains.isSome && !containsSub val (optS r.contains))
    (report all (err c [.s "value does not contain substring ", .bytes (optS r.contains)])) ;;
  when (r.notContains.isSome && containsSub val (optS r.notContains))
    (report all (err c [.s "value contains substring ", .bytes (optS r.notContains)]))

/-- templates/goshared/string.go:116-176: the well-known formats, an else-if chain. -/
def strWellKnownTpl (E : Env) (all : Bool) (c : Ctx) (r : StringRules) (val : Bytes) : Exec :=
  if r.getIp then
    when (E.parseIP val).isNone (report all (err c [.s "value must be a valid IP address"]))
  else if r.getIpv4 then
    when (match E.parseIP val with | none => true | some ip => (ipTo4 ip).isNone)
      (report all (err c [.s "value must be a valid IPv4 address"]))
  else if r.getIpv6 then
    when (match E.parseIP val with | none => true | some ip => (ipTo4 ip).isSome)
      (report all (err c [.s "value must be a valid IPv6 address"]))
  else if r.getEmail then
    match validateEmail E val with
    | some e => report all (errCause c (.lib e) [.s "value must be a valid email address"])
    | none => skip
  else if r.getHostname then
    match validateHostname E val with
    | some e => report all (errCause c (.lib e) [.s "value must be a valid hostname"])
    | none => skip
  else if r.getAddress then
    match validateHostname E val with
    | some _ =>
      when (E.parseIP val).isNone
        (report all (err c [.s "value must be a valid hostname, or ip address"]))
    | none => skip
  else if r.getUri then
    match E.parseURL val with
    | .error e => report all (errCause c (.lib e) [.s "value must be a valid URI"])
    | .ok isAbs => when (!isAbs) (report all (err c [.s "value must be absolute"]))
  else if r.getUriRef then
    match E.parseURL val with
    | .error e => report all (errCause c (.lib e) [.s "value must be a valid URI"])
    | .ok _ => skip
  else if r.getUuid then
    match validateUuid val with
    | some e => report all (errCause c (.lib e) [.s "value must be a valid UUID"])
    | none => skip
  else skip

/-- templates/goshared/string.go:178-184: pattern. -/
def strPatternTpl (E : Env) (all : Bool) (c : Ctx) (r : StringRules) (val : Bytes) : Exec :=
  when (r.pattern.isSome && !E.matchRe (optS r.pattern) val)
    (report all (err c [.s "value does not match regex pattern ", .bytes (optS r.pattern)]))

/-- templates/goshared/string.go:3-190 (strTpl). -/
def strTpl (E : Env) (all : Bool) (c : Ctx) (r : StringRules) (val : Bytes) : Exec :=
  let body :=
    strConstTpl all c r val ;; strInTpl all c r val ;; strLenTpl all c r val ;;
    strLenBytesTpl all c r val ;; strAffixTpl all c r val ;; strWellKnownTpl E all c r val ;;
    strPatternTpl E all c r val
  if optB r.ignoreEmpty then when (val != []) body else body

/-- templates/goshared/bytes.go:10-44: length. -/
def bytesLenTpl (all : Bool) (c : Ctx) (r : BytesRules) (val : Bytes) : Exec :=
  if r.len.isSome || (r.minLen.isSome && r.maxLen.isSome && optN r.minLen == optN r.maxLen) then
    if r.len.isSome then
      when (val.length != optN r.len)
        (report all (err c [.s "value length must be ", .nat (optN r.len), .s " bytes"]))
    else
      when (val.length != optN r.minLen)
        (report all (err c [.s "value length must be ", .nat (optN r.minLen), .s " bytes"]))
  else if r.minLen.isSome then
    if r.maxLen.isSome then
      when (decide (val.length < optN r.minLen) || decide (val.length > optN r.maxLen))
        (report all (err c [.s "value length must be between ", .nat (optN r.minLen), .s " and ",
          .nat (optN r.maxLen), .s " bytes, inclusive"]))
    else
      when (decide (val.length < optN r.minLen))
        (report all (err c [.s "value length must be at least ", .nat (optN r.minLen), .s " bytes"]))
  else if r.maxLen.isSome then
    when (decide (val.length > optN r.maxLen))
      (report all (err c [.s "value length must be at most ", .nat (optN r.maxLen), .s " bytes"]))
  else skip

/-- templates/goshared/bytes.go:46-68. `{{ if $r.Prefix }}` tests a `[]byte`, which text/template
regards as true only when it is non-empty. -/
def bytesAffixTpl (all : Bool) (c : Ctx) (r : BytesRules) (val : Bytes) : Exec :=
  when (!(optS r.pfx).isEmpty && !hasPrefix val (optS r.pfx))
    (report all (err c [.s "value does not have prefix ", .bytes (optS r.pfx)])) ;;
  when (!(optS r.sfx).isEmpty && !hasSuffix val (optS r.sfx))
    (report all (err c [.s "value does not have suffix ", .bytes (optS r.sfx)])) ;;
  when (!(optS r.contains).isEmpty && !containsSub val (optS r.contains))
    (report all (err c [.s "value does not contain ", .bytes (optS r.contains)]))

/-- templates/goshared/bytes.go:70-82: in / not_in, keyed by `string(value)`. -/
def bytesInTpl (all : Bool) (c : Ctx) (r : BytesRules) (val : Bytes) : Exec :=
  if !r.ins.isEmpty then
    when (!(r.ins.contains val)) (report all (err c [.s "value must be in list ", .bytess r.ins]))
  else if !r.notIns.isEmpty then
    when (r.notIns.contains val)
      (report all (err c [.s "value must not be in list ", .bytess r.notIns]))
  else skip

/-- templates/goshared/bytes.go:84-90: const, again with the truthiness of a byte slice. -/
def bytesConstTpl (all : Bool) (c : Ctx) (r : BytesRules) (val : Bytes) : Exec :=
  when (!(optS r.const).isEmpty && val != optS r.const)
    (report all (err c [.s "value must equal ", .bytes (optS r.const)]))

/-- templates/goshared/bytes.go:92-110: ip, ipv4, ipv6. -/
def bytesIpTpl (all : Bool) (c : Ctx) (r : BytesRules) (val : Bytes) : Exec :=
  if r.getIp then
    when (ipTo16 val).isNone (report all (err c [.s "value must be a valid IP address"]))
  else if r.getIpv4 then
    when (ipTo4 val).isNone (report all (err c [.s "value must be a valid IPv4 address"]))
  else if r.getIpv6 then
    when ((ipTo16 val).isNone || (ipTo4 val).isSome)
      (report all (err c [.s "value must be a valid IPv6 address"]))
  else skip

/-- templates/goshared/bytes.go:112-118: pattern. -/
def bytesPatternTpl (E : Env) (all : Bool) (c : Ctx) (r : BytesRules) (val : Bytes) : Exec :=
  when (r.pattern.isSome && !E.matchRe (optS r.pattern) val)
    (report all (err c [.s "value does not match regex pattern ", .bytes (optS r.pattern)]))

/-- templates/goshared/bytes.go:3-123 (bytesTpl). -/
def bytesTpl (E : Env) (all : Bool) (c : Ctx) (r : BytesRules) (val : Bytes) : Exec :=
  let body :=
    bytesLenTpl all c r val ;; bytesAffixTpl all c r val ;; bytesInTpl all c r val ;;
    bytesConstTpl all c r val ;; bytesIpTpl all c r val ;; bytesPatternTpl E all c r val
  if optB r.ignoreEmpty then when (decide (val.length > 0)) body else body

/-- templates/goshared/enum.go:3-15 (enumTpl); `defined` are the keys of the generated
`<Enum>_name` map. -/
def enumTpl (all : Bool) (c : Ctx) (defined : List Int) (r : EnumRules) (val : Int) : Exec :=
  (match r.const with
   | some k => when (val != k) (report all (err c [.s "value must equal ", .int k]))
   | none => skip) ;;
  (if !r.ins.isEmpty then
     when (!(r.ins.contains val)) (report all (err c [.s "value must be in list ", .ints r.ins]))
   else if !r.notIns.isEmpty then
     when (r.notIns.contains val)
       (report all (err c [.s "value must not be in list ", .ints r.notIns]))
   else skip) ;;
  when (optB r.definedOnly && !(defined.contains val))
    (report all (err c [.s "value must be one of the defined enum values"]))

/-- templates/go/required.go:3-11. -/
def requiredTpl (all : Bool) (c : Ctx) (required : Bool) (isNil : Bool) : Exec :=
  when (required && isNil) (report all (err c [.s "value is required"]))

/-- templates/goshared/any.go:3-21 (anyTpl); `none` is an unset field. -/
def anyTpl (all : Bool) (c : Ctx) (r : AnyRules) (a : Option Bytes) : Exec :=
  requiredTpl all c (optB r.required) a.isNone ;;
  match a with
  | none => skip
  | some url =>
    if !r.ins.isEmpty then
      when (!(r.ins.contains url)) (report all (err c [.s "type URL must be in list ", .bytess r.ins]))
    else if !r.notIns.isEmpty then
      when (r.notIns.contains url)
        (report all (err c [.s "type URL must not be in list ", .bytess r.notIns]))
    else skip

/-- `durGt` (templates/goshared/register.go:262-267). -/
def durGt (a b : PDur) : Bool := decide (a.asDuration > b.asDuration)

/-- templates/goshared/duration.go:18-102: range rules on durations. -/
def durRangeTpl (all : Bool) (c : Ctx) (r : DurationRules) (dur : Int) : Exec :=
  match r.lt with
  | some lt =>
    match r.gt with
    | some gt =>
      if durGt lt gt then
        when (decide (dur ≤ gt.lit) || decide (dur ≥ lt.lit))
          (report all (err c [.s "value must be inside range (", .dur gt, .s ", ", .dur lt, .s ")"]))
      else
        when (decide (dur ≥ lt.lit) && decide (dur ≤ gt.lit))
          (report all (err c [.s "value must be outside range [", .dur lt, .s ", ", .dur gt, .s "]"]))
    | none =>
      match r.gte with
      | some gte =>
        if durGt lt gte then
          when (decide (dur < gte.lit) || decide (dur ≥ lt.lit))
            (report all (err c [.s "value must be inside range [", .dur gte, .s ", ", .dur lt, .s ")"]))
        else
          when (decide (dur ≥ lt.lit) && decide (dur < gte.lit))
            (report all (err c [.s "value must be outside range [", .dur lt, .s ", ", .dur gte, .s ")"]))
      | none => when (decide (dur ≥ lt.lit)) (report all (err c [.s "value must be less than ", .dur lt]))
  | none =>
    match r.lte with
    | some lte =>
      match r.gt with
      | some gt =>
        if durGt lte gt then
          when (decide (dur ≤ gt.lit) || decide (dur > lte.lit))
            (report all (err c [.s "value must be inside range (", .dur gt, .s ", ", .dur lte, .s "]"]))
        else
          when (decide (dur > lte.lit) && decide (dur ≤ gt.lit))
            (report all (err c [.s "value must be outside range (", .dur lte, .s ", ", .dur gt, .s "]"]))
      | none =>
        match r.gte with
        | some gte =>
          if durGt lte gte then
            when (decide (dur < gte.lit) || decide (dur > lte.lit))
              (report all (err c [.s "value must be inside range [", .dur gte, .s ", ", .dur lte, .s "]"]))
          else
            when (decide (dur > lte.lit) && decide (dur < gte.lit))
              (report all (err c [.s "value must be outside range (", .dur lte, .s ", ", .dur gte, .s ")"]))
        | none =>
          when (decide (dur > lte.lit))
            (report all (err c [.s "value must be less than or equal to ", .dur lte]))
    | none =>
      match r.gt with
      | some gt =>
        when (decide (dur ≤ gt.lit)) (report all (err c [.s "value must be greater than ", .dur gt]))
      | none =>
        match r.gte with
        | some gte =>
          when (decide (dur < gte.lit))
            (report all (err c [.s "value must be greater than or equal to ", .dur gte]))
        | none => skip

/-- templates/goshared/duration.go:3-118 (durationcmpTpl). The lookup tables hold
`int64(x.AsDuration())` (`inKey`, templates/goshared/register.go:240-242). -/
def durationcmpTpl (all : Bool) (c : Ctx) (r : DurationRules) (dur : Int) : Exec :=
  (match r.const with
   | some k => when (dur != k.lit) (report all (err c [.s "value must equal ", .dur k]))
   | none => skip) ;;
  durRangeTpl all c r dur ;;
  (if !r.ins.isEmpty then
     when (!(r.ins.any fun k => k.asDuration == dur))
       (report all (err c [.s "value must be in list ", .durs r.ins]))
   else if !r.notIns.isEmpty then
     when (r.notIns.any fun k => k.asDuration == dur)
       (report all (err c [.s "value must not be in list ", .durs r.notIns]))
   else skip)

/-- templates/go/duration.go:3-18 (durationTpl); `none` is an unset field. -/
def durationTpl (all : Bool) (c : Ctx) (r : DurationRules) (d : Option PDur) : Exec :=
  requiredTpl all c (optB r.required) d.isNone ;;
  if !r.ins.isEmpty || !r.notIns.isEmpty || r.lt.isSome || r.lte.isSome || r.gt.isSome ||
      r.gte.isSome || r.const.isSome then
    match d with
    | none => skip
    | some d =>
      if !d.valid then
        report all (errCause c (.lib "invalid duration") [.s "value is not a valid duration"])
      else durationcmpTpl all c r d.asDuration
  else skip

/-- `tsGt` (templates/goshared/register.go:276-281). -/
def tsGt (a b : PTime) : Bool := decide (b.asTime < a.asTime)

/-- templates/goshared/timestamp.go:19-136: range and now rules. The chain is
lt / lte / gt / gte / lt_now / gt_now / within, all tested by pointer presence. -/
def tsRangeTpl (now : Instant) (all : Bool) (c : Ctx) (r : TimestampRules) (ts : Instant) : Exec :=
  match r.lt with
  | some lt =>
    match r.gt with
    | some gt =>
      if tsGt lt gt then
        when (decide (ts.sub gt.asTime ≤ 0) || decide (ts.sub lt.asTime ≥ 0))
          (report all (err c [.s "value must be inside range (", .ts gt, .s ", ", .ts lt, .s ")"]))
      else
        when (decide (ts.sub lt.asTime ≥ 0) && decide (ts.sub gt.asTime ≤ 0))
          (report all (err c [.s "value must be outside range [", .ts lt, .s ", ", .ts gt, .s "]"]))
    | none =>
      match r.gte with
      | some gte =>
        if tsGt lt gte then
          when (decide (ts.sub gte.asTime < 0) || decide (ts.sub lt.asTime ≥ 0))
            (report all (err c [.s "value must be inside range [", .ts gte, .s ", ", .ts lt, .s ")"]))
        else
          when (decide (ts.sub lt.asTime ≥ 0) && decide (ts.sub gte.asTime < 0))
            (report all (err c [.s "value must be outside range [", .ts lt, .s ", ", .ts gte, .s ")"]))
      | none =>
        when (decide (ts.sub lt.asTime ≥ 0)) (report all (err c [.s "value must be less than ", .ts lt]))
  | none =>
    match r.lte with
    | some lte =>
      match r.gt with
      | some gt =>
        if tsGt lte gt then
          when (decide (ts.sub gt.asTime ≤ 0) || decide (ts.sub lte.asTime > 0))
            (report all (err c [.s "value must be inside range (", .ts gt, .s ", ", .ts lte, .s "]"]))
        else
          when (decide (ts.sub lte.asTime > 0) && decide (ts.sub gt.asTime ≤ 0))
            (report all (err c [.s "value must be outside range (", .ts lte, .s ", ", .ts gt, .s "]"]))
      | none =>
        match r.gte with
        | some gte =>
          if tsGt lte gte then
            when (decide (ts.sub gte.asTime < 0) || decide (ts.sub lte.asTime > 0))
              (report all (err c [.s "value must be inside range [", .ts gte, .s ", ", .ts lte, .s "]"]))
          else
            when (decide (ts.sub lte.asTime > 0) && decide (ts.sub gte.asTime < 0))
              (report all (err c [.s "value must be outside range (", .ts lte, .s ", ", .ts gte, .s ")"]))
        | none =>
          when (decide (ts.sub lte.asTime > 0))
            (report all (err c [.s "value must be less than or equal to ", .ts lte]))
    | none =>
      match r.gt with
      | some gt =>
        when (decide (ts.sub gt.asTime ≤ 0)) (report all (err c [.s "value must be greater than ", .ts gt]))
      | none =>
        match r.gte with
        | some gte =>
          when (decide (ts.sub gte.asTime < 0))
            (report all (err c [.s "value must be greater than or equal to ", .ts gte]))
        | none =>
          if r.ltNow.isSome then
            match r.within with
            | some w =>
              when (decide (ts.sub now ≥ 0) || decide (ts.sub (now.add (-w.lit)) < 0))
                (report all (err c [.s "value must be less than now within ", .dur w]))
            | none => when (decide (ts.sub now ≥ 0)) (report all (err c [.s "value must be less than now"]))
          else if r.gtNow.isSome then
            match r.within with
            | some w =>
              when (decide (ts.sub now ≤ 0) || decide (ts.sub (now.add w.lit) > 0))
                (report all (err c [.s "value must be greater than now within ", .dur w]))
            | none =>
              when (decide (ts.sub now ≤ 0)) (report all (err c [.s "value must be greater than now"]))
          else
            match r.within with
            | some w =>
              when (decide (ts.sub (now.add w.lit) ≥ 0) || decide (ts.sub (now.add (-w.lit)) ≤ 0))
                (report all (err c [.s "value must be within ", .dur w, .s " of now"]))
            | none => skip

/-- templates/goshared/timestamp.go:3-138 (timestampcmpTpl). -/
def timestampcmpTpl (now : Instant) (all : Bool) (c : Ctx) (r : TimestampRules) (ts : Instant) :
    Exec :=
  (match r.const with
   | some k => when (!decide (ts = k.asTime)) (report all (err c [.s "value must equal ", .ts k]))
   | none => skip) ;;
  tsRangeTpl now all c r ts

/-- templates/go/timestamp.go:3-18 (timestampTpl); `none` is an unset field. -/
def timestampTpl (now : Instant) (all : Bool) (c : Ctx) (r : TimestampRules) (t : Option PTime) :
    Exec :=
  requiredTpl all c (optB r.required) t.isNone ;;
  if r.lt.isSome || r.lte.isSome || r.gt.isSome || r.gte.isSome || r.ltNow.isSome ||
      r.gtNow.isSome || r.within.isSome || r.const.isSome then
    match t with
    | none => skip
    | some t =>
      if !t.valid then
        report all (errCause c (.lib "invalid timestamp") [.s "value is not a valid timestamp"])
      else timestampcmpTpl now all c r t.asTime
  else skip

end PGV.Go
