import Verif.Spec.Portable

/-!
When a Java validator can do without exceptions other than `ValidationException`.
-/

namespace PGV.Spec
open PGV

/-- The statement returns or throws a `ValidationException`, the kind that has a field (`getField()`). -/
def IsVerdict (r : Java.Run) : Prop := ∀ e, r = .error e → e.field ≠ none

/-- A duration can be compared with the limits of the rules: both are valid. -/
def SettledDur (r : DurationRules) (d : PDur) : Prop :=
  ∀ b, r.lt = some b ∨ r.lte = some b ∨ r.gt = some b ∨ r.gte = some b → d.valid = true ∧ b.valid = true

/-- A number of nanoseconds that a `long` can hold. -/
def Long (n : Int) : Prop := -9223372036854775808 ≤ n ∧ n ≤ 9223372036854775807

/-- A time can be compared with the limits of the rules and with the clock; for `within`, both the window and the
distance from now are at most 292 years. -/
def SettledTime (J : Java.JEnv) (r : TimestampRules) (t : PTime) : Prop :=
  (∀ b, r.lt = some b ∨ r.lte = some b ∨ r.gt = some b ∨ r.gte = some b → t.valid = true ∧ b.valid = true) ∧
  (r.ltNow ≠ none ∨ r.gtNow ≠ none ∨ r.within ≠ none → t.valid = true ∧ (Java.fromMillis J.nowMs).valid = true) ∧
  (∀ w, r.within = some w → w.valid = true ∧ Long w.exact ∧ Long (instant t - instant (Java.fromMillis J.nowMs)))

/-- A value under rules: times are as above, and a constant of an enum is declared. -/
def Settled (J : Java.JEnv) (e : ElemT) (t : TypeRules) (v : Val) : Prop :=
  match t, v with
  | .duration r, .dur d => SettledDur r d
  | .timestamp r, .ts t => SettledTime J r t
  | .enum r, _ => ∀ declared c, e = .enum declared → r.const = some c → c ∈ declared
  | _, _ => True

/-- A field and its value: the value itself, or its items, or its keys and values. -/
def SettledField (J : Java.JEnv) (f : FieldDesc) (v : Val) : Prop :=
  match f.typ, v, f.rules.type with
  | .one e, v, t => Settled J e t v
  | .rep e, .list vs, .repeated _ items => ∀ v ∈ vs, Settled J e items.type v
  | .map kt vt, .map kvs, .map _ keys values =>
    ∀ kv ∈ kvs, Settled J kt keys.type (.sc kv.1) ∧ Settled J vt values.type kv.2
  | _, _, _ => True

/-- All messages in `v`, at any depth. -/
def AllSettled (J : Java.JEnv) (S : Schema) (v : Val) : Prop :=
  ∀ typ fs os d, Part (.msg typ fs os) v → S typ = .generated d →
    (∀ f ∈ d.fields, SettledField J f (getField fs f)) ∧
    (∀ o ∈ d.oneofs, ∀ f ∈ o.fields, ∀ u, os.lookup o.name = some (f.name, u) → SettledField J f u)

end PGV.Spec
