import Verif.Spec.Portable
import Verif.Spec.CppPortable
import Verif.Spec.PyPortable
import Verif.Spec.Local

/-!
Rules that mean the same in all four languages for all messages, and the messages that a program can hold.
-/

namespace PGV.Spec.Simple
open PGV PGV.Spec PGV.Checker

/-! ### Rules -/

/-- A word: ASCII letters, digits, spaces and `-`, `.`, `/`, `_`. -/
def Word (s : Bytes) : Prop :=
  s ≠ [] ∧ ∀ b ∈ s, (0x61 ≤ b ∧ b ≤ 0x7A) ∨ (0x41 ≤ b ∧ b ≤ 0x5A) ∨ (0x2D ≤ b ∧ b ≤ 0x39) ∨ b = 0x20 ∨ b = 0x5F

/-- Rules of the signed integer kinds, without `ignore_empty`. The least 64-bit number is left out: C++ cannot
write it. -/
structure SimpleNum (k : NumKind) (r : NumRules) : Prop where
  kind : signed k
  checked : checkNum r = true
  some_rule : r ≠ {}
  no_ignore : r.ignoreEmpty = none
  numbers : ∀ b ∈ numbersOf r, ∃ i, b = .int i ∧ IntOf k i ∧ i ≠ -9223372036854775808

/-- String rules about words and lengths other than zero, without patterns, formats and `ignore_empty`. -/
structure SimpleString (r : StringRules) : Prop where
  some_rule : r ≠ {}
  len : checkLen r.len r.minLen r.maxLen = true
  lenBytes : checkLen r.lenBytes r.minBytes r.maxBytes = true
  ins : checkIns r.ins.length r.notIns.length = true
  not_zero : r.len ≠ some 0 ∧ r.maxLen ≠ some 0 ∧ r.lenBytes ≠ some 0 ∧ r.maxBytes ≠ some 0
  words : ∀ s, r.const = some s ∨ r.pfx = some s ∨ r.sfx = some s ∨ r.contains = some s ∨ r.notContains = some s ∨
    s ∈ r.ins ∨ s ∈ r.notIns → Word s
  no_pattern : r.pattern = none
  no_format : r.wellKnown = none
  no_strict : r.strict = none
  no_ignore : r.ignoreEmpty = none

/-- Enum rules that name declared values, and not zero as a constant. -/
structure SimpleEnum (declared : List Int) (r : EnumRules) : Prop where
  some_rule : r ≠ {}
  checked : checkEnum (.elem (.enum declared)) r = true
  declared : PortEnum declared r
  not_zero : r.const ≠ some 0

/-- Rules on one value of a type. -/
inductive SimpleType : ElemT → TypeRules → Prop
  | num {k r} : SimpleNum k r → SimpleType (.scalar k) (.num k r)
  | bool {r} : r ≠ {} → SimpleType .bool (.bool r)
  | string {r} : SimpleString r → SimpleType .string (.string r)
  | enum {declared r} : SimpleEnum declared r → SimpleType (.enum declared) (.enum r)

/-- Types of values: all but the well-known messages; messages not of the package `google.protobuf`. -/
def Ordinary (P : Py.PEnv) : ElemT → Prop
  | .embed n w => w = none ∧ P.google n = false
  | _ => True

/-- A value without rules, or with simple ones. -/
inductive SimpleElem (P : Py.PEnv) : ElemT → FieldRules → Prop
  | free {e} : Ordinary P e → SimpleElem P e .absent
  | ruled {e t} : SimpleType e t → SimpleElem P e (.mk none t)

/-- The message type has exactly the fields `key` and `value`, like an entry of a map. -/
def LikeEntry (P : Py.PEnv) (n : String) : Prop := ∃ k v, P.fieldsOf n = [("key", k), ("value", v)]

/-- Items that `unique` is about. -/
inductive Comparable : ElemT → Prop
  | num {k} : signed k → Comparable (.scalar k)
  | bool : Comparable .bool
  | string : Comparable .string

/-- The rules of a field: none; simple rules; `required` for a message; for lists and maps simple counts (not a
maximum of zero, no `ignore_empty`), `unique` for numbers, truth values and strings, and simple rules for items,
keys and values (none in maps of messages). -/
inductive SimpleField (P : Py.PEnv) : FieldT → FieldRules → Prop
  | one {e rules} : SimpleElem P e rules → SimpleField P (.one e) rules
  | required {n b} : Ordinary P (.embed n none) → SimpleField P (.one (.embed n none)) (.mk (some { required := some b }) .unset)
  | list {e} : Ordinary P e → (∀ n w, e = .embed n w → ¬ LikeEntry P n) → SimpleField P (.rep e) .absent
  | listRules {e r items} : SimpleElem P e items → r ≠ {} ∨ items ≠ .absent → r.maxItems ≠ some 0 → r.ignoreEmpty = none →
      (r.unique = some true → Comparable e) → SimpleField P (.rep e) (.mk none (.repeated r items))
  | map {kt vt} : Ordinary P vt → SimpleField P (.map kt vt) .absent
  | mapRules {kt vt r keys values} : SimpleElem P kt keys → kt.isEmbed = false → (∀ d, kt ≠ .enum d) →
      SimpleElem P vt values → r ≠ {} ∨ keys ≠ .absent ∨ values ≠ .absent → r.maxPairs ≠ some 0 → r.noSparse = none →
      r.ignoreEmpty = none → (vt.isEmbed = true → keys = .absent ∧ values = .absent) →
      SimpleField P (.map kt vt) (.mk none (.map r keys values))

/-- All types of messages in `v`, at any depth, have simple rules only. -/
def Simple (P : Py.PEnv) (S : Schema) (v : Val) : Prop :=
  ∀ typ fs os d, Part (.msg typ fs os) v → S typ = .generated d → ∀ f ∈ Go.allFields d, SimpleField P f.typ f.rules

/-! ### Values -/

/-- A value of a type: numbers of the kind, strings of valid UTF-8, unset messages or messages of the type. -/
inductive HasType : ElemT → Val → Prop
  | num {k n} : Cpp.NumOf k n → HasType (.scalar k) (.sc (.num n))
  | bool {b} : HasType .bool (.sc (.bool b))
  | string {s} : Utf8 s → HasType .string (.sc (.str s))
  | bytes {s} : HasType .bytes (.sc (.bytes s))
  | enum {declared i} : HasType (.enum declared) (.sc (.enum i))
  | unset {n w} : HasType (.embed n w) .null
  | msg {n w fs os} : HasType (.embed n w) (.msg n fs os)

/-- A value of a field. -/
inductive HasFieldType : FieldT → Val → Prop
  | one {e v} : HasType e v → HasFieldType (.one e) v
  | list {e vs} : (∀ v ∈ vs, HasType e v) → HasFieldType (.rep e) (.list vs)
  | map {kt vt kvs} : (∀ kv ∈ kvs, HasType kt (.sc kv.1) ∧ HasType vt kv.2) → HasFieldType (.map kt vt) (.map kvs)

/-- All messages in `v`, at any depth, hold values of the types of their fields; of each oneof, at most one of its
members is set. -/
def WellTyped (S : Schema) (v : Val) : Prop :=
  ∀ typ fs os d, Part (.msg typ fs os) v → S typ = .generated d →
    (∀ f ∈ d.fields, HasFieldType f.typ (getField fs f)) ∧
    (∀ o ∈ d.oneofs, (o.fields.map (·.name)).Nodup ∧ ∀ m u, os.lookup o.name = some (m, u) →
      ∃ f, f ∈ o.fields ∧ f.name = m ∧ HasFieldType f.typ u)

/-! ### Libraries -/

/-- Messages of types without generated validators get the same verdict in all languages; Go's `strconv.IsPrint`
says no to control characters, and its decimals of 64-bit floats read back as the number. -/
structure Others (E : Go.Env) (J : Java.JEnv) (Q : Cpp.CEnv) (P : Py.PEnv) (S : Schema) : Prop where
  java : ∀ v, Outside S v → (J.other v = .ok () ↔ EmbeddedOk E S (fun _ => True) v)
  python : ∀ v, Outside S v → (P.other v = .ok () ↔ EmbeddedOk E S (fun _ => True) v)
  cpp : Cpp.LibsAgree E Q S

end PGV.Spec.Simple
