import Verif.Spec.Nesting
import Verif.Spec.Rules

/-!
Which rules are not implemented in C++, and which values they apply to.
-/

namespace PGV.Spec.Cpp
open PGV PGV.Spec

/-- `ValueAt f v e rules w`: the field `f` with value `v` has the value `w` of type `e` under the rules
`rules`: itself, an item, a map key or a map value. -/
inductive ValueAt (f : FieldDesc) : Val → ElemT → FieldRules → Val → Prop
  | field {e w} : f.typ = .one e → ValueAt f w e f.rules w
  | item {e vs rules w} : f.typ = .rep e → itemRules f.rules = some rules → w ∈ vs →
      ValueAt f (.list vs) e rules w
  | key {e vt r keys values kvs key w} : f.typ = .map e vt → f.rules.type = .map r keys values →
      (key, w) ∈ kvs → ValueAt f (.map kvs) e keys (.sc key)
  | value {kt e kvs key rules w} : f.typ = .map kt e → valueRules f.rules = some rules →
      (key, w) ∈ kvs → ValueAt f (.map kvs) e rules w

/-- A string field, or a `StringValue` that is set. -/
def HoldsString (e : ElemT) (w : Val) (s : Bytes) : Prop :=
  (e = .string ∧ w = .sc (.str s)) ∨ ((∃ n k, e = .embed n k) ∧ w = .wrapper (.str s))

/-- A bytes field, or a `BytesValue` that is set. -/
def HoldsBytes (e : ElemT) (w : Val) (s : Bytes) : Prop :=
  (e = .bytes ∧ w = .sc (.bytes s)) ∨ ((∃ n k, e = .embed n k) ∧ w = .wrapper (.bytes s))

/-- Values with rules that C++ validators do not implement: e-mail addresses and URIs, IP addresses
in bytes, and comparisons of timestamps. -/
inductive Unimplemented : ElemT → FieldRules → Val → Prop
  | text {e rules w r s} : rules.type = .string r → HoldsString e w s →
      r.wellKnown = some (.email true) ∨ r.wellKnown = some (.uri true) ∨
        r.wellKnown = some (.uriRef true) →
      ¬ (r.ignoreEmpty = some true ∧ s = []) → Unimplemented e rules w
  | address {e rules w r s} : rules.type = .bytes r → HoldsBytes e w s →
      r.wellKnown = some (.ip true) ∨ r.wellKnown = some (.ipv4 true) ∨
        r.wellKnown = some (.ipv6 true) →
      ¬ (r.ignoreEmpty = some true ∧ s = []) → Unimplemented e rules w
  | time {e rules w r} : rules.type = .timestamp r → (w = .null ∨ ∃ t, w = .ts t) → TsConstrained r →
      Unimplemented e rules w

/-- Maps with `no_sparse`, which C++ validators do not implement either. -/
def SparseRule (f : FieldDesc) (v : Val) : Prop :=
  ∃ k e r keys values kvs, f.typ = .map k e ∧ f.rules.type = .map r keys values ∧ v = .map kvs ∧
    r.noSparse = some true ∧ ¬ (r.ignoreEmpty = some true ∧ kvs = [])

/-- The message has a field with a rule that is not implemented. -/
def HasUnimplemented (S : Schema) (u : Val) : Prop :=
  ∃ typ fs os d f v, u = .msg typ fs os ∧ S typ = .generated d ∧ d.disabled = false ∧ d.ignored = false ∧
    Active d fs os f v ∧
    ((∃ e rules w, ValueAt f v e rules w ∧ Unimplemented e rules w) ∨ SparseRule f v)

end PGV.Spec.Cpp
