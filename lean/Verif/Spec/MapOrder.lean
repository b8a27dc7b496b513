import Verif.Core.Schema

/-!
Messages that differ only in the order of the entries of maps.
-/

namespace PGV.Spec
open PGV

/-- `Reorder v w`: `w` is `v` with the entries of maps, at any depth, in another order. (A map field has no
order: two such messages are equal, and may be the results of parsing the same bytes.) -/
inductive Reorder : Val → Val → Prop
  | map {kvs kvs' : List (Scalar × Val)} : kvs.Perm kvs' → Reorder (.map kvs) (.map kvs')
  | entry {l k u u' r} : Reorder u u' → Reorder (.map (l ++ (k, u) :: r)) (.map (l ++ (k, u') :: r))
  | item {l u u' r} : Reorder u u' → Reorder (.list (l ++ u :: r)) (.list (l ++ u' :: r))
  | field {typ l n u u' r os} : Reorder u u' →
      Reorder (.msg typ (l ++ (n, u) :: r) os) (.msg typ (l ++ (n, u') :: r) os)
  | member {typ fs l n m u u' r} : Reorder u u' →
      Reorder (.msg typ fs (l ++ (n, m, u) :: r)) (.msg typ fs (l ++ (n, m, u') :: r))
  | trans {u v w} : Reorder u v → Reorder v w → Reorder u w

/-- A verdict that is the same for equal messages. -/
def Respects (ok : Val → Prop) : Prop := ∀ v w, Reorder v w → (ok v ↔ ok w)

end PGV.Spec
