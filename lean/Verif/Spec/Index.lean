import Verif.Java.Index

/-!
What the users of Java validator indexes rely on.
-/

namespace PGV.Spec
open PGV PGV.Java

/-- The implementation registered last for a class in a history of calls. -/
def lastAdded {K M : Type} [DecidableEq K] (k : K) (h : List (ExplicitOp K M)) : Option (Impl M) :=
  (h.filterMap fun
    | .add k' i => if k' = k then some i else none
    | .lookup _ => none).getLast?

/-- What an index's documentation promises for a class: the implementation registered for it, or else
the fallback's validator. -/
def documented {K M : Type} (fallback : Fallback K M) (k : K) (m : M) : Option (Impl M) → Run
  | some i => i m
  | none => fallback k m

/-- The outcome of validating `m` with a validator of class `k` that was looked up after the calls
`before` on a fresh index, and used after the further calls `after`. -/
def explicitOutcome {K M : Type} [DecidableEq K] (fallback : Fallback K M)
    (before : List (ExplicitOp K M)) (k : K) (after : List (ExplicitOp K M)) (m : M) : Run :=
  let (s, validator) := (({} : Explicit K M).steps before).validatorFor k
  (s.steps after).run fallback validator m

/-- The validators returned by a sequence of lookups on a fresh reflective index. -/
def reflectiveResults {K V : Type} [DecidableEq K] (L : Loader K V) (ks : List K) : List (Option V) :=
  (({} : Reflective K V).lookups L ks).2

/-- The classes for which a sequence of lookups on a fresh index tries reflection. -/
def classesReflected {K V : Type} [DecidableEq K] (L : Loader K V) (ks : List K) : List K :=
  (({} : Reflective K V).lookups L ks).1.reflected

/-- The classes for which it asks the fallback. -/
def classesAsked {K V : Type} [DecidableEq K] (L : Loader K V) (ks : List K) : List K :=
  (({} : Reflective K V).lookups L ks).1.asked

/-- `Within path ms`: a message, not ignored, has this path in the file's messages `ms`. -/
inductive Within : List String → List JMsg → Prop
  | top {n ns ms} : JMsg.mk n false ns ∈ ms → Within [n] ms
  | nested {n i ns ms p} : JMsg.mk n i ns ∈ ms → Within p ns → Within (n :: p) ms

/-- The class loader finds the emitted validator classes of the file. -/
def Loads {V : Type} (loadClass : String → Option (ValidatorClass V))
    (classes : List (String × ValidatorClass V)) : Prop :=
  ∀ e ∈ classes, loadClass e.1 = some e.2

end PGV.Spec
