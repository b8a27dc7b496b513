import Verif.Java.Lib

/-!
The validator indexes of the Java runtime (java/pgv-java-stub) as state machines, and how the
reflective one finds the validators that the generator emits.

A `ConcurrentHashMap` is an association list: `put` and `computeIfAbsent` are atomic, so a history of
calls from any number of threads is a list of operations. `null` classes (on which the maps throw)
are not modelled.
-/

namespace PGV.Java
open PGV

/-- Class objects are compared with `equals`
(java/pgv-java-stub/src/main/java/io/envoyproxy/pgv/ReflectiveValidatorIndex.java:32; ExplicitValidatorIndex.java:29,35-36). -/
abbrev Table (K V : Type) := List (K × V)

/-- `ConcurrentHashMap.put` (java/pgv-java-stub/src/main/java/io/envoyproxy/pgv/ExplicitValidatorIndex.java:29). -/
def Table.put {K V : Type} [DecidableEq K] (t : Table K V) (k : K) (v : V) : Table K V :=
  (k, v) :: t.filter (fun e => e.1 ≠ k)

/-- `ConcurrentHashMap.get`
(java/pgv-java-stub/src/main/java/io/envoyproxy/pgv/ExplicitValidatorIndex.java:35-36). -/
def Table.get {K V : Type} [DecidableEq K] (t : Table K V) (k : K) : Option V :=
  (t.find? (fun e => e.1 = k)).map (·.2)

/-! ### ExplicitValidatorIndex -/

/-- A `ValidatorImpl` applied to the index it is registered in
(java/pgv-java-stub/src/main/java/io/envoyproxy/pgv/ValidatorImpl.java:8-20). -/
abbrev Impl (M : Type) := M → Run

/-- What `fallbackIndex.validatorFor(c)` does: the validator it returns, applied to a message
(java/pgv-java-stub/src/main/java/io/envoyproxy/pgv/ExplicitValidatorIndex.java:36; ReflectiveValidatorIndex.java:36). -/
abbrev Fallback (K M : Type) := K → M → Run

/-- The fields of ExplicitValidatorIndex (ExplicitValidatorIndex.java:10-12). The second map holds
closures; each is determined by the class `c` it captured. -/
structure Explicit (K M : Type) where
  impls : Table K (Impl M) := []
  validators : Table K K := []

/-- ExplicitValidatorIndex.add (ExplicitValidatorIndex.java:28-31). -/
def Explicit.add {K M : Type} [DecidableEq K] (s : Explicit K M) (k : K) (i : Impl M) : Explicit K M :=
  { s with impls := s.impls.put k i }

/-- ExplicitValidatorIndex.validatorFor (ExplicitValidatorIndex.java:34-38): the closure for the
class, made on the first call. -/
def Explicit.validatorFor {K M : Type} [DecidableEq K] (s : Explicit K M) (k : K) : Explicit K M × K :=
  match s.validators.get k with
  | some c => (s, c)
  | none => ({ s with validators := s.validators.put k k }, k)

/-- Running the closure made in ExplicitValidatorIndex.java:35-37 on a message:
`VALIDATOR_IMPL_INDEX.getOrDefault(c, (p, i) -> fallbackIndex.validatorFor(c)).assertValid(proto, this)`.
The default implementation asks the fallback index for a validator and drops it. -/
def Explicit.run {K M : Type} [DecidableEq K] (_fallback : Fallback K M) (s : Explicit K M) (c : K)
    (m : M) : Run :=
  match s.impls.get c with
  | some i => i m
  | none => .ok ()

/-- A call on an explicit index that changes its state
(java/pgv-java-stub/src/main/java/io/envoyproxy/pgv/ExplicitValidatorIndex.java:28-38). -/
inductive ExplicitOp (K M : Type)
  | add (k : K) (i : Impl M)
  | lookup (k : K)

/-- One call (java/pgv-java-stub/src/main/java/io/envoyproxy/pgv/ExplicitValidatorIndex.java:28-38). -/
def Explicit.step {K M : Type} [DecidableEq K] (s : Explicit K M) : ExplicitOp K M → Explicit K M
  | .add k i => s.add k i
  | .lookup k => (s.validatorFor k).1

/-- A history of calls (java/pgv-java-stub/src/main/java/io/envoyproxy/pgv/ExplicitValidatorIndex.java:28-38). -/
def Explicit.steps {K M : Type} [DecidableEq K] (s : Explicit K M) (h : List (ExplicitOp K M)) :
    Explicit K M := h.foldl Explicit.step s

/-! ### ReflectiveValidatorIndex -/

/-- What happens outside the index during the `n`-th loading of a class: reflection finds a validator
or throws a ReflectiveOperationException, and the fallback index returns a validator or `null`. Both
may change over time (java/pgv-java-stub/src/main/java/io/envoyproxy/pgv/ReflectiveValidatorIndex.java:33-37). -/
structure Loader (K V : Type) where
  reflect : Nat → K → Option V
  fallback : Nat → K → Option V

/-- A reflective index, with the history of its consultations of the outside
(java/pgv-java-stub/src/main/java/io/envoyproxy/pgv/ReflectiveValidatorIndex.java:11-24). -/
structure Reflective (K V : Type) where
  index : Table K V := []
  /-- Classes for which reflection was tried, latest first. -/
  reflected : List K := []
  /-- Classes for which the fallback was asked, latest first. -/
  asked : List K := []

/-- The function passed to computeIfAbsent (ReflectiveValidatorIndex.java:34-40). -/
def load {K V : Type} (L : Loader K V) (n : Nat) (k : K) : Option V :=
  match L.reflect n k with
  | some v => some v
  | none => L.fallback n k

/-- ReflectiveValidatorIndex.validatorFor (ReflectiveValidatorIndex.java:31-42). computeIfAbsent does
not record a `null` result. -/
def Reflective.validatorFor {K V : Type} [DecidableEq K] (L : Loader K V) (s : Reflective K V) (k : K) :
    Reflective K V × Option V :=
  match s.index.get k with
  | some v => (s, some v)
  | none =>
    let n := s.reflected.length
    let s' := { s with
      reflected := k :: s.reflected
      asked := if (L.reflect n k).isNone then k :: s.asked else s.asked }
    match load L n k with
    | some v => ({ s' with index := s'.index.put k v }, some v)
    | none => (s', none)

/-- A sequence of lookups: the final state and the validators returned
(java/pgv-java-stub/src/main/java/io/envoyproxy/pgv/ReflectiveValidatorIndex.java:31-39). -/
def Reflective.lookups {K V : Type} [DecidableEq K] (L : Loader K V) (s : Reflective K V) :
    List K → Reflective K V × List (Option V)
  | [] => (s, [])
  | k :: ks =>
    let (s', r) := s.validatorFor L k
    let (s'', rs) := Reflective.lookups L s' ks
    (s'', r :: rs)

/-! ### What reflection finds -/

/-- A Java class: its package, its outermost enclosing class and the path from there
(java/pgv-java-stub/src/main/java/io/envoyproxy/pgv/ReflectiveValidatorIndex.java:43-48). -/
structure JClass where
  pkg : String
  outer : String
  inner : List String
  deriving DecidableEq, Repr

/-- `Class.getEnclosingClass`
(called in java/pgv-java-stub/src/main/java/io/envoyproxy/pgv/ReflectiveValidatorIndex.java:44-45). -/
def JClass.enclosing (c : JClass) : Option JClass :=
  if c.inner = [] then none else some { c with inner := c.inner.dropLast }

/-- The loop over enclosing classes (ReflectiveValidatorIndex.java:46-49); `n` bounds its length. -/
def outermost : Nat → JClass → JClass
  | 0, c => c
  | n + 1, c =>
    match c.enclosing with
    | some e => outermost n e
    | none => c

/-- `Class.getName` of a class that is not nested
(called in java/pgv-java-stub/src/main/java/io/envoyproxy/pgv/ReflectiveValidatorIndex.java:48). -/
def qualify (pkg name : String) : String := if pkg = "" then name else pkg ++ "." ++ name

/-- A loaded validator class: its static method `validatorFor(Class)`; `none` is `null`
(templates/java/file.go:11-18,30-38). -/
abbrev ValidatorClass (V : Type) := JClass → Option V

/-- ReflectiveValidatorIndex.reflectiveValidatorFor (ReflectiveValidatorIndex.java:45-54). The outer
`none` is a ReflectiveOperationException; the inner one is a closure around a `null` implementation,
which throws when run. -/
def reflectiveValidatorFor {V : Type} (loadClass : String → Option (ValidatorClass V)) (c : JClass) :
    Option (Option V) :=
  let e := outermost c.inner.length c
  match loadClass (qualify e.pkg e.outer ++ "Validator") with
  | none => none
  | some vc => some (vc c)

/-! ### What the generator emits -/

/-- A message of a file, with its nested messages (what templates/java/file.go:12-22,31-42 ranges over). -/
inductive JMsg
  | mk (name : String) (ignored : Bool) (nested : List JMsg)

/-- The name (templates/java/file.go:14). -/
def JMsg.name : JMsg → String | .mk n _ _ => n
/-- The option `ignored` (templates/java/file.go:13). -/
def JMsg.ignored : JMsg → Bool | .mk _ i _ => i
/-- The messages inside (templates/java/file.go:32). -/
def JMsg.nested : JMsg → List JMsg | .mk _ _ ns => ns

mutual
/-- `AllMessages` of a message: its nested messages at every depth, as paths of names below `path`,
with their `ignored` option. (protoc-gen-star lists direct ones first; only membership matters
here.) (templates/java/file.go:12,32). -/
def allNested (path : List String) : JMsg → List (List String × Bool)
  | .mk _ _ ns => allOf path ns
/-- The messages in a list and everything nested in them (templates/java/file.go:12). -/
def allOf (path : List String) : List JMsg → List (List String × Bool)
  | [] => []
  | m :: ms => (path ++ [m.name], m.ignored) :: (allNested (path ++ [m.name]) m ++ allOf path ms)
end

/-- A proto file, as the Java templates see it (templates/java/file.go:3-45). -/
structure JFile where
  /-- javaPackage (templates/java/register.go:183-190). -/
  pkg : String
  /-- classNameFile (templates/java/register.go:148-161). -/
  outer : String
  /-- option java_multiple_files. -/
  multiple : Bool
  msgs : List JMsg

/-- qualifiedName of the message with this path (templates/java/register.go:192-219), as the class
it denotes. -/
def JFile.classOf (f : JFile) (path : List String) : JClass :=
  if f.multiple then ⟨f.pkg, path.headD "", path.tail⟩ else ⟨f.pkg, f.outer, path⟩

/-- The chain of `if (clazz.equals(X.class)) return new XValidator();` over messages that are not
ignored (templates/java/file.go:12-17). A validator is identified by the path of its message. -/
def dispatch (f : JFile) (ms : List (List String × Bool)) : ValidatorClass (List String) := fun c =>
  (ms.find? (fun m => !m.2 && c == f.classOf m.1)).map (·.1)

/-- The validator classes emitted for a file, by qualified name: one named after the outer class
(templates/java/file.go:8-24), or one per top-level message, which also answers for that message
when it is ignored (templates/java/file.go:25-43). `sanitize` is classNameMessage
(templates/java/register.go:163-173). -/
def emitted (sanitize : String → String) (f : JFile) : List (String × ValidatorClass (List String)) :=
  if f.multiple then
    f.msgs.map fun m =>
      (qualify f.pkg (sanitize m.name ++ "Validator"),
        fun c => if c = f.classOf [m.name] then some [m.name] else dispatch f (allNested [m.name] m) c)
  else [(qualify f.pkg (f.outer ++ "Validator"), dispatch f (allOf [] f.msgs))]

end PGV.Java
