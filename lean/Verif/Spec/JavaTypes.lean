import Verif.Java.TypeMap
import Verif.Spec.JavaNames

/-!
The names of messages in proto files, and of the Java classes that protoc makes for them.
-/

namespace PGV.Spec.JavaTypes
open PGV.Cpp (Ident isLow isUp isDig)
open PGV.JavaNames (TypeTree NamedFile protocOuter protocCap nameWithinAny)
open PGV.TypeMap (PMsg PFile afterSlash)

/-- The messages of a list, at any depth, by the path of names that leads to them. -/
inductive Inside : List Ident → List PMsg → Prop
  | here {ms : List PMsg} (m : PMsg) (h : m ∈ ms) : Inside [m.name] ms
  | deeper {ms : List PMsg} (m : PMsg) (h : m ∈ ms) {p : List Ident} (hp : Inside p m.nested) : Inside (m.name :: p) ms

/-- The full name of a message with its leading dot: `.package.Outer.Inner`. -/
def fullName (f : PFile) (p : List Ident) : Ident :=
  (match f.package with | some q => '.' :: q | none => []) ++ p.flatMap fun n => '.' :: n

mutual
/-- The types in a message: the messages and enums nested in it. -/
def treeOf : PMsg → TypeTree
  | .mk n es ns => .mk n (es.map (fun e => .mk e []) ++ treesOf ns)
/-- Those of a list. -/
def treesOf : List PMsg → List TypeTree
  | [] => []
  | m :: ms => treeOf m :: treesOf ms
end

/-- What decides the outer class of a file for protoc. -/
def named (f : PFile) : NamedFile where
  base := afterSlash f.path
  outerOption := f.outerOption
  multiple := f.multiple
  types := f.enums.map (fun e => .mk e []) ++ treesOf f.msgs
  services := f.services

/-- The Java package of a file: the option, or the proto package, or none. -/
def packageName (f : PFile) : Ident := f.javaPackage.getD (f.package.getD [])

/-- The name `Class.forName` knows the class of a message by: the package, a dot, and the classes around it with dollars
between them. The outermost is the outer class of the file, or with `java_multiple_files` the top-level message. -/
def binaryName (f : PFile) (p : List Ident) : Ident :=
  (if packageName f = [] then [] else packageName f ++ ['.']) ++
    List.intercalate ['$'] (if f.multiple then p else protocOuter (named f) :: p)

mutual
/-- The paths of a message and of the types in it, each enum as if it were declared beside the message that holds it. -/
def pathsOf : PMsg → List (List Ident)
  | .mk n es ns => [n] :: (es.map (fun e => [e]) ++ (pathsIn ns).map (n :: ·))
/-- Those of a list of messages. -/
def pathsIn : List PMsg → List (List Ident)
  | [] => []
  | m :: ms => pathsOf m ++ pathsIn ms
end

/-- The full names of the types of a file, when the enums of a message count as if declared beside it. -/
def shiftedNames (f : PFile) : List Ident := (f.enums.map (fun e => [e]) ++ pathsIn f.msgs).map (fullName f)

mutual
/-- No enum is declared inside a message. -/
def NoInnerEnums : PMsg → Prop
  | .mk _ es ns => es = [] ∧ NoInnerEnumsIn ns
/-- In no message of a list. -/
def NoInnerEnumsIn : List PMsg → Prop
  | [] => True
  | m :: ms => NoInnerEnums m ∧ NoInnerEnumsIn ms
end

/-- An upper-case letter right after a letter, as in `fooBar` or `URL`. -/
def CapitalInWord (s : Ident) : Prop :=
  ∃ a x y r, s = a ++ x :: y :: r ∧ (isLow x = true ∨ isUp x = true) ∧ isUp y = true

/-- No type nested in a message is called like the outer class, unless a top-level type or service is too. -/
def NoHiddenClash (f : PFile) : Prop :=
  nameWithinAny (protocCap (afterSlash f.path)) (named f).types = true →
    protocCap (afterSlash f.path) ∈ f.enums ++ f.msgs.map PMsg.name ++ f.services

end PGV.Spec.JavaTypes
