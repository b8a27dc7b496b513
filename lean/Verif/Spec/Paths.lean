import Verif.Module.Paths

/-!
What names of output files should be.
-/

namespace PGV.Spec.Paths
open PGV PGV.Module PGV.JavaNames
open PGV.Cpp (Ident)

/-- The `module` parameter leaves this path as it is: it does not occur in it, and the path does not begin
with a slash. -/
def Untouched (mod p : Path) : Prop := (mod = [] ∨ ¬ mod <:+: p) ∧ p.head? ≠ some '/'

/-- A name that ends in `.proto`, does not begin with a slash and is more than that ending. -/
def ProtoName (p : Path) : Prop := ∃ q : Path, p = q ++ ".proto".toList ∧ q ≠ [] ∧ q.head? ≠ some '/'

/-- The top-level classes protoc writes for the messages of a file. -/
def protocClasses (f : Source) : List Ident :=
  if f.named.multiple then f.top.map (fun m => m.name.toList) else [protocOuter f.named]

/-- The generator knows these classes by the same names (C88 says when). -/
def KnownByName (f : Source) : Prop :=
  if f.named.multiple then ∀ m ∈ f.top, classNameMessage m.name.toList = m.name.toList
  else classNameFile f.named = protocOuter f.named

/-- The Java package of the classes protoc writes for a file: the option `java_package`, or else the package. -/
def protocPackage (f : Source) : Ident := f.javaOption.getD f.package

/-- Where javac looks for a public class: in a folder for each part of the package. -/
def classFile (pkg cls : Ident) : Path :=
  (if pkg.isEmpty then [] else pkg.map (fun c => if c = '.' then '/' else c) ++ ['/']) ++ cls ++ ".java".toList

/-- The file protoc writes for a message `m` of a file with java_multiple_files. -/
def protocJavaFile (f : Source) (m : Ident) : Path := classFile (protocPackage f) m

end PGV.Spec.Paths
