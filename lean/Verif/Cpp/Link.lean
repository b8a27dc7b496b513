import Verif.Cpp.Names
import Verif.Java.Names
import Verif.Module.Paths

/-!
Names that the C++ files of one program share: the variables that register validators, and the macros of
the headers.
-/

namespace PGV.Cpp
open PGV

/-- A message as far as these names go (what templates/cc/register.go:153-166,420-422 look at): the parts of
the package, the names of the enclosing messages and its own, and its options. -/
structure LinkMessage where
  package : List Ident
  path : List Ident
  ignored : Bool := false
  disabled : Bool := false

/-- `classBaseName` (templates/cc/register.go:153-158). -/
def classBaseName : List Ident → Ident
  | [] => []
  | n :: ns => ns.foldl (fun cls m => cls ++ '_' :: m) n

/-- `strings.Join` with `::` and then one more in front (templates/cc/register.go:164-166). -/
def packageName (parts : List Ident) : Ident := "::".toList ++ List.intercalate "::".toList parts

/-- `className` (templates/cc/register.go:160-162). -/
def className (m : LinkMessage) : Ident := packageName m.package ++ "::".toList ++ classBaseName m.path

/-- `staticVarName` (templates/cc/register.go:420-422). -/
def staticVarName (m : LinkMessage) : Ident :=
  "validator_".toList ++ (className m).map fun c => if c = ':' then '_' else c

/-- The variables a source file defines in the namespace `pgv::validate`, for the messages that are neither ignored nor
disabled (templates/cc/file.go:17-32). -/
def variables (file : List LinkMessage) : List Ident :=
  (file.filter fun m => !m.ignored && !m.disabled).map staticVarName

/-- `BaseName` of `pgs.FilePath`: the last element of the path without its extension
(called in templates/cc/file.go:79). -/
def baseName (path : Ident) : Ident :=
  Module.stem (path.reverse.takeWhile (· != '/')).reverse

/-- The macro a header defines; `package` is the package in capitals, as `ScreamingSnakeCase` of `protoc-gen-star`
writes it (templates/cc/file.go:79, templates/cc/register.go:100). -/
def macroName (package path : Ident) : Ident :=
  "X_".toList ++ package ++ '_' :: JavaNames.toScreamingSnake (baseName path)

/-- A file: the parts of its package and its messages, nested ones included. -/
structure LinkFile where
  package : List Ident
  messages : List LinkMessage

/-- A function `Validate`: its name with all its namespaces, and the class of its first parameter. -/
abbrev Function := Ident × Ident

/-- The name of something that is declared inside the namespaces of the package, one in the other
(templates/cc/file.go:37-39,65-67). -/
def inside : List Ident → Ident → Ident
  | [], n => n
  | p :: ps, n => "::".toList ++ p ++ inside ps n

/-- The functions a header declares (templates/cc/file.go:65-77, templates/cc/msg.go:3-7). -/
def declared (f : LinkFile) : List Function :=
  (f.messages.filter fun m => !m.ignored).map fun m => (inside f.package "::Validate".toList, className m)

/-- The functions a source file defines, those of disabled messages included (templates/cc/file.go:37-47,
templates/cc/msg.go:9-15,96-124). -/
def defined (f : LinkFile) : List Function :=
  (f.messages.filter fun m => !m.ignored).map fun m => (inside f.package "::Validate".toList, className m)

/-- The functions whose addresses a source file takes to register them (templates/cc/file.go:24-32). -/
def registered (f : LinkFile) : List Function :=
  (f.messages.filter fun m => !m.ignored && !m.disabled).map fun m =>
    (packageName m.package ++ "::Validate".toList, className m)

/-- The classes in the macro of a header (templates/cc/file.go:79-84). -/
def listed (f : LinkFile) : List Ident := (f.messages.filter fun m => !m.ignored).map className

end PGV.Cpp
