import Verif.Module.Execute
import Verif.Java.Names

/-!
The names of the files the plugin writes, and the names by which generated C++ files include each other.
-/

namespace PGV.Module
open PGV PGV.JavaNames

/-- A path without its extension: everything from the last `.` of the last element is cut off
(`FilePath.SetExt` of protoc-gen-star, called in templates/cc/register.go:112,425 and templates/pkg.go:43). -/
def stem (p : Path) : Path :=
  match p.reverse.findIdx? (fun c => c == '.' || c == '/') with
  | some i => if p.reverse[i]? == some '.' then p.take (p.length - i - 1) else p
  | none => p

/-- A .proto file as far as the names of its output go (what templates/java/register.go:120-186 and
templates/cc/register.go:110-114 look at). The messages and imports are those of `target`. -/
structure Source where
  /-- The name of the file, with directories and extension. -/
  name : Path
  /-- The package of the file. -/
  package : Path
  /-- Option `java_package`. -/
  javaOption : Option Path
  named : NamedFile
  deps : List String
  top : List MsgDesc
  nested : List MsgDesc
  goStem : Path

/-- `CcFilePath` (templates/cc/register.go:110-114). -/
def ccFilePath (f : Source) (ext : String) : Path := stem f.name ++ ".pb.validate.".toList ++ ext.toList

/-- `output` (templates/cc/register.go:424-426). -/
def ccOutput (f : Source) (ext : String) : Path := stem f.name ++ ".pb".toList ++ ext.toList

/-- What the generated source includes: its header (templates/cc/file.go:7). -/
def sourceIncludes (f : Source) : Path := ccOutput f ".validate.h"

/-- What the generated header includes: the header protoc writes (templates/cc/file.go:63). -/
def headerIncludes (f : Source) : Path := ccOutput f ".h"

/-- `javaPackage` (templates/java/register.go:183-190). -/
def javaPackage (f : Source) : Path := f.javaOption.getD f.package

/-- `strings.Replace(javaPackage(f), ".", "/", -1)` and `pgs.JoinPaths` (templates/java/register.go:126-128,133-135).
Simplification: packages have no empty parts, so that joining changes nothing else. -/
def javaPath (pkg cls : Path) : Path :=
  (if pkg.isEmpty then [] else pkg.map (fun c => if c = '.' then '/' else c) ++ ['/']) ++ cls ++ ".java".toList

/-- `JavaFilePath` for a file with the import (templates/java/register.go:120-130). -/
def javaFilePath (f : Source) : Path := javaPath (javaPackage f) (classNameFile f.named ++ "Validator".toList)

/-- `JavaMultiFilePath` (templates/java/register.go:132-137). -/
def javaMultiFilePath (f : Source) (m : Path) : Path :=
  javaPath (javaPackage f) (classNameMessage m ++ "Validator".toList)

/-- The public class in the file for a whole file or for a message (templates/java/file.go:10,29). -/
def publicClass (f : Source) : Option Path → Path
  | none => classNameFile f.named ++ "Validator".toList
  | some m => classNameMessage m ++ "Validator".toList

/-- The file as the plugin sees it (module/validate.go:40-66). -/
def Source.target (f : Source) : Target where
  top := f.top
  nested := f.nested
  deps := f.deps
  multipleFiles := f.named.multiple
  ccStem := stem f.name
  goStem := f.goStem
  javaPath := javaFilePath f
  javaPaths := fun m => javaMultiFilePath f m.toList

end PGV.Module
