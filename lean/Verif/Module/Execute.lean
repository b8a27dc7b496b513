import Verif.Checker.Check
import Verif.Cpp.Emit
import Verif.Java.Emit

/-!
The plugin's entry point (module/validate.go:31-72) and its output paths (templates/pkg.go:24-47).
-/

namespace PGV.Module
open PGV

/-- A path (`pgs.FilePath`, module/validate.go:48, templates/pkg.go:15), as its characters. -/
abbrev Path := List Char

/-- The templates, by name (templates/pkg.go:24-30). -/
inductive Tpl
  | h | cc | go | java
  deriving DecidableEq, Repr

/-- `templates.Template(params)[lang]`: nil for an unknown language (templates/pkg.go:24-30). -/
def templates (lang : String) : Option (List Tpl) :=
  if lang = "cc" then some [.h, .cc]
  else if lang = "go" then some [.go]
  else if lang = "java" then some [.java]
  else none

/-- A file to generate code for (module/validate.go:40): its top-level messages (`Messages()`), the messages
nested in them, and its imports. Paths that protoc-gen-star or the Java name mangling compute are
given: `ccStem` is the file's name without extension, `goStem` is `ctx.OutputPath(f)` without
extension, `javaPath` and `javaPaths` are what `JavaFilePath` and `JavaMultiFilePath` build
(templates/java/register.go:120-137). -/
structure Target where
  top : List MsgDesc
  nested : List MsgDesc
  deps : List String
  multipleFiles : Bool
  ccStem : Path
  goStem : Path
  javaPath : Path
  javaPaths : String → Path

/-- `AllMessages()` (module/validate.go:43). -/
def Target.messages (f : Target) : List MsgDesc := f.top ++ f.nested

/-- `importsPvg` (templates/java/register.go:139-146). -/
def importsPgv (f : Target) : Bool := f.deps.any fun d => "validate.proto".toList.isSuffixOf d.toList

/-- `FilePathFor(tpl)(f, ctx, tpl)` (templates/pkg.go:32-47, templates/cc/register.go:110-114,
templates/java/register.go:120-130). -/
def filePathFor (t : Tpl) (f : Target) : Option Path :=
  match t with
  | .h => some (f.ccStem ++ ".pb.validate.h".toList)
  | .cc => some (f.ccStem ++ ".pb.validate.cc".toList)
  | .java => if importsPgv f then some f.javaPath else none
  | .go => some (f.goStem ++ ".validate.go".toList)

/-- `strings.ReplaceAll(s, old, "")`: occurrences are searched from the left and removed. Removing
the empty string changes nothing (called in module/validate.go:54). -/
def removeAll (old : Path) (s : Path) : Path :=
  match s with
  | [] => []
  | c :: s' =>
    if !old.isEmpty && old.isPrefixOf (c :: s') then removeAll old ((c :: s').drop old.length)
    else c :: removeAll old s'
termination_by s.length
decreasing_by
  · simp only [List.length_drop, List.length_cons]
    rename_i h
    cases old with
    | nil => simp at h
    | cons a as => simp only [List.length_cons]; omega
  · simp

/-- `strings.TrimLeft(strings.ReplaceAll(out, module, ""), "/")` (module/validate.go:54). -/
def outPath (mod out : Path) : Path := (removeAll mod out).dropWhile (· == '/')

/-- An output: where it goes, from which template, and for which message (the whole file if none)
(module/validate.go:60,63). -/
structure Artifact where
  path : Path
  tpl : Tpl
  message : Option String
  deriving DecidableEq, Repr

/-- The inner loop (module/validate.go:47-66). -/
def emit (lang : String) (mod : Path) (f : Target) : List Tpl → List Artifact
  | [] => []
  | t :: ts =>
    (match filePathFor t f with
     | none => []
     | some out =>
       if f.multipleFiles && lang == "java" then
         f.top.map fun m => ⟨f.javaPaths m.name, t, some m.name⟩
       else [⟨outPath mod out, t, none⟩]) ++ emit lang mod f ts

/-- `for _, msg := range f.AllMessages() { m.CheckRules(msg) }` (module/validate.go:43-45): a failed
check ends the process. -/
def checkAll (compiles : Bytes → Bool) : List MsgDesc → Bool
  | [] => true
  | d :: ds => if (Checker.checkMsg compiles d).isSome then checkAll compiles ds else false

/-- The outer loop (module/validate.go:40-69): `acc` are the artifacts added so far; the order of
`targets` is the iteration order of a Go map. `none` means the process ended with an error, and
nothing is written. -/
def loop (compiles : Bytes → Bool) (lang : String) (mod : Path) (tpls : List Tpl) :
    List Target → List Artifact → Option (List Artifact)
  | [], acc => some acc
  | f :: fs, acc =>
    if checkAll compiles f.messages then loop compiles lang mod tpls fs (acc ++ emit lang mod f tpls)
    else none

/-- Executing the templates of a file fails. protoc-gen-star does this after `Execute` has returned the
artifacts (module/validate.go:71). With java_multiple_files, the template starts from a top-level message,
whether it is ignored or not (templates/java/file.go:39), and goes on to the messages nested in it. -/
def renderFails (lang : String) (f : Target) : Bool :=
  if lang == "cc" then f.messages.any Cpp.genFails
  else if lang == "go" then f.messages.any Go.genFails
  else
    importsPgv f &&
      (if f.multipleFiles then f.top.any Java.innerFails || f.nested.any Java.genFails
       else f.messages.any Java.genFails)

/-- A run of the plugin: `Execute` (module/validate.go:31-72), then the execution of the templates by
protoc-gen-star. An error in either ends the process, and nothing is written. -/
def execute (compiles : Bytes → Bool) (lang : String) (mod : Path) (targets : List Target) :
    Option (List Artifact) :=
  if lang == "" then none
  else
    match templates lang with
    | none => none
    | some tpls =>
      match loop compiles lang mod tpls targets [] with
      | none => none
      | some arts => if targets.any (renderFails lang) then none else some arts

end PGV.Module
