import Verif.Go.Static
import Verif.Cpp.Link

/-!
The names that the generated Go files of one package declare at package level.
-/

namespace PGV.Go
open PGV

/-- A .proto file of a Go package: its path and its messages (what templates/go/file.go:3-54 is rendered with). -/
structure GoFile where
  path : String
  file : FileDesc

/-- A Go package: the .proto files generated into it, and what protoc-gen-go declares in it besides the types of
messages: enums and their values, oneof wrappers, file descriptors (beside templates/go/file.go:6). -/
structure GoPackage where
  files : List GoFile
  others : List String

/-- All messages of the package (templates/go/file.go:51). -/
def GoPackage.messages (P : GoPackage) : List MsgDesc := P.files.flatMap (·.file.all)

/-- `snakeCase` of the base name (templates/go/file.go:48, templates/goshared/register.go:328-330). -/
def snakeBase (path : String) : Cpp.Ident := JavaNames.toSnake (Cpp.baseName path.toList)

/-- The variable of the uuid pattern (templates/go/file.go:48). -/
def uuidVar (path : String) : String := "_" ++ String.ofList (snakeBase path) ++ "_uuidPattern"

/-- Names declared at package level, by protoc-gen-go and by the generated files: types, the uuid patterns
(templates/go/file.go:46-49) and tables (templates/goshared/msg.go:68,83,135-208). They are grouped by kind, not in
the order of the files; the order makes no difference to what is declared twice. -/
def GoPackage.names (P : GoPackage) : List String :=
  P.others ++ P.messages.flatMap typeNames ++
    ((P.files.filter fun F => fileNeeds F.file .uuid).map fun F => uuidVar F.path) ++
    P.messages.flatMap msgDecls

end PGV.Go
