import Verif.Module.Paths

/-!
The Bazel rule for C++ (bazel/protobuf.bzl): which files it says it makes, and how it calls protoc.
-/

namespace PGV.Module
open PGV

/-- A path in a directory, which may be empty (the joins in bazel/protobuf.bzl:39-43). -/
def inDir (d p : Path) : Path := if d = [] then p else d ++ '/' :: p

/-- A `File` of Bazel (bazel/protobuf.bzl:6-22,24-30): the output directory it lies in (empty for sources), the `workspace_root`
of its owner (empty in the main repository), and its path in the repository. -/
structure BFile where
  root : Path := []
  workspace : Path := []
  rel : Path

/-- `f.path` (bazel/protobuf.bzl:14,22). -/
def BFile.path (f : BFile) : Path := inDir f.root (inDir f.workspace f.rel)

/-- The path of `f` in its root, on which `declare_file` builds (bazel/protobuf.bzl:52). -/
def BFile.inRoot (f : BFile) : Path := inDir f.workspace f.rel

/-- What follows the last slash: `basename` (bazel/protobuf.bzl:25). -/
def baseName (p : Path) : Path := (p.reverse.takeWhile (· != '/')).reverse

/-- `s.find(sub)`: where `sub` stands for the first time (bazel/protobuf.bzl:14,22). -/
def find (sub : Path) : Path → Option Nat
  | [] => if sub.isEmpty then some 0 else none
  | c :: s => if sub.isPrefixOf (c :: s) then some 0 else (find sub s).map (· + 1)

/-- `s.split(sep)[1]`: what stands between the first `sep` and the next, or the end (bazel/protobuf.bzl:15). -/
def secondPart (sep s : Path) : Option Path :=
  match find sep s with
  | none => none
  | some i =>
    let rest := s.drop (i + sep.length)
    match find sep rest with
    | none => some rest
    | some j => some (rest.take j)

/-- `"/_virtual_imports/"` (bazel/protobuf.bzl:13). -/
def virtualImports : Path := "/_virtual_imports/".toList

/-- `_path_ignoring_repository` (bazel/protobuf.bzl:6-22): the name under which protoc is given the file. `none` when a part that
is asked for is not there. `short_path` of a file of the main repository is its path in it. -/
def pathIgnoringRepository (f : BFile) : Option Path :=
  match find virtualImports f.path with
  | some _ =>
    (secondPart virtualImports f.path).bind fun p => (find ['/'] p).map fun i => p.drop (i + 1)
  | none =>
    if f.workspace.length = 0 then some f.rel
    -- `find` gives -1 when there is nothing to find; the workspace is always part of the path
    else (find f.workspace f.path).map fun i => f.path.drop (i + f.workspace.length + 1)

/-- `_protoc_cc_output_file` (bazel/protobuf.bzl:24-30). -/
def ccOutputFiles (f : BFile) : List Path :=
  let b := baseName f.path
  let b := if ".proto".toList.isSuffixOf b then b.take (b.length - ".proto".length) else b
  [b ++ ".pb.validate.h".toList, b ++ ".pb.validate.cc".toList]

/-- An instance of the rule `cc_proto_gen_validate` (bazel/protobuf.bzl:101-125): `genfiles_dir`, the `workspace_root` of its label
and the sources of its deps (`_proto_sources`, bazel/protobuf.bzl:32-37). -/
structure CcRule where
  genfiles : Path
  workspace : Path := []
  protos : List BFile

/-- `ctx.actions.declare_file(out, sibling = f)` (bazel/protobuf.bzl:52): a file in the output directory, where the sibling lies in its
root, with another name. -/
def declareFile (R : CcRule) (f : BFile) (out : Path) : Path :=
  inDir R.genfiles (f.inRoot.take (f.inRoot.length - (baseName f.inRoot).length) ++ out)

/-- `out_files` (bazel/protobuf.bzl:47-52): the files that the rule's action must make. -/
def CcRule.outFiles (R : CcRule) : List Path := R.protos.flatMap fun f => (ccOutputFiles f).map (declareFile R f)

/-- `_output_dir` (bazel/protobuf.bzl:39-43). -/
def CcRule.outputDir (R : CcRule) : Path := if R.workspace.isEmpty then R.genfiles else R.genfiles ++ '/' :: R.workspace

/-- The names of the files that protoc is told to generate code for (bazel/protobuf.bzl:92). -/
def CcRule.names (R : CcRule) : List (Option Path) := R.protos.map pathIgnoringRepository

end PGV.Module
