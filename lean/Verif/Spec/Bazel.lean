import Verif.Module.Bazel

/-!
What Bazel asks of an action: that it makes the files it declared.
-/

namespace PGV.Spec.Bazel
open PGV PGV.Module

/-- protoc runs the plugin with `lang=cc` and no `module` on the files that the rule names, and puts what the plugin writes in the
output directory of the rule. `srcs` are the files in the order in which the plugin takes them. -/
def Makes (compiles : Bytes → Bool) (R : CcRule) (made : List Path) : Prop :=
  ∃ (srcs : List Source) (arts : List Artifact), (∀ n, n ∈ srcs.map (fun s => some s.name) ↔ n ∈ R.names) ∧
    execute compiles "cc" [] (srcs.map Source.target) = some arts ∧
    made = arts.map fun a => inDir R.outputDir a.path

/-- A source of the rule's own repository that is imported by its path in it and is called `….proto`. -/
def Plain (R : CcRule) (f : BFile) : Prop :=
  f.workspace = R.workspace ∧ ¬ virtualImports <:+: f.path ∧ f.rel.head? ≠ some '/' ∧ (∃ q, f.rel = q ++ ".proto".toList) ∧
  -- the workspace does not stand in the path before its place
  ∀ i, i < (inDir f.root []).length → ¬ f.workspace <+: f.path.drop i

/-- A source that is imported by another path than its own: Bazel makes a link to it, called `q.proto`, in a directory of the library
`lib` of the package `pkg`. The directories' names do not repeat the pattern. -/
def Relocated (R : CcRule) (f : BFile) (pkg lib q : Path) : Prop :=
  f.workspace = R.workspace ∧ f.rel = pkg ++ virtualImports ++ lib ++ '/' :: (q ++ ".proto".toList) ∧ '/' ∉ lib ∧ q.head? ≠ some '/' ∧
  (∀ i, i < (inDir f.root (inDir f.workspace pkg)).length → ¬ virtualImports <+: f.path.drop i) ∧
  ¬ virtualImports <:+: lib ++ '/' :: (q ++ ".proto".toList)

end PGV.Spec.Bazel
