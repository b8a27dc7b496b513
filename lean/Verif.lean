import Verif.Props.Core
import Verif.Props.Basic
import Verif.Props.Numbers
import Verif.Props.Strings
import Verif.Props.Collections
import Verif.Props.WellKnown
import Verif.Props.Checker
import Verif.Props.Headers
import Verif.Props.Checks
import Verif.Props.ErrorText
import Verif.Props.Emit
import Verif.Props.Plugin
import Verif.Props.Literals
import Verif.Props.Java
import Verif.Props.Index
import Verif.Props.Grpc
import Verif.Props.Python
import Verif.Props.Cpp
import Verif.Lemmas.GenFails
import Verif.Lemmas.Single
import Verif.Checker.Check
import Verif.Cpp.Lib
import Verif.Cpp.Literal
import Verif.Cpp.Templates
import Verif.Cpp.Registry
import Verif.Spec.CppPortable
import Verif.Lemmas.CppLib
import Verif.Lemmas.CppLit
import Verif.Lemmas.CppNum
import Verif.Lemmas.CppTpl
import Verif.Lemmas.CppMsg
import Verif.Lemmas.CppRegistry
import Verif.Lemmas.CppErr
import Verif.Spec.CppRegistry
import Verif.Harness.Executor
import Verif.Harness.Shard
import Verif.Harness.GoMain
import Verif.Spec.Harness
import Verif.Lemmas.Executor
import Verif.Lemmas.Shard
import Verif.Props.Harness
import Verif.Cpp.Emit
import Verif.Spec.CppEmit
import Verif.Props.CppEmit
import Verif.Spec.CppStrict
import Verif.Props.CppStrict
import Verif.Props.CppLiterals
import Verif.Go.Static
import Verif.Spec.GoCompile
import Verif.Props.GoCompile
import Verif.Props.GoExact
import Verif.Go.Imports
import Verif.Spec.GoImports
import Verif.Props.GoImports
import Verif.Java.Literal
import Verif.Spec.JavaLiteral
import Verif.Lemmas.JavaLit
import Verif.Lemmas.JavaPattern
import Verif.Props.JavaLiterals
import Verif.Spec.JavaBlame
import Verif.Lemmas.JavaBlame
import Verif.Props.JavaBlame
import Verif.Props.JavaCompile
import Verif.Props.PyThreads
import Verif.Props.CppNames
import Verif.Props.CppCompile
import Verif.Props.Tables
import Verif.Props.Startup
import Verif.Props.Reasons
import Verif.Props.Email
import Verif.Props.Defaults
import Verif.Props.CppReport
import Verif.Props.CppErrorText
import Verif.Props.JavaNames
import Verif.Props.Accepted
import Verif.Props.Exact
import Verif.Props.PyLimits
import Verif.Props.JavaTypes
import Verif.Props.JavaReason
import Verif.Props.PyReason
import Verif.Props.Programs
import Verif.Props.Across
import Verif.Props.Paths
import Verif.Props.CppLink
import Verif.Props.GoPackage
import Verif.Props.MapOrder
import Verif.Props.Local
import Verif.Props.Simple
import Verif.Props.Verdict
import Verif.Props.Validator
import Verif.Props.Evolution
import Verif.Props.Looser
import Verif.Props.First
import Verif.Props.Deep
import Verif.Props.Between
import Verif.Props.Buffers
import Verif.Props.Select
import Verif.Props.Dispatch
import Verif.Props.GoDispatch
import Verif.Props.Certified
import Verif.Props.Contexts
import Verif.Props.Bazel
