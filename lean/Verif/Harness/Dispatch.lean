import Verif.Cpp.Link
import Verif.Harness.Programs

/-!
How the C++ and the Python test programs find the type of the message in a test case
(tests/harness/cc/harness.cc:80-143, tests/harness/python/harness.py:24-40). The Java program's way is `ProtoTypeMap`, see
`Java/TypeMap.lean`.
-/

namespace PGV.Harness
open PGV PGV.Cpp

/-- The full name of a message type: package and names, with dots (what `full_name` gives in
tests/harness/python/harness.py:27 and `Any::Is` compares with in tests/harness/cc/harness.cc:89). -/
def typeName (m : LinkMessage) : Ident := List.intercalate ['.'] (m.package ++ m.path)

/-- The type of the message in an `Any`: what follows the last slash. `Any::Is` needs a slash and something after it
(tests/harness/cc/harness.cc:89). -/
def anyType (url : Ident) : Option Ident :=
  let name := (url.reverse.takeWhile (· != '/')).reverse
  if url.contains '/' && !name.isEmpty then some name else none

/-- `msg.Is<CLS>()` (tests/harness/cc/harness.cc:89). -/
def isType (url name : Ident) : Bool := anyType url == some name

/-- The name of the message that the C++ program leaves out (tests/harness/cc/harness.cc:89). -/
def messageIgnored : Ident := "tests.harness.cases.MessageIgnored".toList

/-- `GetValidationCheck` (tests/harness/cc/harness.cc:80-143): the message type that the case is validated as, or none for
"not implemented". The headers' macros call the inner macro once per message that is not ignored (templates/cc/file.go:79-84). -/
def cppCheck (headers : List LinkFile) (url : Ident) : Option LinkMessage :=
  (headers.flatMap fun f => f.messages.filter fun m => !m.ignored).find? fun m =>
    isType url (typeName m) && !isType url messageIgnored

/-- What the C++ program answers for a type that is not listed (tests/harness/cc/harness.cc:136-142). -/
def notImplemented : TestResult :=
  { valid := false, allowFailure := true, reasons := ["not implemented".toList.map fun c => UInt8.ofNat c.toNat] }

/-- The C++ program (tests/harness/cc/harness.cc:148-162); `validate` is what the call at harness.cc:95-104 ends in for a
type. -/
def cppMain (headers : List LinkFile) (validate : LinkMessage → Ended) (url : Ident) : Ended :=
  match cppCheck headers url with
  | some m => validate m
  | none => .exit (encodeResult notImplemented)

/-- A generated Python module: its messages, nested ones included, and the names of enums, enum values and extensions that
it defines (the modules imported in tests/harness/python/harness.py:6-21). -/
structure PyModule where
  messages : List LinkMessage
  others : List Ident := []

/-- What a name in a module stands for: a message class or something else (tests/harness/python/harness.py:25-27). -/
abbrev Names := List (Ident × Option LinkMessage)

/-- Does `import *` take a name? Not those that begin with an underscore (tests/harness/python/harness.py:7-21). -/
def exported : Ident → Bool
  | [] => false
  | c :: _ => c != '_'

/-- The names that `import *` takes from a module; protoc sees to it that they are distinct. Nested messages are attributes of their classes, not names of the module
(tests/harness/python/harness.py:7-21). -/
def exports (p : PyModule) : Names :=
  (p.messages.filterMap fun m => match m.path with
    | [n] => if exported n then some (n, some m) else none
    | _ => none) ++
  (p.others.filter exported).map fun n => (n, none)

/-- `from p import *`: names that were there are bound anew (tests/harness/python/harness.py:7-21). -/
def importAll (names : Names) (p : PyModule) : Names :=
  exports p ++ names.filter fun x => !((exports p).map (·.1)).contains x.1

/-- The names of the program when it collects its classes: after the imports and `message_classes = {}`
(tests/harness/python/harness.py:1-24). The first import takes two names only; that is a module with two messages. -/
def pyNames (imports : List PyModule) : Names :=
  List.foldl importAll [] (imports ++ [PyModule.mk [] ["message_classes".toList]])

/-- `message_classes[testcase.message.TypeName()]` (tests/harness/python/harness.py:24-27,35): `none` when there is no such
key. `TypeName()` is what follows the last slash. -/
def pyClass (imports : List PyModule) (url : Ident) : Option LinkMessage :=
  ((pyNames imports).filterMap (·.2)).find? fun m => typeName m == (url.reverse.takeWhile (· != '/')).reverse

/-- The Python program (tests/harness/python/harness.py:30-51); a missing key ends it with an error. -/
def pyMain (imports : List PyModule) (validate : LinkMessage → Ended) (url : Ident) : Ended :=
  match pyClass imports url with
  | some m => validate m
  | none => .died

end PGV.Harness
