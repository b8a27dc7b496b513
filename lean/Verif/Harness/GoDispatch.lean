import Verif.Harness.Dispatch

/-!
How the Go test program finds the type of the message in a test case, and what it does with messages without methods
(tests/harness/go/main/harness.go:16-54).
-/

namespace PGV.Harness
open PGV PGV.Cpp

/-- `tc.Message.UnmarshalNew()` (tests/harness/go/main/harness.go:23): the type among those linked into the program (the imports at
harness.go:9-11 and what they import) whose full name follows the last slash of the address, or is all of it. -/
def goType (linked : List LinkMessage) (url : Ident) : Option LinkMessage :=
  linked.find? fun m => typeName m == (url.reverse.takeWhile (· != '/')).reverse

/-- `checkErr` with an error (tests/harness/go/main/harness.go:110-119); the text is left out. -/
def goError : Ended := .exit (encodeResult { error := true, reasons := [[]] })

/-- `main` (tests/harness/go/main/harness.go:16-54). A message has the methods `Validate` and `ValidateAll` unless it is ignored
(templates/goshared/msg.go:4), so one flag stands for both of the tests at harness.go:28-34; types of other libraries, which
have neither, count as ignored. The test for the Go type at harness.go:26 is one for the full name. `validate` is what the
calls at harness.go:50-53 end in. -/
def goMain (linked : List LinkMessage) (validate : LinkMessage → Ended) (url : Ident) : Ended :=
  match goType linked url with
  | none => goError
  | some m =>
    let hasValidate := !m.ignored
    if typeName m == messageIgnored then
      if hasValidate then goError else .exit (encodeResult { valid := true })
    else if !hasValidate then goError
    else validate m

end PGV.Harness
