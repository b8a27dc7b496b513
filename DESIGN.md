# Formal model of protoc-gen-validate (Lean 4)

## What is modelled, and how

protoc-gen-validate (PGV) turns `validate.proto` options on a protobuf schema into validation code
in Go, Java, C++ and (at run time) Python. The model composes *generation* and *execution*: a Lean
function takes the rules (what the template sees) and a field value (what the generated code sees)
and does what the code generated from those rules would do to that value. A condition written
`{{ if $r.X }}` in a template and a condition written `if x {` in the generated code both become
conditions in the Lean function. The comment on each definition cites the lines it models and says
where it simplifies. Whether the generated text compiles at all is modelled separately, where it can
fail: declared names (C37, C38, C68), literals (C40, C42, C71), Python parse errors (`Py.Code`), and for Go a
static model of the generated code (`Go/Static.lean`: operand types, constants, unused variables, tables; C72).

The Lean project is laid out as follows (`/verif/lean/Verif/`).

| directory | content | source in /repo |
|---|---|---|
| `Core/` | bytes, UTF-8, IEEE-754 comparison, regular expressions, protobuf durations and timestamps, rules, schemas, values | `validate/validate.proto` |
| `Go/` | generated Go validators, helpers, errors and their text; literals; names a generated file declares and uses | `templates/go`, `templates/goshared`, `templates/shared` |
| `Checker/` | the checks on rules before generation | `module/checker.go` |
| `Module/` | the plugin's entry point and its output paths | `module/validate.go`, `templates/pkg.go` |
| `Java/` | Java runtime, templates, the two validator indexes, gRPC interceptors | `java/**`, `templates/java` |
| `Py/` | the Python validator, its templates, helpers, float arithmetic and cache | `python/protoc_gen_validate/validator.py` |
| `Cpp/` | C++ helpers, templates, literals, names, the registry | `validate/validate.h`, `templates/cc` |
| `Harness/` | the test executor as a concurrent state machine, sharding, the Go harness | `tests/harness/executor`, `tests/harness/go` |
| `Spec/` | declarative specifications, written without the model's functions | |
| `Lemmas/` | helper lemmas | |
| `Props/` | the property theorems, each followed by an `example` whose hypotheses are met | |

## Method per property

| id | model | theorem shape |
|---|---|---|
| C01 | `Go.validate`: error-accumulating execution with the `all` flag at every error site; two environments with different map orders | induction on the size of the value; verdict of both modes equals the same Prop |
| C02 | same, relation `FirstOf` on errors | induction on the size of the value |
| C03 | same | flat-map decomposition of ValidateAll |
| C04 | `Spec.MsgOk`: one-level declarative meaning, children abstract | validate satisfies the equation; uniqueness of the solution |
| C05-C09 | same model | direct, and non-interference (two runs) |
| C10-C12 | `Go.num*` over integers and IEEE bit patterns | decision logic against interval sets; NaN: negation with witness and `_partial` |
| C13, C14 | UTF-8 decoder as in Go's `utf8.RuneCountInString` | encode/count round trip; decompositions |
| C15-C17 | hostname, uuid, email helpers | grammar equivalence; negation (U+212A) and ASCII `_partial` |
| C18-C23 | bytes, enum, repeated, map, any templates | decision logic; permutation invariance |
| C24-C26 | `AsDuration`, `CheckValid`, `Time.Sub` with 64-bit wrap-around | agreement with exact integers; negations where saturation or false flags matter |
| C27, C28 | wrappers, nesting | equivalence of two runs; induction on nesting |
| C29 | `Error()` of violations and collected errors over a `Printer` | grammar of the text by induction on the error tree; negation for `Key()` |
| C30-C36 | checker functions returning success or failure | exact characterisations, negations, `_partial` |
| C37, C38 | names declared and referenced by the Go templates | inclusion and no duplicates, negation + `_partial` |
| C39 | `Execute` | decision logic and permutation of the outputs over file orders |
| C40 | `lit`, `byteStr` and a reader of Go literals | round trip by induction |
| C41-C43, C60-C63 | Java runtime and templates over `JNum`, UTF-16 | equivalence with Go by structural induction over schema and value; negations |
| C44, C45 | the two indexes as state machines | invariants over all histories of calls |
| C46, C47 | interceptors as state machines over the events of a call | induction over event sequences |
| C48 | `within` in Go, Java and Python with their number types | three-way comparison, negations |
| C49 | `lru_cache` as a list, validators as interaction programs | refinement of the cache-free semantics by induction over histories and nesting |
| C50, C51, C65-C67 | Python templates as text with parse failures; doubles as scaled integers | equivalence with Go; negations |
| C52, C53 | helpers of three languages | grammar equivalence |
| C54 | registry as association list | induction over histories |
| C55 | C++ templates with usual arithmetic conversions, decimal literals read as floats, NUL-terminated strings | equivalence with Go, same first violation; negations |
| C56, C57 | executor as a labelled transition system with channels and wait groups | inductive invariant over all schedules, decreasing measure, progress |
| C58 | `float64` division and `math.Ceil` as exact rounding | exact formula below 2^53, partition, negation |
| C59 | harness comparison on error trees | corollary of C01, C02 |
| C64 | class names emitted and looked up by reflection | induction over message trees |
| C68 | failures of the C++ generator, names declared per namespace and per function | exact characterisation of failures; inclusion and no duplicates; negations |
| C69 | the text kept beside the Python cache | invariant over all histories and nesting |
| C70 | the C++ templates of C55 | induction on nesting; contrapositive per unimplemented rule |
| C71 | `lit`, `byteStr` and a reader of C++ literals | round trip by induction; negations |
| C72 | the operations, local variables and tables of generated Go code and the Go rules they can break | well-formedness template by template, for the rules as the checks leave them, and its converse (exactly which messages compile); negations |
| C73 | the import block of generated Go files and the enum types that code mentions | sufficient and necessary condition; negations |
| C74 | the Java literals for strings, patterns and bytes, read as the Java language says (Unicode escapes first) | exact characterisation by induction on the characters; negations |
| C75 | the field names in the exceptions of the Java model | induction on nesting: each exception is split into one of the field and one of a nested message; negation |
| C76 | the declarations, literals and calls in generated Java code, with their static types | exact condition for rules that fit their fields, template by template; negations |
| C77 | threads that take turns between the steps of `validate` (cache lookup, generation, load and store of `printer`, insertion) | invariant over all schedules; decreasing measure; a limit |
| C78 | the conversions of proto names in the C++ templates, and protoc's | exact conditions, by induction on identifiers; negations |
| C79 | the tables, expressions and names in generated C++ code, with their static types | exact condition for rules that fit their fields in files with plain names, template by template; negations |
| C80 | what the package-level tables and patterns of generated Go code hold, and the rules its checks then apply | exact condition, field by field, then for whole programs; negation with a witness |
| C81 | the patterns generated Go code hands to `regexp.MustCompile` before `main` | exact condition for checked files; negation |
| C82 | what each reason text of the Go templates requires (`Spec/Reason.lean`) | at every check: false of the value, true of all accepted values; lifted through lists, maps and messages |
| C83 | the code around the e-mail libraries in Java (`StringValidation.email`, with `StringBuilder.reverse`) and Python (`_validateEmail`) | exact acceptance conditions as `_partial`; negations for the stray `>`, scrambled characters and unchecked surroundings |
| C84 | reading unset fields in all four languages | the readings agree field by field, then congruence of each validator; the Python recursion equation (`Lemmas/PyKnot.lean`) |
| C85 | the violations of C++ and Go (all mode), with their reasons | each C++ check is found among the errors that the Go check appends (`Lemmas/CppReport.lean`), induction on nesting; the reasons by C82 |
| C86 | the text that a C++ rejection writes: the stream it is put together in, with its put position | invariant of the stream: what has been written, then the rest of what it was opened with; `C86_names` by cases on where the validator stops |
| C87 | the accessor names the Java templates write and those protoc declares | the two spellings agree letter by letter; exact condition on neighbours; negations |
| C88 | the names of outer classes and validator classes in Java code and protoc's | simulation of the two case conversions; negations |
| C89 | All of `CheckRules` on a message: which rules pass, per kind | For each kind an equivalence between the check and a declarative condition (`RulesOk`), lifted to positions inside list and map rules by induction on positions, and to fields, oneofs and messages |
| C90 | `ProtoTypeMap`: its construction from files, lookup, and the class it asks for when it unpacks an Any | Induction on the path of messages to the one that is looked up, and on the file name for the outer class; the keys are characterised exactly (an equivalence for when construction succeeds) |
| C91 | The violation texts of every Java check, with their limits, and the exception of a whole message | Each text has a declarative reading (`Spec/JavaReason`). A combinator `Tells` (text false of the rejected value, true of the accepted ones) is closed under the statements of the templates; then induction on nesting depth |
| C92 | The texts of every Python `ValidationFailed`, and the exception of a whole message | As C91: each text has a declarative reading (`Spec/PyReason`), soundness is closed under the statements of the templates, then induction on nesting depth; the texts that say something else are listed in `Misstated`, each with a theorem that shows it |
| C93 | the four test programs, the wire format of their answers, and how the executor judges them | `Harness/Programs.lean`; round trip of the wire format by induction on numbers and fields; decision logic on the verdicts of the modelled validators; negations: the number of broken rules is never compared, unimplemented rules pass, long Python reasons fail |
| C94 | which types have a Java validator, given the files that declare them; embedded messages in Java and Python | `Spec/Across.lean` on top of the Java, Python, Go and C++ validators; induction on the nesting; negations: types from files that do not import validate.proto (Java), values of maps with key rules, lists of key/value messages (Python) |
| C95 | names of output files and of included headers, on top of `Module/Execute.lean` and `Java/Names.lean` | `Module/Paths.lean`; injectivity of the path functions, induction on the files of a run; negations: `module` inside a path moves or merges files, Java messages that differ in the case of the first letter share a file, a message `FooValidator` |
| C96 | the variables that register C++ validators, the macros of C++ headers, and the functions headers declare, sources define and register, over all files of a program | `Cpp/Link.lean`; injectivity of the two naming functions on tidy names; negations: `a.b.C` and `a.b__C` share a variable, file names that differ in case or directory share a macro |
| C97 | the names all Go files of a package declare at package level, next to those of protoc-gen-go (given, with what it guarantees about them) | `Go/Package.lean`; exact condition: an iff, by injectivity of the naming functions up to the position of an underscore; negations for each of the four conditions |
| C98 | the validators of the four languages on messages that differ in the order of map entries at any depth (`Spec/MapOrder.lean`), run with any two iteration orders | `Lemmas/MapOrder*.lean`; induction over the reordering, with the recursion equation of each validator; for the order of iteration, induction on the depth of calls. Validators of foreign types are assumed to treat equal messages alike. A Go example of a report that differs |
| C99 | the validators of the four languages under two schemas that agree on the types of messages inside the value (`Spec/Local.lean`); Python's test whether an item type looks like a map entry is part of its libraries, the same on both sides | `Lemmas/Local.lean`; induction on the depth of the value with the recursion equations; equality of results, not only of verdicts |
| C100 | the validators of Go, Java and Python at two times (C++ has no rule that asks for the time); one reading of the clock per validation, as elsewhere | `Lemmas/Local.lean`; the same induction; monotonicity in Go through the declarative meaning of the rules; concrete messages for which the time matters |
| C101 | `Spec/Simple.lean` gives, as inductive relations on field types and rules, the kinds of rules that mean the same everywhere, and the values a field of a type can hold | `Lemmas/Simple*.lean` derive from them the hypotheses of C55, C60 and C65 (the texts are ASCII words, the numbers are typed integers, the Python text parses, no rule reads the clock), so that nothing is left to assume but that messages of foreign types get the same verdict everywhere. What is left out of the kinds is what the negative theorems of C48-C52, C55, C58-C65 and C94 are about. |
| C102 | `Spec/Verdict.lean`: a Java run is a verdict if what it throws has a field; a value is settled if its times can be compared with the limits of their rules (they are valid; for `within`, the distance from now fits a `long`) and the rules name declared enum constants | `Lemmas/Verdict.lean`: each Java template is a verdict on a settled value, then induction on the depth of the message; `Lemmas/SimpleCalm.lean`: the same for the Python text of simple rules, statement by statement; with C101 this gives one theorem about all languages. Negations: `C102_java_duration`, `C102_java_enum`, `C102_java_within`, `C102_python_infinity`, `C102_python_glued`. |
| C103 | `Java/Validator.lean`: `isValid`, `ALWAYS_VALID`, `ALWAYS_INVALID`, and environments that differ in the fallback; `Spec/Fallback.lean`: which messages validation hands on | cases on what `assertValid` does, with C102 and C60; `Lemmas/Fallback.lean`: acceptance grows with what the fallback accepts on the messages handed on, template by template and by induction on depth. Negation: `C103_throws`. (That `ExplicitValidatorIndex` asks its fallback for a validator and never runs it is in C44.) |
| C104 | the validators of the four languages under two versions of the message types (`Versions`: same declarations in any order, plus free fields, spare members and oneofs without use) | one lemma carries the acceptance of fields and oneofs from one version to the other, given that acceptance of a field only grows with what nested calls accept; that lemma per language by cases on rules; induction on the depth of the message; both directions by symmetry. `C104_first`: the first violation reported does depend on the order; the violations in the errors of `ValidateAll` (`Spec/Found.lean`) by simulation of the two runs, fragment by fragment, and induction on the depth |
| C105 | the validators under two sets of rules (`Spec/Looser.lean`: rules dropped, limits and lists widened, values exempted, messages switched off) | the specification of every kind of rule only grows; induction on the depth of the message through `validate_spec`; Java, C++ and Python through the agreement on simple rules (C101). Negation: rules emptied to `{}` crash Python. `C105_outside` and `C105_within` show that the conditions on ranges and on the present are needed |
| C106 | the order in which the validators look at fields and oneofs (`Spec/First.lean`: the first field or oneof that is broken) | the statements before the one that fails have passed, and each says what the specification of its field says (`validate_spec`, and for C++, Java and Python the agreement field by field in the common part); such a name is unique. Python only if the oneofs are all right: negation, it looks at oneofs first |
| C107 | `Go.Validate`; `Spec.Path` (`At`: paths to nested messages; `OwnViolation`), `Spec.Found` | Forward: each template appends the error of the embedded message in "all" mode, lifted along the path by induction on `At`. Backward: induction on the depth of the value, from where each template's errors come. `C107_exactly` joins them; `C107_first` follows from C02. |
| C108 | the two interceptors one after the other (`Spec.Between`: gRPC passes messages, half-closes and cancellations on, in order), with the whole-message models of Java and Go | composition of C46 with C100 (same rules, two clocks) and with C101 and C102 (Go client); negation: a server whose clock is behind refuses what the client accepted under `lt_now` |
| C109 | `Harness/Buffers.lean`: the runs of test programs as threads that take turns, with the pool of buffers; `sync.Pool` may give out any buffer it has or a new one, and drop any | an invariant (buffers in use are distinct and not in the pool, those in the pool are empty, each holds what its program has written so far) kept by every turn; a measure for termination |
| C110 | `Harness/Select.lean`: the flags, the manifest of Windows (its iteration order is any permutation), and the exit status, on top of `run` (C56, C57) and the shards (C58) | from the counters of C56 and the partition of C58; search in the manifest by induction on the order; negations: two names that contain the command, a path with a space, a line without one |
| C111 | `Harness/Dispatch.lean`, `Harness/GoDispatch.lean`: the list of classes in the C++ program, the names that Python's `import *` binds, the types linked into the Go program | membership in the result of a sequence of imports, by induction; negations: types C++ does not know pass tests that expect broken rules, nested messages and names taken by later imports in Python |
| C112 | nothing new: the executor, the shards and exit status (C56, C58, C110), the wire format and the programs (C93), and the validators | composition; negations: the rules that C++ and Java do not implement |
| C113 | rule contexts, the names of the templates they execute, the templates that each language registers and includes (templates/shared/context.go, the register.go files) | mutual induction over the nesting of rules; the tables of names are finite and checked by the kernel. The text of templates other than their `{{ template }}` lines plays no part, and conditions around them are ignored, so more templates are required than are executed |
| C114 | the Bazel rule for C++ (`bazel/protobuf.bzl`): names given to protoc, declared outputs, output directory; the plugin's output paths (C95). Assumed of Bazel: `declare_file(out, sibling = f)` puts `out` beside `f`'s path in its root, and `short_path` in the main repository is the path in it | equality of paths by splitting at the last slash; first occurrence of the workspace by induction; negations: virtual imports and `.protodevel` |

Nothing in the list is outside what a model can express. Where the code violates a property, the
negation is proved with a concrete witness and a `_partial` theorem covers the part that does hold;
the doc comment of the `_partial` theorem says what is missing. Such claims have status `partial` in
MANIFEST.json although nothing more can be proved: the missing part is false.

## Trusted base

* Lean's kernel (4.33.0). No axiom beyond `propext`, `Classical.choice` and `Quot.sound`; no `sorry`, no
  `native_decide`, no `bv_decide`. The list per theorem is at the end.
* The reading of the templates, the Go code and the Java, C++ and Python sources as Lean functions.
  The definitions in `Core/`, `Go/`, `Checker/`, `Module/`, `Java/`, `Py/`, `Cpp/` and `Harness/` are that
  reading.
* The specifications in `Spec/`, which say what the theorems mean.

### Parameters: code outside the repository

All theorems quantify over them, so they hold for every behaviour of these libraries. Assumptions on
them appear as hypotheses of the theorems that need them.

| parameter | stands for | assumed |
|---|---|---|
| `Env.now` | the clock, read once per call (Go reads it at each relative timestamp rule) | |
| `Env.matchRe` | `regexp.MatchString` on patterns of rules | C33, C66: agrees with the textbook semantics on the three header patterns and the uuid pattern (`RegexpAgrees`) |
| `Env.parseMail`, `parseURL`, `parseIP` | `net/mail`, `net/url`, `net` | a parsed mail address contains an `@` (`mail_at`) |
| `Env.lowerRune` | `unicode.ToLower` in the hostname helper | C15: maps no non-ASCII rune but U+212A and U+0130 to ASCII |
| `Env.legacy` | `Validate()` of embedded messages generated by versions without `ValidateAll()` | |
| `Env.order` | iteration order of maps; any permutation, as a function of the map's contents (within one call a map is visited in one order; C01 and C22 use two environments) | a permutation |
| `Printer` | the `fmt` text of numbers, durations and times in error texts (C29, C59) | |
| `isPrint` | `strconv.IsPrint` in literals (C40, C55, C71) | |
| `JEnv` | re2j, commons-validator, `java.net.URI`, the clock, validators of types without generated ones | `LibsAgree` where Java is compared with Go |
| `PEnv` | `re`, `validate_email`, `ipaddress`, `urllib`, the clock, Python literals with special characters | `Py.LibsAgree` likewise |
| `CEnv` | RE2, `inet_pton`, decimal printing of floats by `fmt` | `Cpp.LibsAgree` likewise; `FullMatch` and `MatchString` only on patterns where they agree |
| `Loader`, `Fallback`, `Generator`, `Setup` | reflection, fallback indexes, the Python generator, harness programs | none, except that `Exec` returns |

### Simplifications

* Messages are finite trees of fields by name; oneof members are kept apart from other fields; unknown
  fields and proto2 groups are left out. Proto3 optional fields are singular fields with presence only
  where PGV treats them so.
* Recursion of validators is bounded by the depth of the value (C04 proves that this bound does not
  matter). Stack overflow and Python's recursion limit are not modelled.
* Rule constants of numeric rules are used at their value. When the literal does not denote the value
  this is a property of its own: C40, C42, C55, C71.
* Java, Python and C++ are compared with Go on code that compiles; which rules make code that does not
  compile is stated in the `Portable` predicates, C37, C38, C42 and C68.
* `Field()` and `Reason()` of Go errors are kept as data; error texts are built from pieces (C29).
* C46, C47: gRPC delivers the events of one call one at a time; the transport is not modelled.
* C49: validators are arbitrary programs that may call `validate`; nested calls share the cache.
* C78: `PGGUpperCamelCase` of protoc-gen-star's Go names, and protoc's C++ `FieldName` and `UnderscoresToCamelCase`,
  are modelled from their published behaviour; neither source is in /repo.
* C77: the lookups and updates of `lru_cache` are indivisible (it is implemented in C under the interpreter lock).
* C54: validators live as long as the program; calls from one validator to another are separate events.
* C56, C57: a send and its receive on an unbuffered channel are one step; counters are naturals; `Exec`
  always returns (it has a deadline); parallelism is positive, as `run` checks.
* C58: fewer than 2^53 cases and shards, at least one shard.
* C59: errors of other libraries have no `Cause()`.
* C39: file names computed by protoc-gen-star are given. C95: `SetExt` and `JoinPaths` of protoc-gen-star are modelled from
  their published behaviour, on paths as protoc writes them (no empty or `..` parts); Go output paths stay given.
* C++: trigraphs are not processed (they were removed in C++17); LP64 and signed `char`. C68 leaves out the C++
  names of enum types of other packages; the names of the static validator variables are in C96, where the package in
  capitals, as protoc-gen-star writes it, is given.
* C72: names that protoc-gen-go makes and names of other packages are left out, and so is
  code that is the same for all rules. `int` has 64 bits.
* C74: pairs of `\u` escapes for one character (which the generator does not write) are not read; the limit of 65535
  bytes on a literal is left out.
* C76: a text that is not one literal counts as not compiling; `C76_compiles_iff_partial` knows a constant by its field,
  place and rule (`C76_constant_names_partial` is about the names as written); limits of the class file format and
  imports are left out.
* C87, C88, and the names in C64 and C76: `strcase` is modelled as of the version in go.mod, and protoc's Java
  generator as of protoc 3.6 to 3.9; both for ASCII names. protoc's list of forbidden names is a parameter. Extensions
  and the names protoc gives nested classes that clash with the outer class are left out.
* C90: Guava's `CaseFormat` and `Joiner` and protobuf's `getJavaOuterClassname` convention are modelled from their published
  behaviour; file names end in `.proto`. Loading the class and parsing its bytes are left to the JVM and protobuf.
* C79: "compiles" means well-formed by the C++ standard. A text that is not one literal is not; nor is a decimal literal
  above the largest `long long`, which g++ and clang take for an unsigned number with a warning. The headers, the
  namespaces and the static validator variables are left out, and so is the `has_x()` of proto2 scalars. The C++ names
  of enums and packages, and whether they resolve, are given (`Names`).
* The semantic models of Go and C++ give each rule its own table and pattern. That is what the code does if tables are
  supported in the sense of C37 (`TablesSupported`); `C79_shared_pattern` is a case where it does not. For Go this is
  itself proved, as C80: `C80_iff` says for which fields the tables found by name are the rule's own, and
  `C80_verdict_partial` carries this to the verdict of whole programs.
* C73: local variables of the generated code that hide a package of the same name (`m`, `err`, `item`, ...) are left out,
  and so are proto2 fields (whose Go types are pointers).

### Not modelled

`main.go`, the Bazel and Maven build files, `java/pgv-artifacts` (packaging), the test cases in
`tests/harness/cases`, how the harness programs read a test case (and, in Go, find the message's class), formatting of generated code
(gofmt), comments and (but for C73) imports of generated code, and the entries of the macro that C++ headers
define for the names of their messages (its name is in C96).

## Where the code does not do what a user relies on

Found while proving; each is the witness of a theorem, or stated in the specification that excludes it.

Go and the generator:
* NaN passes every range rule (C11). `lt_now: false` and `gt_now: false` are enforced as if true (C26).
* The hostname rule lowercases with Unicode tables first, so U+212A (Kelvin sign) and U+0130 pass (C15).
* An empty bytes `const` or `prefix` is ignored, `len` overrides `min_len`/`max_len` for bytes (C19), and the
  generator does not refuse the combination (C32). Limits of 2^63 and more wrap (C32).
* Durations whose limit lies at the saturation point of `time.Duration` are misjudged (C24).
* The generator compares timestamps by 64-bit nanoseconds: instants 584 years apart are equal (C34).
* It compares durations after limiting them to 64-bit nanoseconds: two different durations beyond 292 years are equal, and rules with them as bounds are refused (C89).
* Accepted integer ranges may be empty: `gt: 5, lt: 6`, `uint32.lt: 0` (C36).
* Any, Duration and Timestamp rules are not checked against the field type (C31).
* Lookup tables for numeric items and for keys and values are never declared; patterns on both keys and
  values are declared twice; names of different messages can collide (C37).
* Rules on the scalars inside wrapper list items or map values are accepted, but then the generator fails
  in all three languages (C21, C39). The uuid pattern is missing for nested messages (C38).
* `Key()` is never true and `key for` never printed (C29).
* The header name pattern accepts a comma (`+-.` is a range); checking a file twice fails (C33).
* `ReplaceAll` removes every occurrence of the module path, not only the prefix (C39).
* `byteStr` prints bytes below 16 with one digit (C40).
* Accepted rules whose Go code does not compile (C72): maps whose loop does not use the key (for instance skipped
  message values), lists on `BytesValue`, lists that name a member twice, infinite or NaN constants, durations over
  292 years, lengths of 2^63 and more, a field called `validate`, a message called like another one's error type.
* Packages of enums are imported only for singular fields whose enum differs in both proto package and Go package
  name: a `defined_only` list of another package's enum, or an enum of another package with the same last name (`v1`),
  makes code that does not compile; so do two packages of the same name, or one called `errors` (C73).
* The sharding of tests panics, for instance with 5 cases and 4 shards (C58).
* The Go harness can report "different first message" when two map iterations differ (C59).
* C81: the rules of messages with validation disabled are not checked, but their patterns are still compiled before `main`:
  a program with such a message panics when it starts if the pattern is wrong.
* C80: a map with a pattern on its string keys and one on its bytes values gets one regular expression, that of the keys;
  the code of the values matches against it too, so it accepts values that break their rule and refuses ones that keep it.

* With a `module` that occurs in the path of a C++ header, the header is not written where the source includes it, and
  files of different directories may be written to one path (C95).

* Go files of one package clash if two with uuid rules have the same base name in snake case (`x/id.proto` and `y/id.proto`,
  `fooBar.proto` and `foo_bar.proto`), or if a message of one is named `FooMultiError` or `FooValidationError` beside a message
  `Foo` of another (C97).

Java:
* With java_multiple_files, the messages `foo` and `Foo` share an output file, and the validator of `Foo` is written over
  the class protoc writes for a message `FooValidator` (C95).
* A file that does not itself import validate.proto gets no Java validators. Messages embedded below a type of such
  a file are not validated in Java; Go, C++ and Python validate them (C94).
* Unsigned fields are compared as signed; large limits do not compile (C42). Floats use `compareTo` and
  `equals`: NaN and negative zero differ from Go (C61).
* `max_items: 0` and `max_pairs: 0` are ignored; `no_sparse` always throws; `unique` on enums treats all
  undeclared numbers as equal (C43). `skip` disables `required` (C60).
* `within` throws ArithmeticException for a time more than 292 years from now, and limits on a duration throw
  IllegalArgumentException for a duration that is out of range; Go returns ordinary errors for both (C102).
* Enum rules naming undeclared numbers throw NullPointerException or never match (C62).
* `within` includes its end points and throws for spans over 292 years (C48).
* The explicit index asks its fallback for a validator and never runs it (C44).
* The reflective index does not find validators whose name was sanitised, and throws for ignored
  messages in single-file mode (C64).
* The server interceptor closes the call again for a second invalid message and forwards later valid
  messages after the call was closed (C46).
* A server whose clock is behind refuses, under `lt_now`, a message its client's interceptor has accepted (C108): the
  rules are checked again, at another time.
* `ProtoTypeMap` (used by the test harness, but part of the published library) gives nested messages a class inside `null`
  under `java_multiple_files`, enters the enums of a message without the name of the message (two messages with an enum of
  one name make `of` throw), lower-cases capitals inside words of the file name (`fooBar.proto` becomes `Foobar`) and
  overlooks nested types called like the outer class (C90).
* The exception for a missing required wrapper names no field: the template writes the descriptor struct, pointers
  included, so that the generated source also differs from run to run (C75).
* Code does not compile for timestamps beyond 2038, unsigned bounds above the signed range, infinite bounds, lengths
  of 2^31, enum constants on map values, and durations, timestamps or `any` rules on fields of another type. Constants
  are also written for disabled messages (C76).
* Strings in rules other than patterns are not escaped: with a quote or an end of line in them the code does not
  compile, a backslash changes their meaning (C63, C74). Patterns with a quote, with a `\x` escape, with a bell or a
  vertical tab, or with unprintable characters beyond U+FFFF do not compile (C74).
* The reason for `uri_ref` asks for an absolute uri, which is not what the rule asks for; `Math.abs` of the difference of
  two times overflows, so that a time exactly 2^63 nanoseconds before the clock is within any distance of it (C91).
* An e-mail value may have a stray `>` at its end, and two characters outside the Basic Multilingual Plane side by side
  in a bracketed address are scrambled before the library sees them (C83).

* A field with a name protoc keeps for itself (`class`), or a repeated field `foo` beside a field `foo_count`, has another
  getter than the one in the generated code; so has a oneof such as `choice_2fa` (C87).
* The generator's name for the outer class is wrong for files such as `aB.proto`, and for files with a nested type called
  like the outer class. The validator of `Foo_bar` instantiates `FooBarValidator`, and the validators of `A.B` and `A_B`
  have one name (C88). The fields `foo_bar` and `fooBAR` have constants of one name (C76).

Python:
* Oneofs are checked before the other fields, so of two fields that are broken Python may report another one than Go,
  C++ and Java (C106).
* Message values of a map are not validated when the map has rules for its keys and none for its values (C94).
* A list without rules whose message type has just the fields `key` and `value` is taken for a map: its items are not
  validated, or, if `value` is a message, validating a list with items raises TypeError (C94).
* Fields without rules are not followed if the full name of their type starts with `google.protobuf` (C94).
* `printer += …` is a load and a store: with several threads `print_validate` may lose validators (C77).
* Limits and enum constants of zero are ignored (C50); `ignore_empty: false` on numbers counts as true,
  infinite limits raise NameError, present but empty rules raise AttributeError (C51).
* Times are compared as doubles: differences below one part in 2^51 are lost (C67). `$` accepts a final newline, `uuid` accepts
  other forms (C66).
* Bytes items are not checked; `required` on items always fails; message values of maps with key or value
  rules are not validated; `not_contains: ""` is ignored; duration `not_in` with `lt` is a syntax error;
  `no_sparse` is ignored (C65).
* The cache is keyed by the full name, so two pools with one name share a validator (C49).
* `within` with `lt_now`/`gt_now` excludes the far end (C48).
* For e-mail only what follows the first `<` up to the next bracket is checked, the text around it is not; of an address with
  several `@` only the part between the first two has to be a hostname (C83).
* The texts of exceptions say "is not in range" of values inside inverted limits, "is not a valid email" of host names,
  "is not in" of durations in a `not_in` list, "is not a valid uri" of `http://example.com`, "is not a valid uri ref" of
  `#top`, "is not within range" of times in it on the wrong side of now, "is required." of items that are there, and
  have `b['pattern'].encode('unicode-escape')` in place of a bytes pattern. They call items `item` and keys `key`
  whatever the field, and nested messages have no path (C92).
* Dropping the last rule on a number, so that `{}` is left, makes `validate` fail for every message (C105).

Test programs:
* No program asks the executor to compare the number of broken rules, so a rejected message passes a test that expects any
  number but zero. A rule that C++ or Java do not implement passes every test that expects broken rules. The Python program
  takes its answer, which is not text, for UTF-8, and fails for every reason of 128 bytes up to 16 KiB (C93).
* On Windows the executor takes any file of the manifest whose name contains the command; which one depends on the
  iteration order of a Go map. A path with a space is cut off, and a line without a space ends the run (C110).
* A message of a type that the C++ program does not know (such as those of the files in other directories) passes every test
  that expects broken rules. The Python program does not know nested messages, nor those whose name a module that it
  imports later also has (C111).

C++:
* The Bazel rule `cc_proto_gen_validate` cannot be built for a `proto_library` with `strip_import_prefix` or `import_prefix`,
  nor for `.protodevel` files: the plugin writes other files than the rule declares (C114_virtual, C114_extension).
* Generated C++ does not compile for infinite bounds, unsigned bounds above the largest signed 64-bit integer, the
  smallest 64-bit integer, `unique` on enums, lists and patterns on most items and map entries, lists on enums of other
  packages or with names Go changes, files without a package, and a control character before hexadecimal digits in a
  text (C79). For `map<string, bytes>` with patterns on keys and values it compiles in Go and C++, but values are checked
  with the pattern of the keys (C79).
* The text of a C++ violation does not begin with "invalid ", which the generated code asks for: the stream is opened
  without `ate`, so that the text is written over it. The text for a required oneof does not name the message type, and
  the text for a duration out of range ends with an address (C86).
* Generated C++ calls `m.class()` where protoc declares `class_()`: only `const` and `inline` are escaped. It keeps
  upper-case letters of field names, which protoc lowers, and spells the case type of a oneof `choice_2` `Choice_2Case`,
  where protoc declares `Choice2Case` (C78).
* Patterns must match the whole text, literals end at a NUL, string literals with `\x` escapes swallow
  following digits, floats are read as doubles or with six decimals, NaN is a member of every set,
  mixed-sign durations are accepted, IP rules look only up to a NUL, and email, URI, timestamp, bytes IP
  and `no_sparse` rules throw (C55). Under a constant that C++ misreads, it reports that 1e-7 must equal 1e-7 (C85).
* Generation fails for singular wrapper fields other than `StringValue` with `in` or `not_in`, and for rules
  on wrapped list items or map values (C39, C68).
* Tables for items that are neither strings nor enums, and for keys and values, are not declared; messages
  of one short name nested in different messages collide; two `unique` lists in one message define
  `struct cmp` or `struct hash` twice (C68).
* `\x` escapes run on into following digits; text after a NUL is lost (C71).
* The messages `a.b.C` and `a.b__C` get one variable, and a program with both does not link. The headers of `fooBar.proto` and
  `foo_bar.proto`, or of one file name in two directories, define the same macro (C96). So do
  `b_c.proto` of package `a` and `c.proto` of package `a.b`.

## Testing the theorems

`seeded/LOG.jsonl` records wrong programs made by editing the model in a scratch copy, and which
theorems then failed. A failing lemma stops the build of the property theorems that rest on it.

How to read it:

- Rows whose edit ends in a quoted line of the model were made by a script that changes one token; the others were written by
  hand as realistic bugs. For the rows by script, `claim` was worked out from the theorems that failed and those that use them;
  nobody decided beforehand which claim the edit ought to break.
- A proof that fails shows that the edit is noticed. It does not by itself show that the statement has become false: a proof
  can also fail because of how it is written.
- Edits that did not compile in the edited definition itself are left out.
- Where `failed` has only names that start with `example@`, a concrete case noticed the edit and no theorem did.
- Where `failed` is empty, no theorem noticed the edit: either theorems were then tightened, or the note says why the edit was
  taken to be harmless. These reasons are judgements, not proofs.

## Axioms per theorem

From `#print axioms` on every theorem named in MANIFEST.json (550):
* `Classical.choice`, `Quot.sound`, `propext`: all 500 theorems not listed below.
* `Quot.sound`, `propext` (32): `C39_path_partial`, `C39_module_inside_path`, `C40_bytes`, `C40_table_key_partial`, `C44_last_registered`, `C44_fallback_ignored`, `C44_always_invalid_accepts`, `C44_explicit_partial`, `C45_transparent`, `C45_loads_once`, `C45_fallback_only`, `C46_only_valid_delivered`, `C46_closed_for_violations`, `C46_first_violation`, `C46_transparent`, `C46_closed_once_partial`, `C47_only_valid_sent`, `C49_cache_transparent_partial`, `C49_cache_bounded`, `C53_substrings`, `C56_success`, `C56_skip`, `C57_finite`, `C64_reflection_finds_partial`, `C69_print_validate`, `C71_bytes`, `C71_cut_at_nul`, `C73_imports_partial`, `C73_needed`, `C74_bytes`, `C103_is_valid`, `C110_located_partial`.
* `propext` (16): `C16_length`, `C42_large_bound_does_not_compile`, `C46_closed_again`, `C47_status`, `C53_invalid_differs`, `C58_off`, `C71_escape_runs_on`, `C71_escape_too_large`, `C73_fixed_names`, `C74_string_not_escaped`, `C77_print_loses`, `C83_java_scrambled`, `C98_report`, `C106_one`, `C108_clock`, `C111_go_own`.
* no axioms (2): `C49_same_name_differs`, `C54_static_type`.

