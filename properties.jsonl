{"id": "C01", "title": "Validate and ValidateAll agree on validity", "statement": "For every generated Go message type and every message value, Validate() returns nil exactly when ValidateAll() returns nil, even when the two calls iterate maps in different orders (for a common clock reading).", "quantifier": "all schemas (any fields, rules, nesting, recursion), all message values of any depth, all map iteration orders, all behaviours of the regexp/mail/url/net libraries", "why_tests_cant": "the code is generated per schema; each error site has its own early-return branch, and values and schemas are unbounded", "anchors": ["templates/goshared/msg.go:msgTpl", "templates/go/message.go:messageTpl", "templates/goshared/*.go"]}
{"id": "C02", "title": "Validate's error is ValidateAll's first error", "statement": "When validation fails, the error returned by Validate() is the first error ValidateAll() collects: same message type, field, reason and key flag, and (recursively) the same first cause, so both have the same root cause.", "quantifier": "all schemas, message values of any nesting depth and library behaviours, for a common iteration order and clock", "why_tests_cant": "the harness only compares the two on sample messages; the relation must hold through unbounded chains of embedded messages", "anchors": ["templates/goshared/msg.go:msgTpl", "templates/go/message.go:messageTpl", "tests/harness/go/main/harness.go:checkValid"]}
{"id": "C03", "title": "ValidateAll reports every violation, field by field, in order", "statement": "The error list of ValidateAll() is the concatenation, in schema order (fields outside oneofs first, then each oneof), of the errors each field alone would produce; no violation hides another and none is reported twice; every error names the message type it comes from.", "quantifier": "all schemas and message values; all splits of the field list", "why_tests_cant": "interactions between arbitrary numbers of fields cannot be enumerated", "anchors": ["templates/goshared/msg.go:msgTpl"]}
{"id": "C04", "title": "Validate decides the declared constraints", "statement": "Validate() returns nil for a message exactly when the message satisfies the declarative meaning of its rules: every field outside a oneof satisfies its field rules, every oneof has its set member valid (and one set when required), and every embedded, non-skipped message is valid in turn. There is exactly one predicate on values with that property and Validate computes it, always terminating.", "quantifier": "all schemas, including recursive ones, and all finite message values", "why_tests_cant": "quantifies over every schema and value; each unit test fixes one of each", "anchors": ["templates/goshared/*.go", "templates/go/*.go", "templates/shared/context.go:resolveRules"]}
{"id": "C05", "title": "Disabled, nil and ignored messages", "statement": "A message whose type has validate.disabled set is always accepted by both entry points, a nil message is always accepted, a field without rules of a non-message type imposes nothing, and a parent never fails because of an embedded message whose type has no generated validation methods (validate.ignored).", "quantifier": "all field contents of the disabled/ignored message, all parents", "why_tests_cant": "must hold for every content of the disabled message", "anchors": ["templates/goshared/msg.go:24-31", "templates/shared/disabled.go"]}
{"id": "C06", "title": "skip cuts off the embedded message", "statement": "For a message field with message.skip, the outcome of validating the parent does not depend on anything inside the embedded message except whether it is set.", "quantifier": "all pairs of embedded values, all parents", "why_tests_cant": "non-interference: a statement about pairs of runs", "anchors": ["templates/go/message.go:messageTpl"]}
{"id": "C07", "title": "required on message-typed fields", "statement": "A field of message, Any, Duration, Timestamp or wrapper type marked required produces an error when unset; the same field not marked required produces no error when unset, whatever its other rules.", "quantifier": "all rule sets and both modes", "why_tests_cant": "all combinations of the other rules", "anchors": ["templates/go/required.go", "templates/goshared/wrapper.go", "templates/go/duration.go", "templates/go/timestamp.go", "templates/goshared/any.go", "templates/go/message.go"]}
{"id": "C08", "title": "oneof semantics", "statement": "For each oneof only the member that is set is validated; rules of the other members never matter; a oneof marked required is rejected exactly when no member is set, with an error on the oneof itself.", "quantifier": "all schemas with any number of oneofs and members, all values", "why_tests_cant": "all member counts and rule combinations", "anchors": ["templates/goshared/msg.go:36-52"]}
{"id": "C09", "title": "ignore_empty", "statement": "With ignore_empty set, the zero value of a numeric, string, bytes, repeated or map field passes whatever the other rules; every other value is judged exactly as without ignore_empty.", "quantifier": "all rule sets and values", "why_tests_cant": "all combinations of the other rules", "anchors": ["templates/goshared/num.go", "templates/goshared/string.go", "templates/goshared/bytes.go", "templates/goshared/repeated.go", "templates/goshared/map.go"]}
{"id": "C10", "title": "Integer range rules", "statement": "For integer fields with any combination of lt/lte/gt/gte the checker lets through, a value is accepted exactly when it lies in the declared interval; when the upper bound is below the lower bound the rule means the complement: accepted exactly when the value satisfies at least one of the two bounds.", "quantifier": "all integer bounds and values of the twelve numeric kinds", "why_tests_cant": "64-bit domains and all bound combinations", "anchors": ["templates/goshared/ltgt.go:ltgtTpl"]}
{"id": "C11", "title": "Float range rules and NaN", "statement": "A float/double value accepted by a field with range rules satisfies the stated bounds; in particular NaN, which satisfies no bound, is rejected.", "quantifier": "all IEEE-754 bit patterns and all bounds", "why_tests_cant": "the whole float domain, including NaN payloads and signed zeros", "anchors": ["templates/goshared/ltgt.go:ltgtTpl"]}
{"id": "C12", "title": "const, in and not_in", "statement": "A numeric/bool/string/enum field with const accepts exactly that value; with in it accepts exactly the members of the list; with not_in exactly the non-members; in and not_in are never both given.", "quantifier": "all lists of any length and all values", "why_tests_cant": "unbounded lists", "anchors": ["templates/goshared/in.go:inTpl", "templates/goshared/const.go:constTpl"]}
{"id": "C13", "title": "String lengths count characters, byte lengths count bytes", "statement": "len/min_len/max_len bound the number of Unicode code points of the string and len_bytes/min_bytes/max_bytes the number of UTF-8 bytes; a string satisfies them exactly when both counts are within the declared limits.", "quantifier": "all strings (all sequences of Unicode scalar values) and all limits", "why_tests_cant": "unbounded strings and a multi-byte encoding", "anchors": ["templates/goshared/string.go:13-82"]}
{"id": "C14", "title": "prefix, suffix, contains and not_contains", "statement": "A string or bytes field with prefix/suffix/contains is accepted exactly when the value can be split as required (p++rest, rest++s, a++c++b); not_contains is the negation of contains.", "quantifier": "all values and all affixes", "why_tests_cant": "unbounded strings", "anchors": ["templates/goshared/string.go:84-114", "templates/goshared/bytes.go:46-68"]}
{"id": "C15", "title": "Hostname grammar", "statement": "A string field with the hostname rule accepts exactly: at most 253 bytes, dot-separated labels (one trailing dot allowed), each label 1 to 63 letters, digits and hyphens, not starting or ending with a hyphen.", "quantifier": "all byte strings", "why_tests_cant": "unbounded strings; non-ASCII input", "anchors": ["templates/goshared/known.go:hostTpl"]}
{"id": "C16", "title": "UUID grammar", "statement": "A string field with the uuid rule accepts exactly 36 characters: hex digits in groups of 8-4-4-4-12 separated by hyphens, in either case; Go and Java agree on every input.", "quantifier": "all byte strings", "why_tests_cant": "unbounded strings", "anchors": ["templates/goshared/known.go:uuidTpl", "templates/go/file.go:_pgv_uuidPattern", "java/pgv-java-stub/src/main/java/io/envoyproxy/pgv/StringValidation.java:uuid"]}
{"id": "C17", "title": "Email and address rules", "statement": "A string accepted by the email rule parses as a mail address of at most 254 bytes whose part before the first @ has at most 64 bytes and whose rest is a valid hostname; the address rule accepts exactly hostnames and IP addresses.", "quantifier": "all strings and all behaviours of the address/IP parsers", "why_tests_cant": "unbounded strings; library behaviour", "anchors": ["templates/goshared/known.go:emailTpl", "templates/goshared/string.go:116-176"]}
{"id": "C18", "title": "IP rules on bytes", "statement": "A bytes field with ip accepts exactly 4- and 16-byte values; ipv4 accepts 4-byte values and 16-byte IPv4-mapped values; ipv6 accepts 16-byte values that are not IPv4-mapped.", "quantifier": "all byte strings", "why_tests_cant": "all 2^128 addresses and all lengths", "anchors": ["templates/goshared/bytes.go:92-110"]}
{"id": "C19", "title": "Bytes rules", "statement": "A bytes field is accepted exactly when its byte length is within the limits, the affix rules hold, it is (not) in the given list, and it equals const when a const is given.", "quantifier": "all byte strings and rule sets, including empty const/prefix values", "why_tests_cant": "unbounded values; template truthiness of empty values", "anchors": ["templates/goshared/bytes.go:bytesTpl"]}
{"id": "C20", "title": "Enum rules", "statement": "An enum field with defined_only accepts exactly numbers declared in the enum; const/in/not_in behave as for integers.", "quantifier": "all 32-bit values and enums", "why_tests_cant": "all enum declarations and open-enum values", "anchors": ["templates/goshared/enum.go:enumTpl"]}
{"id": "C21", "title": "Repeated rules", "statement": "A repeated field is accepted exactly when its length is within min_items/max_items, unique implies no two elements are equal, and every element satisfies the item rules; an item error carries the index of the offending element.", "quantifier": "all lists of any length", "why_tests_cant": "unbounded lists", "anchors": ["templates/goshared/repeated.go:repTpl"]}
{"id": "C22", "title": "Map rules", "statement": "A map field is accepted exactly when its size is within min_pairs/max_pairs, no_sparse implies no nil values, and every key and value satisfies its rules; the verdict, and the multiset of errors ValidateAll collects, do not depend on the iteration order.", "quantifier": "all maps of any size and all iteration orders", "why_tests_cant": "Go randomises map iteration; all permutations", "anchors": ["templates/goshared/map.go:mapTpl"]}
{"id": "C23", "title": "Any rules", "statement": "An Any field with in accepts exactly the type URLs listed, with not_in exactly those not listed; an unset Any is only rejected when required.", "quantifier": "all type URLs and lists", "why_tests_cant": "unbounded lists", "anchors": ["templates/goshared/any.go:anyTpl"]}
{"id": "C24", "title": "Duration rules", "statement": "A Duration field is accepted exactly when the message is a valid duration and its exact length satisfies const/in/not_in and the range rules, with no arithmetic overflow affecting the answer.", "quantifier": "all (seconds, nanos) pairs including invalid and out-of-int64-range ones, all bounds", "why_tests_cant": "64-bit arithmetic with saturation", "anchors": ["templates/goshared/duration.go:durationcmpTpl", "templates/go/duration.go:durationTpl"]}
{"id": "C25", "title": "Absolute timestamp rules", "statement": "A Timestamp field is accepted exactly when the message is a valid timestamp and the instant satisfies const and the range rules, for every instant from year 1 to 9999, although differences of such instants overflow 64-bit nanoseconds.", "quantifier": "all (seconds, nanos) pairs, all bounds", "why_tests_cant": "64-bit arithmetic with saturation", "anchors": ["templates/goshared/timestamp.go:timestampcmpTpl", "templates/go/timestamp.go:timestampTpl"]}
{"id": "C26", "title": "Relative timestamp rules", "statement": "lt_now accepts exactly instants before the clock reading, gt_now after it, within d instants at distance less than d, and lt_now/gt_now combined with within accept the corresponding one-sided window; setting lt_now or gt_now to false imposes nothing.", "quantifier": "all instants, clock readings and windows", "why_tests_cant": "all clock readings", "anchors": ["templates/goshared/timestamp.go:103-136"]}
{"id": "C27", "title": "Wrapper fields", "statement": "A wrapper field (google.protobuf.*Value) with scalar rules is accepted when unset (unless required) and otherwise judged exactly as a scalar field holding the wrapped value would be.", "quantifier": "all wrapped values and rules", "why_tests_cant": "all rule/value combinations", "anchors": ["templates/goshared/wrapper.go:wrapperTpl", "templates/shared/context.go:Unwrap"]}
{"id": "C28", "title": "Nested failures surface with a cause chain", "statement": "A message embedding (at any depth, through fields, list elements or map values, without skip) an invalid message is itself invalid, and following Cause() from Validate()'s error reaches the error of the innermost failing message.", "quantifier": "all nesting depths and paths", "why_tests_cant": "unbounded depth", "anchors": ["templates/go/message.go:messageTpl", "templates/goshared/msg.go"]}
{"id": "C29", "title": "Error text", "statement": "Error() of a violation is 'invalid ' [+ 'key for '] + Type + '.' + field + ': ' + reason [+ ' | caused by: ' + cause text]; a multi-error's text joins the texts of its errors with '; ' in order; an error raised for a map key has Key() true.", "quantifier": "all errors, any nesting and number", "why_tests_cant": "unbounded structure", "anchors": ["templates/goshared/msg.go:62-130", "templates/goshared/register.go:errIdxCause", "templates/shared/context.go:Key"]}
{"id": "C30", "title": "Generator rejects contradictory numeric rules", "statement": "The generator accepts a numeric rule set exactly when: in and not_in are not both given; const excludes everything else; in excludes ranges; lt/lte and gt/gte are exclusive; and no upper bound equals a lower bound.", "quantifier": "all numeric rule sets", "why_tests_cant": "all combinations", "anchors": ["module/checker.go:checkNums", "module/checker.go:checkIns"]}
{"id": "C31", "title": "Generator rejects rules on fields of another type", "statement": "If the generator accepts a message then every field's rule kind matches the field's declared type (or its wrapper), recursively for list items and map keys and values.", "quantifier": "all schemas", "why_tests_cant": "all rule/type pairs at any nesting", "anchors": ["module/checker.go:CheckFieldRules", "module/checker.go:MustType"]}
{"id": "C32", "title": "Generator rejects inconsistent length rules", "statement": "If the generator accepts string (bytes, repeated, map) rules then min does not exceed max, an exact length is not combined with min/max, and prefix, suffix and contains are no longer than the maximum length.", "quantifier": "all rule sets, including limits above 2^63", "why_tests_cant": "all uint64 limits", "anchors": ["module/checker.go:CheckString", "module/checker.go:CheckBytes", "module/checker.go:checkLen", "module/checker.go:checkMinMax"]}
{"id": "C33", "title": "well_known_regex header patterns", "statement": "A string field with well_known_regex HTTP_HEADER_NAME/VALUE is validated with a pattern that accepts exactly the RFC 7230 header names (optionally with a leading colon) / values; with strict=false exactly the strings without NUL, CR, LF; and checking rules twice is harmless.", "quantifier": "all strings; all sequences of check calls", "why_tests_cant": "all strings; history of calls", "anchors": ["module/checker.go:16-27", "module/checker.go:checkWellKnownRegex"]}
{"id": "C34", "title": "Generator checks timestamp rules", "statement": "The generator accepts timestamp rules exactly when bounds are consistent as for numbers, relative rules are not mixed with absolute bounds or within with bounds, lt_now and gt_now are not combined, and within is positive; distinct instants are never considered equal.", "quantifier": "all timestamp rule sets", "why_tests_cant": "nanosecond arithmetic overflows int64 outside 1678..2262", "anchors": ["module/checker.go:CheckTimestamp", "module/checker.go:checkTS"]}
{"id": "C35", "title": "Generator checks enum, message, repeated and map rules", "statement": "If accepted: an enum with defined_only lists only defined numbers in in; message rules are only on singular message fields other than Any, Duration and Timestamp, and skip is not combined with rules on a wrapped value; unique is only on lists of non-messages; no_sparse only on maps with message values; repeated/map rules never appear inside item/key/value rules.", "quantifier": "all schemas and nested rules of any depth", "why_tests_cant": "unbounded nesting of rules", "anchors": ["module/checker.go:CheckEnum", "module/checker.go:CheckMessage", "module/checker.go:CheckRepeated", "module/checker.go:CheckMap"]}
{"id": "C36", "title": "Accepted range rules are satisfiable", "statement": "Every range rule (lt/lte/gt/gte) the generator accepts on an integer field admits at least one value of the field's type.", "quantifier": "all bounds of every integer kind", "why_tests_cant": "all 64-bit bounds", "anchors": ["module/checker.go:checkNums", "templates/goshared/ltgt.go"]}
{"id": "C37", "title": "Generated Go code declares every lookup table it uses, once", "statement": "For every message accepted by the generator, each lookup table or regexp variable referenced by the generated validation code is declared in the same file exactly once, and no two fields share a variable name.", "quantifier": "all schemas", "why_tests_cant": "all combinations of field kinds, item/key/value rules and names", "anchors": ["templates/goshared/msg.go:135-208", "templates/goshared/in.go", "templates/goshared/string.go", "templates/goshared/register.go:lookup"]}
{"id": "C38", "title": "Helper functions are emitted when needed", "statement": "Whenever generation succeeds and the generated validation code of a message calls the hostname, email or uuid helper, that helper is emitted for that message; and the file-level uuid pattern is emitted when some message of the file needs it.", "quantifier": "all schemas including nested messages", "why_tests_cant": "all schemas", "anchors": ["templates/shared/well_known.go:Needs", "templates/shared/well_known.go:FileNeeds", "templates/goshared/string.go"]}
{"id": "C39", "title": "Plugin output", "statement": "A plugin run with an unknown language fails. Otherwise the run succeeds exactly when the rules of all messages are accepted and no message to be rendered has rules on the scalars inside wrapper list items or map values (or, for C++, lists on wrappers other than StringValue); then every target file has all its messages checked before anything is emitted for it, and yields exactly one output per applicable template (one per top-level message for java_multiple_files), with the module prefix and leading slashes removed from the path.", "quantifier": "all file sets and parameters", "why_tests_cant": "all file sets", "anchors": ["module/validate.go:Execute", "templates/pkg.go:FilePathFor"]}
{"id": "C40", "title": "Go literals denote the rule values", "statement": "The Go source literals the generator emits for strings of bytes in lookup tables denote exactly the bytes of the rule.", "quantifier": "all byte strings", "why_tests_cant": "unbounded strings", "anchors": ["templates/goshared/register.go:byteStr", "templates/goshared/register.go:lit"]}
{"id": "C41", "title": "Java range validation agrees with Go", "statement": "For signed integer bounds accepted by the generator, Java's range/lessThan/greaterThan checks accept exactly the values the Go code accepts, including inverted ranges.", "quantifier": "all bounds and values", "why_tests_cant": "64-bit domains", "anchors": ["java/pgv-java-stub/src/main/java/io/envoyproxy/pgv/ComparativeValidation.java", "templates/java/num.go"]}
{"id": "C42", "title": "Java unsigned fields", "statement": "For uint32/uint64/fixed32/fixed64 fields Java accepts exactly the values the Go code accepts.", "quantifier": "all unsigned values and bounds", "why_tests_cant": "64-bit domains", "anchors": ["templates/java/register.go:javaTypeForProtoType", "java/pgv-java-stub/src/main/java/io/envoyproxy/pgv/ComparativeValidation.java"]}
{"id": "C43", "title": "Java collection rules agree with Go", "statement": "minItems/maxItems/unique/min/max pairs/in/notIn accept exactly what Go accepts for the same rules.", "quantifier": "all lists, maps and limits", "why_tests_cant": "unbounded collections", "anchors": ["java/pgv-java-stub/src/main/java/io/envoyproxy/pgv/RepeatedValidation.java", "java/pgv-java-stub/src/main/java/io/envoyproxy/pgv/MapValidation.java", "java/pgv-java-stub/src/main/java/io/envoyproxy/pgv/CollectiveValidation.java", "templates/java/repeated.go", "templates/java/map.go"]}
{"id": "C44", "title": "Explicit validator index", "statement": "After any sequence of registrations, looking a class up uses the validator registered last for it, and the fallback index's validator (or, without one, always-valid) when none is registered.", "quantifier": "all histories of add and validatorFor calls", "why_tests_cant": "all histories", "anchors": ["java/pgv-java-stub/src/main/java/io/envoyproxy/pgv/ExplicitValidatorIndex.java"]}
{"id": "C45", "title": "Reflective validator index", "statement": "Every lookup of a class returns the validator that loading it afresh would give (generated validator, else the fallback's), whatever lookups happened before; the fallback and the loader are consulted at most once per class.", "quantifier": "all histories of lookups", "why_tests_cant": "all histories", "anchors": ["java/pgv-java-stub/src/main/java/io/envoyproxy/pgv/ReflectiveValidatorIndex.java"]}
{"id": "C46", "title": "gRPC server interceptor", "statement": "In any sequence of call events, an invalid request message never reaches the service and the call is closed with INVALID_ARGUMENT; after that the half-close is not delivered; all valid messages before it are delivered unchanged, in order; the call is closed at most once.", "quantifier": "all event sequences", "why_tests_cant": "all histories of streaming calls", "anchors": ["java/pgv-java-grpc/src/main/java/io/envoyproxy/pgv/grpc/ValidatingServerInterceptor.java"]}
{"id": "C47", "title": "gRPC client interceptor", "statement": "An invalid message is never sent and raises an error; valid messages are sent unchanged and in order.", "quantifier": "all message sequences", "why_tests_cant": "all histories", "anchors": ["java/pgv-java-grpc/src/main/java/io/envoyproxy/pgv/grpc/ValidatingClientInterceptor.java"]}
{"id": "C48", "title": "within means the same in Go, Java and Python", "statement": "The within rule, alone or with lt_now/gt_now, accepts the same instants in all languages.", "quantifier": "all instants, windows and clocks", "why_tests_cant": "all boundaries", "anchors": ["templates/goshared/timestamp.go", "java/pgv-java-stub/src/main/java/io/envoyproxy/pgv/TimestampValidation.java", "templates/java/timestamp.go", "python/protoc_gen_validate/validator.py:timestamp_template"]}
{"id": "C49", "title": "Python validator cache is transparent", "statement": "validate(msg) behaves, after any history of previous calls, as if the validator for the message's type were generated afresh; each call's result depends only on the type's rules and the message.", "quantifier": "all histories of validate calls over any number of types (more than the cache size)", "why_tests_cant": "all histories, evictions", "anchors": ["python/protoc_gen_validate/validator.py:29-63"]}
{"id": "C50", "title": "Python enforces zero-valued limits", "statement": "A Python validator enforces a rule whose limit is zero (max_len: 0, max_items: 0, const enum 0, ...) like any other limit, as Go does.", "quantifier": "all limits", "why_tests_cant": "all limits incl. 0", "anchors": ["python/protoc_gen_validate/validator.py:string_template", "python/protoc_gen_validate/validator.py:repeated_template", "python/protoc_gen_validate/validator.py:const_template"]}
{"id": "C51", "title": "Python numeric rules agree with Go", "statement": "For numeric fields the generated Python code accepts exactly the values Go accepts for the same checked rules.", "quantifier": "all bounds, lists and values", "why_tests_cant": "64-bit domains", "anchors": ["python/protoc_gen_validate/validator.py:num_template"]}
{"id": "C52", "title": "Hostname helpers agree across Go, Python and C++", "statement": "The Go, Python and C++ hostname checks accept the same ASCII strings.", "quantifier": "all ASCII strings", "why_tests_cant": "unbounded strings; different splitting algorithms", "anchors": ["templates/goshared/known.go:hostTpl", "python/protoc_gen_validate/validator.py:_validateHostName", "validate/validate.h:IsHostname"]}
{"id": "C53", "title": "C++ string helpers", "statement": "In C++, the prefix, suffix and substring helpers accept exactly the strings with that prefix, suffix or substring, and the length helper counts the code points of every valid UTF-8 string (which protobuf strings are), as Go does.", "quantifier": "all strings; for lengths, all valid UTF-8 strings", "why_tests_cant": "unbounded strings", "anchors": ["validate/validate.h", "templates/cc/string.go", "templates/cc/register.go:lit"]}
{"id": "C54", "title": "C++ validator registry", "statement": "Checking a message as a message of type T runs the C++ validator constructed last for T, and accepts if there is none; after the static initializers of the generated files this is the generated validator of T.", "quantifier": "all histories of constructing validators and checking messages", "why_tests_cant": "all histories", "anchors": ["validate/validate.h:43-70"]}
{"id": "C55", "title": "C++ rules agree with Go", "statement": "For the rules the C++ generator implements, the C++ Validate function accepts exactly the messages Go accepts, stops at the first violated rule, and reports which field failed.", "quantifier": "all rule sets and values", "why_tests_cant": "all rule/value combinations", "anchors": ["templates/cc/*.go"]}
{"id": "C56", "title": "Harness counters account for every result", "statement": "Whatever the interleaving of workers, the executor's final successes + failures + skips equal the number of results the workers produced, which is one per (case, harness) pair for cases that marshal.", "quantifier": "all schedules, worker counts, cases and harness outcomes", "why_tests_cant": "all interleavings", "anchors": ["tests/harness/executor/executor.go:run", "tests/harness/executor/worker.go"]}
{"id": "C57", "title": "Harness terminates", "statement": "The executor never deadlocks: from every reachable state some goroutine can step until the run is finished, and every schedule is finite; the collector is done before the run returns, and no goroutine sends on a closed channel.", "quantifier": "all schedules, worker counts and cases", "why_tests_cant": "all interleavings", "anchors": ["tests/harness/executor/executor.go:run", "tests/harness/executor/worker.go:Work"]}
{"id": "C58", "title": "Sharding partitions the test cases", "statement": "The shards selected for shard indices 0..total-1 are, concatenated in order, exactly the test case list: every case runs in exactly one shard.", "quantifier": "all case counts, shard counts", "why_tests_cant": "all shard counts", "anchors": ["tests/harness/executor/executor.go:shardTestCases"]}
{"id": "C59", "title": "Go harness comparison", "statement": "For every message of a checked schema the Go harness reports Valid or a reason list, never the 'different verdict' or 'different first message' error.", "quantifier": "all messages and errors", "why_tests_cant": "all schemas and values", "anchors": ["tests/harness/go/main/harness.go:checkValid", "tests/harness/go/main/harness.go:mergeReasons"]}
{"id": "C60", "title": "Java and Go agree on whole messages", "statement": "For rules and values that are portable between the two languages, the generated Java validator returns normally on a message exactly when Go's Validate returns nil, however deeply messages, lists, maps, wrappers and oneofs are nested.", "quantifier": "all schemas, including recursive ones, all messages, all library behaviours on which the two languages agree", "why_tests_cant": "the conformance cases sample a few shallow messages; schemas and nesting are unbounded", "anchors": ["templates/java/msg.go", "templates/java/message.go", "templates/java/repeated.go", "templates/java/map.go", "templates/java/oneof.go", "java/pgv-java-stub/src/main/java/io/envoyproxy/pgv"]}
{"id": "C61", "title": "Java float and double rules agree with Go", "statement": "A float or double field is accepted by the Java validator exactly when the Go code accepts it.", "quantifier": "all bit patterns of values and bounds", "why_tests_cant": "2^64 bit patterns per bound; NaN, signed zeros and infinities are easily missed", "anchors": ["java/pgv-java-stub/src/main/java/io/envoyproxy/pgv/ComparativeValidation.java", "java/pgv-java-stub/src/main/java/io/envoyproxy/pgv/ConstantValidation.java", "templates/java/num.go"]}
{"id": "C62", "title": "Java enum rules agree with Go", "statement": "An enum field is accepted by the Java validator exactly when the Go code accepts it, for declared and undeclared numbers.", "quantifier": "all enums, enum rules and numbers", "why_tests_cant": "unbounded enums; undeclared numbers arrive only from newer senders", "anchors": ["templates/java/enum.go", "java/pgv-java-stub/src/main/java/io/envoyproxy/pgv/EnumValidation.java"]}
{"id": "C63", "title": "Java string and bytes rules agree with Go", "statement": "Java, which sees strings as UTF-16, accepts exactly the texts that the Go code accepts on their UTF-8 bytes under const, in, not_in, length, byte length, prefix, suffix, contains, not_contains and uuid rules; likewise for bytes fields.", "quantifier": "all valid UTF-8 strings, all byte strings, all rules", "why_tests_cant": "all code points, including those that are surrogate pairs in Java", "anchors": ["templates/java/string.go", "templates/java/bytes.go", "java/pgv-java-stub/src/main/java/io/envoyproxy/pgv/StringValidation.java", "java/pgv-java-stub/src/main/java/io/envoyproxy/pgv/BytesValidation.java"]}
{"id": "C64", "title": "Reflective index finds the generated validator", "statement": "For every message of a file that has a generated validator, at any nesting depth and in both java_multiple_files modes, the reflective validator index finds the validator generated for that message, and no other.", "quantifier": "all proto files, message trees, nesting depths, package and outer class names", "why_tests_cant": "unbounded trees and names; a miss is silent because an unknown message is accepted", "anchors": ["java/pgv-java-stub/src/main/java/io/envoyproxy/pgv/ReflectiveValidatorIndex.java", "templates/java/file.go", "templates/java/register.go: classNameFile, classNameMessage, qualifiedName"]}
{"id": "C65", "title": "Python whole-message agreement with Go", "statement": "A message is accepted by the Python validate() exactly when the Go Validate() accepts it, for every message schema, at every nesting depth.", "quantifier": "all schemas, rules, messages and nesting depths", "why_tests_cant": "the product of rule kinds, field shapes, nesting and values is unbounded; Python builds its code from text at run time, so a wrong template shows only for the schema that reaches it", "anchors": ["python/protoc_gen_validate/validator.py: validate, file_template, rule_type, repeated_template, map_template, message_template"]}
{"id": "C66", "title": "Python well_known_regex and uuid agree with Go", "statement": "A string is accepted by Python under well_known_regex (strict or not) and under uuid exactly when Go accepts it.", "quantifier": "all strings, all header kinds, strict and non-strict", "why_tests_cant": "unbounded strings; anchors and newlines behave differently in the two regular-expression engines", "anchors": ["python/protoc_gen_validate/validator.py: string_template", "module/checker.go", "templates/goshared/string.go"]}
{"id": "C67", "title": "Python time rules are exact", "statement": "Duration and timestamp rules compare to the nanosecond in Python, as they do in Go: a value is accepted exactly when it satisfies the bound.", "quantifier": "all durations and timestamps and all rule values", "why_tests_cant": "rounding to binary floating point errs only on particular nanosecond counts and magnitudes", "anchors": ["python/protoc_gen_validate/validator.py: duration_template, timestamp_template"]}
{"id": "C68", "title": "C++ generation succeeds and declares every name once", "statement": "For every message the generator accepts, C++ generation produces a file; every lookup table and pattern the generated C++ uses is declared exactly once in its namespace, and no function declares one name twice.", "quantifier": "all accepted messages and files, all rules at all positions", "why_tests_cant": "depends on combinations of rules, positions, wrapper types and message names that are unbounded", "anchors": ["templates/cc/msg.go", "templates/cc/register.go: lookup, inType, unwrap", "templates/cc/repeated.go", "templates/cc/in.go"]}
{"id": "C69", "title": "print_validate shows every generated Python validator", "statement": "After any history of validate calls, print_validate's text contains the generated validator of every message type that was validated and whose validator text could be made, even when Python refused to compile it; it contains nothing else, and text shown earlier is never lost, whatever the cache has evicted since.", "quantifier": "all sequences of validate calls, in any order and with any results, over any types", "why_tests_cant": "histories are unbounded; the text outlives cache evictions and failures that tests do not provoke", "anchors": ["python/protoc_gen_validate/validator.py: _validate_inner, print_validate, printer"]}
{"id": "C70", "title": "C++ validators lose no rejection and skip no unimplemented rule", "statement": "A C++ validator accepts a message only if the validators of all embedded messages, at any depth, accept them; and it never accepts a message that holds a value under a rule the C++ generator does not implement (email, uri and uri_ref strings, ip bytes, timestamp comparisons, no_sparse maps).", "quantifier": "all schemas, messages, depths of nesting and environments", "why_tests_cant": "nesting is unbounded and each position (field, item, key, value, oneof) must propagate the result", "anchors": ["templates/cc/message.go", "templates/cc/string.go", "templates/cc/bytes.go", "templates/cc/timestamp.go", "templates/cc/map.go"]}
{"id": "C71", "title": "C++ literals denote the rule values", "statement": "The string literal written into C++ code for a string or bytes rule value denotes exactly that value when a C++ compiler reads it.", "quantifier": "all byte strings and UTF-8 strings", "why_tests_cant": "escapes depend on each byte and on what follows it", "anchors": ["templates/cc/register.go: lit, byteStr", "templates/cc/string.go", "templates/cc/bytes.go"]}
{"id": "C72", "title": "Generated Go code compiles", "statement": "For every file the generator accepts, the Go code it writes compiles: operands have the types the operations need, constants fit their types, every local variable is used, tables are declared with comparable keys and no duplicate key, and no name is declared twice.", "quantifier": "all accepted messages and files: any number of fields, any rules", "why_tests_cant": "which statements are written, which variables they use and which constants they print depends on every combination of rules and types", "anchors": ["templates/goshared/*.go", "templates/go/*.go", "templates/goshared/register.go: inType, inKey, lit, durLit, tsLit", "module/checker.go: CheckFieldRules"]}
{"id": "C73", "title": "Packages of enum types are imported", "statement": "Every Go package whose enum types the generated code of a file mentions is imported by that file under the name the code uses, and no two imports have the same name.", "quantifier": "all files: any messages, any enum-typed fields (singular, repeated, map values), any rules, any packages of the enums", "why_tests_cant": "what is mentioned depends on rules and field shapes, what is imported on the packages of singular fields; the tests have one external enum package", "anchors": ["templates/goshared/register.go: externalEnums, enumPackages, inType", "templates/go/file.go", "templates/goshared/enum.go", "templates/goshared/repeated.go", "templates/goshared/msg.go"]}
{"id": "C74", "title": "Constants in generated Java code", "statement": "Strings, patterns and byte strings in rules are written into the generated Java code as literals that compile and denote them.", "quantifier": "all strings, all patterns, all byte strings", "why_tests_cant": "every character sequence, including those special to Java, to its Unicode escapes and to regular expressions", "anchors": ["templates/java/register.go: javaStringEscape, byteArrayLit", "templates/java/string.go", "templates/java/bytes.go", "templates/java/any.go"]}
{"id": "C75", "title": "Java violations name the field", "statement": "When a generated Java validator rejects a message, the exception is about the first field or oneof, in declaration order with oneofs last, that breaks its own rules, in the message or in one embedded in it, and ValidationException.getField() is the full name of that field.", "quantifier": "all message types, recursive ones included, all rules, all messages at any nesting depth, all libraries and map orders", "why_tests_cant": "depends on every combination of rules, values and nesting; tests look at single fields", "anchors": ["templates/java/*.go: FullyQualifiedName", "templates/java/wrapper.go", "templates/java/msg.go", "java/pgv-java-stub/src/main/java/io/envoyproxy/pgv/ValidationException.java"]}
{"id": "C76", "title": "Generated Java code compiles", "statement": "For every message the generator accepts, the generated Java validator class compiles: constants are declared once and before use, every literal is a Java literal in the range of its type, and every call of the run-time library has arguments of its parameter types.", "quantifier": "all message types, all rules, all constants in rules", "why_tests_cant": "every combination of field type, rule and constant, including the extremes of each type's range", "anchors": ["templates/java/*.go", "templates/java/register.go: javaTypeFor, javaTypeLiteralSuffixFor, durLit, tsLit", "java/pgv-java-stub/src/main/java/io/envoyproxy/pgv/*.java"]}
{"id": "C77", "title": "Python validation from several threads", "statement": "When several threads call Python's validate, each call returns or raises what it would alone with a freshly generated validator, under every interleaving; no thread can be kept from finishing by the others, and the cache of validators keeps its size limit.", "quantifier": "all schedules, any number of threads, calls and message types, all cache sizes, nested validators", "why_tests_cant": "unboundedly many interleavings of cache lookups, generation and evictions", "anchors": ["python/protoc_gen_validate/validator.py: validate, _validate_inner, printer"]}
{"id": "C78", "title": "C++ names are those protoc declares", "statement": "The accessors, oneof case enumerators and oneof case types that generated C++ validators name are the ones protoc's C++ generator declares for the same fields and oneofs.", "quantifier": "all names of fields and oneofs a .proto file may contain, all sets of reserved words", "why_tests_cant": "unboundedly many identifiers; two independently written name conversions must agree on all of them", "anchors": ["templates/cc/register.go: methodName, oneofTypeName, accessor, hasAccessor", "templates/cc/msg.go: the switch over a oneof's cases"]}
{"id": "C79", "title": "Generated C++ code compiles", "statement": "For every message the generator accepts, the generated C++ validator compiles: each lookup table and pattern is declared once and with a type its members and the looked-up values have, every literal is a C++ literal in range, every accessor, class and enumerator named is one protoc declares, and every operator and library function gets operands of types it takes.", "quantifier": "all files and message types, all rules, all constants in rules, all names", "why_tests_cant": "every combination of field type, rule, constant and name, including the extremes of each type's range", "anchors": ["templates/cc/*.go", "templates/cc/register.go: inType, cType, inKey, lit, durLit, lookup, accessor, hasAccessor", "validate/validate.h"]}
{"id": "C80", "title": "Each check of generated Go code uses its own rule's list or pattern", "statement": "For every field whose generated Go code compiles, a check of membership in a list, or of a match with a pattern, looks at the members or the pattern of the rule that it was generated for, although lists and patterns are package-level variables found by a name that says only the message, the field and the kind of rule.", "quantifier": "all fields, all rules on them and on their items, keys and values, all message values", "why_tests_cant": "every combination of rules at the top of a field and inside it, with every list and pattern", "anchors": ["templates/goshared/msg.go: the range over .Fields", "templates/goshared/register.go: lookup", "templates/goshared/in.go", "templates/goshared/string.go", "templates/goshared/bytes.go"]}
{"id": "C81", "title": "Programs with generated Go code start", "statement": "A Go program that links generated validators does not panic while it starts: every pattern that generated code compiles before main, whether it is written in a rule or stands behind well_known_regex or uuid, is one that Go's regexp package accepts.", "quantifier": "all files the generator accepts, all messages and fields in them, all patterns", "why_tests_cant": "every pattern at every place of a rule, including messages for which validation is disabled", "anchors": ["module/checker.go: CheckRules, checkPattern, checkWellKnownRegex", "templates/goshared/msg.go", "templates/go/file.go"]}
{"id": "C82", "title": "The reason in a Go violation is true", "statement": "Whenever Validate() or ValidateAll() of generated Go code reports a violation, its reason, read as a requirement, is not met by the value it blames and is met by every value of the same kind that satisfies the rules; the only other errors are a required oneof that is not set and an embedded message that failed, with that message's error as cause.", "quantifier": "all message types, all rules, all message values, both methods, every reported error", "why_tests_cant": "every rule kind with every combination of limits selects a different text and different printed limits, and the text must be true for every value", "anchors": ["templates/goshared: every .err and .errIdx call", "templates/go/message.go", "templates/goshared/msg.go"]}
{"id": "C83", "title": "The e-mail rule checks the whole value in Java and Python", "statement": "Generated Java and Python code accept a value under the e-mail rule exactly if it is a valid address or a display name followed by a valid address in angle brackets that end the value.", "quantifier": "all string values, all behaviours of the e-mail libraries", "why_tests_cant": "strings are unbounded, and brackets, quotes and surrogate pairs can stand anywhere in them", "anchors": ["java/pgv-java-stub/src/main/java/io/envoyproxy/pgv/StringValidation.java: email, hostName", "python/protoc_gen_validate/validator.py: _validateEmail, _validateHostName"]}
{"id": "C84", "title": "An unset field is validated like its default", "statement": "Setting fields that were not set to their proto3 defaults (zero, false, empty, no message) does not change the outcome of validation in Go (either method), Java, C++ or Python.", "quantifier": "all message types, all rules, all sets of unset fields, all message values", "why_tests_cant": "relates pairs of runs over all rules, types and combinations of unset fields", "anchors": ["templates/goshared/register.go: accessor", "templates/java/register.go: accessor", "templates/cc/register.go: accessor", "python/protoc_gen_validate/validator.py: rule_type, _has_field"]}
{"id": "C85", "title": "C++ violations are true and known to Go", "statement": "Every violation that a generated C++ validator returns is one of those that Go's ValidateAll returns for the same message, and its reason is false of the value that is blamed and true of every accepted value of the same kind.", "quantifier": "all message types and nesting, all rules and values that mean the same in Go and C++", "why_tests_cant": "relates the reason texts of two generators over all rules, orders of checks, values and nesting", "anchors": ["templates/cc/register.go: err, errCause, errIdx, errIdxCause", "templates/cc/*.go: the reason texts", "templates/goshared/*.go: the reason texts"]}
{"id": "C86", "title": "What the text of a C++ violation says", "statement": "The text that a rejecting C++ validator writes begins with \"invalid \" and names the message type, the field, the index or key, the reason and the text of the cause, in this order.", "quantifier": "all violations, with all names, indexes, reasons and nested causes; all messages and rules", "why_tests_cant": "a text is assembled in a stream whose behaviour depends on lengths and on nesting; tests compare only whether a message is accepted", "anchors": ["templates/cc/register.go: errIdxCause", "templates/cc/msg.go: msgTpl (required oneof)", "templates/cc/duration.go: durationTpl", "templates/cc/message.go: messageTpl"]}
{"id": "C87", "title": "Generated Java code calls accessors that exist", "statement": "The getters, has-methods and oneof case methods that a generated Java validator calls are the ones protoc's Java generator declares for the field or oneof.", "quantifier": "all field and oneof names, all kinds of fields, all neighbouring fields", "why_tests_cant": "names are unbounded; two independent case conversions must agree on each of them", "anchors": ["templates/java/register.go: camelCase, fieldAccessor, hasAccessor, oneofTypeName, toCamelCase, upperCaseAfterNumber", "templates/java/msg.go: msgInnerTpl", "templates/java/oneOf.go"]}
{"id": "C88", "title": "Java class names", "statement": "The generated Java code refers to the outer class of a file by the name protoc gives it; each message's validator class is named after the message, is instantiated under the name it is declared with, and no two messages of a file have validator classes of the same name.", "quantifier": "all file names, outer class options, message trees and message names", "why_tests_cant": "names and message trees are unbounded; two independent case conversions must agree on each name", "anchors": ["templates/java/register.go: classNameFile, classNameMessage, appendOuterClassName, sanitizeClassName, simpleName, makeInvalidClassnameCharactersUnderscores, upperCaseAfterNumber", "templates/java/file.go"]}
{"id": "C89", "title": "Exactly which rules the generator accepts", "statement": "The generator accepts a message if and only if validation of it is disabled or, for each of its fields (in a oneof or not) and for the rules at every depth (list items, map keys, map values): numeric, bool, string, bytes, enum, repeated and map rules are on values of their type (or its wrapper); a constant stands alone, `in` is not combined with `not_in` or bounds, there is at most one upper and one lower bound and the two are not equal; minima do not exceed maxima and exact string lengths are not combined with limits; max_len does not exceed max_bytes and both are below 2^63; prefix, suffix and contains are no longer than the maxima; patterns compile and are not combined with `in` or well_known_regex; enum `in` lists only declared numbers under defined_only; unique is on lists of non-messages, no_sparse on maps with message values; durations and timestamps in rules are valid, lt_now/gt_now/within are not combined with bounds, within is positive; message rules are on singular messages other than Any, Duration and Timestamp, and skip is not combined with rules on a wrapped value. Nothing else is refused: Any, Duration and Timestamp rules are accepted on every type. Two duration bounds count as equal if they are after limiting them to 64-bit nanoseconds, two timestamp bounds if they are equal modulo 2^64 nanoseconds.", "quantifier": "every message descriptor with uint64 limits and UTF-8 strings in its rules, every set of compiling patterns that contains the header patterns", "why_tests_cant": "An if-and-only-if over all rule combinations at all depths: tests try some accepted and some refused rules, they cannot show that nothing else is accepted or refused.", "anchors": ["module/checker.go:CheckRules", "module/checker.go:CheckFieldRules", "module/checker.go:MustType", "module/checker.go:CheckString", "module/checker.go:CheckDuration", "module/checker.go:CheckTimestamp", "module/checker.go:checkNums"]}
{"id": "C90", "title": "The Java type dictionary names the class of every message", "statement": "For every set of proto files, ProtoTypeMap.of succeeds when the full names of the types are distinct, and toJavaTypeName then gives, for the full name of a message at any nesting depth, the binary name of the class protoc generates for it, under every java_package, java_outer_classname and java_multiple_files option; unpackAny loads that class for the type URL of an Any; no other name is found.", "quantifier": "every set of files, every nesting depth of messages, every file name, package and combination of Java options", "why_tests_cant": "The tests of the dictionary use a handful of files; the name depends on the file name, on every option and on every other type of the file, and on the path of messages of any length.", "anchors": ["java/pgv-java-validation/src/main/java/io/envoyproxy/pgv/validation/ProtoTypeMap.java: of, recursivelyAddTypes, toJavaTypeName, getJavaOuterClassname, appendOuterClassSuffix, makeInvalidCharactersUnderscores, upcaseAfterNumber, unpackAny"]}
{"id": "C91", "title": "The reason of a Java ValidationException states a requirement of the rules that the value breaks", "statement": "Whenever the generated Java validator of a message throws a ValidationException, its reason, read as a requirement with the limits it names (must be less than 5, length must be at most 3 but got: 6, must be in the range (0, 9], must have all unique values, is required, ...), is false of a value of the message or of a message embedded in it: a field, a list item, a map key or value, or an unset required oneof. It is a requirement of the rules: every value that these rules accept meets it, apart from empty values under ignore_empty. What it says about the rejected value itself, its length or its bytes, is true of it. The texts for uri_ref and within ask for more than the rules: relative references pass uri_ref although the reason asks for an absolute uri, and a time exactly 2^63 nanoseconds before the clock passes any within.", "quantifier": "every schema whose rules the generator accepts, every message value of any depth, every regular-expression, email, domain, ip and uri library, every clock, every map iteration order", "why_tests_cant": "tests check that an exception is thrown, not that its text is true of the rejected value and of no accepted one, for every rule, limit and value", "anchors": ["java/pgv-java-stub/src/main/java/io/envoyproxy/pgv/ComparativeValidation.java", "java/pgv-java-stub/src/main/java/io/envoyproxy/pgv/StringValidation.java", "java/pgv-java-stub/src/main/java/io/envoyproxy/pgv/BytesValidation.java", "java/pgv-java-stub/src/main/java/io/envoyproxy/pgv/TimestampValidation.java", "java/pgv-java-stub/src/main/java/io/envoyproxy/pgv/ValidationException.java", "templates/java/num.go", "templates/java/string.go"]}
{"id": "C92", "title": "The message of a Python ValidationFailed states a requirement of the rules that the value breaks", "statement": "Whenever Python's validate raises ValidationFailed for a message, the text of the exception, read as a requirement (p.age is not greater than 0, p.nick length is more than 3, key not in [...], p.tags must contain unique items, p.peer is required, ...), is false of a value of the message or of a message embedded in it: a field, a list item, a map key or value, or an unset required oneof; and the name in the text is the one the generated code has for that place. It is a requirement of the rules: whatever these rules accept meets it, apart from empty values under ignore_empty, NaN under limits and other spellings of UUIDs. The item that is said to be repeated occurs twice. Some texts do not say what is wrong: 'is not in range' for values in the range when the limits ask for one outside, 'is not a valid email' for host names, 'is not in' for durations that are in a not_in list, 'is not a valid uri' for a URI without a path, 'is not a valid uri ref' for '#top', 'is not within range' for times within it on the wrong side of now, 'is required.' for items that are there, and Python source code in place of the pattern of bytes; items and keys are not named by their field.", "quantifier": "every schema, every message value of any depth, every regular-expression, email, ip and url library, every clock, every map iteration order", "why_tests_cant": "tests check that an exception is raised, not that its text is true of the rejected value and of no accepted one, for every rule, limit and value", "anchors": ["python/protoc_gen_validate/validator.py: num_template, string_template, bytes_template, enum_template, duration_template, timestamp_template, any_template, message_template, repeated_template, map_template, wrapper_template, rule_type, file_template, validate", "python/protoc_gen_validate/validator.py: ValidationFailed"]}
{"id": "C93", "title": "Test runs count what the validators decide", "statement": "For every test case (a message and the number of rules it breaks) and every language, the executor counts the run of that language's test program as a success exactly if the validator finds that many broken rules (accepts, if none are expected), and as a failure otherwise; in particular the executor reads back exactly the answer that a program writes to its output, whatever the reasons in it.", "quantifier": "all messages and rules, all expected numbers of broken rules, all texts of reasons, all four languages", "why_tests_cant": "it is about the test programs themselves: a run that is counted wrongly hides the bug it should show", "anchors": ["tests/harness/executor/worker.go:execTestCase", "tests/harness/executor/harness.go:initHarness", "tests/harness/go/main/harness.go:checkValid", "tests/harness/cc/harness.cc:GetValidationCheck", "java/pgv-java-validation/src/main/java/io/envoyproxy/pgv/validation/JavaHarness.java:main", "tests/harness/python/harness.py", "tests/harness/harness.proto:TestResult"]}
{"id": "C94", "title": "A validator that accepts a message accepts every message embedded in it", "statement": "In every language, validation of a message succeeds only if validation by the same language of every message embedded in it succeeds, at any depth and through fields, list items, map values and oneof members that are not marked skip, whichever .proto files the types are declared in. (For Go and C++ this is part of C28 and C70.)", "quantifier": "all schemas and their division into files, all messages, all nesting depths, all library behaviours", "why_tests_cant": "the chain of messages may be of any length and go through any mixture of fields, lists, maps, oneofs and files", "anchors": ["templates/java/register.go:importsPvg", "templates/java/register.go:JavaFilePath", "templates/java/message.go:messageTpl", "templates/java/repeated.go:repeatedTpl", "templates/java/map.go:mapTpl", "java/pgv-java-stub/src/main/java/io/envoyproxy/pgv/ReflectiveValidatorIndex.java", "python/protoc_gen_validate/validator.py:message_template", "python/protoc_gen_validate/validator.py:repeated_template", "python/protoc_gen_validate/validator.py:map_template"]}
{"id": "C95", "title": "Output files are written where they are looked for and do not overwrite each other", "statement": "In a successful run, whatever the plugin parameters: the generated C++ source includes the header that the same run writes for its .proto file, and the header includes the one protoc writes; every Java file is named after its public class and lies in the directory of its package; and no two outputs of a run have the same path, nor the path of a file protoc itself writes.", "quantifier": "all sets of .proto files, all file, package and message names, all values of the module parameter", "why_tests_cant": "paths depend on names and on the module parameter, both arbitrary texts; the tests use one set of names and no module", "anchors": ["module/validate.go:Execute", "templates/pkg.go:FilePathFor", "templates/cc/register.go:CcFilePath", "templates/cc/register.go:output", "templates/cc/file.go:moduleFileTpl", "templates/cc/file.go:headerFileTpl", "templates/java/register.go:JavaFilePath", "templates/java/register.go:JavaMultiFilePath", "templates/java/register.go:javaPackage", "templates/java/file.go:fileTpl"]}
{"id": "C96", "title": "The C++ files of one program fit together", "statement": "The C++ files generated for one program can be linked into it together, and their headers included together: no two of them define the same validator variable, whatever the names of packages and messages, and each header's macro that lists its messages has a name of its own. Every Validate function a header declares or a source registers is defined, once, in the program; only those of disabled messages are not registered; and the macro of a header lists the classes that have one.", "quantifier": "all programs: any number of files and messages, any package, message and file names, nested messages, ignored and disabled messages", "why_tests_cant": "a clash shows only when two particular names meet in one program; tests link the files of one package with names chosen to be different", "anchors": ["templates/cc/file.go:moduleFileTpl", "templates/cc/file.go:headerFileTpl", "templates/cc/register.go:staticVarName", "templates/cc/register.go:className", "templates/cc/register.go:classBaseName", "templates/cc/register.go:packageName", "templates/cc/msg.go: declTpl, msgTpl"]}
{"id": "C97", "title": "The Go files of one package fit together", "statement": "The Go files generated for the .proto files of one Go package compile together: no two of them, nor one of them and protoc-gen-go's own files, declare the same name in the package.", "quantifier": "all Go packages: any number of .proto files with any paths, any messages, nested messages, field names and rules, any other names that protoc-gen-go declares", "why_tests_cant": "a clash shows only when particular names and rules meet in one package; the tests compile one fixed set of files", "anchors": ["templates/go/file.go:fileTpl", "templates/goshared/msg.go:msgTpl", "templates/goshared/register.go:lookup", "templates/goshared/register.go:errName", "templates/goshared/register.go:multiErrName", "templates/goshared/register.go:snakeCase", "templates/shared/well_known.go:FileNeeds"]}
{"id": "C98", "title": "The order of map entries does not matter for the verdict", "statement": "Two messages that are equal except for the order in which the entries of their maps are stored, at any depth of nesting, are both accepted or both rejected, in Go (both modes), Java, C++ and Python, whatever order each run visits the entries of a map in. Which violation is reported may differ.", "quantifier": "all message types and rules, all messages, all reorderings of entries of maps at any depth, all iteration orders of each of the two runs", "why_tests_cant": "iteration orders of maps are random or unspecified, and the order of entries depends on the history of the message; a test sees one order per run", "anchors": ["templates/goshared/map.go:mapTpl", "templates/java/map.go:mapTpl", "templates/cc/map.go:mapTpl", "python/protoc_gen_validate/validator.py:map_template"]}
{"id": "C99", "title": "Verdicts depend on the types inside the message only", "statement": "Validating a message gives the same result, error included, under any two sets of declarations that agree on the types of the message and of all messages inside it: adding, changing or removing other message types, or the rules of types that do not occur, changes nothing. In Go (both modes), Java, C++ and Python.", "quantifier": "all messages at any depth of nesting, all pairs of sets of declarations that agree on the types that occur", "why_tests_cant": "the types of a program are fixed when it is compiled; a test cannot range over all other declarations a program may contain", "anchors": ["templates/goshared/msg.go:msgTpl", "templates/goshared/message.go:messageTpl", "templates/java/msg.go:msgTpl", "templates/java/message.go:messageTpl", "templates/cc/msg.go:msgTpl", "templates/cc/message.go:messageTpl", "python/protoc_gen_validate/validator.py:validate"]}
{"id": "C100", "title": "The time matters only where a rule asks for it", "statement": "If no type of a message inside the message has lt_now, gt_now or within rules (on a field, its elements, keys or values), validation gives the same result at any time. In Go, a message accepted under lt_now rules only stays accepted later, and one accepted under gt_now rules only was accepted before.", "quantifier": "all messages at any depth of nesting, all declarations and rules, all pairs of times", "why_tests_cant": "a test runs at one time; the clock is read anew by each rule", "anchors": ["templates/goshared/timestampcmp.go:timestampcmpTpl", "templates/java/timestamp.go:timestampTpl", "python/protoc_gen_validate/validator.py:timestamp_template"]}
{"id": "C101", "title": "Simple rules mean the same in Go, Java, C++ and Python", "statement": "If all rules of the message types that occur in a message are of the simple kinds (signed integer limits and lists; boolean constants; string lengths other than zero, and constants, prefixes, suffixes, substrings and lists made of plain words; declared enum values; message.required; sizes of lists and maps, unique items, and such rules for items, keys and values), then, whatever values the message holds and however deep it nests, Java's assertValid returns, C++'s Validate returns true (and never throws) and Python's validate returns, exactly when Go's Validate() returns nil, which is exactly when ValidateAll() does.", "quantifier": "all schemas whose rules are of these kinds (including recursive types and oneofs), all well-typed messages of any depth, all clocks, iteration orders of maps and text libraries", "why_tests_cant": "there are four generators and infinitely many schemas and messages; the shared test suite compares the languages on a few hundred pairs of a schema and a message", "anchors": ["templates/goshared/*.go", "templates/java/*.go", "templates/cc/*.go", "python/protoc_gen_validate/validator.py", "validate/validate.proto"]}
{"id": "C102", "title": "Validation ends in a verdict, never in another exception", "statement": "Whatever message it is given, a validator accepts it or refuses it with the validation error of its language: Java's assertValid returns or throws a ValidationException (with a field), never an unchecked exception; Python's validate returns or raises ValidationFailed, never another exception; C++'s Validate returns and does not throw. What they refuse is what Go returns an ordinary error for.", "quantifier": "all schemas, all messages of any depth that the language can hold, all clocks, iteration orders and text libraries", "why_tests_cant": "an unexpected exception hides in combinations of a rule and a value (an invalid duration, an undeclared constant, an infinite limit) among infinitely many; tests see an exception only if they happen to hold the combination", "anchors": ["java/pgv-java-stub/src/main/java/io/envoyproxy/pgv/ComparativeValidation.java", "java/pgv-java-stub/src/main/java/io/envoyproxy/pgv/TimestampValidation.java", "java/pgv-java-stub/src/main/java/io/envoyproxy/pgv/ConstantValidation.java", "templates/java/*.go", "python/protoc_gen_validate/validator.py"]}
{"id": "C103", "title": "Java: isValid tells what assertValid does, and the fallback validator decides only about unknown types", "statement": "Validator.isValid returns true exactly when assertValid returns, and false exactly when it throws a ValidationException; it never throws. Of the validators an index can fall back to, ALWAYS_INVALID accepts least and ALWAYS_VALID most: what an index falling back to ALWAYS_INVALID accepts is accepted with every fallback, what is accepted with any fallback is accepted with ALWAYS_VALID, and if validation of a message hands on only messages that have generated validators, the fallback makes no difference.", "quantifier": "all schemas, all messages of any depth, all fallback validators, all clocks and libraries", "why_tests_cant": "the claims range over all fallback validators and all message trees in which unknown types may occur at any depth; tests install one index and try a few messages", "anchors": ["java/pgv-java-stub/src/main/java/io/envoyproxy/pgv/Validator.java", "java/pgv-java-stub/src/main/java/io/envoyproxy/pgv/ValidatorIndex.java", "java/pgv-java-stub/src/main/java/io/envoyproxy/pgv/ReflectiveValidatorIndex.java", "templates/java/message.go"]}
{"id": "C104", "title": "The order of declarations and fields without rules do not matter", "statement": "Two versions of a set of .proto files may differ in the order in which fields, oneofs and members of oneofs are declared. They may also differ in fields without rules, in members of oneofs without rules that the message does not set, and in oneofs that are not required and of which the message sets nothing. A field without rules of message type may differ only if the message does not set it. Under both versions the validators of each of the four languages accept the same messages. ValidateAll() then reports the same violations in some order, at every depth of nesting.", "quantifier": "every pair of such versions, every message (nested to any depth), every behaviour of the libraries the validators call", "why_tests_cant": "The versions, the messages and the depth of nesting are unbounded, and the claim compares two generated programs on all messages.", "anchors": ["templates/goshared/msg.go", "templates/java/msg.go", "templates/cc/msg.go", "python/protoc_gen_validate/validator.py: file_template, rule_type"]}
{"id": "C105", "title": "Loosening rules never makes a valid message invalid", "statement": "Rules may be loosened: dropped, with limits moved outwards, lists of allowed values extended, lists of forbidden values shortened, required fields and oneofs made optional, empty values exempted, embedded messages skipped, or the rules of a message switched off. A message that a validator accepts before such a change is accepted after it. Excluded are the changes that turn two limits which are met outside a range into one, and that drop lt_now or gt_now but keep within.", "quantifier": "every pair of sets of rules of which the second is looser, every message (nested to any depth), every behaviour of the libraries the validators call", "why_tests_cant": "The rules, the messages and the depth of nesting are unbounded, and the claim compares two generated programs on all messages.", "anchors": ["templates/goshared/num.go", "templates/goshared/str.go", "templates/goshared/bytes.go", "templates/goshared/repeated.go", "templates/goshared/map.go", "templates/goshared/msg.go", "python/protoc_gen_validate/validator.py: num_template"]}
{"id": "C106", "title": "The languages complain about the same field first", "statement": "Validate() reports the first field that breaks its rules: of the fields outside oneofs and then the oneofs, in the order in which they are declared, everything before the one named is as it must be, and the one named is not. The validators of the other languages stop at the same field of the message: what C++ writes names it, and the exceptions of Java and Python name it or are about a message that it holds.", "quantifier": "every message type, every message (nested to any depth) with any number of broken fields and oneofs, every behaviour of the libraries the validators call", "why_tests_cant": "Which fields are broken, how many there are and how they are nested is unbounded, and the claim compares generated programs on all messages.", "anchors": ["templates/goshared/msg.go", "templates/go/message.go", "templates/cc/msg.go", "templates/cc/file.go", "templates/java/msg.go", "templates/java/oneof.go", "python/protoc_gen_validate/validator.py: file_template"]}
{"id": "C107", "title": "ValidateAll finds every violation of every nested message", "statement": "ValidateAll() reports exactly the violations of the message itself and of the messages nested in it without skip, at any depth and in any field, oneof, list or map: following AllErrors() and Cause() through the reported fields one reaches each violation a nested message's own ValidateAll() reports, along the path to that message, and nothing else. What Validate() reports is among them, at the same path.", "quantifier": "every schema, every message nested to any depth, every path through fields, list positions and map keys, every behaviour of the libraries the validators call", "why_tests_cant": "Messages nest without bound and any number of violations can occur at any of the places; a lost or misplaced one shows only on the messages that have it.", "anchors": ["templates/go/message.go", "templates/goshared/msg.go", "templates/goshared/repeated.go", "templates/goshared/map.go"]}
{"id": "C108", "title": "What one process has validated the next one does not refuse", "statement": "A gRPC server with the validating interceptor passes on, in order and without closing the call, every message that comes from a client with the validating interceptor and the same rules, or from a Go client that called Validate() or ValidateAll() before sending; at the first message a Go client should have refused it closes the call with INVALID_ARGUMENT, the service having seen what came before and never the end of the messages.", "quantifier": "every schema, every sequence of calls on the client, every message nested to any depth, every pair of clock readings", "why_tests_cant": "The sequences of calls and the messages are unbounded, and the claim is about two programs at two times.", "anchors": ["java/pgv-java-grpc/src/main/java/io/envoyproxy/pgv/grpc/ValidatingServerInterceptor.java", "java/pgv-java-grpc/src/main/java/io/envoyproxy/pgv/grpc/ValidatingClientInterceptor.java", "templates/goshared/msg.go"]}
{"id": "C109", "title": "Test programs that run at the same time do not get into each other's output", "statement": "The executor of the test harness runs the programs of all languages and of several cases at the same time and lets them use buffers from one pool. Each run gives the answer to exactly what its own program wrote to its standard output, and logs exactly what that program wrote to its standard error; no two runs use one buffer at a time, buffers in the pool are empty, and no run waits for another.", "quantifier": "every number of runs, every output of the programs in any pieces, every interleaving of the runs, every choice of the pool of which buffer it gives out and which it drops", "why_tests_cant": "Whether output is mixed up depends on the interleaving of the runs and on which buffers the pool hands out; both are unbounded and up to the Go runtime.", "anchors": ["tests/harness/executor/harness.go: initHarness, getBuf, relBuf, bufPool", "tests/harness/executor/worker.go: execTestCase"]}
{"id": "C110", "title": "A test run that ends with exit status 0 has run everything it was asked to run, and all of it passed", "statement": "The executor of the test harness ends with exit status 0 exactly when it was asked for at least one program and every test case of its shard passes with every program asked for; if all shards end with 0, every case passes with every program. The status does not depend on the scheduling. On Windows, where programs are looked up in a manifest, the file run for a program is the one the manifest gives for it.", "quantifier": "every set of flags, every list of cases, every number of shards and workers, every behaviour of the test programs, every interleaving, every manifest and every order in which Go goes through a map", "why_tests_cant": "It ranges over all outcomes of all programs, all schedules and all iteration orders of a map, and the test executor is itself what the tests rely on.", "anchors": ["tests/harness/executor/executor.go: main, shardTestCases, run", "tests/harness/executor/harness.go: Harnesses, InitHarness"]}
{"id": "C111", "title": "The test programs validate a message as what it is", "statement": "The C++, Go and Python test programs find out the type of the message in a test case from its address. They never validate it as another type; they know every message type of the files they are built with (but for ignored ones); and a test with a message they do not know is not counted as a success.", "quantifier": "every list of files, every message type in them, nested or not, every address", "why_tests_cant": "It is the tests' own machinery: a message that a program does not know makes a test pass or be skipped, and which names hide which depends on all files imported together.", "anchors": ["tests/harness/cc/harness.cc: GetValidationCheck, main", "tests/harness/python/harness.py: message_classes", "templates/cc/file.go: headerFileTpl", "tests/harness/go/main/harness.go: main, checkErr"]}
{"id": "C112", "title": "A test run without failures certifies the verdicts of all validators on all cases", "statement": "If all shards of a run of the test executor end with exit status 0, then for every case the validator of every language asked for accepts the case's message exactly if the case expects no broken rules.", "quantifier": "every list of cases, every message and message type, every number of shards and workers, every schedule, every set of languages", "why_tests_cant": "It says what passing tests mean, for all suites of tests; no test can establish it.", "anchors": ["tests/harness/executor/executor.go: main, run, shardTestCases", "tests/harness/executor/worker.go: execTestCase", "tests/harness/executor/harness.go: initHarness", "tests/harness/go/main/harness.go: main, checkValid", "tests/harness/cc/harness.cc: GetValidationCheck", "tests/harness/python/harness.py", "java/pgv-java-validation/src/main/java/io/envoyproxy/pgv/validation/JavaHarness.java: main"]}
{"id": "C113", "title": "Generation never fails for want of a template", "statement": "For every field with any rules, nested to any depth, every template that the Go, C++ and Java generators execute for it, directly or through other templates, is registered; and in Java every kind of rule whose checks refer to constants has a template that declares them.", "quantifier": "every field type, every rule of validate.proto in every nesting of items, keys and values, and the Go, C++ and Java generators", "why_tests_cant": "Templates are looked up by name while generating; a missing one shows only for a schema that uses that rule in that place, and there are unboundedly many nestings.", "anchors": ["templates/shared/context.go: rulesContext, Key, Elem, Unwrap, Render, resolveRules", "templates/goshared/register.go: Register", "templates/go/register.go: Register", "templates/cc/register.go: RegisterModule", "templates/java/register.go: Register, renderConstants"]}
{"id": "C114", "title": "The Bazel rule for C++ makes exactly the files it declares", "statement": "For every set of .proto files given to the Bazel rule cc_proto_gen_validate, the files that the plugin writes in the rule's action are exactly the output files that the rule declared, so that the build neither fails for a missing output nor loses one.", "quantifier": "every list of .proto files, with any paths, in the main or any other repository, source or generated, and every run of the plugin on them", "why_tests_cant": "Names are computed twice, by the rule and by the plugin, from different paths of the same file; agreement on the paths of one workspace says nothing about others.", "anchors": ["bazel/protobuf.bzl: _path_ignoring_repository, _protoc_cc_output_file, _output_dir, _protoc_gen_validate_cc_impl", "templates/cc/register.go: CcFilePath", "module/validate.go: Execute"]}
