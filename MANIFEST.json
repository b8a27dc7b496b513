{
 "claims": [
  {
   "property": "C01",
   "status": "proved",
   "theorems": [
    "PGV.Props.C01_validate_agrees"
   ],
   "note": "Validate and ValidateAll agree on validity. C01_validate_agrees: `Validate()` and `ValidateAll()` agree on validity, even when they (and all calls on embedded messages) iterate maps in different orders."
  },
  {
   "property": "C02",
   "status": "proved",
   "theorems": [
    "PGV.Props.C02_first_error"
   ],
   "note": "Validate's error is ValidateAll's first error. C02_first_error: When `ValidateAll()` fails it returns a multi-error for the message's type whose first error is the one `Validate()` returns, recursively through causes; in particular both have the same root cause. And `ValidateAll()` fails whenever `Validate()` does."
  },
  {
   "property": "C03",
   "status": "proved",
   "theorems": [
    "PGV.Props.C03_all_errors",
    "PGV.Props.C03_errors_name_type",
    "PGV.Props.C03_validate_order"
   ],
   "note": "ValidateAll reports every violation, field by field, in order. C03_all_errors: `ValidateAll()` reports, in schema order (fields outside oneofs, then oneofs), exactly the errors that message types declaring only one of these fields (oneofs) would report for the same values. C03_errors_name_type: Every error `ValidateAll()` reports is a violation of the message's own type, and the result is a multi-error of that type. C03_validate_order: `Validate()` returns the error of the first field (oneof) that has one."
  },
  {
   "property": "C04",
   "status": "proved",
   "theorems": [
    "PGV.Props.C04_validate_decides",
    "PGV.Props.C04_unique",
    "PGV.Props.C04_recursion"
   ],
   "note": "Validate decides the declared constraints. C04_validate_decides: `Validate()` accepts a message exactly when it satisfies the declarative meaning of its rules, embedded messages being judged by `Validate()` in turn. C04_unique: There is exactly one predicate with that property. C04_recursion: `Validate()`/`ValidateAll()` terminate and are the recursive methods the templates generate: unfolding one call gives the template's body with calls on embedded messages."
  },
  {
   "property": "C05",
   "status": "proved",
   "theorems": [
    "PGV.Props.C05_disabled",
    "PGV.Props.C05_nil",
    "PGV.Props.C05_no_rules",
    "PGV.Props.C05_ignored"
   ],
   "note": "Disabled, nil and ignored messages. C05_disabled: A message whose type has `validate.disabled` is accepted by both entry points. C05_nil: A nil message is accepted by both entry points. C05_no_rules: A field without rules and without messages imposes nothing: whatever its value, both entry points return what they return for the message type without the field. C05_ignored: A parent never fails because of embedded messages whose types have no generated validation methods, in a singular field, a list or a map, whatever message rules are given."
  },
  {
   "property": "C06",
   "status": "proved",
   "theorems": [
    "PGV.Props.C06_skip",
    "PGV.Props.C06_skip_items",
    "PGV.Props.C06_skip_values"
   ],
   "note": "skip cuts off the embedded message. C06_skip: For a message field with `message.skip`, both entry points return the same result whatever is inside the embedded message; only whether it is set can matter. Here `fs` and `fs'` are two field assignments that differ at most in that field. C06_skip_items: Likewise for the elements of a list whose item rules skip: the result depends only on which elements are nil. C06_skip_values: Likewise for map values whose rules skip: whether the message is accepted depends only on the keys and on which values are nil."
  },
  {
   "property": "C07",
   "status": "proved",
   "theorems": [
    "PGV.Props.C07_required",
    "PGV.Props.C07_error"
   ],
   "note": "required on message-typed fields. C07_required: A message-typed field (message, Any, Duration, Timestamp or wrapper) left unset: the message is accepted, in both modes, exactly when the field is not marked required, whatever its other rules. C07_error: The error for an unset required field is a single violation that names the message type and the field and has no cause."
  },
  {
   "property": "C08",
   "status": "proved",
   "theorems": [
    "PGV.Props.C08_member",
    "PGV.Props.C08_none_set",
    "PGV.Props.C08_many"
   ],
   "note": "oneof semantics. C08_member: When a member of a oneof is set, both entry points return, for a message with that oneof alone, what they return for a message whose only field is that member: other members never matter, and neither does `required`. C08_none_set: When no member of a oneof is set, the message is accepted exactly when the oneof is not required, and otherwise the error is a violation on the oneof itself. C08_many: In a message with any number of fields and oneofs: the errors are those of the fields followed, oneof by oneof in declaration order, by those of a message with that oneof alone."
  },
  {
   "property": "C09",
   "status": "proved",
   "theorems": [
    "PGV.Props.C09_empty",
    "PGV.Props.C09_other"
   ],
   "note": "ignore_empty. C09_empty: With `ignore_empty`, the empty value passes whatever the other rules. C09_other: Every value that is not empty gets, in both modes, the result it gets without `ignore_empty`."
  },
  {
   "property": "C10",
   "status": "proved",
   "theorems": [
    "PGV.Props.C10_int_range"
   ],
   "note": "Integer range rules. C10_int_range: Integer ranges. For every combination of `lt`/`lte`/`gt`/`gte` that the generator lets through: unless the bounds are inverted, a value is accepted exactly when it respects all of them; when they are inverted, exactly when it respects the upper or the lower one."
  },
  {
   "property": "C11",
   "status": "partial",
   "theorems": [
    "PGV.Props.C11_nan_accepted",
    "PGV.Props.C11_float_range_partial"
   ],
   "note": "Float range rules and NaN. C11_float_range_partial: What is missing from the full property is NaN, which is accepted (`C11_nan_accepted`). Every other float or double value is accepted by range rules (without NaN bounds) exactly when its exact value respects them, as for integers. The full statement is false of the code where the other theorems of this claim negate it."
  },
  {
   "property": "C12",
   "status": "proved",
   "theorems": [
    "PGV.Props.C12_num_const",
    "PGV.Props.C12_num_in",
    "PGV.Props.C12_num_not_in",
    "PGV.Props.C12_bool_const",
    "PGV.Props.C12_string",
    "PGV.Props.C12_never_both",
    "PGV.Props.C20_enum"
   ],
   "note": "const, in and not_in. C12_num_const: A numeric field with `const` accepts exactly that value. (The generator lets nothing else stand beside `const`.) NaN is equal to nothing. C12_num_in: A numeric field with `in` accepts exactly the members of the list. C12_num_not_in: A numeric field with `not_in` (and no range) accepts exactly the non-members. C12_bool_const: bool: `const` accepts exactly that value. C12_string: string: whatever the other rules, an accepted string equals `const` when one is given, is in `in` when that is given and not in `not_in` when that is given (the empty string excepted under `ignore_empty`); and these rules on their own accept exactly those strings. C12_never_both: The generator never accepts both `in` and `not_in`. C20_enum: Enums, whatever the rules: a number is accepted exactly when it equals `const` if one is given, is in `in` if that is given, is not in `not_in`, and is declared if `defined_only`."
  },
  {
   "property": "C13",
   "status": "proved",
   "theorems": [
    "PGV.Props.C13_lengths"
   ],
   "note": "String lengths count characters, byte lengths count bytes. C13_lengths: For a string field whose rules are length limits (any that the generator lets through), a string, given by its code points, is accepted exactly when the number of code points respects `len`/`min_len`/`max_len` and the number of UTF-8 bytes respects `len_bytes`/`min_bytes`/`max_bytes`."
  },
  {
   "property": "C14",
   "status": "proved",
   "theorems": [
    "PGV.Props.C14_string",
    "PGV.Props.C14_bytes",
    "PGV.Props.C14_necessary"
   ],
   "note": "prefix, suffix, contains and not_contains. C14_string: A string field with prefix, suffix, contains and not_contains rules accepts exactly the strings that can be split accordingly. C14_bytes: The same for bytes fields. C14_necessary: Whatever other rules are given, an accepted string satisfies the affix rules (the empty string excepted under `ignore_empty`)."
  },
  {
   "property": "C15",
   "status": "partial",
   "theorems": [
    "PGV.Props.C15_exact",
    "PGV.Props.C15_hostname_partial",
    "PGV.Props.C15_kelvin_accepted"
   ],
   "note": "Hostname grammar. C15_hostname_partial: The hostname rule accepts exactly the hostnames, for every byte string in which neither the Kelvin sign (U+212A) nor the dotted capital I (U+0130) occurs. `hlow` says that `unicode.ToLower` maps no other non-ASCII rune to an ASCII one. For the two exceptions see `C15_kelvin_accepted`. The full statement is false of the code where the other theorems of this claim negate it."
  },
  {
   "property": "C16",
   "status": "proved",
   "theorems": [
    "PGV.Props.C16_java_agrees",
    "PGV.Props.C16_uuid",
    "PGV.Props.C16_length"
   ],
   "note": "UUID grammar. C16_java_agrees: Java accepts exactly the same strings as UUIDs as Go, whatever their bytes. C16_uuid: The uuid rule accepts exactly the 36-character 8-4-4-4-12 hexadecimal form. C16_length: a UUID has 36 bytes."
  },
  {
   "property": "C17",
   "status": "proved",
   "theorems": [
    "PGV.Props.C17_email",
    "PGV.Props.C17_address",
    "PGV.Props.C17_ip"
   ],
   "note": "Email and address rules. C17_email: A string is accepted by the email rule exactly when it parses as a mail address of at most 254 bytes whose part before the first `@` has at most 64 bytes and whose rest is a hostname (of the plain grammar when it is ASCII; see C15 for other bytes). C17_address: The address rule accepts exactly the strings that the hostname rule accepts and the strings that the ip rule accepts. C17_ip: The ip, ipv4 and ipv6 rules: whatever the IP parser, ip accepts exactly what parses, ipv4 what parses to an IPv4 address and ipv6 what parses to another one; so ip is the disjoint union."
  },
  {
   "property": "C18",
   "status": "proved",
   "theorems": [
    "PGV.Props.C18_ip_bytes"
   ],
   "note": "IP rules on bytes. C18_ip_bytes: IP rules on bytes."
  },
  {
   "property": "C19",
   "status": "partial",
   "theorems": [
    "PGV.Props.C19_exact",
    "PGV.Props.C19_bytes_partial",
    "PGV.Props.C19_empty_const_ignored",
    "PGV.Props.C19_len_overrides"
   ],
   "note": "Bytes rules. C19_bytes_partial: Bytes rules, for rule sets in which `const` is not the empty string and `len` is not combined with `min_len` or `max_len` (see `C19_empty_const_ignored` and `C19_len_overrides`): a value is accepted exactly when its length respects the limits, the affix rules hold, it is in `in` if given and not in `not_in`, equals `const` if given, and satisfies the IP and pattern rules. The full statement is false of the code where the other theorems of this claim negate it."
  },
  {
   "property": "C20",
   "status": "proved",
   "theorems": [
    "PGV.Props.C20_enum"
   ],
   "note": "Enum rules. C20_enum: Enums, whatever the rules: a number is accepted exactly when it equals `const` if one is given, is in `in` if that is given, is not in `not_in`, and is declared if `defined_only`."
  },
  {
   "property": "C21",
   "status": "proved",
   "theorems": [
    "PGV.Props.C21_accepts",
    "PGV.Props.C21_index",
    "PGV.Props.C21_wrapper_items_fail"
   ],
   "note": "Repeated rules. C21_accepts: A repeated field is accepted exactly when (it is empty and `ignore_empty` is set, or) its length is within the limits, `unique` implies that no two elements are equal, and every element would be accepted as the value of a singular field `fi` of the element type with the item rules. C21_index: The errors of a repeated field carry the index of the offending element: there is an error with index `i` exactly when element `i` is bad, and an error without index exactly when the number of items is wrong. `hg` says that the generator writes code for the field at all, see `C21_wrapper_items_fail`. C21_wrapper_items_fail: (divergence) Rules on the items of a list of wrapper messages are accepted by the checks, but then the generator fails and writes nothing."
  },
  {
   "property": "C22",
   "status": "proved",
   "theorems": [
    "PGV.Props.C22_accepts",
    "PGV.Props.C22_order",
    "PGV.Props.C22_index"
   ],
   "note": "Map rules. C22_accepts: A map field is accepted exactly when (it is empty and `ignore_empty` is set, or) its size is within the limits, `no_sparse` implies that no value is nil, and every key and every value would be accepted as the value of a singular field with the key rules (`fk`) and value rules (`fv`). C22_order: The iteration order does not matter: with another order, `Validate()` gives the same verdict and `ValidateAll()` the same errors, up to their order (inside nested errors too). C22_index: There is an error for key `k` exactly when the entry of `k` violates the `no_sparse`, key or value rules; an error without key exactly when the number of pairs is wrong. `hg` says that the generator writes code for the field at all; it fails, as for lists, for rules on values that are wrapper messages."
  },
  {
   "property": "C23",
   "status": "proved",
   "theorems": [
    "PGV.Props.C23_any"
   ],
   "note": "Any rules. C23_any: An Any field is accepted, if set, exactly when its type URL is in `in` (if given) and not in `not_in`; if unset, exactly when it is not required."
  },
  {
   "property": "C24",
   "status": "partial",
   "theorems": [
    "PGV.Props.C24_exact",
    "PGV.Props.C24_duration_partial",
    "PGV.Props.C24_unset",
    "PGV.Props.C24_saturation"
   ],
   "note": "Duration rules. C24_duration_partial: A set Duration field with rules on its length is accepted exactly when it is a valid duration whose exact length satisfies the rules, even for durations far outside what a Go `time.Duration` can hold. Excluded: rules that mention the extreme value of `time.Duration`, see `C24_saturation`. (Rules beyond the extremes do not compile.) The full statement is false of the code where the other theorems of this claim negate it."
  },
  {
   "property": "C25",
   "status": "proved",
   "theorems": [
    "PGV.Props.C25_absolute",
    "PGV.Props.C25_unset"
   ],
   "note": "Absolute timestamp rules. C25_absolute: A set Timestamp field with absolute rules is accepted exactly when it is a valid timestamp whose exact instant satisfies them. C25_unset: An unset Timestamp field is accepted exactly when it is not required."
  },
  {
   "property": "C26",
   "status": "partial",
   "theorems": [
    "PGV.Props.C26_exact",
    "PGV.Props.C26_relative_partial",
    "PGV.Props.C26_false_enforced"
   ],
   "note": "Relative timestamp rules. C26_relative_partial: Relative rules (alone, as the generator demands): `lt_now: true` accepts the valid timestamps before the clock reading, `gt_now: true` those after it, `within: w` those at a distance less than `w`; combined, the one-sided windows, which include the far end. Excluded: `lt_now: false` and `gt_now: false`, see `C26_false_enforced`. The full statement is false of the code where the other theorems of this claim negate it."
  },
  {
   "property": "C27",
   "status": "proved",
   "theorems": [
    "PGV.Props.C27_wrapper",
    "PGV.Props.C27_errors"
   ],
   "note": "Wrapper fields. C27_wrapper: A wrapper field with rules on the wrapped value is accepted, if set, exactly when a scalar field `fs` with the same rules would accept that value; if unset, exactly when it is not required. C27_errors: The errors are the same too, if message and field have the same names."
  },
  {
   "property": "C28",
   "status": "proved",
   "theorems": [
    "PGV.Props.C28_nested_invalid",
    "PGV.Props.C28_cause_chain"
   ],
   "note": "Nested failures surface with a cause chain. C28_nested_invalid: A message embedding, at any depth and without `skip`, a message `Validate()` rejects is itself rejected. C28_cause_chain: Following `Cause()` from the error `Validate()` returns, one arrives at the error `Validate()` returns for the innermost failing message: a message nested in `v` whose error is not caused by the failure of a message embedded in it (it has no cause, or a library error, or the error of an older generated `Validate` as its cause)."
  },
  {
   "property": "C29",
   "status": "partial",
   "theorems": [
    "PGV.Props.C29_field",
    "PGV.Props.C29_violation_partial",
    "PGV.Props.C29_multi",
    "PGV.Props.C29_prefix",
    "PGV.Props.C29_key_never",
    "PGV.Props.C29_key_flag_unset"
   ],
   "note": "Error text. C29_violation_partial: (text part) The text of a violation: \"invalid \", \"key for \" if `Key()`, type name, field, reason and, if there is one, the text of the cause. What is missing from the full claim: errors raised for map keys do not have `Key()` true, see `C29_key_never`. The full statement is false of the code where the other theorems of this claim negate it."
  },
  {
   "property": "C30",
   "status": "proved",
   "theorems": [
    "PGV.Props.C30_numeric",
    "PGV.Props.C30_nested"
   ],
   "note": "Generator rejects contradictory numeric rules. C30_numeric: On a field (or wrapper field) of the right numeric kind, numeric rules are accepted exactly when they are consistent. C30_nested: Inside accepted rules, at any depth, numeric rules are consistent."
  },
  {
   "property": "C31",
   "status": "partial",
   "theorems": [
    "PGV.Props.C31_types_partial",
    "PGV.Props.C31_wrong_type_accepted"
   ],
   "note": "Generator rejects rules on fields of another type. C31_types_partial: If the generator accepts a message then, at every depth, rules other than Any, Duration and Timestamp rules are on values of the right type. Missing: those three, see `C31_wrong_type_accepted`. The full statement is false of the code where the other theorems of this claim negate it."
  },
  {
   "property": "C32",
   "status": "partial",
   "theorems": [
    "PGV.Props.C32_string",
    "PGV.Props.C32_bytes_partial",
    "PGV.Props.C32_bytes_len_not_exclusive",
    "PGV.Props.C32_counts",
    "PGV.Props.C32_string_complete",
    "PGV.Props.C32_huge_refused",
    "PGV.Props.C32_patterns"
   ],
   "note": "Generator rejects inconsistent length rules. C32_bytes_partial: Accepted bytes rules. Missing: an exact length may be combined with limits, see `C32_bytes_len_not_exclusive`. The full statement is false of the code where the other theorems of this claim negate it."
  },
  {
   "property": "C33",
   "status": "partial",
   "theorems": [
    "PGV.Props.C33_name_partial",
    "PGV.Props.C33_comma_accepted",
    "PGV.Props.C33_value",
    "PGV.Props.C33_nonstrict",
    "PGV.Props.C33_twice_partial",
    "PGV.Props.C33_twice_fails"
   ],
   "note": "well_known_regex header patterns. C33_name_partial: A string field with `well_known_regex: HTTP_HEADER_NAME`, as the generator emits it, accepts exactly the header names, among the strings without a comma. Missing: commas, see `C33_comma_accepted`. C33_twice_partial: Checking string rules without `well_known_regex` leaves them as they are, so checking them again is harmless. The full statement is false of the code where the other theorems of this claim negate it."
  },
  {
   "property": "C34",
   "status": "partial",
   "theorems": [
    "PGV.Props.C34_sound",
    "PGV.Props.C34_exact_partial",
    "PGV.Props.C34_distinct_considered_equal"
   ],
   "note": "Generator checks timestamp rules. C34_exact_partial: When the bounds lie within int64 nanoseconds, timestamp rules on a field are accepted exactly when they are consistent. Missing: bounds outside, see `C34_distinct_considered_equal`. The full statement is false of the code where the other theorems of this claim negate it."
  },
  {
   "property": "C35",
   "status": "proved",
   "theorems": [
    "PGV.Props.C35_enum",
    "PGV.Props.C35_message",
    "PGV.Props.C35_collections"
   ],
   "note": "Generator checks enum, message, repeated and map rules. C35_enum: With `defined_only`, accepted enum rules list only declared numbers in `in`. C35_message: Accepted message rules are on singular message fields other than Any, Duration and Timestamp, and `skip` is not combined with rules on a wrapped value. C35_collections: Accepted `unique` is on lists of non-messages, accepted `no_sparse` on maps with message values, and repeated and map rules never appear inside item, key or value rules."
  },
  {
   "property": "C36",
   "status": "partial",
   "theorems": [
    "PGV.Props.C36_satisfiable_partial",
    "PGV.Props.C36_empty_range",
    "PGV.Props.C36_nothing_below"
   ],
   "note": "Accepted range rules are satisfiable. C36_satisfiable_partial: Accepted range rules on an integer field, with bounds that the kind can hold, admit a value of the kind, except in the four cases of `NothingIn`, where they admit none. Missing: those cases, which are accepted too, see `C36_empty_range` and `C36_nothing_below`. The full statement is false of the code where the other theorems of this claim negate it."
  },
  {
   "property": "C37",
   "status": "partial",
   "theorems": [
    "PGV.Props.C37_declared_once_partial",
    "PGV.Props.C37_item_table_undeclared",
    "PGV.Props.C37_pattern_declared_twice",
    "PGV.Props.C37_names_collide"
   ],
   "note": "Generated Go code declares every lookup table it uses, once. C37_declared_once_partial: In a file with supported tables whose field names contain no underscore, every lookup table or pattern variable the generated code refers to is declared exactly once, and no name is declared twice. Missing: `C37_item_table_undeclared`, `C37_pattern_declared_twice` and `C37_names_collide` show what goes wrong otherwise. The full statement is false of the code where the other theorems of this claim negate it."
  },
  {
   "property": "C38",
   "status": "partial",
   "theorems": [
    "PGV.Props.C38_helpers",
    "PGV.Props.C38_uuid_pattern_partial",
    "PGV.Props.C38_nested_uuid_missing"
   ],
   "note": "Helper functions are emitted when needed. C38_uuid_pattern_partial: When a top-level message calls the uuid helper, the file declares the pattern the helper uses. Missing: nested messages, see `C38_nested_uuid_missing`. The full statement is false of the code where the other theorems of this claim negate it."
  },
  {
   "property": "C39",
   "status": "partial",
   "theorems": [
    "PGV.Props.C39_unknown_language",
    "PGV.Props.C39_go",
    "PGV.Props.C39_cc",
    "PGV.Props.C39_java",
    "PGV.Props.C39_order",
    "PGV.Props.C39_accepted_but_fails",
    "PGV.Props.C39_path_partial",
    "PGV.Props.C39_module_inside_path"
   ],
   "note": "Plugin output. C39_path_partial: The module prefix and then leading slashes are removed from the path, when the module does not occur in the rest of the path; without a module only leading slashes are removed. Missing: `C39_module_inside_path`. The full statement is false of the code where the other theorems of this claim negate it."
  },
  {
   "property": "C40",
   "status": "partial",
   "theorems": [
    "PGV.Props.C40_string",
    "PGV.Props.C40_bytes",
    "PGV.Props.C40_table_key_partial",
    "PGV.Props.C40_small_byte"
   ],
   "note": "Go literals denote the rule values. C40_table_key_partial: The key written for an entry of a bytes lookup table (`in`, `not_in`) denotes the entry when all its bytes are at least 16. Missing: `C40_small_byte`. The full statement is false of the code where the other theorems of this claim negate it."
  },
  {
   "property": "C41",
   "status": "proved",
   "theorems": [
    "PGV.Props.C41_java_signed",
    "PGV.Props.C41_java_range"
   ],
   "note": "Java range validation agrees with Go. C41_java_signed: On a field of a signed integer kind, with rules the generator accepts, Java accepts exactly the values Go accepts (all numeric rules, not only ranges; both languages, any libraries). C41_java_range: Range rules in Java, spelled out: an ordinary range accepts what lies between its bounds, an inverted range (upper bound below the lower bound) what lies outside."
  },
  {
   "property": "C42",
   "status": "partial",
   "theorems": [
    "PGV.Props.C42_java_sees_signed",
    "PGV.Props.C42_unsigned_differs",
    "PGV.Props.C42_large_bound_does_not_compile",
    "PGV.Props.C42_java_unsigned_partial"
   ],
   "note": "Java unsigned fields. C42_java_unsigned_partial: Missing: values and rule numbers in the upper half of the kind (`C42_unsigned_differs`, `C42_large_bound_does_not_compile`). Below, Java and Go agree. The full statement is false of the code where the other theorems of this claim negate it."
  },
  {
   "property": "C43",
   "status": "partial",
   "theorems": [
    "PGV.Props.C43_java_list_partial",
    "PGV.Props.C43_java_map_partial",
    "PGV.Props.C43_max_zero_ignored",
    "PGV.Props.C43_no_sparse_always_throws",
    "PGV.Props.C43_unique_enum_differs"
   ],
   "note": "Java collection rules agree with Go. C43_java_list_partial: Missing: `max_items: 0` (`C43_max_zero_ignored`), and `unique` on values that Java compares differently from Go: NaN, negative zero, undeclared enum numbers (`C43_unique_enum_differs`), bytes that are not UTF-8 in strings. Otherwise a list is accepted by min_items, max_items and unique in Java exactly when Go accepts it. C43_java_map_partial: Missing: `max_pairs: 0` and `no_sparse`. Otherwise a map is accepted by min_pairs and max_pairs in Java exactly when Go accepts it. The full statement is false of the code where the other theorems of this claim negate it."
  },
  {
   "property": "C44",
   "status": "partial",
   "theorems": [
    "PGV.Props.C44_last_registered",
    "PGV.Props.C44_fallback_ignored",
    "PGV.Props.C44_always_invalid_accepts",
    "PGV.Props.C44_explicit_partial"
   ],
   "note": "Explicit validator index. C44_explicit_partial: Missing: classes without an implementation when the fallback index rejects something (`C44_always_invalid_accepts`). With the default fallback, which accepts everything, the index does what it documents, for every history. The full statement is false of the code where the other theorems of this claim negate it."
  },
  {
   "property": "C45",
   "status": "proved",
   "theorems": [
    "PGV.Props.C45_transparent",
    "PGV.Props.C45_same_validator",
    "PGV.Props.C45_loads_once",
    "PGV.Props.C45_fallback_only"
   ],
   "note": "Reflective validator index. C45_transparent: If a class loads the same way each time, then each lookup returns what loading the class afresh would give, whatever was looked up before. C45_same_validator: Even if loading is not repeatable, two lookups of the same class on one index return the same validator, as long as the fallback never returns `null`. C45_loads_once: Reflection is tried exactly for the classes looked up, and once for each; the fallback is asked at most once for each. C45_fallback_only: The fallback is asked exactly for the classes looked up for which reflection finds no validator."
  },
  {
   "property": "C46",
   "status": "partial",
   "theorems": [
    "PGV.Props.C46_only_valid_delivered",
    "PGV.Props.C46_closed_for_violations",
    "PGV.Props.C46_first_violation",
    "PGV.Props.C46_transparent",
    "PGV.Props.C46_closed_again",
    "PGV.Props.C46_closed_once_partial"
   ],
   "note": "gRPC server interceptor. C46_closed_once_partial: Missing: at most one closing of streams with several invalid messages (`C46_closed_again`). A call with a single request message is closed at most once. The full statement is false of the code where the other theorems of this claim negate it."
  },
  {
   "property": "C47",
   "status": "proved",
   "theorems": [
    "PGV.Props.C47_only_valid_sent",
    "PGV.Props.C47_status"
   ],
   "note": "gRPC client interceptor. C47_only_valid_sent: The transport receives exactly the calls that the application made, in order, without the messages that fail validation. C47_status: Sending a message that violates its rules throws a status exception with INVALID_ARGUMENT and the field and reason of the violation; nothing else makes the interceptor throw one."
  },
  {
   "property": "C48",
   "status": "partial",
   "theorems": [
    "PGV.Props.C48_java_combined",
    "PGV.Props.C48_boundary_differs",
    "PGV.Props.C48_java_alone_partial",
    "PGV.Props.C48_python_alone_partial",
    "PGV.Props.C48_python_far_end_differs",
    "PGV.Props.C48_python_combined_partial"
   ],
   "note": "within means the same in Go, Java and Python. C48_java_alone_partial: Missing: the two instants of `C48_boundary_differs` and windows over 292 years; the Python validators are `C48_python_…`. Everywhere else, `within` on its own means the same in Go and Java. C48_python_alone_partial: `within` on its own, at whole seconds and with a clock at a whole second: Python accepts exactly the instants Go accepts. Missing: fractions of a second, where Python computes with doubles (see C67), and windows over 292 years. C48_python_combined_partial: Everywhere else, `within` combined with `lt_now` or `gt_now` means the same in Python and Go, at whole seconds. The full statement is false of the code where the other theorems of this claim negate it."
  },
  {
   "property": "C49",
   "status": "partial",
   "theorems": [
    "PGV.Props.C49_cache_transparent_partial",
    "PGV.Props.C49_cache_bounded",
    "PGV.Props.C49_generated_once",
    "PGV.Props.C49_same_name_differs"
   ],
   "note": "Python validator cache is transparent. C49_cache_transparent_partial: If types with the same full name have the same rules, then in every session, with any size of the cache and whatever was validated before, each call of `validate` returns or raises exactly as if the validator were generated afresh for it. Missing: types of the same name with different rules (in different descriptor pools), see `C49_same_name_differs`. The full statement is false of the code where the other theorems of this claim negate it."
  },
  {
   "property": "C50",
   "status": "partial",
   "theorems": [
    "PGV.Props.C50_string_exact",
    "PGV.Props.C50_bytes_exact",
    "PGV.Props.C50_counts_exact",
    "PGV.Props.C50_enum_exact",
    "PGV.Props.C50_counts_partial",
    "PGV.Props.C50_string_zero_ignored",
    "PGV.Props.C50_bytes_zero_ignored",
    "PGV.Props.C50_count_zero_ignored",
    "PGV.Props.C50_enum_const_zero_ignored",
    "PGV.Props.C50_string_limits_partial"
   ],
   "note": "Python enforces zero-valued limits. C50_counts_partial: Python agrees with Go on limits and constants that are not zero: lengths of bytes, numbers of items and of entries, and enums. Missing: zeros, see the theorems above. C50_string_limits_partial: Length rules on strings whose limits are not zero: Python accepts exactly what Go accepts. Missing: limits of zero, see above. The full statement is false of the code where the other theorems of this claim negate it."
  },
  {
   "property": "C51",
   "status": "partial",
   "theorems": [
    "PGV.Props.C51_python_numbers_partial",
    "PGV.Props.C51_ignore_empty_false",
    "PGV.Props.C51_infinity_crashes",
    "PGV.Props.C51_empty_rules_crash"
   ],
   "note": "Python numeric rules agree with Go. C51_python_numbers_partial: A numeric field of any kind, with rules the generator accepts that mention at least one number, all of them finite, and without `ignore_empty: false`: Python accepts exactly the values Go accepts, NaN and negative zero included. What is missing are the cases of the theorems below. The full statement is false of the code where the other theorems of this claim negate it."
  },
  {
   "property": "C52",
   "status": "proved",
   "theorems": [
    "PGV.Props.C52_cpp_agrees",
    "PGV.Props.C52_cpp_hostname",
    "PGV.Props.C52_java_ascii",
    "PGV.Props.C52_python_agrees",
    "PGV.Props.C52_python_hostname"
   ],
   "note": "Hostname helpers agree across Go, Python and C++. C52_cpp_agrees: Go and C++ accept the same ASCII strings as hostnames (Python: `C52_python_agrees`). C52_cpp_hostname: C++ accepts exactly the hostnames, whatever the bytes of the string. C52_java_ascii: Java takes exactly the ASCII strings that its domain library takes as hostnames. C52_python_agrees: Go and Python accept the same ASCII strings as hostnames (C++: `C52_cpp_agrees`). C52_python_hostname: Python accepts exactly the hostnames, whatever the bytes of the string."
  },
  {
   "property": "C53",
   "status": "proved",
   "theorems": [
    "PGV.Props.C53_substrings",
    "PGV.Props.C53_length",
    "PGV.Props.C53_invalid_differs"
   ],
   "note": "C++ string helpers. C53_substrings: `IsPrefix(p, s)`, `IsSuffix(p, s)` and `Contains(s, p)` hold exactly for prefixes, suffixes and substrings. C53_length: On the UTF-8 encoding of any code points, `Utf8Len` is their number, and the same as Go's `utf8.RuneCountInString`. C53_invalid_differs: outside UTF-8, which protobuf strings never leave, the two counts differ: C++ trusts the first byte of a character."
  },
  {
   "property": "C54",
   "status": "proved",
   "theorems": [
    "PGV.Props.C54_latest_validator",
    "PGV.Props.C54_static_type",
    "PGV.Props.C54_initializers"
   ],
   "note": "C++ validator registry. C54_latest_validator: For every history of constructing validators and checking messages, the next call of `Validator<T>::CheckMessage` returns what the validator constructed last for `T` returns on the message, and accepts if there is none. C54_static_type: the type is the one named at the call. A message of type \"A\" that is checked as a message of its base class is accepted, although the validator of \"A\" rejects it. C54_initializers: after the static initializers of all types have run, in any order, `CheckMessage` on a message of a type gives what the model of the generated validators says."
  },
  {
   "property": "C55",
   "status": "partial",
   "theorems": [
    "PGV.Props.C55_cpp_agrees_partial",
    "PGV.Props.C55_blames_first_partial",
    "PGV.Props.C55_float_limit",
    "PGV.Props.C55_float_const",
    "PGV.Props.C55_nan_in",
    "PGV.Props.C55_const_escape",
    "PGV.Props.C55_bytes_nul",
    "PGV.Props.C55_pattern_full",
    "PGV.Props.C55_ip_nul",
    "PGV.Props.C55_mixed_duration",
    "PGV.Props.C55_formats_throw",
    "PGV.Props.C55_bytes_ip_throws",
    "PGV.Props.C55_timestamp_throws",
    "PGV.Props.C55_no_sparse_throws"
   ],
   "note": "C++ rules agree with Go. C55_cpp_agrees_partial: Whole messages, of any type and nesting: if rules and values are in the common part of the languages (`Portable`) and the libraries agree, then the C++ validator returns `true` exactly when Go's `Validate()` returns `nil`, and throws nothing. Missing: what `Portable` excludes; the theorems below show that C++ and Go do differ there. C55_blames_first_partial: A rejection by C++ stops at the first field, in declaration order, that violates its rules, and names the message type and the field; if all fields are fine, at the first oneof that fails, naming the oneof if it is required and unset and the member otherwise. The full statement is false of the code where the other theorems of this claim negate it."
  },
  {
   "property": "C56",
   "status": "proved",
   "theorems": [
    "PGV.Props.C56_counters",
    "PGV.Props.C56_one_per_pair",
    "PGV.Props.C56_success",
    "PGV.Props.C56_skip"
   ],
   "note": "Harness counters account for every result. C56_counters: Whatever the interleaving and the number of workers, when `run` returns its counters are the numbers of successful, failed and skipped results; together they are the number of all results. C56_one_per_pair: If every case marshals there is one result per case and harness. C56_success: A result counts as a success exactly when the harness answered without error and gave the verdict the case asks for: the right number of reasons if it reports all of them, otherwise the right validity. C56_skip: A result is skipped exactly when the harness answered without error, gave another verdict, and allows that."
  },
  {
   "property": "C57",
   "status": "proved",
   "theorems": [
    "PGV.Props.C57_no_panic",
    "PGV.Props.C57_progress",
    "PGV.Props.C57_finite",
    "PGV.Props.C57_ends",
    "PGV.Props.C57_all_ended"
   ],
   "note": "Harness terminates. C57_no_panic: No goroutine ever sends on a closed channel, closes a channel twice or calls `Done` too often. C57_progress: No deadlock: with at least one worker (otherwise `run` panics at its start), some goroutine can take a step until `run` has returned. C57_finite: Every schedule is finite: no run takes more steps than this. C57_ends: So every run that is continued while some goroutine can step ends with `run` returned: a state without steps is one in which `run` has returned and no goroutine is left. C57_all_ended: When `run` returns, the collector and all workers have ended."
  },
  {
   "property": "C58",
   "status": "partial",
   "theorems": [
    "PGV.Props.C58_shard_panics",
    "PGV.Props.C58_partition_partial",
    "PGV.Props.C58_panics_iff",
    "PGV.Props.C58_multiple",
    "PGV.Props.C58_off"
   ],
   "note": "Sharding partitions the test cases. C58_partition_partial: (what holds) The shards that do not panic are, concatenated in order, exactly the list of cases. What is missing: some shards may panic, see `C58_shard_panics`; they would have had no cases. The full statement is false of the code where the other theorems of this claim negate it."
  },
  {
   "property": "C59",
   "status": "partial",
   "theorems": [
    "PGV.Props.C59_consistent_partial",
    "PGV.Props.C59_verdict",
    "PGV.Props.C59_map_order_differs",
    "PGV.Props.C59_older_type_differs"
   ],
   "note": "Go harness comparison. C59_consistent_partial: (what holds) If the two calls iterate maps in the same order, and errors of types generated by older versions have nothing inside, the harness replies `Valid` for valid messages and otherwise gives reasons, the first of which is the text of the root cause of the error of `Validate()`. The full statement is false of the code where the other theorems of this claim negate it."
  },
  {
   "property": "C60",
   "status": "proved",
   "theorems": [
    "PGV.Props.C60_java_agrees",
    "PGV.Props.C60_java_agrees_all",
    "PGV.Props.C60_skip_drops_required"
   ],
   "note": "Java and Go agree on whole messages. C60_java_agrees: Whole messages, of any type and nesting: if the libraries agree and the rules and values are portable, then the Java validator accepts the message exactly when Go's `Validate()` does. C60_java_agrees_all: and then, exactly when `ValidateAll()` reports nothing. C60_skip_drops_required: `skip` together with `required` on a message field, left unset: Go still asks for the field, Java drops both rules."
  },
  {
   "property": "C61",
   "status": "partial",
   "theorems": [
    "PGV.Props.C61_nan_differs",
    "PGV.Props.C61_negative_zero_differs",
    "PGV.Props.C61_java_float_partial"
   ],
   "note": "Java float and double rules agree with Go. C61_java_float_partial: Missing: NaN and negative zero, as values or in rules. On all other floats and doubles, infinities included, Java accepts exactly what Go accepts. The full statement is false of the code where the other theorems of this claim negate it."
  },
  {
   "property": "C62",
   "status": "partial",
   "theorems": [
    "PGV.Props.C62_java_enum_partial",
    "PGV.Props.C62_undeclared_const"
   ],
   "note": "Java enum rules agree with Go. C62_java_enum_partial: Missing: rules naming numbers that the enum does not declare (`C62_undeclared_const`). When all the numbers in the rules are declared, Java accepts exactly the enum numbers that Go accepts, declared or not. The full statement is false of the code where the other theorems of this claim negate it."
  },
  {
   "property": "C63",
   "status": "partial",
   "theorems": [
    "PGV.Props.C63_backslash_differs",
    "PGV.Props.C63_java_string_partial",
    "PGV.Props.C63_java_bytes",
    "PGV.Props.C63_mapped_ip_differs"
   ],
   "note": "Java string and bytes rules agree with Go. C63_java_string_partial: Strings: const, in, not_in, all six length rules, prefix, suffix, contains, not_contains and uuid mean the same in Java (which works on UTF-16) as in Go (which works on UTF-8 bytes), for every text. Missing: rules with a quote, a backslash or an end of line in a string (`C63_backslash_differs`, C74). Patterns and the other formats are left to libraries (C60). The full statement is false of the code where the other theorems of this claim negate it."
  },
  {
   "property": "C64",
   "status": "partial",
   "theorems": [
    "PGV.Props.C64_reflection_finds_partial",
    "PGV.Props.C64_renamed_not_found",
    "PGV.Props.C64_ignored_throws",
    "PGV.Props.C64_named_partial",
    "PGV.Props.C64_lower_not_found"
   ],
   "note": "Reflective index finds the generated validator. C64_reflection_finds_partial: For every message of a file that is not ignored, at any nesting depth, reflection finds the validator generated for that message: with one outer class for the file, always; with `java_multiple_files`, when the generator's class name for the enclosing top-level message is its proto name. C64_named_partial: With the names the generator really gives its classes: reflection finds the validator of a message under `java_multiple_files` when the enclosing top-level message is called like a Java class. The full statement is false of the code where the other theorems of this claim negate it."
  },
  {
   "property": "C65",
   "status": "partial",
   "theorems": [
    "PGV.Props.C65_python_agrees_partial",
    "PGV.Props.C65_not_contains_empty",
    "PGV.Props.C65_bytes_items_ignored",
    "PGV.Props.C65_required_items_fail",
    "PGV.Props.C65_duration_not_in_lt_crashes",
    "PGV.Props.C65_map_values_unvalidated"
   ],
   "note": "Python whole-message agreement with Go. C65_python_agrees_partial: Whole messages, of any type and nesting: if the libraries agree, the text of the validators parses, and rules and values are in the common part of the languages (`Portable`), then Python accepts the message exactly when Go's `Validate()` does. Missing: what `Portable` excludes; the theorems below show that the languages do differ there. The full statement is false of the code where the other theorems of this claim negate it."
  },
  {
   "property": "C66",
   "status": "partial",
   "theorems": [
    "PGV.Props.C66_uuid_digits",
    "PGV.Props.C66_python_headers",
    "PGV.Props.C66_no_newline_partial",
    "PGV.Props.C66_newline_accepted",
    "PGV.Props.C66_uuid_partial",
    "PGV.Props.C66_uuid_forms"
   ],
   "note": "Python well_known_regex and uuid agree with Go. C66_no_newline_partial: On strings that do not end in a newline, Python's `well_known_regex` accepts exactly what Go's accepts. Missing: strings that do, see `C66_newline_accepted`. C66_uuid_partial: Python accepts every UUID that Go accepts. Missing: the converse, see `C66_uuid_forms`. The full statement is false of the code where the other theorems of this claim negate it."
  },
  {
   "property": "C67",
   "status": "partial",
   "theorems": [
    "PGV.Props.C67_durations_partial",
    "PGV.Props.C67_timestamps_partial",
    "PGV.Props.C67_nanoseconds_const",
    "PGV.Props.C67_nanoseconds_timestamp"
   ],
   "note": "Python time rules are exact. C67_durations_partial: Duration rules, with values and durations below 292 years: once its text parses, Python accepts exactly what Go accepts, for durations that are not within a rounding error of one in the rules (`ClearDur`): the durations are whole seconds or further apart than one part in 2^51. Missing: durations so close to a bound, see below. C67_timestamps_partial: The same for timestamps (`ClearTime`), with a clock that shows a whole number of nanoseconds exactly. The full statement is false of the code where the other theorems of this claim negate it."
  },
  {
   "property": "C68",
   "status": "partial",
   "theorems": [
    "PGV.Props.C68_fails_iff",
    "PGV.Props.C68_generated_partial",
    "PGV.Props.C68_generation_fails",
    "PGV.Props.C68_item_table_undeclared",
    "PGV.Props.C68_nested_names_collide",
    "PGV.Props.C68_unique_twice"
   ],
   "note": "C++ generation succeeds and declares every name once. C68_generated_partial: A file generates and its C++ code has no name twice where it matters when its messages are accepted, have different names, no fields of the kinds in `C68_fails_iff`, only supported tables, names of fields without underscores and at most one list each with `unique` and without `ignore_empty`: then every lookup table or pattern the code uses is declared exactly once in the namespace, and nothing is declared twice in a function. Missing: the other files, see `C68_generation_fails`, `C68_item_table_undeclared`, `C68_nested_names_collide` and `C68_unique_twice`. The full statement is false of the code where the other theorems of this claim negate it."
  },
  {
   "property": "C69",
   "status": "proved",
   "theorems": [
    "PGV.Props.C69_print_validate"
   ],
   "note": "print_validate shows every generated Python validator. C69_print_validate: After any session, the text kept for `print_validate` shows the validator of every type that was validated and whose text could be made, whether or not Python accepted the text; it shows nothing else than such texts; and it has only grown since any earlier moment."
  },
  {
   "property": "C70",
   "status": "proved",
   "theorems": [
    "PGV.Props.CppStrict.C70_nested_accepted",
    "PGV.Props.CppStrict.C70_never_silent"
   ],
   "note": "C++ validators lose no rejection and skip no unimplemented rule. C70_nested_accepted: A C++ validator accepts a message only if it accepts every message embedded in it, at any depth: a rejection or an exception inside is never lost. C70_never_silent: A C++ validator never accepts a message with a value under a rule it does not implement, in the message or in one embedded in it: it throws, or rejects the message for another reason."
  },
  {
   "property": "C71",
   "status": "partial",
   "theorems": [
    "PGV.Props.C71_bytes",
    "PGV.Props.C71_string_partial",
    "PGV.Props.C71_string_iff",
    "PGV.Props.C71_compiles_iff",
    "PGV.Props.C71_escape_runs_on",
    "PGV.Props.C71_escape_too_large",
    "PGV.Props.C71_cut_at_nul",
    "PGV.Props.C71_values"
   ],
   "note": "C++ literals denote the rule values. C71_string_partial: The literal written for a string rule is a C++ string literal whose characters are exactly that string, if the string is UTF-8 and no control character that Go writes as `\\xhh` comes before a hexadecimal digit. Missing: see `C71_escape_runs_on` and `C71_escape_too_large`. The full statement is false of the code where the other theorems of this claim negate it."
  },
  {
   "property": "C72",
   "status": "partial",
   "theorems": [
    "PGV.Props.C72_message_partial",
    "PGV.Props.C72_file_partial",
    "PGV.Props.C72_map_key_unused",
    "PGV.Props.C72_bytes_value_list",
    "PGV.Props.C72_repeated_member",
    "PGV.Props.C72_repeated_duration",
    "PGV.Props.C72_infinite_bound",
    "PGV.Props.C72_long_duration",
    "PGV.Props.C72_long_length",
    "PGV.Props.C72_low_byte",
    "PGV.Props.C72_wrong_type",
    "PGV.Props.C72_item_table",
    "PGV.Props.C72_method_clash",
    "PGV.Props.C72_error_type_clash",
    "PGV.Props.C72_compiles_iff_partial"
   ],
   "note": "Generated Go code compiles. C72_message_partial: For a message that passes the checks and whose rules can be written in Go (`GoWritable`), the generated code has no operand of the wrong type, no constant its type cannot hold, no unused variable and no missing or malformed table. (`d'` is the message as the checks leave it, with the patterns of `well_known_regex` written in.) Missing: accepted messages with other rules; see `C72_map_key_unused` and the theorems after it. C72_file_partial: A file of messages that pass the checks, whose rules can be written in Go and whose names do not collide with generated ones, compiles. Missing: other accepted files, see below. C72_compiles_iff_partial: For a message that passes the checks and whose rules fit their fields (`GoTyped`), the generated Go code compiles, apart from names it shares with other messages, if, and only if, Go has a way to write each rule (`GoExpressible`): numbers are finite, lists have no repeated member, lengths fit an `int`, durations that are bounds fit 64 bits of nanoseconds, lists of bytes are on bytes fields and have no bytes below 16, only those lists and patterns are used that tables are declared for, and the key of a map is used whenever its entries are looked at. Missing: accepted messages with other rules, see `C72_map_key_unused` and the theorems after it. (`d'` is the message as the checks leave it, with the patterns of `well_known_regex` written in.) The full statement is false of the code where the other theorems of this claim negate it."
  },
  {
   "property": "C73",
   "status": "partial",
   "theorems": [
    "PGV.Props.C73_imports_partial",
    "PGV.Props.C73_needed",
    "PGV.Props.C73_fixed_names",
    "PGV.Props.C73_repeated_enum",
    "PGV.Props.C73_same_package_name",
    "PGV.Props.C73_same_proto_package",
    "PGV.Props.C73_names_collide",
    "PGV.Props.C73_two_packages"
   ],
   "note": "Packages of enum types are imported. C73_imports_partial: When every package of an enum that rules need as a type is also reached by a singular field whose enum is in another proto package and in a Go package of another name, and the names of these packages are different from each other and from the fixed imports, then the import block has no name twice and imports every package whose name the code writes. (`hpath`: an import path has one package name, as in Go.) Missing: other files with enums of other packages, see `C73_repeated_enum`, `C73_same_package_name`, `C73_same_proto_package` and `C73_names_collide`. The full statement is false of the code where the other theorems of this claim negate it."
  },
  {
   "property": "C74",
   "status": "partial",
   "theorems": [
    "PGV.Props.C74_bytes",
    "PGV.Props.C74_string_partial",
    "PGV.Props.C74_string_not_escaped",
    "PGV.Props.C74_pattern_partial",
    "PGV.Props.C74_pattern_printable",
    "PGV.Props.C74_pattern_quote",
    "PGV.Props.C74_pattern_hex"
   ],
   "note": "Constants in generated Java code. C74_string_partial: A string rule other than a pattern is written as a literal that denotes it if, and only if, it has no quote, backslash or end of line in it. Missing: the strings that have. C74_pattern_partial: What the literal for a pattern denotes, for every pattern: nothing unless the pattern is as `JavaPattern` says; then the pattern with its unprintable characters below 256 as `\\xhh`. Missing: the other patterns, see `C74_pattern_quote` and `C74_pattern_hex`. (`isPrint` is `strconv.IsPrint`, of which only ASCII matters.) The full statement is false of the code where the other theorems of this claim negate it."
  },
  {
   "property": "C75",
   "status": "partial",
   "theorems": [
    "PGV.Props.C75_violation_names_field_partial",
    "PGV.Props.C75_required_wrapper_misnamed"
   ],
   "note": "Java violations name the field. C75_violation_names_field_partial: Whenever a generated Java validator throws, the exception is about the first field or oneof, in the order of declaration with oneofs last, that breaks its own rules, in the message or in one embedded in it at any depth: that field, were it the only one with rules, throws the very same exception, the fields and oneofs before it throw none, and if the exception names a field then by the full name `.Type.field` of this one. The only other source is a validator that was not generated here. Missing for the full property: wrapper fields that are `required` (`C75_required_wrapper_misnamed`). The full statement is false of the code where the other theorems of this claim negate it."
  },
  {
   "property": "C76",
   "status": "partial",
   "theorems": [
    "PGV.Props.C76_compiles_iff_partial",
    "PGV.Props.C76_unsigned",
    "PGV.Props.C76_infinite",
    "PGV.Props.C76_long_length",
    "PGV.Props.C76_year_2038",
    "PGV.Props.C76_quote",
    "PGV.Props.C76_map_enum",
    "PGV.Props.C76_wrong_type",
    "PGV.Props.C76_disabled",
    "PGV.Props.C76_constant_names_partial",
    "PGV.Props.C76_same_constant"
   ],
   "note": "Generated Java code compiles. C76_compiles_iff_partial: The validator class generated for a message whose rules fit their fields (`JavaTyped`) compiles if, and only if, the rules of each field can be written in Java (`JavaWritable`): no constant is declared twice, each one that is used is declared, each literal is one, and the arguments of each call have the types of its parameters. Missing: accepted messages whose rules cannot be written in Java, see `C76_unsigned` and the theorems after it; rules on types they are not for (`C76_wrong_type`). (`isPrint` is `strconv.IsPrint`, of which only ASCII matters. The message is as the checks leave it, with the patterns of `well_known_regex` written in.) C76_constant_names_partial: In the text of the generated class, too, no constant is declared twice, if the fields have different Java names and no name has two upper-case letters in a row or a single lower-case letter that runs into upper-case ones. Missing: other names, see `C76_same_constant`. The full statement is false of the code where the other theorems of this claim negate it."
  },
  {
   "property": "C77",
   "status": "proved",
   "theorems": [
    "PGV.Props.C77_threads_independent",
    "PGV.Props.C77_threads_finish",
    "PGV.Props.C77_cache_bounded",
    "PGV.Props.C77_print_loses"
   ],
   "note": "Python validation from several threads. C77_threads_independent: If types with the same full name have the same rules then, however the scheduler interleaves the threads, the calls of `validate` in each thread return or raise, in order, exactly what they would if the validator were generated afresh for each of them and no other thread existed. C77_threads_finish: No thread waits for another: there is a number of turns after which a thread has all its results, whatever the other threads do and however often they run in between. C77_cache_bounded: The cache keeps to its size and has one entry per name, under every schedule. C77_print_loses: (limit) The results are safe, what `print_validate` shows is not (C69 is about one thread): of two threads that validate messages of different types, each loads the text before the other stores it, and the text of the first is lost although both calls were accepted and both validators are in the cache."
  },
  {
   "property": "C78",
   "status": "partial",
   "theorems": [
    "PGV.Props.C78_accessor_partial",
    "PGV.Props.C78_member_iff",
    "PGV.Props.C78_oneof_partial",
    "PGV.Props.C78_reserved",
    "PGV.Props.C78_upper_case",
    "PGV.Props.C78_numbered_oneof",
    "PGV.Props.C78_underscore"
   ],
   "note": "C++ names are those protoc declares. C78_accessor_partial: The accessor the generated code calls on a field is the one protoc declares if, and only if, the name of the field has no upper-case letters and is no word C++ reserves, other than `const` and `inline`. Missing: the other words, see `C78_reserved`, and names with upper-case letters. C78_oneof_partial: The enum of a oneof's cases is named as protoc names it if, and only if, the name of the oneof does not start with an underscore and each underscore in it comes before a lower-case letter. Missing: other names, see `C78_numbered_oneof`. The full statement is false of the code where the other theorems of this claim negate it."
  },
  {
   "property": "C79",
   "status": "partial",
   "theorems": [
    "PGV.Props.C79_compiles_iff_partial",
    "PGV.Props.C79_infinite",
    "PGV.Props.C79_unsigned",
    "PGV.Props.C79_smallest",
    "PGV.Props.C79_control",
    "PGV.Props.C79_unique_enums",
    "PGV.Props.C79_item_list",
    "PGV.Props.C79_item_bytes",
    "PGV.Props.C79_two_patterns",
    "PGV.Props.C79_foreign_enum",
    "PGV.Props.C79_reserved_name",
    "PGV.Props.C79_no_package",
    "PGV.Props.C79_embedded_package",
    "PGV.Props.C79_wrong_type",
    "PGV.Props.C79_two_uniques",
    "PGV.Props.C79_disabled",
    "PGV.Props.C79_shared_pattern"
   ],
   "note": "Generated C++ code compiles. C79_compiles_iff_partial: The C++ file generated for messages whose rules fit their fields (`CppTyped`) and whose names are of the usual kind (`PlainNames`, `WellNamed`) compiles if, and only if, the rules of each field can be written in C++ (`CppWritable`) and each message has at most one list with `unique` and without `ignore_empty`: each table is declared once, each one that is used is declared with a type that values can be looked up in, each literal is one, and each expression has a type its operators and functions take. Missing: accepted messages whose rules cannot be written in C++, see `C79_infinite` and the theorems after it; names of other kinds (`C79_reserved_name`, `C79_no_package`); rules on types they are not for (`C79_wrong_type`); files with disabled messages (`C79_disabled`). (`isPrint` is `strconv.IsPrint`, of which only ASCII matters. Messages are as the checks leave them.) The full statement is false of the code where the other theorems of this claim negate it."
  },
  {
   "property": "C80",
   "status": "partial",
   "theorems": [
    "PGV.Props.C80_own_partial",
    "PGV.Props.C80_shared",
    "PGV.Props.C80_otherwise",
    "PGV.Props.C80_iff",
    "PGV.Props.C80_verdict_partial",
    "PGV.Props.C80_wrong_pattern"
   ],
   "note": "Each check of generated Go code uses its own rule's list or pattern. C80_own_partial: Where lists and patterns are where the templates make tables for them, the code of a field finds all the names it uses, declared once, and under each name the list or pattern of the very rule it checks. C80_verdict_partial: A program all of whose lists and patterns have their tables accepts exactly the messages that satisfy their rules, with its tables looked up by name. The full statement is false of the code where the other theorems of this claim negate it."
  },
  {
   "property": "C81",
   "status": "partial",
   "theorems": [
    "PGV.Props.C81_starts_iff_partial",
    "PGV.Props.C81_starts",
    "PGV.Props.C81_disabled"
   ],
   "note": "Programs with generated Go code start. C81_starts_iff_partial: A program with the code of an accepted file in it panics before `main` exactly if a message for which validation is disabled has a pattern that does not compile. (That the pattern of the `uuid` rule compiles is given.) The full statement is false of the code where the other theorems of this claim negate it."
  },
  {
   "property": "C82",
   "status": "proved",
   "theorems": [
    "PGV.Props.C82_reasons",
    "PGV.Props.C82_tells_apart"
   ],
   "note": "The reason in a Go violation is true. C82_reasons: Every error that `Validate()` or `ValidateAll()` reports for a message is one of three: a required oneof that is not set, an embedded message that failed validation, with its error as cause, or a broken rule on (an item, key or value of) a field. In the last case the reason, read as a requirement, does not hold of the value that is blamed, and holds of every value of the same kind that satisfies the rules, except for those that `ignore_empty` exempts. C82_tells_apart: The same for one field that is neither a list nor a map nor an embedded message without rules, in terms of what `Validate()` accepts: the reason tells the rejected value from every accepted one."
  },
  {
   "property": "C83",
   "status": "partial",
   "theorems": [
    "PGV.Props.C83_java_partial",
    "PGV.Props.C83_java_stray_bracket",
    "PGV.Props.C83_java_scrambled",
    "PGV.Props.C83_python_partial",
    "PGV.Props.C83_python_surroundings"
   ],
   "note": "The e-mail rule checks the whole value in Java and Python. C83_java_partial: Java: a value that does not end in `>` must be an address itself. A display name followed by an address in angle brackets is accepted when the address is. Missing: a value that ends in `>` but has no `<` for it is accepted when the part before the `>` is an address (`C83_java_stray_bracket`), where the claim is that it is rejected. The hypothesis excludes values in which two characters outside the Basic Multilingual Plane stand side by side (`C83_java_scrambled`). C83_python_partial: Python: if there are a `<` and a `>` in the value, the address is what follows the first `<`, up to the next bracket or the end; otherwise it is the whole value. It must be accepted by the library, have at most 254 characters, at most 64 before its first `@`, and a hostname between that and the next `@`. Missing: nothing else in the value is looked at (`C83_python_surroundings`), where the claim is that the address ends the value. The full statement is false of the code where the other theorems of this claim negate it."
  },
  {
   "property": "C84",
   "status": "proved",
   "theorems": [
    "PGV.Props.C84_go",
    "PGV.Props.C84_java",
    "PGV.Props.C84_cpp",
    "PGV.Props.C84_python"
   ],
   "note": "An unset field is validated like its default. C84_go: Go: both methods return the same. C84_java: Java: `assertValid` ends the same way. C84_cpp: C++: `Validate` ends the same way. C84_python: Python: `validate` ends the same way."
  },
  {
   "property": "C85",
   "status": "partial",
   "theorems": [
    "PGV.Props.C85_reported_by_go_partial",
    "PGV.Props.C85_reasons_partial",
    "PGV.Props.C85_false_reason",
    "PGV.Props.C85_other_first"
   ],
   "note": "C++ violations are true and known to Go. C85_reported_by_go_partial: Whole messages, of any type and nesting, with rules and values in the common part of the languages (`Portable`): the violation that a C++ validator returns is one of those that Go's `ValidateAll()` returns for the message. Missing: what `Portable` excludes; see `C85_false_reason`. C85_reasons_partial: The reasons in C++ violations are true, under the same hypotheses: every violation is a required oneof that is not set, an embedded message that failed validation, or a broken rule on (an item, key or value of) a field. In the last case the reason, read as a requirement, does not hold of the value that is blamed, and holds of every value of the same kind that satisfies the rules, except for those that `ignore_empty` exempts. (No field has the name of a oneof.) The full statement is false of the code where the other theorems of this claim negate it."
  },
  {
   "property": "C86",
   "status": "partial",
   "theorems": [
    "PGV.Props.C86_violation_partial",
    "PGV.Props.C86_names",
    "PGV.Props.C86_invalid_lost",
    "PGV.Props.C86_oneof_type",
    "PGV.Props.C86_address"
   ],
   "note": "What the text of a C++ violation says. C86_violation_partial: The text of a C++ violation is the name of the message type followed by \"ValidationError.\", the field, the index or key in brackets, \": \", the reason and, if there is a cause, \" | caused by \" and the text of the cause. (The reason is text that a C++ literal can hold; `strconv.IsPrint` is false of control characters.) Missing: the \"invalid \" that the generated code asks for, which is overwritten; see `C86_invalid_lost`, `C86_address` and `C86_oneof_type`. The full statement is false of the code where the other theorems of this claim negate it."
  },
  {
   "property": "C87",
   "status": "partial",
   "theorems": [
    "PGV.Props.C87_getter_iff_partial",
    "PGV.Props.C87_has_iff_partial",
    "PGV.Props.C87_oneof_partial",
    "PGV.Props.C87_class",
    "PGV.Props.C87_count",
    "PGV.Props.C87_list",
    "PGV.Props.C87_oneof_digit"
   ],
   "note": "Generated Java code calls accessors that exist. C87_getter_iff_partial: The generated validator reads a field with the getter protoc declares for it exactly when protoc neither takes the field's name for one of its own nor gives the field another name because of its neighbours. (`forbidden` is protoc's list of such names; `others` are the other fields of the message.) Missing: those fields, see `C87_class`, `C87_count` and `C87_list`. C87_has_iff_partial: The same for the method that says whether a message field is set. C87_oneof_partial: The method that says which member of a oneof is set. Missing: names with a lower-case letter right after a digit (`C87_oneof_digit`). The full statement is false of the code where the other theorems of this claim negate it."
  },
  {
   "property": "C88",
   "status": "partial",
   "theorems": [
    "PGV.Props.C88_outer_class_partial",
    "PGV.Props.C88_lone_lower",
    "PGV.Props.C88_nested_name",
    "PGV.Props.C88_message_class_partial",
    "PGV.Props.C88_renamed",
    "PGV.Props.C88_instantiates_partial",
    "PGV.Props.C88_underscore_word",
    "PGV.Props.C88_instantiated",
    "PGV.Props.C88_distinct_partial",
    "PGV.Props.C88_same_class"
   ],
   "note": "Java class names. C88_outer_class_partial: The generator knows the outer class of a file by the name protoc gives it. Missing: names of files in which a single lower-case letter runs into upper-case ones (`C88_lone_lower`), and files with a nested type called like the outer class (`C88_nested_name`). C88_message_class_partial: With `java_multiple_files`, the validator of a message is called after the message. Missing: messages whose name has a lower-case letter at its beginning or after a digit (`C88_renamed`), or the word \"Underscore\". C88_instantiates_partial: With `java_multiple_files`, the class a validator instantiates for its own message is the class declared in the file. Missing: names with an underscore at the beginning or before a lower-case letter (`C88_instantiated`), and those of `C88_message_class_partial`. C88_distinct_partial: Different messages of a file, at any depth, have validator classes of different names. Missing: names with underscores (`C88_same_class`), and those Java spells differently. The full statement is false of the code where the other theorems of this claim negate it."
  },
  {
   "property": "C89",
   "status": "proved",
   "theorems": [
    "PGV.Props.C89_accepts_iff",
    "PGV.Props.C89_long_durations_equal"
   ],
   "note": "Exactly which rules the generator accepts. C89_accepts_iff: The generator accepts a message exactly when validation is disabled for it or the rules of each of its fields, at every depth, are let through. C89_long_durations_equal: Two durations of different lengths, both beyond what a `time.Duration` holds, count as equal: rules that durations between the two satisfy are refused."
  },
  {
   "property": "C90",
   "status": "partial",
   "theorems": [
    "PGV.Props.C90_class_of_file",
    "PGV.Props.C90_found_partial",
    "PGV.Props.C90_null_class",
    "PGV.Props.C90_null_wrong",
    "PGV.Props.C90_enum_twice",
    "PGV.Props.C90_builds_iff",
    "PGV.Props.C90_no_others",
    "PGV.Props.C90_unpacks",
    "PGV.Props.C90_unpacks_iff",
    "PGV.Props.C90_clash_overlooked",
    "PGV.Props.C90_inner_enum_lost"
   ],
   "note": "The Java type dictionary names the class of every message. C90_found_partial: When the dictionary of a set of files can be made, it gives the Java class of every message in them at any depth, if the file has one outer class that is named by an option or after a file name without capitals inside words, and no nested type is called like it. With `java_multiple_files` it does for top-level messages. Missing: other files, see `C90_class_of_file` and `C90_clash_overlooked`; nested messages under `java_multiple_files`, see `C90_null_class`; sets of files without a dictionary, see `C90_enum_twice`. The full statement is false of the code where the other theorems of this claim negate it."
  },
  {
   "property": "C91",
   "status": "partial",
   "theorems": [
    "PGV.Props.C91_reason_is_a_broken_requirement_partial",
    "PGV.Props.C91_uri_ref_overstates",
    "PGV.Props.C91_within_overstates"
   ],
   "note": "The reason of a Java ValidationException states a requirement of the rules that the value breaks. C91_reason_is_a_broken_requirement_partial: Whenever a generated Java validator throws a `ValidationException`, its reason, read as a requirement, is one that the message, or one embedded in it at any depth, does not meet: either a required oneof is unset, or the value of a field, or an item, key or value of it, breaks the requirement, with the limits that the reason names, while every value that the rules accept on their own meets it; and what the reason says of the value itself, such as its length, is true. The only other source is a validator that was not generated here. Missing for the full property: what the rules accept without meeting the reason (`Overstated`), see `C91_uri_ref_overstates` and `C91_within_overstates`. The full statement is false of the code where the other theorems of this claim negate it."
  },
  {
   "property": "C92",
   "status": "partial",
   "theorems": [
    "PGV.Props.C92_message_is_a_broken_requirement_partial",
    "PGV.Props.C92_inverted_range",
    "PGV.Props.C92_hostname_says_email",
    "PGV.Props.C92_duration_not_in",
    "PGV.Props.C92_bytes_pattern",
    "PGV.Props.C92_required_items",
    "PGV.Props.C92_uri",
    "PGV.Props.C92_uri_ref",
    "PGV.Props.C92_within",
    "PGV.Props.C92_items_unnamed"
   ],
   "note": "The message of a Python ValidationFailed states a requirement of the rules that the value breaks. C92_message_is_a_broken_requirement_partial: Whenever Python's `validate` raises `ValidationFailed`, its message, read as a requirement, is one that the message, or one embedded in it at any depth, does not meet: either a required oneof is unset, or a field, or an item, a key or a value of it, which the message calls by the name that the generated code has for it, breaks the requirement, while whatever the rules accept on their own meets it; and the item that is said to be repeated is one that is. The only other source is a validator that was not generated here. Missing for the full property: the messages in `Misstated`, and those about items and values that are required, see the theorems below; and what passes without meeting the requirement, see `Exempt`. The full statement is false of the code where the other theorems of this claim negate it."
  },
  {
   "property": "C93",
   "status": "partial",
   "theorems": [
    "PGV.Props.C93_answers_arrive",
    "PGV.Props.C93_bad_reason",
    "PGV.Props.C93_go_partial",
    "PGV.Props.C93_number_not_compared",
    "PGV.Props.C93_cpp_partial",
    "PGV.Props.C93_cpp_unimplemented",
    "PGV.Props.C93_java_partial",
    "PGV.Props.C93_java_unimplemented",
    "PGV.Props.C93_java_runtime",
    "PGV.Props.C93_python_partial",
    "PGV.Props.C93_python_long",
    "PGV.Props.C93_python_crash"
   ],
   "note": "Test runs count what the validators decide. C93_go_partial: Go: the run of a case is counted by whether `Validate()` accepts the message. (Reasons are not longer than memory; errors of types generated by older versions have nothing inside, and both calls see maps in one order, see C59.) Missing: how many rules are broken, `C93_number_not_compared`. C93_cpp_partial: C++: the run of a case is counted by whether the validator accepts the message, if it does not throw. (Reasons are UTF-8, and not longer than memory.) Missing: `C93_cpp_unimplemented`, and how many rules are broken. C93_java_partial: Java: the run of a case is counted by whether `assertValid` accepts the message, if it throws nothing but what validators throw for a broken rule. Missing: `C93_java_unimplemented`, `C93_java_runtime`, and how many rules are broken. C93_python_partial: Python: the run of a case is counted by whether `validate` accepts the message, if it raises nothing but `ValidationFailed` and the representation of that takes less than 128 bytes. Missing: `C93_python_long`, `C93_python_crash`, and how many rules are broken. The full statement is false of the code where the other theorems of this claim negate it."
  },
  {
   "property": "C94",
   "status": "partial",
   "theorems": [
    "PGV.Props.C94_java_partial",
    "PGV.Props.C94_java_not_imported",
    "PGV.Props.C94_java_accepts_what_others_reject",
    "PGV.Props.C94_python_partial",
    "PGV.Props.C94_python_map_keys",
    "PGV.Props.C94_python_accepts_book",
    "PGV.Props.C94_python_pairs",
    "PGV.Props.C94_python_pairs_crash",
    "PGV.Props.C94_python_google",
    "PGV.Props.C94_python_accepts_config"
   ],
   "note": "A validator that accepts a message accepts every message embedded in it. C94_java_partial: Java: a message is accepted only if all messages inside are, at any depth, as long as the types on the way down are declared in files that import validate.proto. Missing: the other files, see `C94_java_not_imported`. C94_python_partial: Python: a message is accepted only if all messages inside are, at any depth, as long as the fields on the way down are followed. Missing: maps with rules for the keys, or rules for the values that are not message rules, see `C94_python_map_keys`; fields without rules of types called `google.protobuf…`, and lists without rules of messages with the fields `key` and `value`, see `C94_python_google`, `C94_python_pairs` and `C94_python_pairs_crash`. The full statement is false of the code where the other theorems of this claim negate it."
  },
  {
   "property": "C95",
   "status": "partial",
   "theorems": [
    "PGV.Props.Paths.C95_moved_iff",
    "PGV.Props.Paths.C95_header_partial",
    "PGV.Props.Paths.C95_header_moved",
    "PGV.Props.Paths.C95_header_includes",
    "PGV.Props.Paths.C95_cc_own_partial",
    "PGV.Props.Paths.C95_module_collides",
    "PGV.Props.Paths.C95_java_place_partial",
    "PGV.Props.Paths.C95_java_own_partial",
    "PGV.Props.Paths.C95_java_collides",
    "PGV.Props.Paths.C95_java_overwrites"
   ],
   "note": "Output files are written where they are looked for and do not overwrite each other. C95_header_partial: A C++ source file of a run includes the header the run writes for the same .proto file, if the `module` parameter leaves the header's path as it is. Missing: other values of `module`, see `C95_header_moved`. C95_cc_own_partial: The files of a C++ run have different names, if the .proto files have and `module` leaves the paths as they are. Missing: other values of `module`, see `C95_module_collides`. C95_java_place_partial: A Java file of a run is named after its public class and lies in the directory of its package, if `module` leaves the path as it is (with java_multiple_files it is not looked at). Missing: other values of `module`, see `C95_moved_iff`. C95_java_own_partial: The files of a Java run have different names, if the classes protoc writes for the messages of the .proto files have, the generator knows them by these names, and `module` leaves the paths as they are. Missing: see `C95_java_collides` and `C95_moved_iff`. The full statement is false of the code where the other theorems of this claim negate it."
  },
  {
   "property": "C96",
   "status": "partial",
   "theorems": [
    "PGV.Props.CppLink.C96_links_partial",
    "PGV.Props.CppLink.C96_class",
    "PGV.Props.CppLink.C96_double_underscore",
    "PGV.Props.CppLink.C96_macros_partial",
    "PGV.Props.CppLink.C96_macro_case",
    "PGV.Props.CppLink.C96_macro_same_base",
    "PGV.Props.CppLink.C96_macro_packages_partial",
    "PGV.Props.CppLink.C96_macro_parts",
    "PGV.Props.CppLink.C96_functions"
   ],
   "note": "The C++ files of one program fit together. C96_links_partial: A C++ program links, as far as the variables that register validators go, if its messages have different classes, and the parts of the package and the class have no two underscores in a row and none at their ends. Missing: other names, see `C96_double_underscore`. C96_macros_partial: The headers of two files of one package, in whatever directories, whose names without the directory are different, of lower-case letters and underscores, define different macros. Missing: other names, see `C96_macro_case`, and files of one name in two directories, see `C96_macro_same_base`. C96_macro_packages_partial: Files of one name, in the same directory or not, have different macros if their packages are spelt differently in them. Missing: `C96_macro_parts`. The full statement is false of the code where the other theorems of this claim negate it."
  },
  {
   "property": "C97",
   "status": "partial",
   "theorems": [
    "PGV.Props.GoPackage.C97_fits_iff_partial",
    "PGV.Props.GoPackage.C97_error_name",
    "PGV.Props.GoPackage.C97_same_base",
    "PGV.Props.GoPackage.C97_nested_name",
    "PGV.Props.GoPackage.C97_two_patterns"
   ],
   "note": "The Go files of one package fit together. C97_fits_iff_partial: The Go files of a package declare no name twice, and none that protoc-gen-go declares, exactly if no type is named like the error type of a message, no two files with uuid rules have the same base name in snake case, no field `s_g` of a message `M` has a table that also a field `g` of a message `M_s` has, and no map has two patterns. Missing: packages where one of these holds, see `C97_error_name`, `C97_same_base`, `C97_nested_name` and `C97_two_patterns`. The full statement is false of the code where the other theorems of this claim negate it."
  },
  {
   "property": "C98",
   "status": "proved",
   "theorems": [
    "PGV.Props.C98_go",
    "PGV.Props.C98_java",
    "PGV.Props.C98_cpp",
    "PGV.Props.C98_python",
    "PGV.Props.C98_report"
   ],
   "note": "The order of map entries does not matter for the verdict. C98_go: Go: `Validate()` and `ValidateAll()` accept both or neither. The `Validate` methods that older versions of the plugin wrote are assumed to do so as well. C98_java: Java: validators of other types are assumed to accept both or neither. C98_cpp: C++: the same for `CheckMessage`. C98_python: Python: the same for `validate`. C98_report: Only the verdict: of two wrong entries, the one that `Validate()` visits first is reported, so the same message may give different errors in two runs."
  },
  {
   "property": "C99",
   "status": "proved",
   "theorems": [
    "PGV.Props.C99_go",
    "PGV.Props.C99_java",
    "PGV.Props.C99_cpp",
    "PGV.Props.C99_python"
   ],
   "note": "Verdicts depend on the types inside the message only. C99_go: Go: with other declarations for types that do not occur in the message, `Validate()` and `ValidateAll()` return the same error or none. C99_java: Java: `assertValid` ends the same way. C99_cpp: C++: `CheckMessage` ends the same way. C99_python: Python: `validate` ends the same way."
  },
  {
   "property": "C100",
   "status": "proved",
   "theorems": [
    "PGV.Props.C100_go",
    "PGV.Props.C100_java",
    "PGV.Props.C100_python",
    "PGV.Props.C100_later",
    "PGV.Props.C100_earlier",
    "PGV.Props.C100_clock"
   ],
   "note": "The time matters only where a rule asks for it. C100_go: Go: where no rule compares with the current time, `Validate()` and `ValidateAll()` give the same result at any time. C100_java: Java: `assertValid` ends the same way at any time. C100_python: Python: `validate` ends the same way at any time. C100_later: Go: with `lt_now` rules only, what is accepted now is accepted at any later time. C100_earlier: Go: with `gt_now` rules only, what is accepted now was accepted at any earlier time. C100_clock: The clock does matter for the others: a page seen at second 5 is refused before and accepted after, in Go, Java and Python; one due then is accepted before and refused after."
  },
  {
   "property": "C101",
   "status": "proved",
   "theorems": [
    "PGV.Props.C101_agree"
   ],
   "note": "Simple rules mean the same in Go, Java, C++ and Python. C101_agree: If all rules of the types in a message are simple, then all four languages give the same verdict on it, whatever values it holds, at any depth: Java returns, C++ returns `true` and Python returns, exactly when Go's `Validate()` returns `nil`, which is exactly when `ValidateAll()` does; and C++ does not throw. No clock, no text library and no order of map entries comes into it."
  },
  {
   "property": "C102",
   "status": "partial",
   "theorems": [
    "PGV.Props.C102_java_partial",
    "PGV.Props.C102_python_partial",
    "PGV.Props.C102_simple_partial",
    "PGV.Props.C102_java_duration",
    "PGV.Props.C102_java_enum",
    "PGV.Props.C102_java_within",
    "PGV.Props.C102_python_infinity",
    "PGV.Props.C102_python_glued"
   ],
   "note": "Validation ends in a verdict, never in another exception. C102_java_partial: Java: on a message whose times can be compared with the limits of their rules, and whose rules name declared enum constants, `assertValid` returns or throws a `ValidationException`, whatever the other rules and values are, at any depth. Missing: `C102_java_duration`, `C102_java_enum`, `C102_java_within`. C102_python_partial: Python: on a message whose types have simple rules only, `validate` returns or raises `ValidationFailed`, at any depth. Missing: rules of the other kinds; some of them crash (`C102_python_infinity`, `C102_python_glued`). C102_simple_partial: On a message whose types have simple rules only, all languages end in a verdict: Java throws nothing but a `ValidationException`, C++ throws nothing, Python raises nothing but `ValidationFailed`; and the three refuse exactly what Go's `Validate()` returns an error for. Missing: rules of the other kinds. The full statement is false of the code where the other theorems of this claim negate it."
  },
  {
   "property": "C103",
   "status": "partial",
   "theorems": [
    "PGV.Props.C103_is_valid",
    "PGV.Props.C103_settled_partial",
    "PGV.Props.C103_agrees",
    "PGV.Props.C103_throws",
    "PGV.Props.C103_fallback",
    "PGV.Props.C103_closed"
   ],
   "note": "Java: isValid tells what assertValid does, and the fallback validator decides only about unknown types. C103_settled_partial: On a settled message (see C102), `isValid` returns, and says whether `assertValid` does. Missing: `C103_throws`. The full statement is false of the code where the other theorems of this claim negate it."
  },
  {
   "property": "C104",
   "status": "proved",
   "theorems": [
    "PGV.Props.C104_go",
    "PGV.Props.C104_violations",
    "PGV.Props.C104_java",
    "PGV.Props.C104_cpp",
    "PGV.Props.C104_python",
    "PGV.Props.C104_first"
   ],
   "note": "The order of declarations and fields without rules do not matter. C104_go: Go: `Validate` and `ValidateAll` accept the same messages under two versions of the types that differ in the order of declarations and in free fields only. C104_violations: Go: `ValidateAll` reports the same violations, in the same fields of the same embedded messages, with the same reasons; only their order may differ. C104_java: Java: `assertValid` returns for the same messages. C104_cpp: C++: `CheckMessage` returns true for the same messages. C104_python: Python: `validate` returns for the same messages. C104_first: Only the verdict is the same: the first violation that `Validate` reports is that of the field declared first."
  },
  {
   "property": "C105",
   "status": "partial",
   "theorems": [
    "PGV.Props.C105_go",
    "PGV.Props.C105_others_partial",
    "PGV.Props.C105_python_dropped",
    "PGV.Props.C105_outside",
    "PGV.Props.C105_within"
   ],
   "note": "Loosening rules never makes a valid message invalid. C105_others_partial: Java, C++ and Python, for rules of the simple kinds. Missing: other rules, on which these languages differ from Go (C60, C55, C65); for Python see `C105_python_dropped`. The full statement is false of the code where the other theorems of this claim negate it."
  },
  {
   "property": "C106",
   "status": "partial",
   "theorems": [
    "PGV.Props.C106_go",
    "PGV.Props.C106_one",
    "PGV.Props.C106_cpp_partial",
    "PGV.Props.C106_java_partial",
    "PGV.Props.C106_same_partial",
    "PGV.Props.C106_python_partial",
    "PGV.Props.C106_python_oneof_first"
   ],
   "note": "The languages complain about the same field first. C106_cpp_partial: The C++ validator complains about the same field: its message is about `n`, or says that nothing is set in the oneof `n`. Missing: what `Portable` excludes. C106_java_partial: The exception of the Java validator is about the same field: if it names one it names `n`, or it is the exception for a message that `n` holds. Missing: what `Portable` excludes, and wrapper fields that are `required`, which it does not name. C106_same_partial: Go and C++ name the same field or oneof. Missing: what `Portable` excludes. C106_python_partial: The exception of Python is about the same field, if nothing is wrong with the oneofs: it is about the value of that field, or it is the exception for a message that the field holds. Missing: broken oneofs (`C106_python_oneof_first`), and what `Portable` excludes. The full statement is false of the code where the other theorems of this claim negate it."
  },
  {
   "property": "C107",
   "status": "proved",
   "theorems": [
    "PGV.Props.C107_found",
    "PGV.Props.C107_source",
    "PGV.Props.C107_exactly",
    "PGV.Props.C107_first"
   ],
   "note": "ValidateAll finds every violation of every nested message. C107_found: What `ValidateAll()` of a message nested in `v` reports, at any depth and in any field, list or map, `ValidateAll()` of `v` reports too, at the path to that message. C107_source: Whatever `ValidateAll()` of `v` reports is a violation of `v` itself or of a message nested in `v`, and is reported at the path to that message. C107_exactly: Both directions together: `ValidateAll()` of `v` reports exactly the violations of the messages nested in `v`, `v` included, each at the path to its message. C107_first: What `Validate()` reports is among what `ValidateAll()` reports, at the same path."
  },
  {
   "property": "C108",
   "status": "partial",
   "theorems": [
    "PGV.Props.C108_both_ends_partial",
    "PGV.Props.C108_clock",
    "PGV.Props.C108_go_client_partial",
    "PGV.Props.C108_go_refused_partial"
   ],
   "note": "What one process has validated the next one does not refuse. C108_both_ends_partial: A server that validates passes on everything that comes from a client that validates with the same rules, in order, and does not close the call, whenever their clocks stand, if no rule of the types in the messages compares with the current time. Missing: rules that do, see `C108_clock`. C108_go_client_partial: A Java server that validates passes on all messages that a Go client has accepted with `Validate()` or `ValidateAll()` before sending them, if their rules are simple. Missing: other rules, see the negations of C60 and C102. C108_go_refused_partial: And at the first message that Go's `Validate()` would have refused, it closes the call with INVALID_ARGUMENT: the service has seen the messages before it, and will not see the end of the messages. Missing: as above. The full statement is false of the code where the other theorems of this claim negate it."
  },
  {
   "property": "C109",
   "status": "proved",
   "theorems": [
    "PGV.Props.C109_own_output",
    "PGV.Props.C109_not_shared",
    "PGV.Props.C109_ends"
   ],
   "note": "Test programs that run at the same time do not get into each other's output. C109_own_output: Whatever the runs take turns in, whichever buffers the pool gives out and loses, and however long it goes on: a run that has ended gave the answer to the output of its own program, and logged the text of its own program's standard error. C109_not_shared: At no time do two runs use one buffer, does one run use a buffer for both purposes, or is a buffer in use still in the pool, or twice in it; and all buffers in the pool are empty. C109_ends: No run waits for another: one that gets seven turns more than its program writes pieces has ended."
  },
  {
   "property": "C110",
   "status": "partial",
   "theorems": [
    "PGV.Props.C110_asked",
    "PGV.Props.C110_exit",
    "PGV.Props.C110_exit_iff",
    "PGV.Props.C110_status",
    "PGV.Props.C110_green",
    "PGV.Props.C110_order",
    "PGV.Props.C110_space",
    "PGV.Props.C110_line",
    "PGV.Props.C110_located_partial"
   ],
   "note": "A test run that ends with exit status 0 has run everything it was asked to run, and all of it passed. C110_located_partial: (what holds on Windows) If the manifest is well formed, exactly one name in it contains the command, and no name contains the file it stands for, that file is run whatever the order. What is missing: several names that contain the command (`C110_order`), spaces (`C110_space`) and other lines (`C110_line`). The full statement is false of the code where the other theorems of this claim negate it."
  },
  {
   "property": "C111",
   "status": "partial",
   "theorems": [
    "PGV.Props.C111_cpp_own",
    "PGV.Props.C111_cpp_iff",
    "PGV.Props.C111_cpp_unknown",
    "PGV.Props.C111_python_partial",
    "PGV.Props.C111_python_own",
    "PGV.Props.C111_python_unknown",
    "PGV.Props.C111_python_nested",
    "PGV.Props.C111_python_shadowed",
    "PGV.Props.C111_go_own",
    "PGV.Props.C111_go_iff",
    "PGV.Props.C111_go_unknown",
    "PGV.Props.C111_go_ignored",
    "PGV.Props.C111_go_validates"
   ],
   "note": "The test programs validate a message as what it is. C111_python_partial: (what holds for Python) The Python program validates a message as its own type if, and only if, it can see the type. What is missing: it cannot see nested messages (`C111_python_nested`), nor those whose name another module takes (`C111_python_shadowed`). The full statement is false of the code where the other theorems of this claim negate it."
  },
  {
   "property": "C112",
   "status": "partial",
   "theorems": [
    "PGV.Props.C112_go",
    "PGV.Props.C112_python",
    "PGV.Props.C112_cpp_partial",
    "PGV.Props.C112_java_partial",
    "PGV.Props.C112_agree",
    "PGV.Props.C112_cpp_unchecked",
    "PGV.Props.C112_java_unchecked"
   ],
   "note": "A test run without failures certifies the verdicts of all validators on all cases. C112_cpp_partial: (what holds for C++) If it asks for the C++ program, `Validate` gives the verdict that the case expects, or throws `UnimplementedException`. What is missing: see `C112_cpp_unchecked`. C112_java_partial: (what holds for Java) If it asks for the Java program, `assertValid` gives the verdict that the case expects, or throws `UnimplementedException`. What is missing: see `C112_java_unchecked`. The full statement is false of the code where the other theorems of this claim negate it."
  },
  {
   "property": "C113",
   "status": "proved",
   "theorems": [
    "PGV.Props.C113_go",
    "PGV.Props.C113_cpp",
    "PGV.Props.C113_java",
    "PGV.Props.C113_java_constants"
   ],
   "note": "Generation never fails for want of a template. C113_go: For every field, with whatever rules, nested as deep as they may be, Go has all templates that are executed. C113_cpp: So does C++. C113_java: So does Java. C113_java_constants: In Java the checks of every kind of rule but those of bool fields and of messages refer to constants; there is a template that declares them."
  },
  {
   "property": "C114",
   "status": "partial",
   "theorems": [
    "PGV.Props.Bazel.C114_partial",
    "PGV.Props.Bazel.C114_virtual",
    "PGV.Props.Bazel.C114_extension"
   ],
   "note": "The Bazel rule for C++ makes exactly the files it declares. C114_partial: (what holds) If the sources are imported by their paths in the rule's repository and are called `….proto`, the rule's action makes all files that the rule declared, and no others. Missing: files imported by other paths and files with other extensions, see `C114_virtual` and `C114_extension`. The full statement is false of the code where the other theorems of this claim negate it."
  }
 ]
}