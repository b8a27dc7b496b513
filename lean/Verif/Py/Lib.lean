import Verif.Core.Schema

/-!
Python values, the code fragments the Python templates emit, and the helper functions of
python/protoc_gen_validate/validator.py. Unlike the other languages, the text of a validator is made
and executed at run time, by `validate` itself.
-/

namespace PGV.Py
open PGV

/-- A Python `str`: code points (what python/protoc_gen_validate/validator.py:172-286 is about). -/
abbrev PStr := List Nat

/-- The `str` that the Python protobuf runtime hands out for the UTF-8 bytes of a string field
(what python/protoc_gen_validate/validator.py:172-286 is about). -/
def pstr (s : Bytes) : PStr := runes s

/-- A value as it is printed in the message of an exception
(python/protoc_gen_validate/validator.py:137,160,335,439,857). `secs` is a double (see `scale`), the seconds of a
duration or time. Printing itself is left out. -/
inductive PItem
  | num (n : Num)
  | bool (b : Bool)
  | str (s : PStr)
  | bytes (b : Bytes)
  | enum (i : Int)
  | secs (x : Int)
  deriving DecidableEq, Repr

/-- The pieces of a message: fixed words, and values. A pattern is shown as it is written in the rules, but with its
escapes processed; `known` is one of the expressions of `regex_map`
(python/protoc_gen_validate/validator.py:17-22,137-281). -/
inductive Piece
  | s (t : String)
  | nat (n : Nat)
  | item (k : PItem)
  | items (l : List PItem)
  | pair (a b : PItem)
  | pattern (p : Bytes)
  | known (name : String)
  deriving DecidableEq, Repr

/-- What the message of a `ValidationFailed` says after the name and a space
(python/protoc_gen_validate/validator.py:193). -/
abbrev Text := List Piece

/-- How a call of `validate` ends when it does not return: `ValidationFailed` (validator.py:25-26), with the two
parts of its message, or any other exception (a `SyntaxError` or `NameError` of the generated text included). -/
inductive PyErr
  | failed (name : String) (text : Text)
  | crash
  deriving DecidableEq, Repr

/-- Running a statement (python/protoc_gen_validate/validator.py:59,1026). -/
abbrev Run := Except PyErr Unit

/-- One statement after the other; an exception ends the block
(python/protoc_gen_validate/validator.py:1026-1053). -/
def runAll {α : Type} : List (α → Run) → α → Run
  | [], _ => .ok ()
  | s :: ss, x =>
    match s x with
    | .ok () => runAll ss x
    | e => e

/-- The body of a `for` loop, once per element (python/protoc_gen_validate/validator.py:861,869,902). -/
def forEach {α : Type} : List α → (α → Run) → Run
  | [], _ => .ok ()
  | x :: xs, body =>
    match body x with
    | .ok () => forEach xs body
    | e => e

/-- The text a template emits: `none` when making it fails or when Python cannot parse it, otherwise
the statements of a block; each is run on the value the template's `name` stands for
(python/protoc_gen_validate/validator.py:59). -/
abbrev Code (α : Type) := Option (List (α → Run))

namespace Code
variable {α β : Type}

/-- Text after text (python/protoc_gen_validate/validator.py:189-190). -/
def seq (a b : Code α) : Code α :=
  match a, b with
  | some l, some m => some (l ++ m)
  | _, _ => none

@[inherit_doc] scoped infixr:60 " ;; " => seq

/-- No text (python/protoc_gen_validate/validator.py:1020). -/
def nothing : Code α := some []

/-- `{% if g %}...{% endif %}` (python/protoc_gen_validate/validator.py:191-194). -/
def gen (g : Bool) (c : Code α) : Code α := if g then c else nothing

/-- `{% if x is set %}...{% endif %}` (python/protoc_gen_validate/validator.py:343-363). -/
def genOpt {γ : Type} (o : Option γ) (k : γ → Code α) : Code α :=
  match o with
  | some a => k a
  | none => nothing

/-- A single statement (python/protoc_gen_validate/validator.py:191-194). -/
def stmt (s : α → Run) : Code α := some [s]

/-- `if test: raise ValidationFailed(...)` (python/protoc_gen_validate/validator.py:192-193). -/
def raiseIf (nm : String) (why : Text) (test : α → Bool) : Code α :=
  stmt fun x => if test x then .error (.failed nm why) else .ok ()

/-- `if test:` before an indented block. Python has no empty blocks
(python/protoc_gen_validate/validator.py:184-188,329-333). -/
def block (test : α → Bool) (c : Code α) : Code α :=
  match c with
  | some [] => none
  | some l => stmt fun x => if test x then runAll l x else .ok ()
  | none => none

/-- The same text about another expression (python/protoc_gen_validate/validator.py:622). -/
def on (g : β → α) (c : Code α) : Code β := c.map (List.map fun s x => s (g x))

/-- `for x in xs:` before a block that ends in `pass` (python/protoc_gen_validate/validator.py:869-872,902-934). -/
def loop (c : Code α) : Code (List α) :=
  match c with
  | some l => stmt fun xs => forEach xs (runAll l)
  | none => none

/-- Making the text, `exec` and the call (validator.py:51-63). -/
def run (c : Code α) (x : α) : Run :=
  match c with
  | some l => runAll l x
  | none => .error .crash

end Code

/-! ### Text of rule constants inside generated text -/

/-- Characters that end or change a string literal when pasted between quotes, or that the `indent`
filter of the templates takes for line breaks: quotes, the backslash, NUL, and what
`str.splitlines` splits at (for python/protoc_gen_validate/validator.py:137,216-232). -/
def unsafeChars : List Nat :=
  [0x22, 0x27, 0x5C, 0, 0x0A, 0x0B, 0x0C, 0x0D, 0x1C, 0x1D, 0x1E, 0x85, 0x2028, 0x2029]

/-- Text that a Python string literal reproduces as it is
(for python/protoc_gen_validate/validator.py:137,216-232). -/
def plainText (s : Bytes) : Bool := (runes s).all fun c => !unsafeChars.contains c

/-- The parts of `urllib.parse.urlparse` that the generated code looks at: whether each is
non-empty (python/protoc_gen_validate/validator.py:269-275). -/
structure Url where
  scheme : Bool
  netloc : Bool
  path : Bool
  fragment : Bool

/-- What the generated code and `validate` use from outside
(the calls are in python/protoc_gen_validate/validator.py:108-121,215-283,604). -/
structure PEnv where
  /-- `time.time()`, a double (see `scale`); one reading per run (the real code reads it per
  field). -/
  now : Int
  /-- The literal `"text"` for text that is not `plainText`; `none` if it does not parse. -/
  quoted : Bytes → Option PStr
  /-- Does the `repr` of a string, inside a list, survive in a double-quoted message? Asked for text
  that is not `plainText`. -/
  listed : Bytes → Bool
  /-- Do `r'text'` and the message that quotes it parse? Asked for text that is not `plainText`. -/
  rawText : Bytes → Bool
  /-- `re.search(pattern, s) is not None`; `none` for a pattern that `re` refuses. -/
  search : Bytes → PStr → Option Bool
  /-- The same for bytes fields, where the pattern went through `unicode-escape`. -/
  searchBytes : Bytes → Bytes → Option Bool
  /-- `validate_email` of the library of that name. -/
  validateEmail : PStr → Bool
  /-- `ip_address(s)`, `IPv4Address(s)`, `IPv6Address(s)` do not raise ValueError. -/
  ipAddress : PStr → Bool
  ipv4Address : PStr → Bool
  ipv6Address : PStr → Bool
  /-- `urlparse(s)`; `none` when it raises. -/
  urlparse : PStr → Option Url
  /-- `int(s, 16)` does not raise, for text other than hexadecimal digits. -/
  int16 : PStr → Bool
  /-- `validate` for messages whose type is not in the schema. -/
  other : Val → Run
  /-- Iteration order of a map field. -/
  order : List (Scalar × Val) → List (Scalar × Val)
  /-- Every entry is visited exactly once. -/
  order_perm : ∀ l, (order l).Perm l
  /-- Does the full name of the message type start with `google.protobuf`? (All well-known types' names
  do; this is asked for the others.) -/
  google : String → Bool := fun _ => false
  /-- The fields of a message type in the order of its descriptor: name, and whether the field has a
  message type. -/
  fieldsOf : String → List (String × Bool) := fun _ => []

/-- The literal `"text"` (validator.py:137,221,225,229,233). -/
def literal (P : PEnv) (s : Bytes) : Option PStr :=
  if plainText s then some (pstr s) else P.quoted s

/-- Can a list of strings be printed into the text? (validator.py:160-167) -/
def listOk (P : PEnv) (l : List Bytes) : Bool := l.all fun s => plainText s || P.listed s

/-- Can a pattern be printed into the text? (validator.py:216-218) -/
def patternOk (P : PEnv) (s : Bytes) : Bool := plainText s || P.rawText s

/-! ### Strings -/

/-- `s.split(sep)` for a one-character separator (called in python/protoc_gen_validate/validator.py:95,110,118). -/
def split (sep : Nat) : PStr → List PStr
  | [] => [[]]
  | c :: rest =>
    if c = sep then [] :: split sep rest
    else match split sep rest with
      | [] => [[c]]
      | p :: ps => (c :: p) :: ps

/-- `p in s` (python/protoc_gen_validate/validator.py:109,228,232). -/
def contains {α : Type} [BEq α] (p : List α) : List α → Bool
  | [] => p.isEmpty
  | c :: s => p.isPrefixOf (c :: s) || contains p s

/-- `s.startswith(p)` (python/protoc_gen_validate/validator.py:220). -/
def startswith {α : Type} [BEq α] (s p : List α) : Bool := p.isPrefixOf s

/-- `s.endswith(p)` (python/protoc_gen_validate/validator.py:224). -/
def endswith {α : Type} [BEq α] (s p : List α) : Bool := p.reverse.isPrefixOf s.reverse

/-- A code point that can be encoded in UTF-8 (for python/protoc_gen_validate/validator.py:81). -/
def encodable (c : Nat) : Bool := decide (c < 0x110000) && !(decide (0xD800 ≤ c) && decide (c < 0xE000))

/-- `byte_len` (validator.py:79-83). -/
def byteLen (s : PStr) : Nat :=
  if s.all encodable then (s.flatMap encodeRune).length else s.length

/-- The characters `_validateHostName` allows in a label (validator.py:103). -/
def hostChar (r : Nat) : Bool :=
  !((decide (r < 0x41) || decide (r > 0x5A)) && (decide (r < 0x61) || decide (r > 0x7A)) &&
    (decide (r < 0x30) || decide (r > 0x39)) && r != 0x2D)

/-- One turn of the loop of `_validateHostName` (validator.py:95-104). -/
def hostPart (part : PStr) : Bool :=
  if part.length == 0 || decide (part.length > 63) then false
  else if part.head? == some 0x2D || part.getLast? == some 0x2D then false
  else part.all hostChar

/-- `_validateHostName` (validator.py:86-105). -/
def validateHostName (host : PStr) : Bool :=
  if host.isEmpty then false
  else if host.length > 253 then false
  else (split 0x2E (if host.getLast? == some 0x2E then host.dropLast else host)).all hostPart

/-- `l[i]` of a list; `none` is an IndexError (python/protoc_gen_validate/validator.py:110,119,121). -/
def index {α : Type} (l : List α) (i : Nat) : Option α := l[i]?

/-- The address between angle brackets (validator.py:109-110). -/
def angleAddr (addr : PStr) : Option PStr :=
  if addr.contains 0x3C && addr.contains 0x3E then
    (index (split 0x3C addr) 1).bind fun a => index (split 0x3E a) 0
  else some addr

/-- `_validateEmail` (validator.py:108-121); `none` is an IndexError. -/
def validateEmail (P : PEnv) (addr : PStr) : Option Bool :=
  match angleAddr addr with
  | none => none
  | some a =>
    if !P.validateEmail a then some false
    else if a.length > 254 then some false
    else
      match split 0x40 a with
      | [] => none
      | loc :: rest =>
        if loc.length > 64 then some false
        else
          match rest with
          | [] => none
          | host :: _ => some (validateHostName host)

/-- A hexadecimal digit (for python/protoc_gen_validate/validator.py:280). -/
def isHex (c : Nat) : Bool :=
  (decide (0x30 ≤ c) && decide (c ≤ 0x39)) || (decide (0x41 ≤ c) && decide (c ≤ 0x46)) ||
  (decide (0x61 ≤ c) && decide (c ≤ 0x66))

/-- `s.replace(p, '')` with a bound on the steps (for python/protoc_gen_validate/validator.py:280). -/
def removeFuel (p : PStr) : Nat → PStr → PStr
  | 0, s => s
  | _ + 1, [] => []
  | n + 1, c :: s =>
    if p.isPrefixOf (c :: s) then removeFuel p n ((c :: s).drop p.length)
    else c :: removeFuel p n s

/-- `s.replace(p, '')` for a non-empty `p` (for python/protoc_gen_validate/validator.py:280). -/
def remove (p s : PStr) : PStr := removeFuel p (s.length + 1) s

/-- Code points of ASCII text; for fixed strings of the code and for examples
(python/protoc_gen_validate/validator.py:19-21). -/
def chars (s : String) : PStr := s.toList.map Char.toNat

/-- `s.strip('{}')` (for python/protoc_gen_validate/validator.py:280). -/
def stripBraces (s : PStr) : PStr :=
  ((s.dropWhile fun c => c == 0x7B || c == 0x7D).reverse.dropWhile
    fun c => c == 0x7B || c == 0x7D).reverse

/-- `uuid.UUID(s)` does not raise ValueError (validator.py:274-277): after removing `urn:`, `uuid:`,
surrounding braces and hyphens there must be 32 characters that `int(_, 16)` reads. -/
def uuidOk (P : PEnv) (s : PStr) : Bool :=
  let hex := remove (chars "-") (stripBraces (remove (chars "uuid:") (remove (chars "urn:") s)))
  hex.length == 32 && (hex.all isHex || P.int16 hex)

/-! ### Well-known regular expressions -/

/-- `re.search('^' + body + '$', s)` where the body has no alternatives at the top: Python's `$` also
matches before a newline at the end of the text (python/protoc_gen_validate/validator.py:19-21,216). -/
def anchored (body : PStr → Bool) (s : PStr) : Bool :=
  body s || (s.getLast? == some 0x0A && body s.dropLast)

/-- The class `[^\u0000\u000A\u000D]` of HEADER_STRING (validator.py:21). -/
def headerStringChar (c : Nat) : Bool := c != 0 && c != 0x0A && c != 0x0D

/-- The class `[^\u0000-\u0008\u000A-\u001F\u007F]` of HTTP_HEADER_VALUE (validator.py:20). -/
def headerValueChar (c : Nat) : Bool :=
  !(decide (c ≤ 8) || (decide (0x0A ≤ c) && decide (c ≤ 0x1F)) || c == 0x7F)

/-- The class of HTTP_HEADER_NAME (validator.py:19), `[0-9a-zA-Z!#$%&\'*+-.^_|~\x60]`; `+-.` is a
range and includes the comma. -/
def headerNameChar (c : Nat) : Bool :=
  (decide (0x30 ≤ c) && decide (c ≤ 0x39)) || (decide (0x61 ≤ c) && decide (c ≤ 0x7A)) ||
  (decide (0x41 ≤ c) && decide (c ≤ 0x5A)) || (decide (0x2B ≤ c) && decide (c ≤ 0x2E)) ||
  [0x21, 0x23, 0x24, 0x25, 0x26, 0x27, 0x2A, 0x5E, 0x5F, 0x7C, 0x7E, 0x60].contains c

/-- `:?[...]+` (python/protoc_gen_validate/validator.py:19). -/
def headerNameBody (s : PStr) : Bool :=
  match s with
  | 0x3A :: t => (!t.isEmpty && t.all headerNameChar)
  | t => !t.isEmpty && t.all headerNameChar

/-- What a set `well_known_regex` makes of the pattern (validator.py:173-180): nothing for UNKNOWN,
a `KeyError` for an undeclared number, otherwise the test of one of the expressions above. `strict`
is true by default (validate.proto:616). -/
def knownRegex (k : KnownRegex) (strict : Option Bool) : Option (Option (PStr → Bool)) :=
  match k with
  | .unknown => some none
  | .other _ => none
  | .headerName =>
    some (some (anchored (if strict.getD true then headerNameBody else (·.all headerStringChar))))
  | .headerValue =>
    some (some (anchored (if strict.getD true then (·.all headerValueChar) else (·.all headerStringChar))))

/-! ### Doubles -/

/-- Finite doubles are integers times 2^-1074; they are represented by that integer
(for python/protoc_gen_validate/validator.py:397-410). -/
def scale : Int := 2 ^ 1074

/-- The integer nearest to `x / d`, ties to even (for python/protoc_gen_validate/validator.py:397-410). -/
def nearest (x d : Int) : Int :=
  let q := x / d
  let r := x % d
  if 2 * r < d then q else if 2 * r > d then q + 1 else if q % 2 = 0 then q else q + 1

/-- Number of binary digits (for python/protoc_gen_validate/validator.py:397-410). -/
def bitLen (n : Nat) : Nat := if n = 0 then 0 else Nat.log2 n + 1

/-- Round an exact result `x * 2^-1074` to a double: 53 significant bits. (Overflow to infinity is
out of reach for the values that occur.) (for python/protoc_gen_validate/validator.py:397-410). -/
def roundDouble (x : Int) : Int :=
  let ulp : Int := 2 ^ (bitLen x.natAbs - 53)
  nearest x ulp * ulp

/-- The double nearest to `num / den` (for python/protoc_gen_validate/validator.py:397-410). -/
def ofRatio (num : Int) (den : Int) : Int :=
  let ulp : Int := 2 ^ (bitLen ((num.natAbs : Int) * scale / den).natAbs - 53)
  nearest (num * scale) (den * ulp) * ulp

/-- An `int` converted to a double (for python/protoc_gen_validate/validator.py:397-410). -/
def ofInt (s : Int) : Int := roundDouble (s * scale)

/-- `10**-9` (python/protoc_gen_validate/validator.py:402,409). -/
def nano : Int := ofRatio 1 1000000000

/-- `round(x, 9)`: the nearest decimal with nine places, as a double
(python/protoc_gen_validate/validator.py:421,509). -/
def round9 (x : Int) : Int := ofRatio (nearest (x * 1000000000) scale) 1000000000

/-- `{{name}}.seconds + round((10**-9 * {{name}}.nanos), 9)` (validator.py:421,509). -/
def valueSecs (seconds nanos : Int) : Int :=
  roundDouble (ofInt seconds + round9 (roundDouble (nano * nanos)))

/-- `dur_lit` and `dur_arr` (validator.py:397-411); printing a double and reading it back gives the
same double. -/
def litSecs (seconds nanos : Int) : Int :=
  roundDouble (ofInt seconds + roundDouble (nano * nanos))

end PGV.Py
