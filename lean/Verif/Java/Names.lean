import Verif.Cpp.Names

/-!
Names in generated Java code: what the generator writes for accessors, oneof cases, classes and constants, and what
protoc's Java generator calls them. Names are lists of characters. The generator goes through
`github.com/iancoleman/strcase` (the version of go.mod:6), whose functions are modelled on ASCII text.
-/

namespace PGV.JavaNames
open PGV
open PGV.Cpp (Ident isLow isUp isDig upperOf lowerOf upperCamel)

/-- An ASCII letter (for templates/java/register.go:163-181). -/
def isLetter (c : Char) : Bool := isLow c || isUp c

/-! ### strcase -/

/-- Where `addWordBoundariesToNumbers` is: nowhere special, after a letter that may start a match, or among the digits
of a match (called through templates/java/register.go:178,305,453,531). -/
inductive WordState
  | idle | letter | digits
  deriving DecidableEq

/-- `addWordBoundariesToNumbers`: every match of `([a-zA-Z])(\d+)([a-zA-Z]?)`, from the left and not overlapping,
becomes `$1 $2 $3`. The letter that ends a match does not start the next one
(called through templates/java/register.go:178,305,453,531). -/
def words : WordState → Ident → Ident
  | .digits, [] => [' ']
  | _, [] => []
  | .idle, c :: t => c :: words (if isLetter c then .letter else .idle) t
  | .letter, c :: t =>
    if isDig c then ' ' :: c :: words .digits t
    else c :: words (if isLetter c then .letter else .idle) t
  | .digits, c :: t =>
    if isDig c then c :: words .digits t
    else ' ' :: c :: words .idle t

/-- `strings.Trim(s, " ")` (called through templates/java/register.go:178,305,453,531). -/
def trim (s : Ident) : Ident := ((s.dropWhile (· == ' ')).reverse.dropWhile (· == ' ')).reverse

/-- A character `strcase` takes for the end of a word (called through templates/java/register.go:178,305,453,531). -/
def isSep (c : Char) : Bool := c == '_' || c == ' ' || c == '-'

/-- The loop of `strcase.ToCamel` (called in templates/java/register.go:178,305,322,453). -/
def toCamelLoop (cap : Bool) : Ident → Ident
  | [] => []
  | v :: t =>
    if isUp v || isDig v then v :: toCamelLoop (isSep v) t
    else if isLow v then (if cap then upperOf v else v) :: toCamelLoop (isSep v) t
    else toCamelLoop (isSep v) t

/-- `strcase.ToCamel` (called in templates/java/register.go:178,305,322,453). -/
def toCamel (s : Ident) : Ident := toCamelLoop true (trim (words .idle s))

/-- `nextCaseIsChanged` of `strcase.ToScreamingDelimited` (called through templates/java/register.go:178,531). -/
def caseChanges (v : Char) (t : Ident) : Bool :=
  match t with
  | x :: _ => (isUp v && isLow x) || (isLow v && isUp x)
  | [] => false

/-- The loop of `strcase.ToScreamingDelimited` with an underscore; `quiet` when nothing has been written yet or the
last character written is an underscore (called through templates/java/register.go:178,531). -/
def snakeLoop (quiet : Bool) : Ident → Ident
  | [] => []
  | v :: t =>
    if !quiet && caseChanges v t then
      if isUp v then '_' :: v :: snakeLoop false t else v :: '_' :: snakeLoop true t
    else if isSep v then '_' :: snakeLoop true t
    else v :: snakeLoop false t

/-- `strcase.ToSnake` (called in templates/java/register.go:178). -/
def toSnake (s : Ident) : Ident := (snakeLoop true (trim (words .idle s))).map lowerOf

/-- `strcase.ToScreamingSnake` (called in templates/java/register.go:531). -/
def toScreamingSnake (s : Ident) : Ident := (snakeLoop true (trim (words .idle s))).map upperOf

/-! ### What the generator writes -/

/-- `makeInvalidClassnameCharactersUnderscores` (templates/java/register.go:222-237). -/
def makeInvalidUnderscores (s : Ident) : Ident := s.map fun c => if isDig c || isLow c || isUp c then c else '_'

/-- `upperCaseAfterNumber` (templates/java/register.go:239-252), with whether the character before was a digit.
Simplification: `unicode.IsDigit` and `unicode.ToUpper` on ASCII text only; the argument comes from `ToCamel`, which
leaves nothing else. -/
def upperAfterNumber (digit : Bool) : Ident → Ident
  | [] => []
  | c :: t => (if digit then upperOf c else c) :: upperAfterNumber (isDig c) t

/-- `underscoreBetweenConsecutiveUppercase` (templates/java/register.go:254-267), with whether the character before was
an upper-case letter. The argument is ASCII (templates/java/register.go:176). -/
def underscoreBetweenUpper (upper : Bool) : Ident → Ident
  | [] => []
  | c :: t =>
    if upper && isUp c then '_' :: c :: underscoreBetweenUpper true t
    else c :: underscoreBetweenUpper (isUp c) t

/-- `sanitizeClassName` (templates/java/register.go:175-181). -/
def sanitizeClassName (s : Ident) : Ident :=
  upperAfterNumber false (toCamel (toSnake (underscoreBetweenUpper false (makeInvalidUnderscores s))))

/-- `strings.Replace(s, old, new, -1)` for an `old` that is not empty: occurrences from the left, not overlapping; the
number counts the characters of an occurrence still to be left out (called in templates/java/register.go:169,171). -/
def replaceIn (old new : Ident) : Nat → Ident → Ident
  | _, [] => []
  | k + 1, _ :: t => replaceIn old new k t
  | 0, b :: t =>
    if old.isPrefixOf (b :: t) then new ++ replaceIn old new (old.length - 1) t
    else b :: replaceIn old new 0 t

/-- The text that stands for an underscore meanwhile (templates/java/register.go:169). -/
def escapeText : Ident := "UnderscoreUnderscoreUnderscore".toList

/-- `classNameMessage` (templates/java/register.go:163-173). -/
def classNameMessage (name : Ident) : Ident :=
  replaceIn escapeText ['_'] 0 (sanitizeClassName (replaceIn ['_'] escapeText 0 name))

/-- A message or an enum of a file: its name and the names of what is nested in it
(what templates/java/register.go:272-282 looks at). -/
inductive TypeTree
  | mk (name : Ident) (nested : List TypeTree)

/-- The name (templates/java/register.go:273,279). -/
def TypeTree.name : TypeTree → Ident | .mk n _ => n

/-- What decides the Java class of a file (templates/java/register.go:148-161). -/
structure NamedFile where
  /-- The name of the file without directories and extension. -/
  base : Ident
  /-- Option `java_outer_classname`. -/
  outerOption : Option Ident
  /-- Option `java_multiple_files`. -/
  multiple : Bool
  /-- Top-level messages and enums. -/
  types : List TypeTree
  services : List Ident

/-- `appendOuterClassName` (templates/java/register.go:269-295). -/
def appendOuterClassName (cls : Ident) (f : NamedFile) : Ident :=
  if f.types.any (fun t => t.name == cls) || f.services.any (· == cls) then cls ++ "OuterClass".toList else cls

/-- `classNameFile` (templates/java/register.go:148-161). -/
def classNameFile (f : NamedFile) : Ident :=
  match f.outerOption with
  | some o => if f.multiple then appendOuterClassName (sanitizeClassName f.base) f else o
  | none => appendOuterClassName (sanitizeClassName f.base) f

/-- A field as far as its Java names go (templates/java/register.go:304-324). -/
inductive FieldKind
  | one | list | map
  deriving DecidableEq

/-- A field of a message: name, number and kind (templates/java/register.go:304-324). -/
structure NamedField where
  name : Ident
  number : Nat
  kind : FieldKind

/-- The method `fieldAccessor` calls (templates/java/register.go:304-315). A map is not repeated for
protoc-gen-star. -/
def fieldAccessor (f : NamedField) : Ident :=
  "get".toList ++ upperAfterNumber false (match f.kind with
    | .one => toCamel f.name
    | .list => toCamel f.name ++ "List".toList
    | .map => toCamel f.name ++ "Map".toList)

/-- The method `hasAccessor` calls (templates/java/register.go:317-324). -/
def hasAccessor (f : NamedField) : Ident := "has".toList ++ upperAfterNumber false (toCamel f.name)

/-- The method the template of a oneof calls (templates/java/oneof.go:8; register.go:452-454). -/
def caseAccessor (oneof : Ident) : Ident := "get".toList ++ toCamel oneof ++ "Case".toList

/-- `constantName` (templates/java/register.go:530-532). -/
def constantText (field index rule : Ident) : Ident := toScreamingSnake (field ++ ['_'] ++ index ++ ['_'] ++ rule)

/-- `simpleName` of a message, given the names of the messages around it and its own: `Name` of
`protoc-gen-star/lang/go` joins them with an underscore unless the inner one starts with a lower-case letter
(templates/java/file.go:14,31,34; msg.go:8). -/
def simpleName : List Ident → Ident
  | [] => []
  | n :: path => path.foldl (fun a b =>
      if (b.head?.map isLow).getD false then upperCamel a ++ upperCamel b
      else upperCamel a ++ ['_'] ++ upperCamel b) (upperCamel n)

/-! ### What protoc's Java generator calls them -/

/-- `UnderscoresToCamelCase` of protoc's Java generator, with `cap_next_letter`, for a text whose first letter is to be
upper-case (the names used through templates/java/register.go:148-161,304-324). -/
def protocLoop (cap : Bool) : Ident → Ident
  | [] => []
  | c :: t =>
    if isLow c then (if cap then upperOf c else c) :: protocLoop false t
    else if isUp c then c :: protocLoop false t
    else if isDig c then c :: protocLoop true t
    else protocLoop true t

/-- `UnderscoresToCamelCase(name, true)` (the names used through templates/java/register.go:148-161,304-324). -/
def protocCap (s : Ident) : Ident := protocLoop true s

/-- `UnderscoresToCapitalizedCamelCase` of a field: an underscore is added to names that would clash with a method of
every message; `forbidden` says which these are (the names used through templates/java/register.go:304-324). -/
def protocFieldCap (forbidden : Ident → Bool) (s : Ident) : Ident :=
  if forbidden s then protocCap s ++ ['_'] else protocCap s

/-- `IsConflicting` of protoc's Java generator, one way: a repeated field `foo` next to a `foo_count` or a `foo_list`.
Maps are repeated for protoc (the names used through templates/java/register.go:304-324). -/
def clashesOneWay (forbidden : Ident → Bool) (f g : NamedField) : Bool :=
  decide (f.kind ≠ .one) && (protocFieldCap forbidden g.name == protocFieldCap forbidden f.name ++ "Count".toList ||
    protocFieldCap forbidden g.name == protocFieldCap forbidden f.name ++ "List".toList)

/-- Whether two fields of a message clash (the names used through templates/java/register.go:304-324). -/
def clashes (forbidden : Ident → Bool) (f g : NamedField) : Bool :=
  protocFieldCap forbidden f.name == protocFieldCap forbidden g.name || clashesOneWay forbidden f g ||
    clashesOneWay forbidden g f

/-- The name of a field in method names: its number is added when it clashes with another field of the message
(`others`) (the names used through templates/java/register.go:304-324). -/
def protocMethodName (forbidden : Ident → Bool) (others : List NamedField) (f : NamedField) : Ident :=
  if others.any (clashes forbidden f) then protocFieldCap forbidden f.name ++ (toString f.number).toList
  else protocFieldCap forbidden f.name

/-- The getter protoc's Java generator declares for the whole value of a field
(the methods called through templates/java/register.go:304-315). -/
def protocGetter (forbidden : Ident → Bool) (others : List NamedField) (f : NamedField) : Ident :=
  "get".toList ++ protocMethodName forbidden others f ++ match f.kind with
    | .one => []
    | .list => "List".toList
    | .map => "Map".toList

/-- The method that says whether a singular message field is set
(the methods called through templates/java/register.go:317-324). -/
def protocHas (forbidden : Ident → Bool) (others : List NamedField) (f : NamedField) : Ident :=
  "has".toList ++ protocMethodName forbidden others f

/-- The method that says which member of a oneof is set (the method called in templates/java/oneof.go:8). -/
def protocCaseAccessor (oneof : Ident) : Ident := "get".toList ++ protocCap oneof ++ "Case".toList

mutual
/-- Whether a type, or one nested in it, has this name (`MessageHasConflictingClassName` of protoc's Java generator,
which templates/java/register.go:269-295 follows). -/
def nameWithin (cls : Ident) : TypeTree → Bool
  | .mk n ts => n == cls || nameWithinAny cls ts
/-- Whether one of the types has this name (which templates/java/register.go:269-295 follows). -/
def nameWithinAny (cls : Ident) : List TypeTree → Bool
  | [] => false
  | t :: ts => nameWithin cls t || nameWithinAny cls ts
end

/-- The outer class protoc's Java generator writes for a file: the option, or the name of the file with `OuterClass`
added when a message, enum or service anywhere in the file has this name (what templates/java/register.go:148-161
follows). -/
def protocOuter (f : NamedFile) : Ident :=
  match f.outerOption with
  | some o => o
  | none =>
    let cls := protocCap f.base
    if nameWithinAny cls f.types || f.services.any (· == cls) then cls ++ "OuterClass".toList else cls

end PGV.JavaNames
