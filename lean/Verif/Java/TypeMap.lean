import Verif.Java.Names

/-!
The dictionary from proto types to Java classes of java/pgv-java-validation
(java/pgv-java-validation/src/main/java/io/envoyproxy/pgv/validation/ProtoTypeMap.java, "ProtoTypeMap.java" below). Names
are lists of characters; a Java string that may be `null` is an `Option`.
-/

namespace PGV.TypeMap
open PGV
open PGV.Cpp (Ident isLow isUp isDig upperOf lowerOf)
open PGV.JavaNames (TypeTree NamedFile)

/-- A `DescriptorProto`: name, nested enums and nested messages (what ProtoTypeMap.java:65-88 looks at). -/
inductive PMsg
  | mk (name : Ident) (enums : List Ident) (nested : List PMsg)

/-- The name (ProtoTypeMap.java:68). -/
def PMsg.name : PMsg → Ident | .mk n _ _ => n
/-- The nested enums (ProtoTypeMap.java:72). -/
def PMsg.enums : PMsg → List Ident | .mk _ es _ => es
/-- The nested messages (ProtoTypeMap.java:80). -/
def PMsg.nested : PMsg → List PMsg | .mk _ _ ns => ns

/-- A `FileDescriptorProto` (what ProtoTypeMap.java:36-60 looks at). `path` is its name without the extension `.proto`.
(Simplification: files with other extensions, of which ProtoTypeMap.java:128 cuts off six characters, are not modelled.) -/
structure PFile where
  path : Ident
  /-- The package, if there is one. -/
  package : Option Ident
  /-- Options `java_package`, `java_outer_classname` and `java_multiple_files`. -/
  javaPackage : Option Ident
  outerOption : Option Ident
  multiple : Bool
  enums : List Ident
  msgs : List PMsg
  services : List Ident

/-- What follows the last slash, or everything (ProtoTypeMap.java:132-134). -/
def afterSlash (s : Ident) : Ident := (s.reverse.takeWhile (· != '/')).reverse

/-- `CaseFormat.LOWER_UNDERSCORE.to(CaseFormat.UPPER_CAMEL, s)` of Guava: words end at underscores; the first letter of
each is put in upper case and the others in lower case (called in ProtoTypeMap.java:137). -/
def upperCamel (first : Bool) : Ident → Ident
  | [] => []
  | c :: t => if c == '_' then upperCamel true t else (if first then upperOf c else lowerOf c) :: upperCamel false t

/-- `makeInvalidCharactersUnderscores` (ProtoTypeMap.java:161-170). -/
def invalidToUnderscores (s : Ident) : Ident := s.map fun c => if isDig c || isUp c || isLow c then c else '_'

/-- `upcaseAfterNumber` (ProtoTypeMap.java:175-183), with whether the character before was a digit. -/
def upcaseAfterNumber (digit : Bool) : Ident → Ident
  | [] => []
  | c :: t => (if digit then upperOf c else c) :: upcaseAfterNumber (isDig c) t

/-- `appendOuterClassSuffix` (ProtoTypeMap.java:147-155). -/
def appendOuterClassSuffix (cls : Ident) (f : PFile) : Ident :=
  if f.enums.any (· == cls) || f.msgs.any (fun m => m.name == cls) || f.services.any (· == cls) then
    cls ++ "OuterClass".toList
  else cls

/-- `getJavaOuterClassname` (ProtoTypeMap.java:118-141). -/
def outerClassname (f : PFile) : Ident :=
  match f.outerOption with
  | some o => o
  | none =>
    appendOuterClassSuffix (upcaseAfterNumber false (upperCamel true (invalidToUnderscores (afterSlash f.path)))) f

/-- `Joiner.on(sep).skipNulls()` on two strings (ProtoTypeMap.java:113-115). -/
def join (sep : Char) : Option Ident → Ident → Ident
  | some a, b => a ++ sep :: b
  | none, b => b

/-- `toJavaTypeName` with three arguments (ProtoTypeMap.java:106-116). -/
def typeName (cls : Ident) (enclosing javaPackage : Option Ident) : Ident := join '.' javaPackage (join '$' enclosing cls)

/-- A Java string in a concatenation: `null` becomes the text `null` (ProtoTypeMap.java:85). -/
def textOf (s : Option Ident) : Ident := s.getD "null".toList

mutual
/-- `recursivelyAddTypes` (ProtoTypeMap.java:65-88): the entries in the order they are put. -/
def addTypes (protoPackage : Ident) (enclosing javaPackage : Option Ident) : PMsg → List (Ident × Ident)
  | .mk n es ns =>
    (protoPackage ++ '.' :: n, typeName n enclosing javaPackage) ::
      (es.map (fun e => (protoPackage ++ '.' :: e, typeName e enclosing javaPackage)) ++
        addAll (protoPackage ++ '.' :: n) (some (textOf enclosing ++ '$' :: n)) javaPackage ns)
/-- For each message of a list (ProtoTypeMap.java:57-59,80-86). -/
def addAll (protoPackage : Ident) (enclosing javaPackage : Option Ident) : List PMsg → List (Ident × Ident)
  | [] => []
  | m :: ms => addTypes protoPackage enclosing javaPackage m ++ addAll protoPackage enclosing javaPackage ms
end

/-- `protoPackage` of a file (ProtoTypeMap.java:39). -/
def protoPackage (f : PFile) : Ident :=
  match f.package with
  | some p => '.' :: p
  | none => []

/-- `Strings.emptyToNull` (called in ProtoTypeMap.java:40). -/
def emptyToNull (s : Ident) : Option Ident := if s.isEmpty then none else some s

/-- `javaPackage` of a file (ProtoTypeMap.java:40-43). -/
def javaPackage (f : PFile) : Option Ident := emptyToNull (f.javaPackage.getD (f.package.getD []))

/-- `enclosingClassName` of a file (ProtoTypeMap.java:44-47). -/
def enclosingClass (f : PFile) : Option Ident := if f.multiple then none else some (outerClassname f)

/-- The entries put for a file (ProtoTypeMap.java:50-59). -/
def fileEntries (f : PFile) : List (Ident × Ident) :=
  f.enums.map (fun e => (protoPackage f ++ '.' :: e, typeName e (enclosingClass f) (javaPackage f))) ++
    addAll (protoPackage f) (enclosingClass f) (javaPackage f) f.msgs

/-- `ProtoTypeMap.of` (ProtoTypeMap.java:30-63): `none` when it throws. `ImmutableMap.Builder.build` throws when a key was
put twice. -/
def typeMap (files : List PFile) : Option (List (Ident × Ident)) :=
  if files.isEmpty then none
  else
    let entries := files.flatMap fileEntries
    if (entries.map (·.1)).Nodup then some entries else none

/-- `toJavaTypeName` with one argument (ProtoTypeMap.java:94-97): `none` is `null`. -/
def lookup (types : List (Ident × Ident)) (protoType : Ident) : Option Ident := types.lookup protoType

/-- The start of the type URL of a message in an Any (ProtoTypeMap.java:188). -/
def urlStart : Ident := "type.googleapis.com/".toList

/-- The class `unpackAny` loads for a type URL (ProtoTypeMap.java:186-202): `none` when it throws before. Loading the class
and parsing the message are left to the libraries. -/
def classToLoad (types : List (Ident × Ident)) (typeUrl : Ident) : Option Ident :=
  if urlStart.isPrefixOf typeUrl then lookup types ('.' :: typeUrl.drop 20) else none

end PGV.TypeMap
