import Verif.Go.Err

/-!
The text of errors: `Error()` of the generated error types (templates/goshared/msg.go:68-130).
-/

namespace PGV.Go
open PGV

/-- Text, as a list of characters (for templates/goshared/msg.go:70-77,106-123). -/
abbrev Text := List Char

/-- Printed form of the data in an error. `reason` is `fmt.Sprint(reason...)`, evaluated by the
generator (templates/goshared/register.go:140); `idx` is `%v` of a list index or map key. Both are
parameters: nothing depends on how numbers and times are printed. -/
structure Printer where
  reason : List Piece → Text
  idx : Idx → Text

/-- `fmt.Sprintf` for formats made of `%s`, `%v` and `%%`, with arguments already printed.
Simplified: a verb without argument prints nothing, surplus arguments are dropped
(called in templates/goshared/msg.go:109,117-122; register.go:116,118). -/
def sprintf : Text → List Text → Text
  | '%' :: 's' :: f, args => args.headD [] ++ sprintf f args.tail
  | '%' :: 'v' :: f, args => args.headD [] ++ sprintf f args.tail
  | '%' :: '%' :: f, args => '%' :: sprintf f args
  | c :: f, args => c :: sprintf f args
  | [], _ => []

/-- `strings.Join` (called in templates/goshared/msg.go:76). -/
def join (sep : Text) : List Text → Text
  | [] => []
  | [t] => t
  | t :: u :: ts => t ++ sep ++ join sep (u :: ts)

/-- The `field` member (templates/goshared/register.go:114-121): with an index, the generator prints
the name into a format, which the generated code applies to the index. -/
def fieldText (P : Printer) (f : FieldRef) : Text :=
  match f.index with
  | some i => sprintf (sprintf "%s[%%v]".toList [f.name.toList]) [P.idx i]
  | none => f.name.toList

mutual
/-- `Error()`. For violations templates/goshared/msg.go:106-125: the type name is part of the format
string; for multi-errors msg.go:70-77. -/
def errorText (P : Printer) : Err → Text
  | .viol typ field reason cause key =>
    let causeText := match cause with
      | some c => sprintf " | caused by: %v".toList [errorText P c]
      | none => []
    let keyText := if key then "key for ".toList else []
    sprintf ("invalid %s".toList ++ typ.toList ++ ".%s: %s%s".toList)
      [keyText, fieldText P field, P.reason reason, causeText]
  | .multi _ errs => join "; ".toList (errorTexts P errs)
  | .lib t => t.toList
/-- `for _, err := range m { msgs = append(msgs, err.Error()) }` (msg.go:72-75). -/
def errorTexts (P : Printer) : List Err → List Text
  | [] => []
  | e :: es => errorText P e :: errorTexts P es
end

end PGV.Go
