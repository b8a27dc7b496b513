import Verif.Cpp.Templates
import Verif.Cpp.Literal

/-!
How a C++ violation, which Cpp/Lib keeps in parts, becomes the text in `*err`.
-/

namespace PGV.Cpp
open PGV
open PGV.Go (Piece Idx)

/-- A `std::ostringstream`: its characters, and where the next one is put
(templates/cc/register.go:193). -/
structure OStream where
  buf : Bytes
  pos : Nat

/-- `std::ostringstream msg(s)`: the stream holds `s`, and, as the mode does not include `ate`, writing
starts at its beginning (templates/cc/register.go:193; behaviour of the C++ library). -/
def OStream.new (s : Bytes) : OStream := ⟨s, 0⟩

/-- `msg << t`: replaces what is there, character by character, and extends the stream when it reaches
the end (templates/cc/register.go:197-213; behaviour of the C++ library). -/
def OStream.put (o : OStream) (t : Bytes) : OStream :=
  ⟨o.buf.take o.pos ++ t ++ o.buf.drop (o.pos + t.length), o.pos + t.length⟩

/-- What the texts are made of, besides literals: the name of a message type in its proto file
(`f.Message().Name()`, templates/cc/register.go:189), the name of a oneof in its proto file
(templates/cc/msg.go:114), `PGGUpperCamelCase` of a field's name (register.go:202; the model's field
names are these, so `field` only turns them into characters), `fmt.Sprint` of a reason (register.go:210),
what `<<` prints for an index or key (register.go:204-208), and what it prints for the pointer `err`
(register.go:213 with duration.go:14). `isPrint` is `strconv.IsPrint`, on which `%q` rests. -/
structure CPrinter where
  message : String → Bytes
  oneof : String → Bytes
  field : String → Bytes
  reason : List Piece → Bytes
  idx : Idx → Bytes
  address : Bytes
  isPrint : Nat → Bool

/-- `errIdxCause` up to the cause: what the stream holds after the reason
(templates/cc/register.go:187-210). The reason is written as a literal with `%q`, which C++ reads
(`strVal`); the names are letters, digits and underscores, and are their own literals. -/
def errHead (P : CPrinter) (msg field : String) (index : Option Idx) (onKey : Bool) (reason : List Piece) :
    OStream :=
  let o := OStream.new (asc "invalid ")
  let o := if onKey then o.put (asc "key for ") else o
  let o := ((o.put (P.message msg ++ asc "ValidationError")).put (asc ".")).put (P.field field)
  let o := match index with
    | some i => ((o.put (asc "[")).put (P.idx i)).put (asc "]")
    | none => o
  (o.put (asc ": ")).put (strVal P.isPrint (P.reason reason))

/-- The text in `*err` after a rejection (templates/cc/register.go:187-218; templates/cc/msg.go:114, where
the name of the oneof is quoted twice, once for the text and once for C++; duration.go:14). -/
def errText (P : CPrinter) : CErr → Bytes
  | .viol msg field index onKey reason none => (errHead P msg field index onKey reason).buf
  | .viol msg field index onKey reason (some cause) =>
    (((errHead P msg field index onKey reason).put (asc " | caused by ")).put (errText P cause)).buf
  | .oneof name => asc "field: " ++ asc "\"" ++ P.oneof name ++ asc "\"" ++ asc ", reason: is required"
  | .address => P.address

end PGV.Cpp
