import Verif.Core.Schema

/-!
Errors returned by generated Go code, the library environment, and the execution discipline of the
generated `validate(all bool) error` methods.
-/

namespace PGV.Go
open PGV

/-- Pieces of a reason string: the arguments of `fmt.Sprint(reason...)` in `errIdxCause`
(templates/goshared/register.go:133-142). They are kept as data; their printed form is a parameter
of the rendering (`Go/Render.lean`). -/
inductive Piece
  | s (t : String) | nat (n : Nat) | num (n : Num) | bool (b : Bool) | int (i : Int)
  | bytes (b : Bytes) | dur (d : PDur) | ts (t : PTime)
  | nums (l : List Num) | bytess (l : List Bytes) | ints (l : List Int) | durs (l : List PDur)
  deriving DecidableEq, Repr

/-- Index of a repeated element or key of a map entry, as printed in `Field()`
(templates/goshared/register.go:114-118). -/
inductive Idx
  | pos (n : Nat) | key (k : Scalar)
  deriving DecidableEq, Repr

/-- The `field` member of a violation: a name and an optional index
(`fmt.Sprintf("%s[%v]", n, idx)`, templates/goshared/register.go:114-121). -/
structure FieldRef where
  name : String
  index : Option Idx
  deriving DecidableEq, Repr

/-- Errors: `viol` is `<Msg>ValidationError` (templates/goshared/msg.go:83-88), `multi` is
`<Msg>MultiError` (msg.go:68), `lib` any other error value (`errors.New`, parse errors). -/
inductive Err
  | viol (typ : String) (field : FieldRef) (reason : List Piece) (cause : Option Err) (key : Bool)
  | multi (typ : String) (errs : List Err)
  | lib (text : String)

/-- The environment of a validation run: the clock and the library functions called by generated
code. Every theorem quantifies over all environments. Proof fields record what the real libraries
guarantee (the calls are in templates/goshared/string.go:134-184, known.go:3-65 and timestamp.go:12). -/
structure Env where
  /-- `time.Now()` (templates/goshared/timestamp.go:12). One reading per run: the real code reads
  the clock once per timestamp field, within one call. -/
  now : Instant
  /-- `regexp.MustCompile(pattern).MatchString(subject)`. -/
  matchRe : Bytes → Bytes → Bool
  /-- `net.ParseIP`: the 16-byte address, or nil. -/
  parseIP : Bytes → Option Bytes
  /-- `mail.ParseAddress`: the bare address, or an error text. -/
  parseMail : Bytes → Except String Bytes
  /-- `url.Parse`: an error text or whether the result `IsAbs()`. -/
  parseURL : Bytes → Except String Bool
  /-- `unicode.ToLower` on runes above U+007F. -/
  lowerRune : Nat → Nat
  /-- `Validate()` of message types generated by older plugin versions. -/
  legacy : Val → Option Err
  /-- Iteration order of `range` over a Go map. -/
  order : List (Scalar × Val) → List (Scalar × Val)
  /-- Go visits every entry exactly once. -/
  order_perm : ∀ l, (order l).Perm l
  /-- `mail.Address.Address` is always `local@domain`. -/
  mail_at : ∀ s a, parseMail s = .ok a → (0x40 : UInt8) ∈ a

/-- Template context of a field (shared.RuleContext, templates/shared/context.go:13-24), reduced to
what error construction uses. -/
structure Ctx where
  msg : String
  field : String
  index : Option Idx := none
  onKey : Bool := false

/-- `errIdxCause` (templates/goshared/register.go:110-143). -/
def mkErr (c : Ctx) (idx : Option Idx) (cause : Option Err) (reason : List Piece) : Err :=
  .viol c.msg ⟨c.field, match idx with | some i => some i | none => c.index⟩ reason cause c.onKey

/-- `err` (templates/goshared/register.go:145-147). -/
def err (c : Ctx) (reason : List Piece) : Err := mkErr c none none reason
/-- `errCause` (templates/goshared/register.go:149-151). -/
def errCause (c : Ctx) (cause : Err) (reason : List Piece) : Err := mkErr c none (some cause) reason
/-- `errIdx` (templates/goshared/register.go:153-155). -/
def errIdx (c : Ctx) (i : Idx) (reason : List Piece) : Err := mkErr c (some i) none reason

/-- A fragment of a generated `validate` body: it takes the errors collected so far and either
falls through with the updated list or returns early with an error (templates/goshared/msg.go:24-59). -/
abbrev Exec := List Err → Except Err (List Err)

namespace Exec

/-- Empty fragment (used for templates that write nothing, templates/goshared/none.go:3-5). -/
def skip : Exec := .ok

/-- One fragment after another (templates/goshared/msg.go:32-52). -/
def seq (a b : Exec) : Exec := fun es =>
  match a es with
  | .ok es' => b es'
  | .error e => .error e

/-- `return err` (templates/goshared/const.go:7). -/
def ret (e : Err) : Exec := fun _ => .error e

/-- `errors = append(errors, err)` (templates/goshared/const.go:8). -/
def append (e : Err) : Exec := fun es => .ok (es ++ [e])

/-- The three lines every check ends with (e.g. templates/goshared/const.go:5-7):
`err := …; if !all { return err }; errors = append(errors, err)`. -/
def report (all : Bool) (e : Err) : Exec := if !all then ret e else append e

/-- `if c { x }` (templates/goshared/const.go:5). -/
def when (c : Bool) (x : Exec) : Exec := if c then x else skip

/-- A `range` loop (templates/goshared/repeated.go:47; map.go:39). -/
def forEach {α : Type} (xs : List α) (f : α → Exec) : Exec :=
  match xs with
  | [] => skip
  | x :: xs => seq (f x) (forEach xs f)

end Exec

@[inherit_doc] infixr:60 " ;; " => Exec.seq

end PGV.Go
