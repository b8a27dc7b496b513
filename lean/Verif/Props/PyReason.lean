import Verif.Lemmas.PyReasonAll
import Verif.Props.Email
import Verif.Props.JavaBlame

/-!
C92: what the messages of Python exceptions say.
-/

set_option linter.unusedSimpArgs false

namespace PGV.Props
open PGV PGV.Py PGV.Py.Code PGV.Spec.PyReason
open PGV.Spec hiding lenient

/-- **C92** Whenever Python's `validate` raises `ValidationFailed`, its message, read as a requirement, is one that the
message, or one embedded in it at any depth, does not meet: either a required oneof is unset, or a field, or an item, a
key or a value of it, which the message calls by the name that the generated code has for it, breaks the requirement,
while whatever the rules accept on their own meets it; and the item that is said to be repeated is one that is. The
only other source is a validator that was not generated here.
Missing for the full property: the messages in `Misstated`, and those about items and values that are required, see
the theorems below; and what passes without meeting the requirement, see `Exempt`. -/
theorem C92_message_is_a_broken_requirement_partial (P : PEnv) (S : Schema) (v : Val) (n : String) (text : Text)
    (h : Py.validate P S v = .error (.failed n text)) :
    (∃ typ fs os d, Inside S v (.msg typ fs os) ∧ S typ = .generated d ∧ d.disabled = false ∧ d.ignored = false ∧
      ((∃ o ∈ d.oneofs, o.required = true ∧ (∀ f ∈ o.fields, ∀ u, os.lookup o.name ≠ some (f.name, u)) ∧
          n = "Oneof " ++ o.name ∧ text = [.s "is required"]) ∨
        ∃ f u, Live d fs os f u ∧ Grounds P typ f u n text)) ∨
    ∃ w, Inside S v w ∧ ¬ Ruled S w ∧ P.other w = .error (.failed n text) :=
  validate_about h

/-- A person whose second friend has a nickname that is too long. -/
def dora : Val :=
  .msg "Person" [("Age", .sc (.num (.int 41))),
      ("Friends", .list [Fixtures.ann, .msg "Person" [("Age", .sc (.num (.int 7))),
        ("Nick", .sc (.str (asc "friend")))] [("Contact", "Peer", Fixtures.ann)]])]
    [("Contact", "Phone", .sc (.str (asc "555")))]

/-- Python rejects the friend. -/
theorem dora_raises : Py.validate penv people dora =
    .error (.failed "p.Nick" [.s "length is more than ", .nat 3]) := by
  rfl

example : ∃ typ fs os d, Inside people dora (.msg typ fs os) ∧ people typ = .generated d ∧ d.disabled = false ∧
    d.ignored = false ∧
      ((∃ o ∈ d.oneofs, o.required = true ∧ (∀ f ∈ o.fields, ∀ u, os.lookup o.name ≠ some (f.name, u)) ∧
          "p.Nick" = "Oneof " ++ o.name ∧ [Piece.s "length is more than ", .nat 3] = [.s "is required"]) ∨
        ∃ f u, Live d fs os f u ∧ Grounds penv typ f u "p.Nick" [.s "length is more than ", .nat 3]) :=
  (C92_message_is_a_broken_requirement_partial penv people dora _ _ dora_raises).resolve_right
    (by rintro ⟨w, -, -, h⟩; cases h)

/-- A nickname of six letters does not meet that requirement, one of two letters does. -/
example (s : Sense) : ¬ Reading penv (.one .string) s [.s "length is more than ", .nat 3] (.sc (.str (asc "friend"))) ∧
    Reading penv (.one .string) s [.s "length is more than ", .nat 3] (.sc (.str (asc "al"))) := by
  constructor
  · intro h
    have := h _ rfl
    simp only [itemReading, sizeText, scalarView, lengthOf] at this
    have := this _ rfl
    revert this
    cases s.bytes <;> decide +kernel
  · intro x hx
    cases hx
    simp only [itemReading, sizeText, scalarView, lengthOf]
    rintro _ ⟨⟩
    cases s.bytes <;> decide +kernel

/-- A field with rules. -/
def ruled (n : String) (typ : FieldT) (t : TypeRules) : FieldDesc := { name := n, typ := typ, rules := .mk none t }

theorem raises_iff {P : PEnv} {typ : String} {f : FieldDesc} {v : Val} {n : String} {text : Text} :
    Raises P typ f v n text ↔
      (fieldCode P (validateFuel P (soleField typ f) (max (Go.depthFields [(f.name, v)]) (Go.depthOneofs []))) false
        f).run v = .error (.failed n text) := by
  have hS : soleField typ f typ = .generated { name := typ, fields := [f] } := if_pos rfl
  have hc : ∀ {α β : Type} (g : α → β) (c : Code β), (nothing ;; on g c ;; nothing) = on g c := by
    intro α β g c
    cases c <;> simp [nothing, seq, on]
  unfold Raises Py.validate
  rw [Go.depth, validateFuel]
  simp only [validateStep, hS, msgCode, Bool.or_false, Bool.false_eq_true, if_false, seqAll, hc, run_on,
    Go.getField_single]

theorem raises_of {P : PEnv} {typ : String} {f : FieldDesc} {v : Val} {n : String} {text : Text}
    (h : ∀ rec, (fieldCode P rec false f).run v = .error (.failed n text)) : Raises P typ f v n text :=
  raises_iff.2 (h _)

/-- **C92, negation** A number between the limits of rules that ask for one outside of them "is not in range". -/
theorem C92_inverted_range (P : PEnv) :
    let f := ruled "N" (.one (.scalar .int32)) (.num .int32 { lt := some (.int 0), gt := some (.int 10) })
    let text : Text := [.s "is not in range ", .pair (.num (.int 10)) (.num (.int 0))]
    Checked f ∧ Raises P "M" f (.sc (.num (.int 5))) "p.N" text ∧
      ∀ s, Reading P f.typ s text (.sc (.num (.int 5))) := by
  refine ⟨by unfold Checked; decide, rfl, fun s x hx => ?_⟩
  cases hx
  exact ⟨.inl ⟨_, _, rfl, rfl, by decide +kernel⟩, .inl ⟨_, _, rfl, rfl, by decide +kernel⟩⟩

/-- **C92, negation** What is no host name "is not a valid email", although it is one. -/
theorem C92_hostname_says_email :
    let f := ruled "H" (.one .string) (.string { wellKnown := some (.hostname true) })
    let P := mailPenv (asc "ann@ex.org")
    Checked f ∧ Raises P "M" f (.sc (.str (asc "ann@ex.org"))) "p.H" [.s "is not a valid email"] ∧
      ∀ s, Reading P f.typ s [.s "is not a valid email"] (.sc (.str (asc "ann@ex.org"))) := by
  refine ⟨by unfold Checked; decide, ?_, fun s x hx => ?_⟩
  · exact raises_of fun rec => by rfl
  · cases hx
    rintro _ ⟨⟩
    exact (Py.validateEmail_iff _ _).1 (by decide +kernel)

theorem duration_not_in (P : PEnv) (d c : PDur) (h : valueSecs d.seconds d.nanos = durLit c) :
    Raises P "M" (ruled "D" (.one (.embed "google.protobuf.Duration" (some .duration))) (.duration { notIns := [c] }))
      (.dur d) "p.D" [.s "is not in ", .items [.secs (durLit c)]] := by
  refine raises_of fun rec => ?_
  simp [ruled, fieldCode, unruled, messageField, durationCode, requiredCode, durBody, genOpt, gen, optB, timeRange, seq, stmt,
    nothing, block, onSecs, raiseIf, Code.run, runAll, Place.guard, isNull, secsOf, h, pName]

theorem timestamp_within (P : PEnv) (t : PTime) (w : PDur) (h : P.now ≤ valueSecs t.seconds t.nanos) :
    Raises P "M" (ruled "T" (.one (.embed "google.protobuf.Timestamp" (some .timestamp)))
      (.timestamp { ltNow := some true, within := some w }))
      (.ts t) "p.T" [.s "is not within range ", .item (.secs (durLit w))] := by
  refine raises_of fun rec => ?_
  simp [ruled, fieldCode, unruled, messageField, timestampCode, requiredCode, tsBody, tsNow, genOpt, gen, optB, timeRange, seq,
    stmt, nothing, block, onSecs, raiseIf, Code.run, runAll, Place.guard, isNull, secsOf, h, pName]

/-- **C92, negation** A duration that is in the list of those it must not be "is not in" that list. -/
theorem C92_duration_not_in (P : PEnv) :
    let f := ruled "D" (.one (.embed "google.protobuf.Duration" (some .duration))) (.duration { notIns := [⟨1, 0⟩] })
    let text : Text := [.s "is not in ", .items [.secs (litSecs 1 0)]]
    Checked f ∧ Raises P "M" f (.dur ⟨1, 0⟩) "p.D" text ∧ ∀ s, Reading P f.typ s text (.dur ⟨1, 0⟩) := by
  refine ⟨by unfold Checked; decide, ?_, fun s x hx => ?_⟩
  · exact duration_not_in P _ _ (by decide +kernel)
  · obtain rfl := Option.some.inj hx
    exact ⟨_, List.mem_cons_self, by show PItem.secs _ = PItem.secs _; decide +kernel⟩

/-- **C92, negation** The message about a pattern for bytes does not depend on the pattern: it has the source code of
an expression in its place. -/
theorem C92_bytes_pattern (P : PEnv) (p b : Bytes) (hp : p ≠ []) (h : P.searchBytes p b = some false) :
    Raises P "M" (ruled "B" (.one .bytes) (.bytes { pattern := some p })) (.sc (.bytes b)) "p.B"
      [.s "pattern does not match b['pattern'].encode('unicode-escape')"] := by
  refine raises_of fun rec => ?_
  cases p with
  | nil => exact absurd rfl hp
  | cons x p =>
    show (match (match P.searchBytes (x :: p) b with
      | some true => .ok ()
      | some false => .error (.failed "p.B" [.s "pattern does not match b['pattern'].encode('unicode-escape')"])
      | none => .error .crash : Run) with
      | .ok () => .ok ()
      | e => e : Run) = _
    rw [h]

example : ∃ P : PEnv, P.searchBytes (asc "^a") (asc "b") = some false :=
  ⟨{ penv with searchBytes := fun _ _ => some false }, rfl⟩

/-- **C92, negation** Every item that is required "is required.", although it is there. -/
theorem C92_required_items (P : PEnv) (t : PTime) (h : P.other (.ts t) = .ok ()) :
    let f := ruled "T" (.rep (.embed "google.protobuf.Timestamp" (some .timestamp))) 
      (.repeated {} (.mk none (.timestamp { required := some true })))
    Checked f ∧ Raises P "M" f (.list [.ts t]) "item" [.s "is required."] ∧
      ∀ s, Reading P (.one (.embed "google.protobuf.Timestamp" (some .timestamp))) s [.s "is required."] (.ts t) := by
  intro f
  refine ⟨by unfold Checked; decide, ?_, fun s => ?_⟩
  · rw [raises_iff]
    have h1 : validateFuel P (soleField "M" f) (max (Go.depthFields [("T", .list [.ts t])]) (Go.depthOneofs []))
        (.ts t) = .ok () := h
    simp only [f, ruled] at h1 ⊢
    simp [fieldCode, unruled, messageList, messageText, typeText, repeatedCode, ignoreBlock, itemsOf, genPos, gen, genOpt, optB,
      optN, seq, stmt, nothing, Code.on, loop, forEach, Code.run, runAll, h1, switcher, timestampCode, requiredCode,
      raiseIf, Place.has, rulesText, msgSkip, ElemT.isEmbed, FieldRules.message, block, onSecs, tsBody, tsNow]
  · rw [reading_required]; simp

/-- **C92, negation** A URI with a host and without a path, such as `http://example.com`, "is not a valid uri". -/
theorem C92_uri (P : PEnv) (u : Bytes) (parts : Url) (h : P.urlparse (pstr u) = some parts)
    (h1 : parts.scheme = true) (h2 : parts.path = false) :
    let f := ruled "U" (.one .string) (.string { wellKnown := some (.uri true) })
    Checked f ∧ Raises P "M" f (.sc (.str u)) "p.U" [.s "is not a valid uri"] ∧
      ∀ s, Reading P f.typ s [.s "is not a valid uri"] (.sc (.str u)) := by
  refine ⟨by unfold Checked; decide, raises_of fun rec => ?_, fun s x hx => ?_⟩
  · show (match (match P.urlparse (pstr u) with
      | some q =>
        if q.scheme && q.netloc && q.path then .ok () else .error (.failed "p.U" [.s "is not a valid uri"])
      | none => .error .crash : Run) with
      | .ok () => .ok ()
      | e => e : Run) = _
    rw [h]
    simp [h1, h2]
  · cases hx
    rintro _ ⟨⟩
    exact ⟨_, h, h1⟩

example : ∃ P : PEnv, P.urlparse (pstr (asc "http://example.com")) = some ⟨true, true, false, false⟩ :=
  ⟨{ penv with urlparse := fun _ => some ⟨true, true, false, false⟩ }, rfl⟩

/-- **C92, negation** A reference to a fragment, such as `#top`, "is not a valid uri ref". -/
theorem C92_uri_ref (P : PEnv) (u : Bytes) (parts : Url) (h : P.urlparse (pstr u) = some parts)
    (h1 : parts.path = false) (h2 : parts.fragment = true) :
    let f := ruled "U" (.one .string) (.string { wellKnown := some (.uriRef true) })
    Checked f ∧ Raises P "M" f (.sc (.str u)) "p.U" [.s "is not a valid uri ref"] ∧
      ∀ s, Reading P f.typ s [.s "is not a valid uri ref"] (.sc (.str u)) := by
  refine ⟨by unfold Checked; decide, raises_of fun rec => ?_, fun s x hx => ?_⟩
  · show (match (match P.urlparse (pstr u) with
      | some q =>
        if !(q.scheme && q.path) && q.fragment then .error (.failed "p.U" [.s "is not a valid uri ref"]) else .ok ()
      | none => .error .crash : Run) with
      | .ok () => .ok ()
      | e => e : Run) = _
    rw [h]
    simp [h1, h2]
  · cases hx
    rintro _ ⟨⟩
    exact ⟨_, h⟩

example : ∃ P : PEnv, P.urlparse (pstr (asc "#top")) = some ⟨false, false, false, true⟩ :=
  ⟨{ penv with urlparse := fun _ => some ⟨false, false, false, true⟩ }, rfl⟩

/-- **C92, negation** A time after the clock by less than a distance that it must be within, before the clock, "is not
within range". -/
theorem C92_within : ∃ P : PEnv, ∃ t : PTime,
    let f := ruled "T" (.one (.embed "google.protobuf.Timestamp" (some .timestamp)))
      (.timestamp { ltNow := some true, within := some ⟨10, 0⟩ })
    let text : Text := [.s "is not within range ", .item (.secs (litSecs 10 0))]
    Checked f ∧ Raises P "M" f (.ts t) "p.T" text ∧ ∀ s, Reading P f.typ s text (.ts t) := by
  refine ⟨penv, ⟨1600000005, 0⟩, by unfold Checked; decide, ?_, fun s x hx => ?_⟩
  · exact timestamp_within _ _ _ (by decide +kernel)
  · obtain rfl := Option.some.inj hx
    intro w t hw ht
    rw [← PItem.secs.inj hw, ← PItem.secs.inj ht]
    decide +kernel

/-- **C92, negation** Items have no name but `item`: the message about one of a list does not depend on the field. -/
theorem C92_items_unnamed (P : PEnv) (a b : String) :
    let f (n : String) : FieldDesc := ruled n (.rep (.scalar .int32))
      (.repeated {} (.mk none (.num .int32 { gt := some (.int 0) })))
    ∃ text, Raises P "M" (f a) (.list [.sc (.num (.int 0))]) "item" text ∧
      Raises P "M" (f b) (.list [.sc (.num (.int 0))]) "item" text :=
  ⟨[.s "is not greater than ", .item (.num (.int 0))], raises_of fun rec => by rfl, raises_of fun rec => by rfl⟩

end PGV.Props
