import Verif.Lemmas.Fallback
import Verif.Props.Verdict

/-!
C103: Java's `isValid` tells what `assertValid` does, and the validator to fall back to decides about messages without a
validator only.
-/

set_option linter.unusedSimpArgs false

namespace PGV.Props
open PGV PGV.Spec PGV.Spec.Simple PGV.Go
open PGV.Java (isValid alwaysValid alwaysInvalid)

/-- **C103** `isValid` returns `true` exactly when `assertValid` returns, `false` exactly when it throws a
`ValidationException` (one with a field), and throws exactly what else `assertValid` throws. -/
theorem C103_is_valid (J : Java.JEnv) (S : Schema) (v : Val) :
    (isValid (Java.assertValid J S v) = .ok true ↔ Java.assertValid J S v = .ok ()) ∧
    (isValid (Java.assertValid J S v) = .ok false ↔ ∃ e, Java.assertValid J S v = .error e ∧ e.field ≠ none) ∧
    ∀ e, isValid (Java.assertValid J S v) = .error e ↔ Java.assertValid J S v = .error e ∧ e.field = none := by
  cases h : Java.assertValid J S v with
  | ok u => simp [isValid]
  | error e => cases e <;> simp [isValid, Java.JErr.field]

/-- **C103, partial** On a settled message (see C102), `isValid` returns, and says whether `assertValid` does. Missing:
`C103_throws`. -/
theorem C103_settled_partial (J : Java.JEnv) (S : Schema) (hO : ∀ w, Outside S w → IsVerdict (J.other w)) (v : Val)
    (h : AllSettled J S v) :
    ∃ b, isValid (Java.assertValid J S v) = .ok b ∧ (b = true ↔ Java.assertValid J S v = .ok ()) := by
  have hv := C102_java_partial J S hO v h
  cases hr : Java.assertValid J S v with
  | ok u => exact ⟨true, rfl, by simp⟩
  | error e =>
    cases e with
    | runtime w => exact absurd rfl (hv _ hr)
    | _ => exact ⟨false, rfl, by simp⟩

/-- **C103** If the libraries agree and the message is portable (see C60), `isValid` is `true` exactly when Go's
`Validate()` returns `nil`. -/
theorem C103_agrees (Com : Common) (E : Env) (J : Java.JEnv) (S : Schema) (hA : LibsAgree Com E J S) (typ : String)
    (d : MsgDesc) (hS : S typ = .generated d) (hi : d.ignored = false) (fs : List (String × Val))
    (os : List (String × String × Val)) (hp : Portable Com S (.msg typ fs os)) :
    isValid (Java.assertValid J S (.msg typ fs os)) = .ok true ↔ validate E S false (.msg typ fs os) = none :=
  (C103_is_valid J S _).1.trans (C60_java_agrees Com E J S hA typ d hS hi fs os hp)

/-- **C103, negation** `isValid` throws instead of returning `false`: a duration that is out of range, under a limit. -/
theorem C103_throws (J : Java.JEnv) :
    let f := Fixtures.fieldOf (.embed "google.protobuf.Duration" (some .duration)) (.duration { gt := some ⟨0, 0⟩ })
    Checked f ∧ isValid (Java.assertValid J (Fixtures.only f) (.msg "M" [("X", .dur ⟨1, -5⟩)] [])) =
        .error (.runtime "IllegalArgumentException") := by
  intro f
  exact ⟨by unfold Checked; decide, rfl⟩

/-- **C103** What an index accepts that falls back to `ALWAYS_INVALID` it accepts with any fallback; and what it accepts
with any fallback it accepts with `ALWAYS_VALID`. -/
theorem C103_fallback (J : Java.JEnv) (S : Schema) (o : Val → Java.Run) (v : Val) :
    (Java.assertValid (J.fallingBack alwaysInvalid) S v = .ok () → Java.assertValid (J.fallingBack o) S v = .ok ()) ∧
    (Java.assertValid (J.fallingBack o) S v = .ok () → Java.assertValid (J.fallingBack alwaysValid) S v = .ok ()) :=
  ⟨Java.Fallback.valid (J := J.fallingBack alwaysInvalid) (o := o) _ v (Nat.le_refl _) (fun _ _ _ h => by cases h),
    Java.Fallback.valid (J := J.fallingBack o) (o := alwaysValid) _ v (Nat.le_refl _) (fun _ _ _ _ => rfl)⟩

/-- **C103** If validation of a message hands on only messages that have validators, then the fallback does not matter. -/
theorem C103_closed (J : Java.JEnv) (S : Schema) (o o' : Val → Java.Run) (v : Val)
    (h : ∀ w, Handed S v w → ¬ Unknown S w) :
    Java.assertValid (J.fallingBack o) S v = .ok () ↔ Java.assertValid (J.fallingBack o') S v = .ok () :=
  ⟨Java.Fallback.valid (J := J.fallingBack o) (o := o') _ v (Nat.le_refl _) (fun w hw hu => absurd hu (h w hw)),
    Java.Fallback.valid (J := J.fallingBack o') (o := o) _ v (Nat.le_refl _) (fun w hw hu => absurd hu (h w hw))⟩

/-! ### Cases -/

/-- An order that is accepted whatever the fallback, although it nests four deep, and one that is refused. -/
example : Java.assertValid (jenv.fallingBack alwaysInvalid) Orders.orders (Orders.order 1 "old") = .ok () ∧
    isValid (Java.assertValid jenv Orders.orders (Orders.order 1 "old")) = .ok true ∧
    isValid (Java.assertValid jenv Orders.orders (Orders.order 1 "new")) = .ok false := ⟨rfl, rfl, rfl⟩

/-- A message of another package makes the difference. -/
example :
    let f : FieldDesc := { name := "X", typ := .one (.embed "other.Thing" none), rules := .absent }
    let S : Schema := fun n => if n = "M" then .generated { name := "M", fields := [f] } else .foreign
    let v : Val := .msg "M" [("X", .msg "other.Thing" [] [])] []
    Java.assertValid (jenv.fallingBack alwaysInvalid) S v = .error (.validation "UNKNOWN" [.s "Explicitly invalid"]) ∧
    Java.assertValid (jenv.fallingBack alwaysValid) S v = .ok () ∧
    Java.assertValid (jenv.fallingBack alwaysInvalid) S (.msg "M" [] []) = .ok () := ⟨rfl, rfl, rfl⟩

/-- Handed on are only messages with validators: a client, sent by another one. -/
example : ∀ w, Handed Orders.orders (.msg "Client" [("Tags", .list []), ("By", .msg "Client" [] [])] []) w →
    ¬ Unknown Orders.orders w := by
  have known : ∀ fs, ¬ Unknown Orders.orders (.msg "Client" fs []) := fun fs h => by cases h _ _ _ _ rfl rfl
  have by_ : ∀ (fs : List (String × Val)) f u i rules x,
      Active { name := "Client", fields := [Orders.tags, { name := "By", typ := .one (.embed "Client" none), rules := .absent }] }
        fs [] f u → HeldBy f u i rules x → x = (fs.lookup "By").getD .null := by
    intro fs f u i rules x ha hh
    cases ha with
    | field hf =>
      generalize hu : getField fs f = u at hh
      rcases (by simpa using hf : f = Orders.tags ∨ _) with rfl | rfl
      · cases hh with
        | field h => cases h
        | item h => cases h
        | value h => cases h
      · cases hh with
        | field => exact hu.symm
        | item h => cases h
        | value h => cases h
    | member hm => cases hm
  intro w hw
  cases hw with
  | self => exact known _
  | inner hS ha hh hn hw =>
    cases hS
    cases by_ _ _ _ _ _ _ ha hh
    cases hw with
    | self => exact known _
    | inner hS ha hh hn =>
      cases hS
      exact absurd (by_ _ _ _ _ _ _ ha hh) hn

end PGV.Props
