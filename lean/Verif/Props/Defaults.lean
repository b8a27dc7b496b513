import Verif.Spec.Default
import Verif.Lemmas.PyKnot
import Verif.Lemmas.CppMsg
import Verif.Props.Java
import Verif.Props.Fixtures

/-!
C84: a field that is not set is validated like the same field with its default value.
-/

set_option linter.unusedSimpArgs false

namespace PGV.Props
open PGV PGV.Spec
open PGV.Go (Env)

theorem default_zero {t : FieldT} {v : Val} (h : DefaultOf t v) : v = t.zero := by
  cases h with
  | @integer k h1 h2 => cases k <;> first | rfl | exact absurd rfl h1 | exact absurd rfl h2
  | _ => rfl

theorem filled_get {d : MsgDesc} {fs fs' : List (String × Val)} (h : FilledIn d fs fs') {f : FieldDesc}
    (hf : f ∈ d.fields) : getField fs' f = getField fs f := by
  unfold getField
  rcases h f hf with h | ⟨h1, v, hv, h2⟩
  · rw [h]
  · rw [h1, h2, default_zero hv]; rfl

/-- **C84** Go: both methods return the same. -/
theorem C84_go (E : Env) (S : Schema) (typ : String) (d : MsgDesc) (hS : S typ = .generated d)
    (fs fs' : List (String × Val)) (os : List (String × String × Val)) (h : FilledIn d fs fs') (all : Bool) :
    Go.validate E S all (.msg typ fs' os) = Go.validate E S all (.msg typ fs os) := by
  have hb : Go.bodyExec E S all (Go.validate E S) d fs' os = Go.bodyExec E S all (Go.validate E S) d fs os := by
    unfold Go.bodyExec
    rw [Go.forEach_congr (g := fun f => Go.renderField E S all (Go.validate E S) d.name f (getField fs f)) d.fields
      fun f hf => by rw [filled_get h hf]]
  rw [Go.validate_eq, Go.validate_eq E S all (.msg typ fs os)]
  simp only [Go.validateStep, hS, hb]

/-- **C84** Java: `assertValid` ends the same way. -/
theorem C84_java (J : Java.JEnv) (S : Schema) (typ : String) (d : MsgDesc) (hS : S typ = .generated d)
    (hi : d.ignored = false) (fs fs' : List (String × Val)) (os : List (String × String × Val))
    (h : FilledIn d fs fs') :
    Java.assertValid J S (.msg typ fs' os) = Java.assertValid J S (.msg typ fs os) := by
  rw [Java.assertValid_eq, Java.assertValid_eq J S (.msg typ fs os)]
  simp only [Java.assertStep, hS, hi, Bool.false_eq_true, if_false]
  rw [Java.forEach_congr (g := fun f => Java.renderField J (Java.assertValid J S) typ f (getField fs f)) d.fields
      fun f hf => by rw [filled_get h hf]]

/-- **C84** C++: `Validate` ends the same way. -/
theorem C84_cpp (P : Cpp.CEnv) (S : Schema) (typ : String) (d : MsgDesc) (hS : S typ = .generated d)
    (hi : d.ignored = false) (hd : d.disabled = false) (fs fs' : List (String × Val))
    (os : List (String × String × Val)) (h : FilledIn d fs fs') :
    Cpp.checkMessage P S (.msg typ fs' os) = Cpp.checkMessage P S (.msg typ fs os) := by
  rw [Cpp.checkMessage_eq, Cpp.checkMessage_eq P S (.msg typ fs os)]
  simp only [Cpp.checkStep, Cpp.validateMsg, hS, hi, hd, Bool.false_eq_true, if_false, Bool.or_self]
  rw [Cpp.forEach_congr (g := fun f => Cpp.renderField P (Cpp.checkMessage P S) d.name f (getField fs f)) d.fields
      fun f hf => by rw [filled_get h hf]]

/-- The statements do the same on two values. -/
def SameOn {α : Type} (x y : α) (c : Py.Code α) : Prop := ∀ l, c = some l → ∀ s ∈ l, s x = s y

open PGV.Py PGV.Py.Code in
theorem SameOn.seq {α : Type} {x y : α} {a b : Code α} (h1 : SameOn x y a) (h2 : SameOn x y b) :
    SameOn x y (a ;; b) := by
  rcases a with _ | la
  · rintro l hl; cases b <;> simp [Code.seq] at hl
  rcases b with _ | lb
  · rintro l hl; simp [Code.seq] at hl
  rintro l hl s hs
  simp only [Code.seq, Option.some.injEq] at hl
  subst hl
  rcases List.mem_append.1 hs with hs | hs
  · exact h1 la rfl s hs
  · exact h2 lb rfl s hs

open PGV.Py PGV.Py.Code in
theorem SameOn.on {α β : Type} {x y : β} {g : β → α} (h : g x = g y) (c : Code α) : SameOn x y (on g c) := by
  rcases c with _ | l
  · rintro l hl; simp [Code.on] at hl
  · rintro l' hl s hs
    simp only [Code.on, Option.map_some, Option.some.injEq] at hl
    subst hl
    obtain ⟨s', -, rfl⟩ := List.mem_map.1 hs
    simp only [h]

open PGV.Py PGV.Py.Code in
theorem SameOn.stmt {α : Type} {x y : α} {s : α → Run} (h : s x = s y) : SameOn x y (stmt s) := by
  rintro l hl t ht
  simp only [Code.stmt, Option.some.injEq] at hl
  subst hl
  rw [List.mem_singleton] at ht
  rw [ht]; exact h

open PGV.Py in
theorem runAll_same {α : Type} {x y : α} {l : List (α → Run)} (h : ∀ s ∈ l, s x = s y) :
    runAll l x = runAll l y := by
  induction l with
  | nil => rfl
  | cons s l ih => simp only [runAll, h s (.head _), ih fun t ht => h t (.tail _ ht)]

open PGV.Py PGV.Py.Code in
theorem SameOn.block {α : Type} {x y : α} {t : α → Bool} {c : Code α} (ht : t x = t y) (h : SameOn x y c) :
    SameOn x y (block t c) := by
  rcases c with _ | _ | ⟨s, l⟩
  · rintro l hl; simp [Code.block] at hl
  · rintro l hl; simp [Code.block] at hl
  · refine SameOn.stmt ?_
    rw [ht, runAll_same (h _ rfl)]

open PGV.Py PGV.Py.Code in
theorem SameOn.seqAll {α β : Type} {x y : β} {l : List α} {k : α → Code β} (h : ∀ a ∈ l, SameOn x y (k a)) :
    SameOn x y (seqAll l k) := by
  induction l with
  | nil => rintro l hl s hs; simp only [Py.seqAll, nothing, Option.some.injEq] at hl; subst hl; cases hs
  | cons a l ih => exact SameOn.seq (h a (.head _)) (ih fun b hb => h b (.tail _ hb))

open PGV.Py PGV.Py.Code in
theorem SameOn.member {P : PEnv} {rec : Val → Run} {o : OneofDesc} {x y : Content} (h : x.2 = y.2)
    (fs : List FieldDesc) : SameOn x y (memberCode P rec o fs) := by
  induction fs with
  | nil => rintro l hl s hs; simp only [memberCode, nothing, Option.some.injEq] at hl; subst hl; cases hs
  | cons f fs ih =>
    unfold memberCode
    refine SameOn.seq (SameOn.block ?_ (SameOn.seq (SameOn.stmt rfl) (SameOn.on ?_ _))) ih
    · simp only [h]
    · simp only [h]

open PGV.Py PGV.Py.Code in
/-- **C84** Python: `validate` ends the same way. -/
theorem C84_python (P : Py.PEnv) (S : Schema) (typ : String) (d : MsgDesc) (hS : S typ = .generated d)
    (fs fs' : List (String × Val)) (os : List (String × String × Val)) (h : FilledIn d fs fs') :
    Py.validate P S (.msg typ fs' os) = Py.validate P S (.msg typ fs os) := by
  rw [Py.validate_eq, Py.validate_eq P S (.msg typ fs os)]
  simp only [Py.validateStep, hS]
  generalize Py.validate P S = rec
  have body : SameOn ((fs', os) : Content) (fs, os) (seqAll d.oneofs (oneofCode P rec) ;;
      seqAll d.fields (fun f => on (fun c => getField c.1 f) (fieldCode P rec false f))) := by
    refine SameOn.seq (SameOn.seqAll fun o _ => SameOn.seq (SameOn.member (show os = os from rfl) _) ?_)
      (SameOn.seqAll fun f hf => SameOn.on (filled_get h hf) _)
    unfold gen
    split
    · exact SameOn.stmt rfl
    · rintro l hl s hs; simp only [nothing, Option.some.injEq] at hl; subst hl; cases hs
  unfold msgCode
  revert body
  generalize (seqAll d.oneofs (oneofCode P rec) ;;
      seqAll d.fields (fun f => on (fun c : Content => getField c.1 f) (fieldCode P rec false f))) = b
  intro body
  rcases b with _ | l
  · simp only [Option.map_none, ite_self]; rfl
  · by_cases hdi : (d.disabled || d.ignored) = true
    · simp only [hdi, if_true, Option.map_some, Code.run, runAll]
    · simp only [hdi, Bool.false_eq_true, if_false, Code.run]
      exact runAll_same (body l rfl)

/-- A message type with one field of several kinds. -/
def manyKinds : MsgDesc :=
  { name := "M"
    fields := [⟨"b", .one .bool, .mk none (.bool { const := some true })⟩,
      ⟨"s", .one .string, .mk none (.string { minLen := some 1 })⟩,
      ⟨"l", .rep .string, .mk none (.repeated { minItems := some 1 } .absent)⟩,
      ⟨"m", .one (.embed "M" none), .mk (some { required := some true }) .unset⟩] }

example : FilledIn manyKinds [("s", .sc (.str (asc "x")))]
    [("m", .null), ("b", .sc (.bool false)), ("s", .sc (.str (asc "x"))), ("l", .list [])] := by
  intro f hf
  simp only [manyKinds, List.mem_cons, List.not_mem_nil, or_false] at hf
  rcases hf with rfl | rfl | rfl | rfl
  · exact .inr ⟨rfl, _, .bool, rfl⟩
  · exact .inl rfl
  · exact .inr ⟨rfl, _, .list, rfl⟩
  · exact .inr ⟨rfl, _, .message, rfl⟩

/-- A rule that the default value breaks rejects a message without the field. -/
example : Go.validate Fixtures.env (fun _ => .generated manyKinds) false (.msg "M" [] []) =
    some (.viol "M" ⟨"b", none⟩ [.s "value must equal ", .bool true] none false) := by
  rw [Go.validate_eq]; rfl

end PGV.Props
