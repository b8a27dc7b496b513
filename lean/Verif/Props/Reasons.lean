import Verif.Lemmas.ReasonField
import Verif.Lemmas.Single
import Verif.Props.Fixtures

/-!
C82: the reasons in Go violations are true.
-/

set_option linter.unusedSimpArgs false

namespace PGV.Props
open PGV PGV.Go PGV.Spec

/-- **C82** Every error that `Validate()` or `ValidateAll()` reports for a message is one of three: a
required oneof that is not set, an embedded message that failed validation, with its error as cause, or
a broken rule on (an item, key or value of) a field. In the last case the reason, read as a requirement,
does not hold of the value that is blamed, and holds of every value of the same kind that satisfies the
rules, except for those that `ignore_empty` exempts. -/
theorem C82_reasons (E : Env) (S : Schema) (all : Bool) (typ : String) (fs : List (String × Val))
    (os : List (String × String × Val)) (d : MsgDesc) (e x : Err) (hS : S typ = .generated d)
    (hv : validate E S all (.msg typ fs os) = some e) (hx : Reported x e) :
    (∃ o ∈ d.oneofs, o.required = true ∧ os.lookup o.name = none ∧
      x = .viol d.name ⟨o.name, none⟩ [.s "value is required"] none false) ∨
    (∃ f v i rules w y, Active d fs os f v ∧ HeldBy f v i rules w ∧
      rules.type = .unset ∧ msgSkip rules.message = false ∧
      (validate E S all w = some y ∨ E.legacy w = some y) ∧
      x = .viol d.name ⟨f.name, i⟩ [.s "embedded message failed validation"] (some y) false) ∨
    (∃ f v i et t ok w reason cause, Active d fs os f v ∧
      Target E S (fun w => validate E S false w = none) f v i et t ok w ∧
      x = .viol d.name ⟨f.name, i⟩ reason cause false ∧
      ¬ Reading E et reason w ∧
      ∀ u, Alike w u → ok u → Exempt t u ∨ Reading E et reason u) := by
  have key : MsgSays E S (fun w => validate E S false w = none) all (validate E S) d fs os x := by
    rw [validate_eq] at hv
    simp only [validateStep, hS] at hv
    split at hv
    · simp at hv
    · rcases (body_says E S (fun w => validate E S false w = none) all (validate E S) d fs os).fast hv with
        h | ⟨es, rfl, h⟩
      · cases hx with
        | alone => exact h
        | among hm => rcases h with ⟨_, h⟩; cases h
      · cases hx with
        | alone hn => exact absurd rfl (hn _ _)
        | among hm => exact h _ hm
  rcases key with ⟨hA, hf⟩ | ⟨ho, hr, hl⟩
  · rcases hf with ⟨_, ht, h1, h2⟩ | ⟨hh, ht, hs, hc⟩
    · refine .inr (.inr ⟨_, _, _, _, _, _, _, _, _, hA, ht, rfl, h1, fun u ha hu => ?_⟩)
      refine Classical.or_iff_not_imp_left.2 fun hex => h2 u ⟨ha, hu, hex⟩
    · refine .inr (.inl ⟨_, _, _, _, _, _, hA, hh, ht, hs, ?_, rfl⟩)
      rcases hc with h | h
      · exact .inl h.2
      · exact .inr h
  · exact .inl ⟨_, ho, hr, hl, rfl⟩

/-- Whole numbers above 2 and at most 7, each at most once. -/
def picks : FieldDesc :=
  { name := "Picks", typ := .rep (.scalar .int32),
    rules := .mk none (.repeated { unique := some true, maxItems := some 2 }
      (.mk none (.num .int32 { gt := some (.int 2), lte := some (.int 7) }))) }

example : (Fixtures.only picks "M" = .generated { name := "M", fields := [picks] }) ∧
    validate Fixtures.env (Fixtures.only picks) true
      (.msg "M" [("Picks", .list [.sc (.num (.int 3)), .sc (.num (.int 9)), .sc (.num (.int 3))])] []) =
    some (.multi "M" [
      .viol "M" ⟨"Picks", none⟩ [.s "value must contain no more than ", .nat 2, .s " item(s)"] none false,
      .viol "M" ⟨"Picks", some (.pos 1)⟩
        [.s "value must be inside range (", .num (.int 2), .s ", ", .num (.int 7), .s "]"] none false,
      .viol "M" ⟨"Picks", some (.pos 2)⟩ [.s "repeated value must contain unique items"] none false]) := by
  exact ⟨rfl, by rfl⟩

/-- What that range reason says: the value is above 2 and at most 7. -/
example (n : Int) :
    Reading Fixtures.env (.scalar .int32)
      [.s "value must be inside range (", .num (.int 2), .s ", ", .num (.int 7), .s "]"] (.sc (.num (.int n))) ↔
    2 < n ∧ n ≤ 7 := by
  simp [Reading, rangeReading, content, amount, limit, numVal]

/-- **C82** The same for one field that is neither a list nor a map nor an embedded message without
rules, in terms of what `Validate()` accepts: the reason tells the rejected value from every accepted one. -/
theorem C82_tells_apart (E : Env) (S : Schema) (typ : String) (f : FieldDesc) (e : ElemT) (v u : Val)
    (hO : OnlyField S typ f) (hT : f.typ = .one e) (hN : e.isEmbed = false ∨ f.rules.type ≠ .unset)
    (x : Err) (hx : x ∈ errorsFor E S typ f v) (hu : Accepts E S typ f u) (ha : Alike v u)
    (he : ¬ Exempt f.rules.type u) :
    ∃ msg reason cause, x = .viol msg ⟨f.name, none⟩ reason cause false ∧
      ¬ Reading E e reason v ∧ Reading E e reason u := by
  have hok := (accepts_iff hO u).1 hu
  unfold FieldOk at hok
  rw [hT] at hok
  obtain ⟨d, hS, hd, hf, ho⟩ := hO
  unfold errorsFor at hx
  cases hr : validate E S true (.msg typ [(f.name, v)] []) with
  | none => simp [hr, errorList] at hx
  | some y =>
    rw [hr] at hx
    have hR : Reported x y := by
      unfold errorList at hx
      split at hx
      · simp at hx
      · rename_i n es heq; cases heq; exact .among hx
      · rename_i hne heq
        cases heq
        rw [List.mem_singleton] at hx
        subst hx
        exact .alone fun n es h => hne n es (by rw [h])
    have act : ∀ g w, Active d [(f.name, v)] [] g w → g = f ∧ w = v := by
      intro g w h
      cases h with
      | field hm =>
        rw [hf, List.mem_singleton] at hm
        subst hm
        exact ⟨rfl, by simp [getField]⟩
      | member hm => rw [ho] at hm; cases hm
    rcases C82_reasons E S true typ _ [] d y x hS hr hR with ⟨o, hm, _⟩ |
      ⟨g, w, i, rules, z, _, hA, hH, hru, _⟩ | ⟨g, w, i, et, t, ok, z, reason, cause, hA, hG, rfl, h1, h2⟩
    · rw [ho] at hm; cases hm
    · obtain ⟨rfl, rfl⟩ := act g w hA
      cases hH with
      | field h =>
        rw [hT] at h
        cases h
        rcases hN with hN | hN
        · simp [ElemT.isEmbed] at hN
        · exact absurd hru hN
      | item h => rw [hT] at h; cases h
      | value h => rw [hT] at h; cases h
    · obtain ⟨rfl, rfl⟩ := act g w hA
      cases hG with
      | field h =>
        rw [hT] at h
        cases h
        exact ⟨_, reason, cause, rfl, h1, (h2 u ha hok).resolve_left he⟩
      | item h => rw [hT] at h; cases h
      | wrappedItem h => rw [hT] at h; cases h
      | value h => rw [hT] at h; cases h
      | wrappedValue h => rw [hT] at h; cases h
      | key h => rw [hT] at h; cases h
      | sparse h => rw [hT] at h; cases h
      | list h => rw [hT] at h; cases h
      | duplicate h => rw [hT] at h; cases h
      | map h => rw [hT] at h; cases h

/-- A string of two or three characters without two dashes in a row. -/
def slug : FieldDesc :=
  Fixtures.fieldOf .string (.string { minLen := some 2, maxLen := some 3, notContains := some (asc "--") })

example : OnlyField (Fixtures.only slug) "M" slug ∧
    errorsFor Fixtures.env (Fixtures.only slug) "M" slug (.sc (.str (asc "a--b"))) =
      [.viol "M" ⟨"X", none⟩ [.s "value length must be between ", .nat 2, .s " and ", .nat 3,
        .s " runes, inclusive"] none false,
       .viol "M" ⟨"X", none⟩ [.s "value contains substring ", .bytes (asc "--")] none false] ∧
    Accepts Fixtures.env (Fixtures.only slug) "M" slug (.sc (.str (asc "abc"))) ∧
    ¬ Exempt slug.rules.type (.sc (.str (asc "abc"))) := by
  refine ⟨Fixtures.only_field _, by rfl, by rfl, ?_⟩
  simp [slug, Fixtures.fieldOf, Exempt, FieldRules.type]

end PGV.Props
