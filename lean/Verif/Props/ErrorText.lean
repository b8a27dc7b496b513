import Verif.Go.Render
import Verif.Props.Core

/-!
C29: the text of errors and the `Key()` flag.
-/

set_option linter.unusedSimpArgs false

namespace PGV.Props
open PGV PGV.Go PGV.Spec

/-- The name contains no percent sign (Go identifiers contain none). -/
def Plain (s : String) : Prop := '%' ∉ s.toList

theorem sprintf_plain (t f : Text) (args : List Text) (h : '%' ∉ t) :
    sprintf (t ++ f) args = t ++ sprintf f args := by
  induction t with
  | nil => rfl
  | cons c t ih =>
    have hc : c ≠ '%' := fun e => h (by simp [e])
    have ht : '%' ∉ t := fun e => h (by simp [e])
    rw [List.cons_append, sprintf]
    · rw [ih ht]; rfl
    · intro f' he; exact fun _ => hc (by simp_all)
    · intro f' he; exact fun _ => hc (by simp_all)
    · intro f' he; exact fun _ => hc (by simp_all)

theorem sprintf_nil (args : List Text) : sprintf [] args = [] := by rw [sprintf]

theorem errorTexts_eq (P : Printer) (es : List Err) : errorTexts P es = es.map (errorText P) := by
  induction es with
  | nil => rfl
  | cons e es ih => simp [errorTexts, ih]

/-- **C29** `Field()` is the field's name, followed by the index or key in brackets for list items
and map entries. -/
theorem C29_field (P : Printer) (f : FieldRef) (hf : Plain f.name) :
    fieldText P f = f.name.toList ++
      (match f.index with | some i => "[".toList ++ P.idx i ++ "]".toList | none => []) := by
  unfold fieldText
  cases f.index with
  | none => simp
  | some i =>
    have h1 : sprintf "%s[%%v]".toList [f.name.toList] = f.name.toList ++ "[%v]".toList := by
      simp [sprintf]
    simp only [h1]
    rw [sprintf_plain _ _ _ hf]
    simp [sprintf]

theorem sprintf_violation (typ : String) (ht : Plain typ) (a b c d : Text) :
    sprintf ("invalid %s".toList ++ typ.toList ++ ".%s: %s%s".toList) [a, b, c, d] =
      "invalid ".toList ++ a ++ typ.toList ++ ".".toList ++ b ++ ": ".toList ++ c ++ d := by
  have e1 : "invalid %s".toList ++ typ.toList ++ ".%s: %s%s".toList =
    "invalid ".toList ++ ('%' :: 's' :: (typ.toList ++ (".".toList ++ ('%' :: 's' ::
      (": ".toList ++ ['%', 's', '%', 's']))))) := by simp
  rw [e1, sprintf_plain _ _ _ (by simp), sprintf, sprintf_plain _ _ _ ht,
    sprintf_plain _ _ _ (by simp), sprintf, sprintf_plain _ _ _ (by simp), sprintf, sprintf, sprintf_nil]
  simp only [List.headD_cons, List.tail_cons, List.append_assoc, List.append_nil]

theorem sprintf_cause (t : Text) :
    sprintf " | caused by: %v".toList [t] = " | caused by: ".toList ++ t := by
  have e1 : " | caused by: %v".toList = " | caused by: ".toList ++ ['%', 'v'] := by simp
  rw [e1, sprintf_plain _ _ _ (by simp), sprintf, sprintf_nil]
  simp only [List.headD_cons, List.append_nil]

/-- **C29** (text part) The text of a violation: "invalid ", "key for " if `Key()`, type name, field,
reason and, if there is one, the text of the cause. What is missing from the full claim: errors
raised for map keys do not have `Key()` true, see `C29_key_never`. -/
theorem C29_violation_partial (P : Printer) (typ : String) (f : FieldRef) (reason : List Piece)
    (cause : Option Err) (key : Bool) (ht : Plain typ) :
    errorText P (.viol typ f reason cause key) =
      "invalid ".toList ++ (if key then "key for ".toList else []) ++ typ.toList ++ ".".toList ++
      fieldText P f ++ ": ".toList ++ P.reason reason ++
      (match cause with | some c => " | caused by: ".toList ++ errorText P c | none => []) := by
  cases cause with
  | none => rw [errorText]; exact sprintf_violation typ ht _ _ _ _
  | some c => rw [errorText]; simp only [sprintf_cause]; exact sprintf_violation typ ht _ _ _ _

/-- **C29** The text of a multi-error joins the texts of its errors, in order, with "; ". -/
theorem C29_multi (P : Printer) (typ : String) (es : List Err) :
    errorText P (.multi typ es) = "; ".toList.intercalate (es.map (errorText P)) := by
  rw [errorText, errorTexts_eq]
  induction es.map (errorText P) with
  | nil => rfl
  | cons t ts ih =>
    cases ts with
    | nil => simp [join, List.intercalate]
    | cons u ts => rw [join, ih]; simp [List.intercalate, List.intersperse]

/-- Every part of an error is part of an error of an older generated `Validate`, or a library error,
or an error of a generated type without key flag. -/
theorem validate_parts (E : Env) (S : Schema) (all : Bool) (v : Val) (e x : Err)
    (h : validate E S all v = some e) (hx : PartOf x e) :
    (∃ u y, E.legacy u = some y ∧ PartOf x y) ∨ (∃ t, x = .lib t) ∨
    ∃ typ d, S typ = .generated d ∧
      ((∃ es, x = .multi d.name es) ∨ ∃ f r c, x = .viol d.name f r c false) := by
  have key : ∀ n, ∀ v e, depth v ≤ n → validate E S all v = some e → PartOf x e →
      (∃ u y, E.legacy u = some y ∧ PartOf x y) ∨ (∃ t, x = .lib t) ∨
      ∃ typ d, S typ = .generated d ∧
        ((∃ es, x = .multi d.name es) ∨ ∃ f r c, x = .viol d.name f r c false) := by
    intro n
    induction n with
    | zero => intro v e hn; have := depth_pos v; omega
    | succ n ih =>
      intro v e hn h hx
      rw [validate_eq] at h
      cases v with
      | msg typ fs os =>
        cases hS : S typ with
        | generated d =>
          cases hd : d.disabled with
          | true => simp [validateStep, hS, hd] at h
          | false =>
            simp only [validateStep, hS, hd, Bool.false_eq_true, if_false] at h
            have part : ∀ y, MsgErr E S all (validate E S) d fs os y → PartOf x y →
                (∃ u y, E.legacy u = some y ∧ PartOf x y) ∨ (∃ t, x = .lib t) ∨
                ∃ typ d, S typ = .generated d ∧
                  ((∃ es, x = .multi d.name es) ∨ ∃ f r c, x = .viol d.name f r c false) := by
              intro y hy hp
              cases hy with
              | oneof ho hl =>
                cases hp
                exact .inr (.inr ⟨typ, d, hS, .inr ⟨_, _, _, rfl⟩⟩)
              | field hA hF =>
                cases hF with
                | @own i reason cause hc =>
                  cases hp with
                  | self => exact .inr (.inr ⟨typ, d, hS, .inr ⟨_, _, _, rfl⟩⟩)
                  | @cause _ _ _ c _ hq =>
                    cases c with
                    | lib t => cases hq; exact .inr (.inl ⟨t, rfl⟩)
                    | viol => simp [PlainCause] at hc
                    | multi => simp [PlainCause] at hc
                | nested hH ht hs hc =>
                  rename_i f v i rules w z
                  cases hp with
                  | self => exact .inr (.inr ⟨typ, d, hS, .inr ⟨_, _, _, rfl⟩⟩)
                  | cause hq =>
                    rcases hc with ⟨hV, hz⟩ | hz
                    · have hE : Embeds S (.msg typ fs os) ⟨f.name, i⟩ w := .mk hS hd hA hH ht hs hV
                      have := embeds_depth hE
                      exact ih w z (by omega) hz hq
                    · exact .inl ⟨w, z, hz, hq⟩
            rcases (body_raises E S all (validate E S) d fs os).fast h with hq | ⟨es, rfl, hes⟩
            · exact part e hq hx
            · cases hx with
              | self => exact .inr (.inr ⟨typ, d, hS, .inl ⟨_, rfl⟩⟩)
              | member hm hp => exact part _ (hes _ hm) hp
        | legacy => simp [validateStep, hS] at h
        | foreign => simp [validateStep, hS] at h
      | _ => simp [validateStep] at h
  exact key (depth v) v e (Nat.le_refl _) h hx

/-- All type names in the error are plain. -/
def PlainTypes (e : Err) : Prop := ∀ t f r c k, PartOf (.viol t f r c k) e → Plain t

/-- Texts of corresponding errors: that of `Validate` is a beginning of that of `ValidateAll`. -/
theorem text_firstOf (P : Printer) {e e' : Err} (h : FirstOf e e') (hp : PlainTypes e) :
    errorText P e <+: errorText P e' := by
  induction h with
  | same => exact List.prefix_refl _
  | @nested t f r c c' n rest k _ ih =>
    have ht : Plain t := hp _ _ _ _ _ .self
    obtain ⟨s, hs⟩ := ih (fun _ _ _ _ _ h => hp _ _ _ _ _ (.cause h))
    have hm : errorText P c <+: errorText P (.multi n (c' :: rest)) := by
      rw [errorText, errorTexts]
      cases rest with
      | nil => exact ⟨s, by simp [errorTexts, join, hs]⟩
      | cons d ds =>
        rw [errorTexts, join, ← hs, List.append_assoc, List.append_assoc]
        exact List.prefix_append _ _
    rw [C29_violation_partial P t f r _ k ht, C29_violation_partial P t f r _ k ht]
    simp only [List.append_assoc, List.prefix_append_right_inj]
    exact hm

/-- **C29** The text of the error `Validate()` returns is a beginning of the text of the error
`ValidateAll()` returns, provided type names contain no percent sign. -/
theorem C29_prefix (P : Printer) (E : Env) (S : Schema) (v : Val) (e : Err)
    (h : validate E S false v = some e)
    (hS : ∀ typ d, S typ = .generated d → Plain d.name)
    (hl : ∀ u x, E.legacy u = some x → PlainTypes x) :
    ∃ e', validate E S true v = some e' ∧ errorText P e <+: errorText P e' := by
  obtain ⟨n, e', rest, h1, h2, _⟩ := C02_first_error E S v e h
  have hp : PlainTypes e := by
    intro t f r c k hx
    rcases validate_parts E S false v e _ h hx with ⟨u, y, hu, hy⟩ | ⟨t', ht⟩ | ⟨typ, d, hd, he | he⟩
    · exact hl u y hu _ _ _ _ _ hy
    · cases ht
    · obtain ⟨es, he⟩ := he; cases he
    · obtain ⟨f', r', c', he⟩ := he
      simp only [Err.viol.injEq] at he
      rw [he.1]; exact hS typ d hd
  refine ⟨_, h1, (text_firstOf P h2 hp).trans ?_⟩
  rw [errorText, errorTexts]
  cases rest with
  | nil => exact List.prefix_refl _
  | cons d ds => rw [errorTexts, join, List.append_assoc]; exact List.prefix_append _ _

/-- **C29** (negation of the key part) No error of code generated by this version, at any depth, has
`Key()` true, unless it comes from an older generated `Validate`. -/
theorem C29_key_never (E : Env) (S : Schema) (all : Bool) (v : Val) (e : Err)
    (h : validate E S all v = some e) (t : String) (f : FieldRef) (r : List Piece) (c : Option Err)
    (k : Bool) (hx : PartOf (.viol t f r c k) e) :
    k = false ∨ ∃ u y, E.legacy u = some y ∧ PartOf (.viol t f r c k) y := by
  rcases validate_parts E S all v e _ h hx with hl | ⟨t', ht⟩ | ⟨typ, d, hd, he | he⟩
  · exact .inr hl
  · cases ht
  · obtain ⟨es, he⟩ := he; cases he
  · obtain ⟨f', r', c', he⟩ := he
    simp only [Err.viol.injEq] at he
    exact .inl he.2.2.2.2

/-- A map whose keys must have at most two characters. -/
def keyed : FieldDesc :=
  { name := "Tags", typ := .map .string (.scalar .int32),
    rules := .mk none (.map {} (.mk none (.string { maxLen := some 2 })) .absent) }

/-- **C29** (negation of the key part, concretely) A violation of a map key rule has `Key()` false. -/
theorem C29_key_flag_unset :
    errorsFor Fixtures.env (Fixtures.only keyed) "M" keyed (.map [(.str (asc "abc"), .sc (.num (.int 1)))]) =
      [.viol "M" ⟨"Tags", some (.key (.str (asc "abc")))⟩
        [.s "value length must be at most ", .nat 2, .s " runes"] none false] := by
  rfl

/-- The hypotheses of the C29 theorems are met: the types and fields of the example schema are plain,
and a nested failure prints as expected. -/
example : Plain "Person" ∧ Plain "Friends" ∧
    (∀ typ d, Fixtures.schema typ = .generated d → Plain d.name) ∧
    (∀ u x, Fixtures.env.legacy u = some x → PlainTypes x) ∧
    errorText ⟨fun _ => "R".toList, fun _ => "1".toList⟩
      (.viol "Person" ⟨"Friends", some (.pos 1)⟩ []
        (some (.multi "Person" [.viol "Person" ⟨"Age", none⟩ [] none false,
          .viol "Person" ⟨"Nick", none⟩ [] none false])) false) =
      "invalid Person.Friends[1]: R | caused by: invalid Person.Age: R; invalid Person.Nick: R".toList := by
  refine ⟨by simp [Plain], by simp [Plain], ?_, (by intro u x h; cases h), by decide⟩
  intro typ d h
  unfold Fixtures.schema at h
  repeat' split at h
  all_goals first
    | (cases h; simp [Plain, Fixtures.person])
    | cases h

end PGV.Props
