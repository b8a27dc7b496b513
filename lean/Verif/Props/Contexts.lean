import Verif.Spec.Contexts
import Verif.Go.Validate

/-!
C113: the generator has a template for every rule.
-/

set_option linter.unusedSimpArgs false
set_option autoImplicit false

namespace PGV.Props
open PGV PGV.Spec PGV.Module

/-- The templates that contexts can ask for. -/
def asked : List String :=
  numbers ++ ["bool", "string", "bytes", "enum", "repeated", "map", "any", "duration", "timestamp", "message", "none", "wrapper"]

theorem own_asked (embed : Bool) (t : TypeRules) : ∀ n ∈ own embed t, n ∈ asked := by
  cases t with
  | num k r => cases k <;> cases embed <;> simp [own, resolveRules, numTemplate, asked, numbers]
  | _ => cases embed <;> simp [own, resolveRules, asked, numbers]

mutual
theorem inner_asked (embed elem : Bool) : (r : FieldRules) → ∀ n ∈ innerTemplates embed elem r, n ∈ asked
  | .absent => by
    rw [innerTemplates]
    exact own_asked embed .unset
  | .mk _ t => by
    rw [innerTemplates]
    intro n h
    rcases List.mem_append.1 h with h | h
    · exact own_asked _ _ n h
    · exact part_asked elem t n h
theorem part_asked (elem : Bool) : (t : TypeRules) → ∀ n ∈ partTemplates elem t, n ∈ asked
  | .repeated _ items => by
    rw [partTemplates]
    exact inner_asked elem elem items
  | .map _ keys values => by
    rw [partTemplates]
    intro n h
    rcases List.mem_append.1 h with h | h
    · exact inner_asked _ _ keys n h
    · exact inner_asked _ _ values n h
  | .unset | .num _ _ | .bool _ | .string _ | .bytes _ | .enum _ | .any _ | .duration _ | .timestamp _ => by
    intro n h
    simp [partTemplates] at h
end

theorem field_asked (f : FieldDesc) : ∀ n ∈ fieldTemplates f, n ∈ asked := by
  have both : ∀ b t n, n ∈ own b t ++ partTemplates (elemEmbed f.typ) t → n ∈ asked := by
    intro b t n h
    rcases List.mem_append.1 h with h | h
    · exact own_asked _ _ n h
    · exact part_asked _ _ n h
  intro n h
  unfold fieldTemplates at h
  split at h
  · rcases List.mem_cons.1 h with rfl | h
    · decide
    · exact inner_asked _ _ _ n h
  · split at h
    · rcases List.mem_cons.1 h with rfl | h
      · decide
      · rcases List.mem_append.1 h with h | h <;> exact inner_asked _ _ _ n h
    · simp at h; subst h; decide
  · exact both _ _ n h
  · exact both _ _ n h

theorem renders_of (L : Templates) (h1 : ∀ n ∈ asked, n ∈ L.registered)
    (h2 : ∀ n ∈ L.registered, ∀ m ∈ L.includes n, m ∈ L.registered) (f : FieldDesc) : Renders L f := by
  intro n hn m he
  induction he with
  | self => exact h1 n (field_asked f n hn)
  | step _ hk ih => exact h2 _ ih _ hk

/-- **C113** For every field, with whatever rules, nested as deep as they may be, Go has all templates that are executed. -/
theorem C113_go (f : FieldDesc) : Renders goTemplates f := renders_of _ (by decide) (by decide) f

/-- **C113** So does C++. -/
theorem C113_cpp (f : FieldDesc) : Renders ccTemplates f := renders_of _ (by decide) (by decide) f

/-- **C113** So does Java. -/
theorem C113_java (f : FieldDesc) : Renders javaTemplates f := renders_of _ (by decide) (by decide) f

/-- **C113** In Java the checks of every kind of rule but those of bool fields and of messages refer to constants; there is a template that
declares them. -/
theorem C113_java_constants (f : FieldDesc) (n : String) (h : n ∈ fieldTemplates f) (h1 : n ∉ ["none", "bool", "message"]) :
    n ++ "Const" ∈ javaTemplates.registered := by
  have key : ∀ n ∈ asked, n ∉ ["none", "bool", "message"] → n ++ "Const" ∈ javaTemplates.registered := by decide
  exact key n (field_asked f n h) h1

/-- A map from strings to wrapped numbers, with rules for both. -/
def wrappedMap : FieldDesc :=
  ⟨"m", .map .string (.embed "google.protobuf.Int32Value" none),
    .mk none (.map {} (.mk none (.string {})) (.mk none (.num .int32 {})))⟩

/-- For `wrappedMap` these templates are executed. -/
example : fieldTemplates wrappedMap = ["map", "string", "wrapper", "int32"] := by
  simp [fieldTemplates, wrappedMap, FieldRules.type, partTemplates, innerTemplates, own, resolveRules, numTemplate, elemEmbed, ElemT.isEmbed]

/-- The number template goes on to others: "ltgt" is executed for `wrappedMap` in Go. -/
example : Executes goTemplates "int32" "ltgt" := .step (.self _) (by decide)

/-- Without a template for wrapped values, generation would fail for `wrappedMap`. -/
example : ¬ Renders { goTemplates with registered := goTemplates.registered.filter (· != "wrapper") } wrappedMap := by
  intro h
  refine absurd (h "wrapper" ?_ _ (.self _)) (by decide)
  simp [fieldTemplates, wrappedMap, FieldRules.type, partTemplates, innerTemplates, own, resolveRules, numTemplate, elemEmbed, ElemT.isEmbed]

/-- A repeated field of messages without rules. -/
example : fieldTemplates ⟨"r", .rep (.embed "M" none), .absent⟩ = ["repeated", "message"] := by
  simp [fieldTemplates, FieldRules.type, innerTemplates, own, resolveRules, ElemT.isEmbed]

end PGV.Props
