import Verif.Lemmas.Simple

/-!
The Python text of simple rules parses; simple, well-typed messages are in the common part of each pair of languages.
-/

set_option linter.unusedSimpArgs false

namespace PGV.Simple
open PGV PGV.Spec PGV.Spec.Simple
open PGV.Go (Env allFields)

/-! ### Python text -/

section
open PGV.Py PGV.Py.Code
variable {P : Py.PEnv} {nm : String}

@[local simp] theorem some_stmt {α : Type} (s : α → Run) : (stmt s).isSome = true := rfl
@[local simp] theorem some_raiseIf {α : Type} (why : Text) (t : α → Bool) : (raiseIf nm why t).isSome = true := rfl
@[local simp] theorem some_nothing {α : Type} : (nothing : Code α).isSome = true := rfl
@[local simp] theorem some_numTest (l : List Num) (why : Text) (t : Num → Bool) : (numTest nm l why t).isSome = true := rfl

@[local simp] theorem some_genPos {α : Type} (o : Option Nat) (k : Nat → Code α) (h : ∀ n, (k n).isSome = true) :
    (genPos o k).isSome = true := by
  unfold genPos
  simp [h]

theorem some_numCode (r : NumRules) (h : r.ignoreEmpty = none) : (numCode nm r).isSome = true := by
  have hr : (numRange nm r).isSome = true := by
    unfold numRange
    dsimp only
    repeat' split
    all_goals rfl
  unfold numCode numIn
  simp [h, hr]

theorem some_boolCode (r : BoolRules) : (boolCode nm r).isSome = true := by
  unfold boolCode
  simp

theorem some_enumCode (l : List Int) (r : EnumRules) : (enumCode nm l r).isSome = true := by
  unfold enumCode inCode
  simp

theorem some_genText (o : Option Bytes) (k : PStr → Code PStr) (hk : ∀ l, (k l).isSome = true)
    (h : ∀ s, o = some s → Word s) : (genText P o k).isSome = true := by
  unfold genText
  cases o with
  | none => simp [optS]
  | some s =>
    have hl : literal P (optS (some s)) = some (pstr s) := literal_safe P (word_python (h s rfl))
    rw [hl]
    simp [hk]

theorem some_strCode (r : StringRules) (h : SimpleString r) : (strCode P nm r).isSome = true := by
  have hl : listOk P (r.ins ++ r.notIns) = true := by
    unfold listOk
    rw [List.all_eq_true]
    intro s hs
    rw [plain_of_safe (word_python (h.words s (by
      rcases List.mem_append.1 hs with hs | hs <;> simp [hs])))]
    rfl
  have hp : (strPattern P nm r).isSome = true := by
    have hr : r.getRegex = .unknown := by
      unfold StringRules.getRegex
      rw [h.no_format]
    unfold strPattern
    rw [hr]
    simp [knownRegex, h.no_pattern, optS]
  have ha : (strAffix P nm r).isSome = true := by
    unfold strAffix
    simp only [some_seq]
    refine ⟨?_, ?_, ?_, ?_⟩ <;> refine some_genText _ _ (fun _ => rfl) fun s hs => h.words s ?_ <;> simp [hs]
  have hf : (strFormat P nm r).isSome = true := by
    unfold strFormat
    simp
  have hn : (strLen nm r).isSome = true := by
    unfold strLen
    simp only [some_seq]
    refine ⟨?_, ?_, ?_, ?_, ?_, ?_⟩ <;> exact some_genPos _ _ fun _ => rfl
  have hi : (inCode (α := PStr) nm .str (listOk P (r.ins ++ r.notIns)) (r.ins.map pstr) (r.notIns.map pstr)).isSome = true := by
    unfold inCode
    simp [hl]
  unfold strCode
  simp only [h.no_ignore, optB, Option.getD_none, Bool.false_eq_true, if_false, some_seq, hi, hn, hp, ha, hf, and_true,
    some_genOpt]
  intro c hc
  rw [literal_safe P (word_python (h.words c (.inl hc)))]
  rfl

theorem simple_text {e : ElemT} {t : TypeRules} (h : SimpleType e t) : typeText t = true := by
  cases h with
  | num h => simp [typeText, h.some_rule]
  | bool h => simp [typeText, h]
  | string h => simp [typeText, h.some_rule]
  | enum h => simp [typeText, h.some_rule]

theorem some_switcher (rec : Val → Run) {e : ElemT} {rules : FieldRules} (h : SimpleElem P e rules) :
    (switcher P rec nm e rules).isSome = true := by
  cases h with
  | free => rfl
  | ruled h =>
    have ht := simple_text h
    unfold switcher
    simp only [ht, if_true]
    cases h with
    | num h => simpa using some_numCode _ h.no_ignore
    | bool => simpa using some_boolCode _
    | string h => simpa [Py.inline, h.no_ignore, optB] using some_strCode _ h
    | enum => simpa using some_enumCode _ _

theorem some_keyCode {e : ElemT} {rules : FieldRules} (h : SimpleElem P e rules) : (keyCode P rules).isSome = true := by
  cases h with
  | free => rfl
  | ruled h =>
    unfold keyCode
    cases h with
    | num h =>
      simp only [FieldRules.type]
      split
      · rfl
      · rename_i h2
        cases h2
        simpa using fun _ => some_numCode _ h.no_ignore
      · rename_i h2; cases h2
      · rename_i h2; cases h2
      · rfl
    | bool => simpa [FieldRules.type] using fun _ => some_boolCode _
    | string h => simpa [FieldRules.type, Py.inline, h.no_ignore, optB] using fun _ => some_strCode _ h
    | enum => rfl

theorem some_repeatedCode (rec : Val → Run) {e : ElemT} {r : RepeatedRules} {items : FieldRules}
    (h : SimpleElem P e items) (hi : r.ignoreEmpty = none) : (repeatedCode P rec nm e r items).isSome = true := by
  unfold repeatedCode ignoreBlock
  simp only [hi, optB, Option.getD_none, Bool.false_eq_true, if_false, some_seq, some_gen, some_loop]
  exact ⟨some_genPos _ _ fun _ => rfl, some_genPos _ _ fun _ => rfl, fun _ => rfl, fun _ _ => rfl,
    fun _ => some_switcher rec h⟩

theorem some_mapCode (rec : Val → Run) {kt vt : ElemT} {r : MapRules} {keys values : FieldRules}
    (hk : SimpleElem P kt keys) (hv : SimpleElem P vt values) (hi : r.ignoreEmpty = none) :
    (mapCode P rec nm vt r keys values).isSome = true := by
  unfold mapCode ignoreBlock
  simp only [hi, optB, Option.getD_none, Bool.false_eq_true, if_false, some_seq]
  refine ⟨some_genPos _ _ fun _ => rfl, some_genPos _ _ fun _ => rfl, ?_⟩
  split
  · simp [some_keyCode hk, some_switcher rec hv]
  · simp

theorem some_fieldCode (rec : Val → Run) (b : Bool) {f : FieldDesc} (h : SimpleField P f.typ f.rules) :
    (fieldCode P rec b f).isSome = true := by
  obtain ⟨name, typ, rules⟩ := f
  dsimp only at h
  have scalar : ∀ {e list}, (∀ n w, e ≠ .embed n w) → SimpleElem P e rules →
      (scalarField P b ⟨name, typ, rules⟩ e list).isSome = true := by
    intro e list he h
    unfold scalarField
    cases h with
    | free => rfl
    | ruled h' =>
      have ht := simple_text h'
      simp only [ht, messageText, Bool.not_false, Bool.and_true, Bool.true_or, if_true]
      cases h' with
      | num g => simpa using some_numCode _ g.no_ignore
      | bool => simpa using some_boolCode _
      | string g => cases b <;> simpa [oneofText, Py.inline, g.no_ignore, optB] using some_strCode _ g
      | enum => simpa using some_enumCode _ _
  cases h with
  | @one e rules he =>
    cases e with
    | embed n w =>
      cases he with
      | free ho =>
        simp only [fieldCode, messageField, messageCode, requiredCode]
        split
        · rfl
        · split
          · rfl
          · simp [msgSkip, optB]
      | ruled h => cases h
    | _ => exact scalar (by simp) he
  | required ho =>
    simp only [fieldCode, unruled, Bool.false_and, Bool.false_eq_true, if_false, messageField, typeText,
      messageField.messageOr, messageText]
    simp [messageCode, requiredCode, msgSkip, optB]
  | @list e ho hl =>
    cases e with
    | embed n w =>
      simp only [fieldCode]
      split
      · rfl
      · split
        · unfold pairList
          simp
        · unfold messageList
          dsimp only
          split
          · rfl
          · simpa using some_repeatedCode rec (.free ho) rfl
    | _ => exact scalar (list := true) (by simp) (.free ho)
  | @listRules e r items he hne hm hi hu =>
    have ht : typeText (.repeated r items) = true := by
      simp only [typeText, Bool.or_eq_true, bne_iff_ne, ne_eq]
      rcases hne with h | h
      · exact .inl h
      · cases items with
        | absent => exact absurd rfl h
        | mk => exact .inr rfl
    cases e with
    | embed n w =>
      simp only [fieldCode, unruled, Bool.false_and, Bool.false_eq_true, if_false]
      unfold messageList
      simp only [messageText, Bool.false_eq_true, if_false, ht, if_true]
      simpa using some_repeatedCode rec he hi
    | _ =>
      simp only [fieldCode]
      unfold scalarField
      simp only [ht, messageText, Bool.not_false, Bool.and_true, Bool.true_or, if_true]
      simpa using some_repeatedCode _ he hi
  | @map kt vt ho =>
    simp only [fieldCode]
    unfold mapField
    simpa using some_mapCode (kt := .bool) rec (.free trivial) (.free ho) rfl
  | @mapRules kt vt r keys values hk hke hne hv hr hm hn hi he =>
    have ht : typeText (.map r keys values) = true := by
      simp only [typeText, Bool.or_eq_true, bne_iff_ne, ne_eq]
      rcases hr with h | h | h
      · exact .inl (.inl h)
      · cases keys with
        | absent => exact absurd rfl h
        | mk => exact .inl (.inr rfl)
      · cases values with
        | absent => exact absurd rfl h
        | mk => exact .inr rfl
    simp only [fieldCode]
    unfold mapField
    simp only [messageText, Bool.false_eq_true, if_false, ht, if_true]
    simpa using some_mapCode rec hk hv hi

theorem some_block_stmt {α : Type} (t : α → Bool) (s : α → Run) (c : Code α) (h : c.isSome = true) :
    (block t (stmt s ;; c)).isSome = true := by
  cases c with
  | none => cases h
  | some l => rfl

theorem some_memberCode (rec : Val → Run) (o : OneofDesc) (fs : List FieldDesc)
    (h : ∀ f ∈ fs, SimpleField P f.typ f.rules) : (memberCode P rec o fs).isSome = true := by
  induction fs with
  | nil => rfl
  | cons f fs ih =>
    unfold memberCode
    rw [some_seq]
    refine ⟨some_block_stmt _ _ _ ?_, ih fun g hg => h g (List.mem_cons_of_mem _ hg)⟩
    rw [some_on]
    exact some_fieldCode rec true (h f List.mem_cons_self)

theorem parses {d : MsgDesc} (h : ∀ f ∈ allFields d, SimpleField P f.typ f.rules) : Python.Parses P d := by
  intro rec
  have hb : (seqAll d.oneofs (oneofCode P rec) ;;
      seqAll d.fields (fun f => on (fun c : Content => getField c.1 f) (fieldCode P rec false f))).isSome = true := by
    simp only [some_seq, some_seqAll, some_on]
    refine ⟨fun o ho => ?_, fun f hf => some_fieldCode rec false (h f (List.mem_append_left _ hf))⟩
    unfold oneofCode
    rw [some_seq]
    exact ⟨some_memberCode rec o _ fun f hf => h f (List.mem_append_right _ (List.mem_flatMap.2 ⟨o, ho, hf⟩)), by simp⟩
  unfold Py.msgCode
  dsimp only
  split
  · simpa using hb
  · exact hb

end

/-! ### Messages -/

section
variable {P : Py.PEnv} {S : Schema} {v : Val}

/-- What has to be shown of fields, for whole messages. -/
theorem fields_of (hs : Simple P S v) (ht : WellTyped S v) (F : FieldDesc → Val → Prop)
    (hF : ∀ f u, SimpleField P f.typ f.rules → HasFieldType f.typ u → F f u) {typ : String} {fs : List (String × Val)}
    {os : List (String × String × Val)} {d : MsgDesc} (hp : Part (.msg typ fs os) v) (hd : S typ = .generated d) :
    (∀ f ∈ d.fields, F f (getField fs f)) ∧
    (∀ o ∈ d.oneofs, (o.fields.map (·.name)).Nodup ∧ ∀ m u, os.lookup o.name = some (m, u) →
      ∃ f, f ∈ o.fields ∧ f.name = m ∧ F f u) := by
  obtain ⟨h1, h2⟩ := ht typ fs os d hp hd
  have h0 := hs typ fs os d hp hd
  refine ⟨fun f hf => hF f _ (h0 f (List.mem_append_left _ hf)) (h1 f hf), fun o ho => ⟨(h2 o ho).1, fun m u hm => ?_⟩⟩
  obtain ⟨f, hf, hn, hu⟩ := (h2 o ho).2 m u hm
  exact ⟨f, hf, hn, hF f u (h0 f (List.mem_append_right _ (List.mem_flatMap.2 ⟨o, ho, hf⟩))) hu⟩

theorem found {o : OneofDesc} {F : FieldDesc → Val → Prop} {m : String} {u : Val} (hn : (o.fields.map (·.name)).Nodup)
    (h : ∃ f, f ∈ o.fields ∧ f.name = m ∧ F f u) {f : FieldDesc}
    (hf : o.fields.find? (fun f => f.name == m) = some f) : F f u := by
  obtain ⟨g, hg, rfl, hu⟩ := h
  rw [Py.find_of_nodup hn hg] at hf
  cases hf
  exact hu

theorem java_portable (hs : Simple P S v) (ht : WellTyped S v) : Spec.Portable javaCommon S v := by
  intro typ fs os d hp hd _
  obtain ⟨h1, h2⟩ := fields_of hs ht _ (fun f u => java_field) hp hd
  exact ⟨h1, fun o ho m u f hm hf => found (h2 o ho).1 ((h2 o ho).2 m u hm) hf⟩

theorem cpp_portable (E : Env) (Q : PGV.Cpp.CEnv) (hs : Simple P S v) (ht : WellTyped S v) : Spec.Cpp.Portable E Q S v := by
  intro typ fs os d hp hd _
  obtain ⟨h1, h2⟩ := fields_of hs ht _ (fun f u => cpp_field (E := E) (Q := Q)) hp hd
  exact ⟨h1, fun o ho m u f hm hf => found (h2 o ho).1 ((h2 o ho).2 m u hm) hf⟩

theorem py_portable (hs : Simple P S v) (ht : WellTyped S v) : Python.Portable (pyCommon P) P S v := by
  intro typ fs os d hp hd
  exact ⟨parses (hs typ fs os d hp hd), fun _ _ => fields_of hs ht _ (fun f u => py_field) hp hd⟩

/-- There are no timestamp rules. -/
theorem no_uses {K : TimestampRules → Prop} {f : FieldT} {rules : FieldRules} (h : SimpleField P f rules) :
    ¬ Uses K rules := by
  have elem : ∀ {e rules}, SimpleElem P e rules → ¬ Uses K rules := by
    intro e rules h hu
    cases h with
    | free => cases hu
    | ruled h => cases h <;> cases hu
  intro hu
  cases h with
  | one h => exact elem h hu
  | required => cases hu
  | list => cases hu
  | listRules h => cases hu with | item hu => exact elem h hu
  | map => cases hu
  | mapRules hk _ _ hv =>
    cases hu with
    | key hu => exact elem hk hu
    | value hu => exact elem hv hu

theorem clock_free (hs : Simple P S v) : Without Relative S v :=
  fun typ fs os d hp hd f hf => no_uses (hs typ fs os d hp hd f hf)

/-- The clock has no part in which rules are simple. -/
theorem simple_clock (t : Int) (hs : Simple P S v) : Simple (Local.Py.clock P t) S v := by
  have elem : ∀ {e rules}, SimpleElem P e rules → SimpleElem (Local.Py.clock P t) e rules := by
    intro e rules h
    cases h with
    | free h => exact .free (by cases e <;> exact h)
    | ruled h => exact .ruled h
  intro typ fs os d hp hd f hf
  have h := hs typ fs os d hp hd f hf
  obtain ⟨name, ty, rules⟩ := f
  dsimp only at h ⊢
  cases h with
  | one h => exact .one (elem h)
  | required h => exact .required h
  | @list e h1 h2 => exact .list (by cases e <;> exact h1) h2
  | listRules h h1 h2 h3 h4 => exact .listRules (elem h) h1 h2 h3 h4
  | @map _ vt h => exact .map (by cases vt <;> exact h)
  | mapRules h h1 h2 h3 h4 h5 h6 h7 h8 => exact .mapRules (elem h) h1 h2 (elem h3) h4 h5 h6 h7 h8

end

end PGV.Simple
