import Verif.Lemmas.PyReasonStr

/-!
The messages of Python exceptions about fields, items, keys and values, and about nested messages.
-/

set_option linter.unusedSimpArgs false

namespace PGV.Py
open PGV PGV.Py.Code PGV.Spec.PyReason
open PGV.Spec hiding lenient

variable {P : PEnv} {ty : FieldT} {T : TypeRules} {nm : String} {elem : Bool}

/-! ### Checks on values -/

/-- The text tells the value from those for which `acc` holds. -/
def Sound (P : PEnv) (ty : FieldT) (T : TypeRules) (elem : Bool) (acc : Val → Prop) (t : Text) (v : Val) : Prop :=
  Misstated P T t v ∨ (elem = true ∧ t = [.s "is required."]) ∨
    ∃ s, ¬ Reading P ty s t v ∧ Describes t v ∧ ∀ u, acc u → Exempt P T t u ∨ Reading P ty s t u

theorem Sound.mono {acc acc' : Val → Prop} {t : Text} {v : Val} (h : Sound P ty T elem acc t v)
    (hi : ∀ u, acc' u → acc u) : Sound P ty T elem acc' t v := by
  rcases h with h | h | ⟨s, h1, h2, h3⟩
  · exact .inl h
  · exact .inr (.inl h)
  · exact .inr (.inr ⟨s, h1, h2, fun u hu => h3 u (hi u hu)⟩)

/-- Every text that the code raises is sound. -/
def VTells (P : PEnv) (ty : FieldT) (T : TypeRules) (elem : Bool) (nm : String) (c : Code Val) : Prop :=
  ∀ v n t, c.run v = .error (.failed n t) → n = nm ∧ Sound P ty T elem (fun u => c.run u = .ok ()) t v

theorem vtells_nothing : VTells P ty T elem nm nothing := fun _ _ _ h => by cases h

theorem vtells_none : VTells P ty T elem nm none := fun _ _ _ h => by cases h

theorem VTells.seq {a b : Code Val} (ha : VTells P ty T elem nm a) (hb : VTells P ty T elem nm b) :
    VTells P ty T elem nm (a ;; b) := by
  intro v n t h
  rcases fails_seq h with h | h
  · exact ⟨(ha v n t h).1, (ha v n t h).2.mono fun u hu => ((run_seq _ _ _).1 hu).1⟩
  · exact ⟨(hb v n t h).1, (hb v n t h).2.mono fun u hu => ((run_seq _ _ _).1 hu).2⟩

theorem vtells_gen {g : Bool} {c : Code Val} (h : g = true → VTells P ty T elem nm c) :
    VTells P ty T elem nm (gen g c) := by
  cases g with
  | false => exact vtells_nothing
  | true => exact h rfl

theorem vtells_ite {p : Prop} [Decidable p] {a b : Code Val} (ha : p → VTells P ty T elem nm a)
    (hb : ¬ p → VTells P ty T elem nm b) : VTells P ty T elem nm (if p then a else b) := by
  split
  · exact ha ‹_›
  · exact hb ‹_›

/-- Texts about single values. -/
theorem reading_item {e : ElemT} {s : Sense} {t : Text} {x : PItem} (h : ¬ itemReading P e s t x) (ty : FieldT) (v : Val) :
    (Reading P ty s t v ↔ ∀ x, pyView v = some x → itemReading P (elemOf ty) s t x) ∧ Describes t v := by
  constructor
  · unfold Reading
    split <;> first | rfl | (exfalso; apply h; simp [itemReading, bareText])
  · unfold Describes
    split
    · exfalso; apply h; simp [itemReading]
    · trivial

theorem reading_required (s : Sense) (v : Val) : Reading P ty s [.s "is required."] v ↔ v ≠ .null := by
  cases ty <;> simp [Reading]

/-- From what is seen of a value to the value. -/
theorem sound_of {α : Type} {view : α → PItem} {c : Code α} (h : Tells P (elemOf ty) T nm view c) {a : α} {n : String}
    {t : Text} {v : Val} {acc : Val → Prop} (hv : pyView v = some (view a)) (hf : c.run a = .error (.failed n t))
    (hacc : ∀ u, acc u → pyView u = none ∨ (∀ t, Exempt P T t u) ∨ ∃ b, pyView u = some (view b) ∧ c.run b = .ok ()) :
    n = nm ∧ Sound P ty T elem acc t v := by
  obtain ⟨hn, hm | ⟨s, h1, h2⟩⟩ := h a n t hf
  · exact ⟨hn, .inl (hm v hv)⟩
  · refine ⟨hn, .inr (.inr ⟨s, ?_, (reading_item h1 ty v).2, fun u hu => ?_⟩)⟩
    · rw [(reading_item h1 ty v).1]
      exact fun h => h1 (h _ hv)
    · rw [(reading_item h1 ty u).1]
      rcases hacc u hu with hb | hb | ⟨b, hb, hr⟩
      · exact .inr fun x hx => by rw [hb] at hx; cases hx
      · exact .inl (hb t)
      · rcases h2 b hr with h | h
        · exact .inl (h u hb)
        · refine .inr fun x hx => ?_
          rw [hb] at hx
          cases hx
          exact h

theorem ok_onScalar {γ : Type} {get : Scalar → Option γ} {c : Code γ} {u : Val} (h : (onScalar get c).run u = .ok ()) :
    c = some [] ∨ ∃ s a, u = .sc s ∧ get s = some a ∧ c.run a = .ok () := by
  cases c with
  | none => cases h
  | some l =>
    cases l with
    | nil => exact .inl rfl
    | cons st l =>
      right
      cases u with
      | sc x =>
        cases hx : get x with
        | some a => exact ⟨x, a, rfl, hx, by rw [run_onScalar hx] at h; exact h⟩
        | none => simp [onScalar, run, runAll, hx] at h
      | _ => simp [onScalar, run, runAll] at h

theorem ok_onWrapped {γ : Type} {get : Scalar → Option γ} {c : Code γ} {u : Val} (h : (onWrapped get c).run u = .ok ()) :
    c = some [] ∨ ∃ s a, u = .wrapper s ∧ get s = some a ∧ c.run a = .ok () := by
  cases c with
  | none => cases h
  | some l =>
    cases l with
    | nil => exact .inl rfl
    | cons st l =>
      right
      cases u with
      | wrapper x =>
        cases hx : get x with
        | some a => exact ⟨x, a, rfl, hx, by rw [run_onWrapped hx] at h; exact h⟩
        | none => simp [onWrapped, run, runAll, hx] at h
      | _ => simp [onWrapped, run, runAll] at h

theorem ok_onSecs {c : Code Int} {u : Val} (h : (onSecs c).run u = .ok ()) :
    c = some [] ∨ ((∃ d, u = .dur d) ∨ ∃ t, u = .ts t) ∧ c.run (secsOf u) = .ok () := by
  cases c with
  | none => cases h
  | some l =>
    cases l with
    | nil => exact .inl rfl
    | cons st l =>
      right
      cases u with
      | dur d => exact ⟨.inl ⟨d, rfl⟩, by rw [run_onSecs_dur] at h; exact h⟩
      | ts t => exact ⟨.inr ⟨t, rfl⟩, by rw [run_onSecs_ts] at h; exact h⟩
      | _ => simp [onSecs, run, runAll] at h

theorem fails_onSecs {c : Code Int} {v : Val} {n : String} {t : Text} (h : (onSecs c).run v = .error (.failed n t)) :
    ((∃ d, v = .dur d) ∨ ∃ t, v = .ts t) ∧ c.run (secsOf v) = .error (.failed n t) := by
  cases c with
  | none => cases h
  | some l =>
    cases l with
    | nil => cases h
    | cons st l =>
      cases v with
      | dur d => exact ⟨.inl ⟨d, rfl⟩, by rw [run_onSecs_dur] at h; exact h⟩
      | ts t => exact ⟨.inr ⟨t, rfl⟩, by rw [run_onSecs_ts] at h; exact h⟩
      | _ => simp [onSecs, run, runAll] at h

theorem not_empty {α : Type} {c : Code α} {a : α} {n : String} {t : Text} (h : c.run a = .error (.failed n t)) :
    c ≠ some [] := by
  rintro rfl; cases h

/-- The Python value of a scalar is what the message shows. -/
def Shows {γ : Type} (get : Scalar → Option γ) (view : γ → PItem) : Prop := ∀ s a, get s = some a → scalarView s = view a

theorem vtells_onScalar {γ : Type} {get : Scalar → Option γ} {view : γ → PItem} {c : Code γ} (hg : Shows get view)
    (h : Tells P (elemOf ty) T nm view c) : VTells P ty T elem nm (onScalar get c) := by
  intro v n t hv
  obtain ⟨s, a, rfl, hs, hf⟩ := fails_onScalar hv
  refine sound_of h (a := a) (by rw [pyView, hg s a hs]) hf fun u hu => ?_
  rcases ok_onScalar hu with h | ⟨s', b, rfl, hb, hr⟩
  · exact absurd h (not_empty hf)
  · exact .inr (.inr ⟨b, by rw [pyView, hg s' b hb], hr⟩)

theorem shows_num : Shows getNum .num := by
  intro s a h; cases s <;> simp [getNum] at h; subst h; rfl
theorem shows_bool : Shows getBool .bool := by
  intro s a h; cases s <;> simp [getBool] at h; subst h; rfl
theorem shows_str : Shows getStr .str := by
  intro s a h; cases s <;> simp [getStr] at h; subst h; rfl
theorem shows_bytes : Shows getBytes .bytes := by
  intro s a h; cases s <;> simp [getBytes] at h; subst h; rfl
theorem shows_enum : Shows getEnum .enum := by
  intro s a h; cases s <;> simp [getEnum] at h; subst h; rfl

theorem has_false {pl : Place} {v : Val} (h : pl.has v = false) : pl = .element ∨ v = .null := by
  cases pl with
  | element => exact .inl rfl
  | field => exact .inr ((isNull_iff _).1 (by simpa [Place.has] using h))

theorem vtells_required {pl : Place} {req : Option Bool} (he : pl = .element → elem = true) :
    VTells P ty T elem nm (requiredCode nm req pl.has) := by
  refine vtells_gen fun _ v n t hv => ?_
  obtain ⟨rfl, rfl, ht⟩ := fails_raiseIf hv
  refine ⟨rfl, .inr ?_⟩
  have : pl.has v = false := by simpa using ht
  cases hp : pl with
  | element => exact .inl ⟨he hp, rfl⟩
  | field =>
    subst hp
    rcases has_false this with h | rfl
    · cases h
    refine .inr ⟨{}, ?_, trivial, fun u hu => .inr ?_⟩
    · rw [reading_required]; simp
    · rw [reading_required]
      rintro rfl
      rw [run_raiseIf] at hu
      cases hu

theorem guard_iff {pl : Place} {v : Val} : pl.guard v = true ↔ v ≠ .null := by
  cases pl <;> cases v <;> simp [Place.guard, isNull]

theorem vtells_block_secs {pl : Place} {c : Code Int} (h : Tells P (elemOf ty) T nm .secs c) :
    VTells P ty T elem nm (block pl.guard (onSecs c)) := by
  intro v n t hv
  obtain ⟨hg, hf, hs⟩ := fails_block hv
  obtain ⟨hv', hf⟩ := fails_onSecs hf
  have view : ∀ u : Val, ((∃ d, u = .dur d) ∨ ∃ t, u = .ts t) → pyView u = some (.secs (secsOf u)) := by
    rintro u (⟨d, rfl⟩ | ⟨t, rfl⟩) <;> rfl
  refine sound_of h (view v hv') hf fun u hu => ?_
  rw [run_block hs] at hu
  by_cases hn : u = .null
  · subst hn; exact .inl rfl
  · rcases ok_onSecs (hu (guard_iff.2 hn)) with h | ⟨h1, h2⟩
    · exact absurd h (not_empty hf)
    · exact .inr (.inr ⟨_, view u h1, h2⟩)

theorem vtells_duration {pl : Place} {r : DurationRules} (he : pl = .element → elem = true) :
    VTells P ty (.duration r) elem nm (durationCode nm pl r) :=
  (vtells_required he).seq (vtells_block_secs tells_durBody)

theorem vtells_timestamp {pl : Place} {r : TimestampRules} (he : pl = .element → elem = true) :
    VTells P ty (.timestamp r) elem nm (timestampCode P nm pl r) :=
  (vtells_required he).seq (vtells_block_secs tells_tsBody)

theorem vtells_raiseUrl {why : Text} {test : PStr → Bool}
    (h : ∀ u, test u = false ↔ itemReading P (elemOf ty) {} why (.str u)) :
    VTells P ty T elem nm (raiseUrl nm why test) := by
  intro v n t hv
  rw [raiseUrl, run_stmt] at hv
  cases v with
  | any url b =>
    simp only at hv
    refine sound_of (tells_raise' {} h) (a := pstr url) rfl (by rw [raiseIf, run_stmt]; exact hv) fun u hu => ?_
    rw [raiseUrl, run_stmt] at hu
    cases u with
    | null => exact .inl rfl
    | any url' b' => exact .inr (.inr ⟨_, rfl, by rw [raiseIf, run_stmt]; exact hu⟩)
    | _ => cases hu
  | _ => cases hv

theorem vtells_any {pl : Place} {r : AnyRules} (he : pl = .element → elem = true) :
    VTells P ty (.any r) elem nm (anyCode P nm pl r) := by
  refine (vtells_required he).seq (.seq (vtells_gen fun _ => vtells_ite (fun _ => ?_) fun _ => vtells_none)
    (vtells_gen fun _ => vtells_ite (fun _ => ?_) fun _ => vtells_none))
  · refine vtells_raiseUrl fun u => ?_
    simp only [itemReading, listText, List.mem_map, Bool.not_eq_false', List.contains_iff_mem]
    constructor
    · rintro ⟨a, ha, rfl⟩; exact ⟨_, ⟨a, ha, rfl⟩, rfl⟩
    · rintro ⟨_, ⟨a, ha, rfl⟩, h⟩; exact ⟨a, ha, (same_str.1 h).symm⟩
  · refine vtells_raiseUrl fun u => ?_
    simp only [itemReading, listText, List.mem_map, ← Bool.not_eq_true, List.contains_iff_mem]
    constructor
    · rintro h _ ⟨a, ha, rfl⟩ hh; exact h ⟨a, ha, (same_str.1 hh).symm⟩
    · rintro h ⟨a, ha, rfl⟩; exact h _ ⟨a, ha, rfl⟩ rfl

theorem vtells_element_message {rec : Val → Run} {m : Option MessageRules} :
    VTells P ty T true nm (messageCode rec nm .element m) := by
  refine (vtells_required fun _ => rfl).seq (vtells_ite (fun _ => vtells_nothing) fun _ v n t hv => ?_)
  rw [run_stmt] at hv
  split at hv <;> cases hv

theorem vtells_switcher {rec : Val → Run} {e : ElemT} {rules : FieldRules} :
    VTells P (.one e) rules.type true nm (switcher P rec nm e rules) := by
  cases rules with
  | absent => exact vtells_nothing
  | mk m t =>
    simp only [switcher, FieldRules.type]
    refine vtells_ite (fun _ => ?_) fun _ => vtells_gen fun _ => vtells_element_message
    cases t with
    | num k r => exact vtells_onScalar shows_num tells_numCode
    | bool r => exact vtells_onScalar shows_bool tells_boolCode
    | string r => exact vtells_onScalar shows_str (tells_inline tells_strCode)
    | enum r => exact vtells_onScalar shows_enum (tells_enumCode rfl)
    | duration r => exact vtells_duration fun _ => rfl
    | timestamp r => exact vtells_timestamp fun _ => rfl
    | any r =>
      simp only
      exact vtells_ite (fun _ => vtells_element_message) fun _ => vtells_any fun _ => rfl
    | _ => exact vtells_gen fun _ => vtells_element_message

theorem vtells_keyCode {kt : ElemT} {keys : FieldRules} : VTells P (.one kt) keys.type false "key" (keyCode P keys) := by
  unfold keyCode
  split
  · exact vtells_nothing
  · rename_i h; rw [h]
    exact vtells_gen fun _ => vtells_onScalar shows_num tells_numCode
  · rename_i h; rw [h]
    exact vtells_gen fun _ => vtells_onScalar shows_bool tells_boolCode
  · rename_i h; rw [h]
    exact vtells_gen fun _ => vtells_onScalar shows_str (tells_inline tells_strCode)
  · exact vtells_nothing

/-! ### Fields -/

/-- `Grounds`, for any notion of accepted values. -/
def GroundsA (P : PEnv) (f : FieldDesc) (acc : Val → Prop) (v : Val) (n : String) (text : Text) : Prop :=
  ∃ spot ty t w, Target f spot v ty t w ∧ Names f n text w spot ∧
    (Misstated P t text w ∨ (spot ≠ .whole ∧ text = [.s "is required."]) ∨
      ∃ s, ¬ Reading P ty s text w ∧ Describes text w ∧
        ∀ u w', acc u → Target f spot u ty t w' → Exempt P t text w' ∨ Reading P ty s text w')

section targets
variable {f : FieldDesc} {u w : Val} {spot : Spot}

theorem target_whole (h : Target f spot u ty T w) (hs : spot = .whole) : w = u := by
  cases h <;> first | rfl | cases hs

theorem target_item (h : Target f spot u ty T w) (hs : spot = .item) : w ∈ PyReason.items u := by
  cases h <;> first | assumption | cases hs

theorem target_key (h : Target f spot u ty T w) (hs : spot = .key) : ∃ k x, (k, x) ∈ entries u ∧ w = .sc k := by
  cases h <;> first | exact ⟨_, _, ‹_›, rfl⟩ | cases hs

theorem target_value (h : Target f spot u ty T w) (hs : spot = .value) : ∃ k, (k, w) ∈ entries u := by
  cases h <;> first | exact ⟨_, ‹_›⟩ | cases hs

end targets

section fields
variable {f : FieldDesc} {v : Val} {n : String} {t : Text} {acc : Val → Prop}

theorem whole_grounds (hn : Names f n t v .whole) (h : Sound P f.typ f.rules.type false acc t v) :
    GroundsA P f acc v n t := by
  refine ⟨.whole, _, _, v, .whole, hn, ?_⟩
  rcases h with h | ⟨h, -⟩ | ⟨s, h1, h2, h3⟩
  · exact .inl h
  · cases h
  · exact .inr (.inr ⟨s, h1, h2, fun u w' hu ht => by rw [target_whole ht rfl]; exact h3 u hu⟩)

theorem item_grounds {e : ElemT} {rules : FieldRules} {w : Val} {ok : Val → Prop} (hT : f.typ = .rep e)
    (hI : itemRules f.rules = some rules) (hw : w ∈ PyReason.items v) (hn : n = "item")
    (h : Sound P (.one e) rules.type true ok t w) (hacc : ∀ u, acc u → ∀ x ∈ PyReason.items u, ok x) :
    GroundsA P f acc v n t := by
  refine ⟨.item, _, _, w, .item hT hI hw, hn, ?_⟩
  rcases h with h | ⟨-, h⟩ | ⟨s, h1, h2, h3⟩
  · exact .inl h
  · exact .inr (.inl ⟨by decide, h⟩)
  · exact .inr (.inr ⟨s, h1, h2, fun u w' hu ht => h3 w' (hacc u hu w' (target_item ht rfl))⟩)

theorem key_grounds {kt e : ElemT} {r : MapRules} {keys values : FieldRules} {k : Scalar} {w : Val} {ok : Val → Prop}
    (hT : f.typ = .map kt e) (hR : f.rules.type = .map r keys values) (hw : (k, w) ∈ entries v) (hn : n = "key")
    (h : Sound P (.one kt) keys.type false ok t (.sc k)) (hacc : ∀ u, acc u → ∀ x ∈ entries u, ok (.sc x.1)) :
    GroundsA P f acc v n t := by
  refine ⟨.key, _, _, .sc k, .key hT hR hw, hn, ?_⟩
  rcases h with h | ⟨h, -⟩ | ⟨s, h1, h2, h3⟩
  · exact .inl h
  · cases h
  · refine .inr (.inr ⟨s, h1, h2, fun u w' hu ht => ?_⟩)
    obtain ⟨k', x, hx, rfl⟩ := target_key ht rfl
    exact h3 _ (hacc u hu _ hx)

theorem value_grounds {kt e : ElemT} {rules : FieldRules} {k : Scalar} {w : Val} {ok : Val → Prop}
    (hT : f.typ = .map kt e) (hV : valueRules f.rules = some rules) (hw : (k, w) ∈ entries v)
    (hn : n = pName f ++ "[key]")
    (h : Sound P (.one e) rules.type true ok t w) (hacc : ∀ u, acc u → ∀ x ∈ entries u, ok x.2) :
    GroundsA P f acc v n t := by
  refine ⟨.value, _, _, w, .value hT hV hw, hn, ?_⟩
  rcases h with h | ⟨-, h⟩ | ⟨s, h1, h2, h3⟩
  · exact .inl h
  · exact .inr (.inl ⟨by decide, h⟩)
  · refine .inr (.inr ⟨s, h1, h2, fun u w' hu ht => ?_⟩)
    obtain ⟨k', hx⟩ := target_value ht rfl
    exact h3 _ (hacc u hu _ hx)

/-! ### Lists -/

theorem items_eq (v : Val) : itemsOf v = PyReason.items v := by cases v <;> rfl

theorem entries_eq (v : Val) : entriesOf v = entries v := by cases v <;> rfl

theorem fails_ignoreBlock {α : Type} {o : Option Bool} {e : α → Bool} {c : Code α} {x : α}
    (h : (ignoreBlock o e c).run x = .error (.failed n t)) : c.run x = .error (.failed n t) := by
  unfold ignoreBlock at h
  split at h
  · exact (fails_block h).2.1
  · exact h

theorem ok_ignoreBlock {α : Type} {o : Option Bool} {e : α → Bool} {c : Code α} {x : α}
    (h : (ignoreBlock o e c).run x = .ok ()) : (o = some true ∧ e x = true) ∨ c.run x = .ok () :=
  (run_ignoreBlock (some_of_run h) x Iff.rfl fun _ => Iff.rfl).1 h

theorem num_eq_comm (a b : Num) : a.eq b = b.eq a := by
  simp only [Num.eq]
  cases a.key <;> cases b.key <;> simp [eq_comm]

theorem sameItem_view (a b : Val) : sameItem b a = true ↔ PyReason.SameItem a b := by
  cases a with
  | sc x =>
    cases b with
    | sc y =>
      have : PyReason.SameItem (.sc x) (.sc y) ↔ Same (scalarView x) (scalarView y) := by
        constructor
        · rintro ⟨_, _, ⟨⟩, ⟨⟩, h⟩; exact h
        · intro h; exact ⟨x, y, rfl, rfl, h⟩
      rw [this]
      cases x <;> cases y <;>
        first
          | (simp only [sameItem, scalarView]; rw [num_eq_comm]; exact same_num.symm)
          | (simp [sameItem, scalarView, Same]; try exact eq_comm)
    | _ => simp [sameItem, PyReason.SameItem]
  | _ => cases b <;> simp [sameItem, PyReason.SameItem]

theorem shownItem_of {w : Val} (h : hashable w = true) : ∃ k, pyView w = some k ∧ shownItem w = [.item k] := by
  cases w with
  | sc s => cases s <;> exact ⟨_, rfl, rfl⟩
  | _ => cases h

theorem unique_fails {nm : String} {vs : List Val} : ∀ {seen : List Val},
    uniqueLoop nm seen vs = .error (.failed n t) → n = nm ∧ ∃ a b k, (a ∈ seen ∧ b ∈ vs ∨ [a, b].Sublist vs) ∧
      PyReason.SameItem a b ∧ pyView b = some k ∧ t = [.s "must contain unique items. ", .item k, .s " has been repeated."] := by
  induction vs with
  | nil => intro seen h; cases h
  | cons v vs ih =>
    intro seen h
    rw [uniqueLoop] at h
    split at h
    · cases h
    · rename_i hh
      split at h
      · rename_i hs
        cases h
        obtain ⟨a, ha, hsame⟩ := List.any_eq_true.1 hs
        obtain ⟨k, hk, he⟩ := shownItem_of (by simpa using hh)
        exact ⟨rfl, a, v, k, .inl ⟨ha, List.mem_cons_self⟩, (sameItem_view a v).1 hsame, hk, by rw [he]; rfl⟩
      · obtain ⟨hn, a, b, k, hab, hs, hk, ht⟩ := ih h
        refine ⟨hn, a, b, k, ?_, hs, hk, ht⟩
        rcases hab with ⟨ha, hb⟩ | hab
        · rcases List.mem_cons.1 ha with rfl | ha
          · exact .inr (List.Sublist.cons_cons _ (List.singleton_sublist.2 hb))
          · exact .inl ⟨ha, List.mem_cons_of_mem _ hb⟩
        · exact .inr (hab.trans (List.sublist_cons_self _ _))

theorem unique_ok {nm : String} {vs : List Val} : ∀ {seen : List Val}, uniqueLoop nm seen vs = .ok () →
    (∀ a ∈ seen, ∀ b ∈ vs, ¬ PyReason.SameItem a b) ∧ vs.Pairwise fun a b => ¬ PyReason.SameItem a b := by
  induction vs with
  | nil => intro seen _; exact ⟨by simp, .nil⟩
  | cons v vs ih =>
    intro seen h
    rw [uniqueLoop] at h
    split at h
    · cases h
    · split at h
      · cases h
      · rename_i hs
        obtain ⟨h1, h2⟩ := ih h
        have hs : ∀ a ∈ seen, ¬ PyReason.SameItem a v := fun a ha hh => hs (List.any_eq_true.2 ⟨a, ha, (sameItem_view a v).2 hh⟩)
        refine ⟨fun a ha b hb => ?_, List.pairwise_cons.2 ⟨fun b hb => h1 v List.mem_cons_self b hb, h2⟩⟩
        rcases List.mem_cons.1 hb with rfl | hb
        · exact hs a ha
        · exact h1 a (List.mem_cons_of_mem _ ha) b hb

theorem switcher_rec (rec rec' : Val → Run) {e : ElemT} {rules : FieldRules} :
    switcher P rec nm e rules = switcher P rec' nm e rules := by
  cases rules with
  | absent => rfl
  | mk m T => rfl

theorem repeated_grounds {rec : Val → Run} {e : ElemT} {r : RepeatedRules} {rules : FieldRules} (hT : f.typ = .rep e)
    (hI : itemRules f.rules = some rules) (hr : f.rules.type = .repeated r rules ∨ r = {})
    (hacc : ∀ u, acc u → ∃ rec', (repeatedCode P rec' (pName f) e r rules).run (PyReason.items u) = .ok ())
    (h : (repeatedCode P rec (pName f) e r rules).run (PyReason.items v) = .error (.failed n t)) :
    GroundsA P f acc v n t ∨
      ∃ w ∈ PyReason.items v, e.isEmbed = true ∧ msgSkip rules.message = false ∧ rec w = .error (.failed n t) := by
  have h := fails_ignoreBlock h
  have hacc : ∀ u, acc u → (r.ignoreEmpty = some true ∧ PyReason.items u = []) ∨ ∃ rec',
      (genPos r.minItems (fun n => raiseIf (pName f) [.s "needs to contain at least ", .nat n, .s " items"]
        fun x => decide (x.length < n)) ;;
       genPos r.maxItems (fun n => raiseIf (pName f) [.s "needs to contain at most ", .nat n, .s " items"]
        fun x => decide (x.length > n)) ;;
       gen (optB r.unique) (stmt (uniqueLoop (pName f) [])) ;;
       gen e.isEmbed (loop (gen (!msgSkip rules.message) (stmt rec'))) ;;
       gen (rulesText rules) (loop (switcher P rec' "item" e rules))).run (PyReason.items u) = .ok () := by
    intro u hu
    obtain ⟨rec', h⟩ := hacc u hu
    rcases ok_ignoreBlock h with ⟨h1, h2⟩ | h
    · exact .inl ⟨h1, by simpa using h2⟩
    · exact .inr ⟨rec', h⟩
  have exempt : ∀ u, f.rules.type = .repeated r rules → r.ignoreEmpty = some true ∧ PyReason.items u = [] →
      Exempt P f.rules.type t u := by
    intro u he h
    rw [he]; exact h
  have none_of : ∀ {o : Option Nat}, r = {} → o = r.minItems ∨ o = r.maxItems → optN o = 0 := by
    rintro o rfl (rfl | rfl) <;> rfl
  rcases fails_seq h with h | h
  · obtain ⟨hp, h⟩ := fails_genPos h
    obtain ⟨rfl, rfl, ht⟩ := fails_raiseIf h
    rcases hr with hr | hr
    · refine .inl (whole_grounds (.inl rfl) (.inr (.inr ⟨{}, ?_, trivial, fun u hu => ?_⟩)))
      · rw [hT]; simp only [Reading]; simpa using ht
      · rcases hacc u hu with h | ⟨rec', h⟩
        · exact .inl (exempt u hr h)
        · right
          have h1 := ((run_seq _ _ _).1 h).1
          rw [genPos, run_gen, run_raiseIf] at h1
          rw [hT]; simp only [Reading]
          have := h1 (by simpa using hp)
          simpa using this
    · exact absurd (none_of hr (.inl rfl)) hp
  rcases fails_seq h with h | h
  · obtain ⟨hp, h⟩ := fails_genPos h
    obtain ⟨rfl, rfl, ht⟩ := fails_raiseIf h
    rcases hr with hr | hr
    · refine .inl (whole_grounds (.inl rfl) (.inr (.inr ⟨{}, ?_, trivial, fun u hu => ?_⟩)))
      · rw [hT]; simp only [Reading]; simpa using ht
      · rcases hacc u hu with h | ⟨rec', h⟩
        · exact .inl (exempt u hr h)
        · right
          have h1 := ((run_seq _ _ _).1 ((run_seq _ _ _).1 h).2).1
          rw [genPos, run_gen, run_raiseIf] at h1
          rw [hT]; simp only [Reading]
          have := h1 (by simpa using hp)
          simpa using this
    · exact absurd (none_of hr (.inr rfl)) hp
  rcases fails_seq h with h | h
  · obtain ⟨hq, h⟩ := fails_gen h
    rw [run_stmt] at h
    obtain ⟨rfl, a, b, k, hab, hs, hk, rfl⟩ := unique_fails h
    have hab : [a, b].Sublist (PyReason.items v) := by
      rcases hab with ⟨h, -⟩ | h
      · cases h
      · exact h
    rcases hr with hr | hr
    · refine .inl (whole_grounds (.inl rfl) (.inr (.inr ⟨{}, ?_, ⟨a, b, hab, hs, hk⟩, fun u hu => ?_⟩)))
      · rw [hT]; simp only [Reading]
        intro hp
        have := hp.sublist hab
        simp at this
        exact this hs
      · rcases hacc u hu with h | ⟨rec', h⟩
        · exact .inl (exempt u hr h)
        · right
          have h1 := ((run_seq _ _ _).1 ((run_seq _ _ _).1 ((run_seq _ _ _).1 h).2).2).1
          rw [run_gen, run_stmt] at h1
          rw [hT]; simp only [Reading]
          exact (unique_ok (h1 hq)).2
    · subst hr; cases hq
  rcases fails_seq h with h | h
  · obtain ⟨he, h⟩ := fails_gen h
    obtain ⟨w, hw, h⟩ := fails_loop h
    obtain ⟨hsk, h⟩ := fails_gen h
    rw [run_stmt] at h
    exact .inr ⟨w, hw, he, by simpa using hsk, h⟩
  · obtain ⟨he, h⟩ := fails_gen h
    obtain ⟨w, hw, h⟩ := fails_loop h
    obtain ⟨hn, hsound⟩ := vtells_switcher w n t h
    refine .inl (item_grounds hT hI hw hn hsound fun u hu x hx => ?_)
    rcases hacc u hu with ⟨-, h⟩ | ⟨rec', h⟩
    · rw [h] at hx; cases hx
    · have h1 := ((run_seq _ _ _).1 ((run_seq _ _ _).1 ((run_seq _ _ _).1 ((run_seq _ _ _).1 h).2).2).2).2
      rw [run_gen] at h1
      rw [switcher_rec rec rec']
      exact ((run_loop _ _).1 (h1 he)).2 x hx

/-! ### Maps -/

theorem map_grounds {rec : Val → Run} {kt e : ElemT} {r : MapRules} {keys values : FieldRules} (hT : f.typ = .map kt e)
    (hV : valueRules f.rules = some values)
    (hr : f.rules.type = .map r keys values ∨ (r = {} ∧ keys = .absent))
    (hacc : ∀ u, acc u → ∃ rec', (mapCode P rec' (pName f) e r keys values).run (entries u) = .ok ())
    (h : (mapCode P rec (pName f) e r keys values).run (entries v) = .error (.failed n t)) :
    GroundsA P f acc v n t ∨
      ∃ x ∈ entries v, e.isEmbed = true ∧ rulesText values = false ∧ rec x.2 = .error (.failed n t) := by
  have h := fails_ignoreBlock h
  have hacc : ∀ u, acc u → (r.ignoreEmpty = some true ∧ entries u = []) ∨ ∃ rec',
      (genPos r.minPairs (fun n => raiseIf (pName f) [.s "needs to contain at least ", .nat n, .s " items"]
        fun x => decide (x.length < n)) ;;
       genPos r.maxPairs (fun n => raiseIf (pName f) [.s "can contain at most ", .nat n, .s " items"]
        fun x => decide (x.length > n)) ;;
       (if rulesText keys || rulesText values then
        on P.order (loop (on (fun kv => Val.sc kv.1) (keyCode P keys) ;;
          on Prod.snd (switcher P rec' (pName f ++ "[key]") e values)))
      else gen e.isEmbed (on P.order (loop (on Prod.snd (stmt rec')))))).run (entries u) = .ok () := by
    intro u hu
    obtain ⟨rec', h⟩ := hacc u hu
    rcases ok_ignoreBlock h with ⟨h1, h2⟩ | h
    · exact .inl ⟨h1, by simpa using h2⟩
    · exact .inr ⟨rec', h⟩
  have exempt : ∀ u, f.rules.type = .map r keys values → r.ignoreEmpty = some true ∧ entries u = [] →
      Exempt P f.rules.type t u := by
    intro u he h
    rw [he]; exact h
  have none_of : ∀ {o : Option Nat}, r = {} → o = r.minPairs ∨ o = r.maxPairs → optN o = 0 := by
    rintro o rfl (rfl | rfl) <;> rfl
  rcases fails_seq h with h | h
  · obtain ⟨hp, h⟩ := fails_genPos h
    obtain ⟨rfl, rfl, ht⟩ := fails_raiseIf h
    rcases hr with hr | hr
    · refine .inl (whole_grounds (.inl rfl) (.inr (.inr ⟨{}, ?_, trivial, fun u hu => ?_⟩)))
      · rw [hT]; simp only [Reading]; simpa using ht
      · rcases hacc u hu with h | ⟨rec', h⟩
        · exact .inl (exempt u hr h)
        · right
          have h1 := ((run_seq _ _ _).1 h).1
          rw [genPos, run_gen, run_raiseIf] at h1
          rw [hT]; simp only [Reading]
          have := h1 (by simpa using hp)
          simpa using this
    · exact absurd (none_of hr.1 (.inl rfl)) hp
  rcases fails_seq h with h | h
  · obtain ⟨hp, h⟩ := fails_genPos h
    obtain ⟨rfl, rfl, ht⟩ := fails_raiseIf h
    rcases hr with hr | hr
    · refine .inl (whole_grounds (.inl rfl) (.inr (.inr ⟨{}, ?_, trivial, fun u hu => ?_⟩)))
      · rw [hT]; simp only [Reading]; simpa using ht
      · rcases hacc u hu with h | ⟨rec', h⟩
        · exact .inl (exempt u hr h)
        · right
          have h1 := ((run_seq _ _ _).1 ((run_seq _ _ _).1 h).2).1
          rw [genPos, run_gen, run_raiseIf] at h1
          rw [hT]; simp only [Reading]
          have := h1 (by simpa using hp)
          simpa using this
    · exact absurd (none_of hr.1 (.inr rfl)) hp
  by_cases hk : (rulesText keys || rulesText values) = true
  · rw [if_pos hk, run_on] at h
    obtain ⟨x, hx, h⟩ := fails_loop h
    have hx := (P.order_perm _).mem_iff.1 hx
    have hacc : ∀ u, acc u → ∀ x ∈ entries u, (keyCode P keys).run (.sc x.1) = .ok () ∧
        ∃ rec', (switcher P rec' (pName f ++ "[key]") e values).run x.2 = .ok () := by
      intro u hu x hx
      rcases hacc u hu with ⟨-, h⟩ | ⟨rec', h⟩
      · rw [h] at hx; cases hx
      · have h1 := ((run_seq _ _ _).1 ((run_seq _ _ _).1 h).2).2
        rw [if_pos hk, run_on] at h1
        have h2 := ((run_loop _ _).1 h1).2 x ((P.order_perm _).mem_iff.2 hx)
        rw [run_seq, run_on, run_on] at h2
        exact ⟨h2.1, rec', h2.2⟩
    rcases fails_seq h with h | h
    · rw [run_on] at h
      rcases hr with hr | ⟨-, rfl⟩
      · obtain ⟨hn, hs⟩ := vtells_keyCode _ n t h
        exact .inl (key_grounds (w := x.2) hT hr hx hn hs fun u hu x hx => (hacc u hu x hx).1)
      · cases h
    · rw [run_on] at h
      obtain ⟨hn, hs⟩ := vtells_switcher _ n t h
      refine .inl (value_grounds (k := x.1) hT hV hx hn hs fun u hu x hx => ?_)
      obtain ⟨rec', h⟩ := (hacc u hu x hx).2
      rw [switcher_rec rec rec']
      exact h
  · rw [if_neg hk] at h
    obtain ⟨he, h⟩ := fails_gen h
    rw [run_on] at h
    obtain ⟨x, hx, h⟩ := fails_loop h
    have hx := (P.order_perm _).mem_iff.1 hx
    rw [run_on, run_stmt] at h
    exact .inr ⟨x, hx, he, by simp at hk; exact hk.2, h⟩

/-! ### Singular fields -/

theorem whole_vtells {c : Code Val} (h : VTells P f.typ f.rules.type false nm c)
    (hn : nm = "p." ++ f.name) (hc : c.run v = .error (.failed n t))
    (hacc : ∀ u, acc u → c.run u = .ok ()) : GroundsA P f acc v n t := by
  obtain ⟨rfl, hs⟩ := h v n t hc
  exact whole_grounds (.inl hn) (hs.mono hacc)

theorem fails_required {present : Val → Bool} {req : Option Bool}
    (h : (requiredCode nm req present).run v = .error (.failed n t)) :
    n = nm ∧ t = [.s "is required."] ∧ optB req = true ∧ present v = false := by
  obtain ⟨h1, h⟩ := fails_gen h
  obtain ⟨rfl, rfl, h2⟩ := fails_raiseIf h
  exact ⟨rfl, rfl, h1, by simpa using h2⟩

theorem message_grounds {rec : Val → Run} {m : Option MessageRules}
    (hacc : ∀ u, acc u → ∃ rec', (messageCode rec' f.name .field m).run u = .ok ())
    (h : (messageCode rec f.name .field m).run v = .error (.failed n t)) :
    GroundsA P f acc v n t ∨ (msgSkip m = false ∧ rec v = .error (.failed n t)) := by
  rcases fails_seq h with h | h
  · obtain ⟨hn, ht, -, -⟩ := fails_required h
    obtain ⟨-, hs⟩ := vtells_required (P := P) (ty := f.typ) (T := f.rules.type) (elem := false)
      (fun h => by cases h) v n t h
    refine .inl (whole_grounds (.inr (.inr ⟨hn, ht⟩)) (hs.mono fun u hu => ?_))
    obtain ⟨rec', h⟩ := hacc u hu
    exact ((run_seq _ _ _).1 h).1
  · split at h
    · cases h
    · rw [run_stmt] at h
      split at h
      · exact .inr ⟨by simpa using ‹¬ msgSkip m = true›, h⟩
      · cases h

theorem vtells_wrapped {γ : Type} {get : Scalar → Option γ} {view : γ → PItem} {c : Code γ} (hg : Shows get view)
    (h : Tells P (elemOf ty) T nm view c) : VTells P ty T elem nm (block (fun v => !isNull v) (onWrapped get c)) := by
  intro v n t hv
  obtain ⟨hv0, hv, hsome⟩ := fails_block hv
  obtain ⟨s, a, rfl, hs, hf⟩ := fails_onWrapped hv
  refine sound_of h (a := a) (by rw [pyView, hg s a hs]) hf fun u hu => ?_
  rw [run_block hsome] at hu
  by_cases hn : u = .null
  · subst hn; exact .inl rfl
  rcases ok_onWrapped (hu (by cases u <;> first | rfl | exact absurd rfl hn)) with h | ⟨s', b, rfl, hb, hr⟩
  · exact absurd h (not_empty hf)
  · exact .inr (.inr ⟨b, by rw [pyView, hg s' b hb], hr⟩)

theorem vtells_wrappedCode : VTells P ty T elem (nm ++ ".value") (block (fun v => !isNull v) (wrappedCode P nm T)) := by
  cases T with
  | num k r => exact vtells_wrapped shows_num tells_numCode
  | bool r => exact vtells_wrapped shows_bool tells_boolCode
  | string r => exact vtells_wrapped shows_str tells_strCode
  | bytes r => exact vtells_wrapped shows_bytes tells_bytesCode
  | _ =>
    intro v n t hv
    obtain ⟨-, hv, -⟩ := fails_block hv
    cases hv

theorem wrapped_fails (h : (wrappedCode P nm T).run v = .error (.failed n t)) : ∃ s, v = .wrapper s := by
  cases T with
  | num k r => obtain ⟨s, a, rfl, -⟩ := fails_onWrapped h; exact ⟨s, rfl⟩
  | bool r => obtain ⟨s, a, rfl, -⟩ := fails_onWrapped h; exact ⟨s, rfl⟩
  | string r => obtain ⟨s, a, rfl, -⟩ := fails_onWrapped h; exact ⟨s, rfl⟩
  | bytes r => obtain ⟨s, a, rfl, -⟩ := fails_onWrapped h; exact ⟨s, rfl⟩
  | _ => cases h

theorem wrapper_grounds {m : Option MessageRules}
    (hacc : ∀ u, acc u → (wrapperCode P (pName f) f.rules.type m).run u = .ok ())
    (h : (wrapperCode P (pName f) f.rules.type m).run v = .error (.failed n t)) : GroundsA P f acc v n t := by
  rcases fails_seq h with h | h
  · obtain ⟨rfl, hs⟩ := vtells_wrappedCode (ty := f.typ) (elem := false) v n t h
    refine whole_grounds (.inr (.inl ⟨rfl, ?_⟩)) (hs.mono fun u hu => ((run_seq _ _ _).1 (hacc u hu)).1)
    obtain ⟨-, h, -⟩ := fails_block h
    exact wrapped_fails h
  · refine whole_vtells (c := gen (msgRequired m) (raiseIf (pName f) [.s "is required."] isNull)) (nm := pName f) ?_ rfl h
      fun u hu => ((run_seq _ _ _).1 (hacc u hu)).2
    have := vtells_required (P := P) (ty := f.typ) (T := f.rules.type) (elem := false) (nm := pName f) (pl := .field)
      (req := some (msgRequired m)) (fun h => by cases h)
    simpa [requiredCode, optB, Place.has] using this

theorem ex_const {α : Type} {p : Prop} (h : ∃ _ : α, p) : p := h.elim fun _ h => h

theorem messageField_grounds {rec : Val → Run} {wkt : Option WKT}
    (hacc : ∀ u, acc u → ∃ rec', (messageField P rec' f wkt).run u = .ok ())
    (h : (messageField P rec f wkt).run v = .error (.failed n t)) :
    GroundsA P f acc v n t ∨ (msgSkip f.rules.message = false ∧ rec v = .error (.failed n t)) := by
  cases hf : f.rules with
  | absent =>
    simp only [messageField, hf] at h hacc
    split at h
    · cases h
    · rename_i hw
      simp only [hw, if_false] at hacc
      exact message_grounds (m := none) hacc h
  | mk m T =>
    have hT : f.rules.type = T := by rw [hf]; rfl
    have later : ∀ other : Code Val,
        (∀ u, acc u → ∃ rec', (messageField.messageOr rec' f.name m other).run u = .ok ()) →
        (messageField.messageOr rec f.name m other).run v = .error (.failed n t) →
        ((∀ u, acc u → other.run u = .ok ()) → other.run v = .error (.failed n t) → GroundsA P f acc v n t) →
        GroundsA P f acc v n t ∨ (msgSkip (FieldRules.mk m T).message = false ∧ rec v = .error (.failed n t)) := by
      intro other ha hv ho
      unfold messageField.messageOr at ha hv
      by_cases hm : messageText m = true
      · simp only [hm, if_true] at ha hv
        exact message_grounds ha hv
      · simp only [hm, if_false] at ha hv
        exact .inl (ho (fun u hu => ex_const (ha u hu)) hv)
    cases T with
    | duration r =>
      simp only [messageField, hf] at h hacc
      split at h
      · rename_i hr
        simp only [hr, if_true] at hacc
        exact .inl (whole_vtells (by rw [hT]; exact vtells_duration fun h => by cases h) rfl h
          fun u hu => ex_const (hacc u hu))
      · rename_i hr
        simp only [hr, if_false] at hacc
        exact later none hacc h fun _ h => by cases h
    | timestamp r =>
      simp only [messageField, hf] at h hacc
      split at h
      · rename_i hr
        simp only [hr, if_true] at hacc
        exact .inl (whole_vtells (by rw [hT]; exact vtells_timestamp fun h => by cases h) rfl h
          fun u hu => ex_const (hacc u hu))
      · rename_i hr
        simp only [hr, if_false] at hacc
        exact later none hacc h fun _ h => by cases h
    | any r =>
      simp only [messageField, hf] at h hacc
      refine later _ hacc h fun ha h => ?_
      by_cases hr : (r != {}) = true
      · simp only [hr, if_true] at ha h
        exact whole_vtells (by rw [hT]; exact vtells_any fun h => by cases h) rfl h ha
      · simp only [hr, if_false] at h
        cases h
    | _ =>
      simp only [messageField, hf] at h hacc
      split at h
      · rename_i hr
        simp only [hr, if_true] at hacc
        exact .inl (wrapper_grounds (m := m) (fun u hu => by rw [hT]; exact ex_const (hacc u hu)) (by rw [hT]; exact h))
      · rename_i hr
        simp only [hr, if_false] at hacc
        exact later none hacc h fun _ h => by cases h

theorem scalarField_mk {m : Option MessageRules} {T : TypeRules} (hf : f.rules = .mk m T) (b : Bool) (e : ElemT)
    (list : Bool) : ∃ c : Bool, scalarField P b f e list =
      if c then
        (match (generalizing := false) T with
        | .string r => onScalar getStr (oneofText b r (strCode P (pName f) r))
        | .num _ r => onScalar getNum (numCode (pName f) r)
        | .bool r => onScalar getBool (boolCode (pName f) r)
        | .enum r => onScalar getEnum (enumCode (pName f) (enumValues e) r)
        | .bytes r => onScalar getBytes (bytesCode P (pName f) r)
        | .repeated r items =>
          if list then on itemsOf (repeatedCode P (fun _ => .error .crash) (pName f) e r items)
          else stmt fun _ => .error .crash
        | _ => none)
      else if messageText m then
        requiredCode f.name (m.bind (·.required)) (fun _ => true) ;;
        (if msgSkip m then nothing else stmt fun _ => .error .crash)
      else none := by
  simp only [scalarField, hf]
  cases T <;> exact ⟨_, rfl⟩

theorem scalarField_grounds {e : ElemT} {list : Bool} (hT : if list then f.typ = .rep e else f.typ = .one e)
    (he : e.isEmbed = false)
    (hacc : ∀ u, acc u → (scalarField P false f e list).run u = .ok ())
    (h : (scalarField P false f e list).run v = .error (.failed n t)) : GroundsA P f acc v n t := by
  have hE : elemOf f.typ = e := by cases list <;> simp at hT <;> rw [hT] <;> rfl
  cases hf : f.rules with
  | absent => simp only [scalarField, hf] at h; cases h
  | mk m T =>
    have hR : f.rules.type = T := by rw [hf]; rfl
    obtain ⟨c, hc⟩ := scalarField_mk (P := P) hf false e list
    rw [hc] at h
    simp only [hc] at hacc
    cases c with
    | true =>
      simp only [if_true] at h hacc
      cases T with
      | string r =>
        exact whole_vtells (by rw [hR]; exact vtells_onScalar shows_str tells_strCode) rfl h hacc
      | num k r => exact whole_vtells (by rw [hR]; exact vtells_onScalar shows_num tells_numCode) rfl h hacc
      | bool r => exact whole_vtells (by rw [hR]; exact vtells_onScalar shows_bool tells_boolCode) rfl h hacc
      | enum r =>
        exact whole_vtells (by rw [hR]; exact vtells_onScalar shows_enum (tells_enumCode (by rw [hE]))) rfl h hacc
      | bytes r => exact whole_vtells (by rw [hR]; exact vtells_onScalar shows_bytes tells_bytesCode) rfl h hacc
      | repeated r its =>
        cases list with
        | false => simp only [Bool.false_eq_true, if_false] at h; rw [run_stmt] at h; cases h
        | true =>
          simp only [if_true] at h hacc hT
          rw [run_on, items_eq] at h
          rcases repeated_grounds (acc := acc) hT (by rw [itemRules, hR]) (.inl hR) (fun u hu => by
            have := hacc u hu
            rw [run_on, items_eq] at this
            exact ⟨_, this⟩) h with h | ⟨w, -, hh, -⟩
          · exact h
          · rw [he] at hh; cases hh
      | _ => cases h
    | false =>
      simp only [Bool.false_eq_true, if_false] at h
      split at h
      · rcases fails_seq h with h | h
        · obtain ⟨-, -, -, h⟩ := fails_required h
          cases h
        · split at h
          · cases h
          · rw [run_stmt] at h; cases h
      · cases h

theorem messageList_grounds {rec : Val → Run} {nm : String} {wkt : Option WKT} (hT : f.typ = .rep (.embed nm wkt))
    (hacc : ∀ u, acc u → ∃ rec', (messageList P rec' f (.embed nm wkt) wkt).run u = .ok ())
    (h : (messageList P rec f (.embed nm wkt) wkt).run v = .error (.failed n t)) :
    GroundsA P f acc v n t ∨ ∃ rules, itemRules f.rules = some rules ∧ msgSkip rules.message = false ∧
      ∃ w ∈ PyReason.items v, rec w = .error (.failed n t) := by
  have finish : ∀ {r its}, itemRules f.rules = some its → (f.rules.type = .repeated r its ∨ r = {}) →
      (∀ u, acc u → ∃ rec', (on itemsOf (repeatedCode P rec' (pName f) (.embed nm wkt) r its)).run u = .ok ()) →
      (on itemsOf (repeatedCode P rec (pName f) (.embed nm wkt) r its)).run v = .error (.failed n t) → 
      GroundsA P f acc v n t ∨ ∃ rules, itemRules f.rules = some rules ∧ msgSkip rules.message = false ∧
      ∃ w ∈ PyReason.items v, rec w = .error (.failed n t) := by
    intro r its hi hr ha hv
    rw [run_on, items_eq] at hv
    rcases repeated_grounds hT hi hr (fun u hu => by
      obtain ⟨rec', h⟩ := ha u hu
      rw [run_on, items_eq] at h
      exact ⟨_, h⟩) hv with h | ⟨w, hw, -, hs, h⟩
    · exact .inl h
    · exact .inr ⟨_, hi, hs, w, hw, h⟩
  cases hf : f.rules with
  | absent =>
    rw [← hf]
    simp only [messageList, hf] at h hacc
    split at h
    · cases h
    · rename_i hw
      simp only [hw, if_false] at hacc
      exact finish (by rw [hf]; rfl) (.inr rfl) hacc h
  | mk m T =>
    have hR : f.rules.type = T := by rw [hf]; rfl
    rw [← hf]
    simp only [messageList, hf] at h hacc
    split at h
    · split at h
      · cases h
      · rw [run_stmt] at h; cases h
    · rename_i hm
      simp only [hm, if_false] at hacc
      cases T with
      | repeated r its =>
        simp only at h hacc
        split at h
        · rename_i ht
          simp only [ht, if_true] at hacc
          exact finish (by rw [itemRules, hR]) (.inl hR) hacc h
        · cases h
      | _ => cases h

theorem mapField_grounds {rec : Val → Run} {kt e : ElemT} (hT : f.typ = .map kt e)
    (hacc : ∀ u, acc u → ∃ rec', (mapField P rec' f e).run u = .ok ())
    (h : (mapField P rec f e).run v = .error (.failed n t)) :
    GroundsA P f acc v n t ∨ ∃ rules, valueRules f.rules = some rules ∧ rulesText rules = false ∧ e.isEmbed = true ∧
      ∃ x ∈ entries v, rec x.2 = .error (.failed n t) := by
  have finish : ∀ {r keys values}, valueRules f.rules = some values →
      (f.rules.type = .map r keys values ∨ (r = {} ∧ keys = .absent)) →
      (∀ u, acc u → ∃ rec', (on entriesOf (mapCode P rec' (pName f) e r keys values)).run u = .ok ()) →
      (on entriesOf (mapCode P rec (pName f) e r keys values)).run v = .error (.failed n t) → 
      GroundsA P f acc v n t ∨ ∃ rules, valueRules f.rules = some rules ∧ rulesText rules = false ∧ e.isEmbed = true ∧
      ∃ x ∈ entries v, rec x.2 = .error (.failed n t) := by
    intro r keys values hi hr ha hv
    rw [run_on, entries_eq] at hv
    rcases map_grounds hT hi hr (fun u hu => by
      obtain ⟨rec', h⟩ := ha u hu
      rw [run_on, entries_eq] at h
      exact ⟨_, h⟩) hv with h | ⟨w, hw, he, hs, h⟩
    · exact .inl h
    · exact .inr ⟨_, hi, hs, he, w, hw, h⟩
  cases hf : f.rules with
  | absent =>
    rw [← hf]
    simp only [mapField, hf] at h hacc
    exact finish (by rw [hf]; rfl) (.inr ⟨rfl, rfl⟩) hacc h
  | mk m T =>
    have hR : f.rules.type = T := by rw [hf]; rfl
    rw [← hf]
    simp only [mapField, hf] at h hacc
    split at h
    · split at h
      · cases h
      · rw [run_stmt] at h; cases h
    · rename_i hm
      simp only [hm, if_false] at hacc
      cases T with
      | map r keys values =>
        simp only at h hacc
        split at h
        · rename_i ht
          simp only [ht, if_true] at hacc
          exact finish (by rw [valueRules, hR]) (.inl hR) hacc h
        · cases h
      | _ => cases h

theorem scalarField_oneof {b : Bool} {e : ElemT} {list : Bool}
    (h : (scalarField P b f e list).run v = .error (.failed n t)) :
    (scalarField P false f e list).run v = .error (.failed n t) := by
  cases b with
  | false => exact h
  | true =>
    cases hf : f.rules with
    | absent => simp only [scalarField, hf] at h ⊢; exact h
    | mk m T =>
      cases T with
      | string r =>
        simp only [scalarField, hf] at h ⊢
        split
        · rename_i hc
          simp only [hc, if_true] at h
          simp only [oneofText, if_true, inline] at h
          simp only [oneofText]
          split at h
          · cases h
          · exact h
        · rename_i hc
          simp only [hc, if_false] at h
          exact h
      | _ => simp only [scalarField, hf] at h ⊢; exact h

theorem msgSkip_of_rulesText {rules : FieldRules} (h : rulesText rules = false) : msgSkip rules.message = false := by
  cases rules with
  | absent => rfl
  | mk m t =>
    cases m with
    | none => rfl
    | some m => simp [rulesText] at h

theorem pairList_not_failed {nm : String} : (pairList P nm).run v ≠ .error (.failed n t) := by
  intro h
  have h := (fails_gen h).2
  rw [run_on] at h
  obtain ⟨w, -, h⟩ := fails_loop h
  rw [run_stmt] at h
  cases h

theorem fieldCode_grounds {rec : Val → Run} {b : Bool}
    (hacc : ∀ u, acc u → ∃ rec', (fieldCode P rec' false f).run u = .ok ())
    (h : (fieldCode P rec b f).run v = .error (.failed n t)) :
    GroundsA P f acc v n t ∨
      ∃ i rules w, HeldBy f v i rules w ∧ msgSkip rules.message = false ∧ rec w = .error (.failed n t) := by
  cases hT : f.typ with
  | one e =>
    cases e with
    | embed nm wkt =>
      simp only [fieldCode, hT] at h hacc
      cases hg : unruled f && P.google nm with
      | true => simp only [hg, if_true] at h; cases h
      | false =>
      simp only [hg, Bool.false_eq_true, if_false] at h hacc
      rcases messageField_grounds hacc h with h | ⟨h1, h2⟩
      · exact .inl h
      · exact .inr ⟨_, _, _, .field hT, h1, h2⟩
    | _ =>
      simp only [fieldCode, hT] at h hacc
      exact .inl (scalarField_grounds (list := false) hT rfl (fun u hu => ex_const (hacc u hu)) (scalarField_oneof h))
  | rep e =>
    cases e with
    | embed nm wkt =>
      simp only [fieldCode, hT] at h hacc
      cases hg : unruled f && P.google nm with
      | true => simp only [hg, if_true] at h; cases h
      | false =>
      simp only [hg, Bool.false_eq_true, if_false] at h hacc
      cases hg : unruled f && wkt.isNone && isMap P nm with
      | true => simp only [hg, if_true] at h; exact absurd h pairList_not_failed
      | false =>
      simp only [hg, Bool.false_eq_true, if_false] at h hacc
      rcases messageList_grounds hT hacc h with h | ⟨rules, h1, h2, w, hw, h3⟩
      · exact .inl h
      · right
        cases v with
        | list vs =>
          obtain ⟨i, hi⟩ := List.mem_iff_getElem?.1 hw
          exact ⟨_, _, _, .item hT h1 hi, h2, h3⟩
        | _ => cases hw
    | _ =>
      simp only [fieldCode, hT] at h hacc
      exact .inl (scalarField_grounds (list := true) hT rfl (fun u hu => ex_const (hacc u hu)) (scalarField_oneof h))
  | map kt e =>
    simp only [fieldCode, hT] at h hacc
    rcases mapField_grounds hT hacc h with h | ⟨rules, h1, h2, he, x, hx, h3⟩
    · exact .inl h
    · right
      cases v with
      | map kvs =>
        cases e with
        | embed nm wkt => exact ⟨_, _, _, .value (key := x.1) hT h1 hx, msgSkip_of_rulesText h2, h3⟩
        | _ => cases he
      | _ => cases hx

end fields

end PGV.Py
