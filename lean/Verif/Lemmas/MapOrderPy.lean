import Verif.Lemmas.MapOrder
import Verif.Lemmas.PyCode

/-!
Python verdicts do not depend on the order of the entries of maps.
-/

set_option linter.unusedSimpArgs false

namespace PGV.MapOrder.Py
open PGV PGV.Spec PGV.MapOrder PGV.Py PGV.Py.Code

/-- Two texts that parse alike and accept related values alike. -/
def Sim {α β : Type} (R : α → β → Prop) (c : Code α) (c' : Code β) : Prop :=
  match c, c' with
  | none, none => True
  | some l, some l' => (l = [] ↔ l' = []) ∧ ∀ x y, R x y → (runAll l x = .ok () ↔ runAll l' y = .ok ())
  | _, _ => False

variable {α β γ δ : Type} {R : α → β → Prop}

theorem Sim.run {c : Code α} {c' : Code β} (h : Sim R c c') {x : α} {y : β} (hx : R x y) :
    c.run x = .ok () ↔ c'.run y = .ok () := by
  rcases c with _ | l <;> rcases c' with _ | l'
  · simp [Code.run]
  · exact h.elim
  · exact h.elim
  · exact h.2 x y hx

theorem Sim.nothing : Sim R nothing nothing := ⟨by simp, fun _ _ _ => by simp [runAll]⟩

theorem Sim.none : Sim R (none : Code α) (none : Code β) := trivial

theorem Sim.seq {a b : Code α} {a' b' : Code β} (h1 : Sim R a a') (h2 : Sim R b b') : Sim R (a ;; b) (a' ;; b') := by
  rcases a with _ | l <;> rcases a' with _ | l'
  · trivial
  · exact h1.elim
  · exact h1.elim
  · rcases b with _ | m <;> rcases b' with _ | m'
    · trivial
    · exact h2.elim
    · exact h2.elim
    · refine ⟨by simp [h1.1, h2.1], fun x y hxy => ?_⟩
      rw [Code.runAll_append, Code.runAll_append, h1.2 x y hxy, h2.2 x y hxy]

theorem Sim.gen {a : Code α} {a' : Code β} (g : Bool) (h : Sim R a a') : Sim R (gen g a) (gen g a') := by
  cases g
  · exact Sim.nothing
  · exact h

theorem Sim.ite {a b : Code α} {a' b' : Code β} {p : Prop} [Decidable p] (h1 : Sim R a a') (h2 : Sim R b b') :
    Sim R (if p then a else b) (if p then a' else b') := by
  split
  · exact h1
  · exact h2

theorem Sim.genPos {o : Option Nat} {k : Nat → Code α} {k' : Nat → Code β} (h : ∀ n, Sim R (k n) (k' n)) :
    Sim R (genPos o k) (genPos o k') := by
  unfold Py.genPos
  cases o with
  | none => exact Sim.nothing
  | some n => exact Sim.ite (h n) .nothing

theorem Sim.stmt {s : α → Run} {s' : β → Run} (h : ∀ x y, R x y → (s x = .ok () ↔ s' y = .ok ())) :
    Sim R (stmt s) (stmt s') := by
  refine ⟨by simp, fun x y hxy => ?_⟩
  rw [Code.runAll_one, Code.runAll_one]
  exact h x y hxy

theorem Sim.raiseIf {nm : String} {why : Text} {t : α → Bool} {t' : β → Bool} (h : ∀ x y, R x y → t x = t' y) :
    Sim R (raiseIf nm why t) (raiseIf nm why t') :=
  Sim.stmt fun x y hxy => by rw [h x y hxy]

theorem Sim.block {a : Code α} {a' : Code β} {t : α → Bool} {t' : β → Bool} (ht : ∀ x y, R x y → t x = t' y)
    (h : Sim R a a') : Sim R (block t a) (block t' a') := by
  rcases a with _ | l <;> rcases a' with _ | l'
  · trivial
  · exact h.elim
  · exact h.elim
  · obtain ⟨h1, h2⟩ := h
    rcases l with _ | ⟨s, l⟩ <;> rcases l' with _ | ⟨s', l'⟩
    · trivial
    · simp at h1
    · simp at h1
    · refine Sim.stmt fun x y hxy => ?_
      rw [ht x y hxy]
      split
      · exact h2 x y hxy
      · rfl

theorem Sim.on {a : Code α} {a' : Code β} {g : γ → α} {g' : δ → β} (h : Sim R a a') :
    Sim (fun x y => R (g x) (g' y)) (on g a) (on g' a') := by
  rcases a with _ | l <;> rcases a' with _ | l'
  · trivial
  · exact h.elim
  · exact h.elim
  · refine ⟨by simp [h.1], fun x y hxy => ?_⟩
    rw [Code.runAll_on, Code.runAll_on]
    exact h.2 _ _ hxy

theorem Sim.mono {R' : α → β → Prop} {a : Code α} {a' : Code β} (h : Sim R a a') (hd : ∀ x y, R' x y → R x y) :
    Sim R' a a' := by
  rcases a with _ | l <;> rcases a' with _ | l'
  · trivial
  · exact h.elim
  · exact h.elim
  · exact ⟨h.1, fun x y hxy => h.2 x y (hd x y hxy)⟩

/-- The same texts, on values they cannot tell apart. -/
theorem Sim.same {R : α → α → Prop} {ι : Type} {c : Code ι} {g : (ι → Run) → α → Run}
    (h : ∀ s x y, R x y → g s x = g s y) : Sim R (c.map (List.map g)) (c.map (List.map g)) := by
  rcases c with _ | l
  · trivial
  · refine ⟨Iff.rfl, fun x y hxy => ?_⟩
    have : runAll (l.map g) x = runAll (l.map g) y := by
      induction l with
      | nil => rfl
      | cons s l ih => simp only [List.map_cons, runAll, h s x y hxy, ih]
    rw [this]

/-- Lists that pass a test on related elements alike. -/
def Alike (R : α → β → Prop) (xs : List α) (ys : List β) : Prop :=
  ∀ (p : α → Prop) (q : β → Prop), (∀ x y, R x y → (p x ↔ q y)) → ((∀ x ∈ xs, p x) ↔ ∀ y ∈ ys, q y)

theorem Sim.loop {a : Code α} {a' : Code β} (h : Sim R a a') : Sim (Alike R) (loop a) (loop a') := by
  rcases a with _ | l <;> rcases a' with _ | l'
  · trivial
  · exact h.elim
  · exact h.elim
  · refine Sim.stmt fun xs ys hxy => ?_
    rw [Code.forEach_ok, Code.forEach_ok]
    exact hxy _ _ h.2

/-! ### Values -/

/-- The texts cannot tell the values apart, except by calling `validate`. -/
def Like (v w : Val) : Prop := v = w ∨ (Big v ∧ Big w)

/-- And `validate` accepts both or neither. -/
def Rel (rec rec' : Val → Run) (v w : Val) : Prop := Like v w ∧ (rec v = .ok () ↔ rec' w = .ok ())

/-- Related items or entries. -/
structure Lists (rec rec' : Val → Run) (vs ws : List Val) : Prop where
  len : vs.length = ws.length
  all : Alike (Rel rec rec') vs ws
  uniq : ∀ nm, uniqueLoop nm [] vs = .ok () ↔ uniqueLoop nm [] ws = .ok ()

/-- Related entries of maps. -/
structure Pairs (rec rec' : Val → Run) (vs ws : List (Scalar × Val)) : Prop where
  len : vs.length = ws.length
  all : Alike (fun (x y : Scalar × Val) => x.1 = y.1 ∧ Rel rec rec' x.2 y.2) vs ws

/-- Values of a field that it accepts alike. -/
structure Field (rec rec' : Val → Run) (f : FieldDesc) (v w : Val) : Prop where
  rel : Rel rec rec' v w
  list : ∀ e, f.typ = .rep e → Lists rec rec' (itemsOf v) (itemsOf w)
  map : ∀ kt vt, f.typ = .map kt vt → Pairs rec rec' (entriesOf v) (entriesOf w)

variable {rec rec' : Val → Run} {P : PEnv} {o : List (Scalar × Val) → List (Scalar × Val)}
  {ho : ∀ l, (o l).Perm l} {nm : String}

/-- The libraries with another order of iteration. -/
def ordered (P : PEnv) (o : List (Scalar × Val) → List (Scalar × Val)) (ho : ∀ l, (o l).Perm l) : PEnv :=
  { P with order := o, order_perm := ho }

theorem Like.null {v w : Val} (h : Like v w) : isNull v = isNull w := by
  rcases h with rfl | ⟨h1, h2⟩
  · rfl
  · rcases big_cases h1 with ⟨_, _, _, rfl⟩ | ⟨_, rfl⟩ | ⟨_, rfl⟩ <;>
    rcases big_cases h2 with ⟨_, _, _, rfl⟩ | ⟨_, rfl⟩ | ⟨_, rfl⟩ <;> rfl

theorem Like.guard {pl : Place} {v w : Val} (h : Like v w) : pl.guard v = pl.guard w := by
  cases pl <;> simp only [Place.guard, h.null]

theorem Like.has {pl : Place} {v w : Val} (h : Like v w) : pl.has v = pl.has w := by
  cases pl <;> simp only [Place.has, h.null]

theorem onScalar_sim {ι : Type} {get : Scalar → Option ι} {c : Code ι} : Sim Like (onScalar get c) (onScalar get c) :=
  Sim.same fun s v w h => by
    rcases h with rfl | ⟨h1, h2⟩
    · rfl
    · rcases big_cases h1 with ⟨_, _, _, rfl⟩ | ⟨_, rfl⟩ | ⟨_, rfl⟩ <;>
      rcases big_cases h2 with ⟨_, _, _, rfl⟩ | ⟨_, rfl⟩ | ⟨_, rfl⟩ <;> rfl

theorem onWrapped_sim {ι : Type} {get : Scalar → Option ι} {c : Code ι} : Sim Like (onWrapped get c) (onWrapped get c) :=
  Sim.same fun s v w h => by
    rcases h with rfl | ⟨h1, h2⟩
    · rfl
    · rcases big_cases h1 with ⟨_, _, _, rfl⟩ | ⟨_, rfl⟩ | ⟨_, rfl⟩ <;>
      rcases big_cases h2 with ⟨_, _, _, rfl⟩ | ⟨_, rfl⟩ | ⟨_, rfl⟩ <;> rfl

theorem onSecs_sim {c : Code Int} : Sim Like (onSecs c) (onSecs c) :=
  Sim.same fun s v w h => by
    rcases h with rfl | ⟨h1, h2⟩
    · rfl
    · rcases big_cases h1 with ⟨_, _, _, rfl⟩ | ⟨_, rfl⟩ | ⟨_, rfl⟩ <;>
      rcases big_cases h2 with ⟨_, _, _, rfl⟩ | ⟨_, rfl⟩ | ⟨_, rfl⟩ <;> rfl

theorem required_sim {req : Option Bool} {p : Val → Bool} (hp : ∀ v w, Like v w → p v = p w) :
    Sim Like (requiredCode nm req p) (requiredCode nm req p) :=
  Sim.gen _ (Sim.raiseIf fun v w h => by rw [hp v w h])

theorem duration_sim {pl : Place} {r : DurationRules} : Sim Like (durationCode nm pl r) (durationCode nm pl r) :=
  Sim.seq (required_sim fun _ _ h => h.has) (Sim.block (fun _ _ h => h.guard) onSecs_sim)

theorem timestamp_sim {pl : Place} {r : TimestampRules} :
    Sim Like (timestampCode (ordered P o ho) nm pl r) (timestampCode P nm pl r) :=
  Sim.seq (required_sim fun _ _ h => h.has) (Sim.block (fun _ _ h => h.guard) onSecs_sim)

theorem raiseUrl_sim {why : Text} {t : PStr → Bool} : Sim Like (raiseUrl nm why t) (raiseUrl nm why t) :=
  Sim.stmt fun v w h => by
    rcases h with rfl | ⟨h1, h2⟩
    · rfl
    · rcases big_cases h1 with ⟨_, _, _, rfl⟩ | ⟨_, rfl⟩ | ⟨_, rfl⟩ <;>
      rcases big_cases h2 with ⟨_, _, _, rfl⟩ | ⟨_, rfl⟩ | ⟨_, rfl⟩ <;> simp

theorem any_sim {pl : Place} {r : AnyRules} : Sim Like (anyCode (ordered P o ho) nm pl r) (anyCode P nm pl r) :=
  Sim.seq (required_sim fun _ _ h => h.has)
    (Sim.seq (Sim.gen _ (Sim.ite raiseUrl_sim .none)) (Sim.gen _ (Sim.ite raiseUrl_sim .none)))

theorem message_sim {pl : Place} {m : Option MessageRules} :
    Sim (Rel rec rec') (messageCode rec nm pl m) (messageCode rec' nm pl m) := by
  refine Sim.seq ((required_sim fun _ _ h => h.has).mono fun _ _ h => h.1) (Sim.ite .nothing (Sim.stmt fun v w h => ?_))
  rw [h.1.guard (pl := pl)]
  split
  · cases pl with
    | field => exact h.2
    | element => simp
  · rfl

theorem switcher_sim {e : ElemT} {rules : FieldRules} :
    Sim (Rel rec rec') (switcher (ordered P o ho) rec nm e rules) (switcher P rec' nm e rules) := by
  have hs : ∀ {ι : Type} {get : Scalar → Option ι} {c : Code ι}, Sim (Rel rec rec') (onScalar get c) (onScalar get c) :=
    onScalar_sim.mono fun _ _ h => h.1
  cases rules with
  | absent => exact .nothing
  | mk m t =>
    unfold switcher
    dsimp only
    refine Sim.ite ?_ (Sim.gen _ message_sim)
    cases t with
    | num k r => exact hs
    | bool r => exact hs
    | string r => exact hs
    | enum r => exact hs
    | duration r => exact duration_sim.mono fun _ _ h => h.1
    | timestamp r => exact timestamp_sim.mono fun _ _ h => h.1
    | any r => exact Sim.ite message_sim (any_sim.mono fun _ _ h => h.1)
    | _ => exact Sim.gen _ message_sim

theorem ignore_sim {ig : Option Bool} {t : α → Bool} {t' : β → Bool} {a : Code α} {a' : Code β}
    (ht : ∀ x y, R x y → t x = t' y) (h : Sim R a a') : Sim R (ignoreBlock ig t a) (ignoreBlock ig t' a') :=
  Sim.ite (Sim.block (fun x y hxy => by rw [ht x y hxy]) h) h

theorem empty_of_len {xs : List α} {ys : List β} (h : xs.length = ys.length) : xs.isEmpty = ys.isEmpty := by
  cases xs <;> cases ys <;> simp_all

theorem repeated_sim {e : ElemT} {r : RepeatedRules} {items : FieldRules} :
    Sim (Lists rec rec') (repeatedCode (ordered P o ho) rec nm e r items) (repeatedCode P rec' nm e r items) := by
  refine ignore_sim (fun _ _ h => empty_of_len h.len) ?_
  refine Sim.seq (Sim.genPos fun n => Sim.raiseIf fun _ _ h => by rw [h.len]) ?_
  refine Sim.seq (Sim.genPos fun n => Sim.raiseIf fun _ _ h => by rw [h.len]) ?_
  refine Sim.seq (Sim.gen _ (Sim.stmt fun _ _ h => h.uniq nm)) ?_
  refine Sim.seq (Sim.gen _ (Sim.mono (Sim.loop (Sim.gen _ (Sim.stmt (R := Rel rec rec') fun _ _ h => h.2))) fun _ _ h => h.all)) ?_
  exact Sim.gen _ (Sim.mono (Sim.loop switcher_sim) fun _ _ h => h.all)

theorem order_alike {R : Scalar × Val → Scalar × Val → Prop} {xs ys : List (Scalar × Val)} (h : Alike R xs ys)
    (P P' : PEnv) : Alike R (P.order xs) (P'.order ys) := by
  intro p q hpq
  simp only [(P.order_perm xs).mem_iff, (P'.order_perm ys).mem_iff]
  exact h p q hpq

theorem map_sim {vt : ElemT} {r : MapRules} {keys values : FieldRules} :
    Sim (Pairs rec rec') (mapCode (ordered P o ho) rec nm vt r keys values) (mapCode P rec' nm vt r keys values) := by
  refine ignore_sim (fun _ _ h => empty_of_len h.len) ?_
  refine Sim.seq (Sim.genPos fun n => Sim.raiseIf fun _ _ h => by rw [h.len]) ?_
  refine Sim.seq (Sim.genPos fun n => Sim.raiseIf fun _ _ h => by rw [h.len]) ?_
  have hk : Sim Like (keyCode (ordered P o ho) keys) (keyCode P keys) := by
    unfold keyCode
    split
    · exact .nothing
    · exact Sim.gen _ onScalar_sim
    · exact Sim.gen _ onScalar_sim
    · exact Sim.gen _ onScalar_sim
    · exact .nothing
  refine Sim.ite ?_ (Sim.gen _ ?_)
  · refine Sim.mono (Sim.on (Sim.loop (R := fun (x y : Scalar × Val) => x.1 = y.1 ∧ Rel rec rec' x.2 y.2)
      (Sim.seq (Sim.mono (Sim.on hk) fun x y h => .inl (by rw [h.1])) (Sim.mono (Sim.on switcher_sim) fun x y h => h.2))))
      fun xs ys h => ?_
    exact order_alike h.all _ _
  · refine Sim.mono (Sim.on (Sim.loop (R := fun (x y : Scalar × Val) => x.1 = y.1 ∧ Rel rec rec' x.2 y.2)
      (Sim.mono (Sim.on (Sim.stmt (R := Rel rec rec') fun _ _ h => h.2)) fun x y h => h.2)))
      fun xs ys h => ?_
    exact order_alike h.all _ _

/-! ### Fields -/

theorem Lists.crash {vs ws : List Val} (h : Lists rec rec' vs ws) :
    Lists (fun _ => .error .crash) (fun _ => .error .crash) vs ws :=
  ⟨h.len, fun p q hpq => h.all p q fun x y hxy => hpq x y ⟨hxy.1, Iff.rfl⟩, h.uniq⟩

theorem crash_sim : Sim R (Code.stmt fun _ => .error .crash) (Code.stmt fun _ => .error .crash) :=
  Sim.stmt fun _ _ _ => by simp

theorem scalar_sim {inOneof : Bool} {f : FieldDesc} {e : ElemT} {list : Bool} (hl : list = true → ∃ e, f.typ = .rep e) :
    Sim (Field rec rec' f) (scalarField (ordered P o ho) inOneof f e list) (scalarField P inOneof f e list) := by
  have hs : ∀ {ι : Type} {get : Scalar → Option ι} {c : Code ι}, Sim (Field rec rec' f) (onScalar get c) (onScalar get c) :=
    onScalar_sim.mono fun _ _ h => h.rel.1
  unfold scalarField
  split
  · exact .nothing
  · refine Sim.ite ?_ (Sim.ite (Sim.seq ?_ (Sim.ite .nothing crash_sim)) .none)
    · split
      · exact hs
      · exact hs
      · exact hs
      · exact hs
      · exact hs
      · cases list with
        | false => exact crash_sim
        | true =>
          obtain ⟨e', he⟩ := hl rfl
          exact Sim.mono (Sim.on repeated_sim) fun v w h => (h.list e' he).crash
      · exact .none
    · exact (required_sim fun _ _ _ => rfl).mono fun _ _ h => h.rel.1

theorem wrapper_sim {t : TypeRules} {m : Option MessageRules} :
    Sim Like (wrapperCode (ordered P o ho) nm t m) (wrapperCode P nm t m) := by
  refine Sim.seq (Sim.block (fun _ _ h => by rw [h.null]) ?_) (Sim.gen _ (Sim.raiseIf fun _ _ h => h.null))
  unfold wrappedCode
  split
  · exact onWrapped_sim
  · exact onWrapped_sim
  · exact onWrapped_sim
  · exact onWrapped_sim
  · exact .nothing

theorem messageField_sim {f : FieldDesc} {wkt : Option WKT} :
    Sim (Rel rec rec') (messageField (ordered P o ho) rec f wkt) (messageField P rec' f wkt) := by
  unfold messageField
  split
  · exact Sim.ite .nothing message_sim
  · have hor : ∀ {a : Code Val} {a' : Code Val} {m : Option MessageRules}, Sim (Rel rec rec') a a' →
        Sim (Rel rec rec') (messageField.messageOr rec f.name m a) (messageField.messageOr rec' f.name m a') :=
      fun h => Sim.ite message_sim h
    split
    · exact Sim.ite (duration_sim.mono fun _ _ h => h.1) (hor .none)
    · exact Sim.ite (timestamp_sim.mono fun _ _ h => h.1) (hor .none)
    · exact hor (Sim.ite (any_sim.mono fun _ _ h => h.1) .none)
    · exact Sim.ite (wrapper_sim.mono fun _ _ h => h.1) (hor .none)

theorem messageList_sim {f : FieldDesc} {e : ElemT} {wkt : Option WKT} (hf : f.typ = .rep e) :
    Sim (Field rec rec' f) (messageList (ordered P o ho) rec f e wkt) (messageList P rec' f e wkt) := by
  unfold messageList
  split
  · exact Sim.ite .nothing (Sim.mono (Sim.on repeated_sim) fun v w h => h.list e hf)
  · refine Sim.ite (Sim.ite .nothing crash_sim) ?_
    split
    · exact Sim.ite (Sim.mono (Sim.on repeated_sim) fun v w h => h.list e hf) .none
    · exact .none

theorem mapField_sim {f : FieldDesc} {kt vt : ElemT} (hf : f.typ = .map kt vt) :
    Sim (Field rec rec' f) (mapField (ordered P o ho) rec f vt) (mapField P rec' f vt) := by
  unfold mapField
  split
  · exact Sim.mono (Sim.on map_sim) fun v w h => h.map kt vt hf
  · refine Sim.ite (Sim.ite .nothing crash_sim) ?_
    split
    · exact Sim.ite (Sim.mono (Sim.on map_sim) fun v w h => h.map kt vt hf) .none
    · exact .none

theorem field_sim {inOneof : Bool} {f : FieldDesc} :
    Sim (Field rec rec' f) (fieldCode (ordered P o ho) rec inOneof f) (fieldCode P rec' inOneof f) := by
  unfold fieldCode
  split
  · exact Sim.ite .nothing (messageField_sim.mono fun _ _ h => h.rel)
  · exact scalar_sim (by simp)
  · rename_i t wkt hf
    refine Sim.ite .nothing (Sim.ite (Sim.gen _ ?_) (messageList_sim hf))
    exact Sim.mono (Sim.on (Sim.loop crash_sim)) fun v w h => (h.list _ hf).all
  · rename_i e _ hf
    exact scalar_sim fun _ => ⟨e, hf⟩
  · rename_i kt vt hf
    exact mapField_sim hf

/-! ### Messages -/

/-- Contents whose fields are related by `G`. -/
def Contents (G : Bool → FieldDesc → Val → Val → Prop) (c c' : Content) : Prop :=
  (∀ f, G false f (getField c.1 f) (getField c'.1 f)) ∧
  ∀ n, (c.2.lookup n = none ∧ c'.2.lookup n = none) ∨
    ∃ m v w, c.2.lookup n = some (m, v) ∧ c'.2.lookup n = some (m, w) ∧ ∀ f, G true f v w

theorem member_sim {P P' : PEnv} {G : Bool → FieldDesc → Val → Val → Prop} (h0 : ∀ f, G true f .null .null)
    (hG : ∀ f, Sim (G true f) (fieldCode P rec true f) (fieldCode P' rec' true f)) (od : OneofDesc) :
    ∀ fs, Sim (Contents G) (memberCode P rec od fs) (memberCode P' rec' od fs)
  | [] => .nothing
  | f :: fs => by
    unfold memberCode
    refine Sim.seq (Sim.block (fun c c' h => ?_) (Sim.seq (Sim.stmt fun _ _ _ => Iff.rfl)
      (Sim.mono (Sim.on (hG f)) fun c c' h => ?_))) (member_sim h0 hG od fs)
    · rcases h.2 od.name with ⟨h1, h2⟩ | ⟨m, v, w, h1, h2, _⟩ <;> simp only [h1, h2]
    · rcases h.2 od.name with ⟨h1, h2⟩ | ⟨m, v, w, h1, h2, h3⟩ <;> simp only [h1, h2]
      · exact h0 f
      · exact h3 f

theorem seqAll_sim {ι : Type} {k : ι → Code α} {k' : ι → Code β} (h : ∀ i, Sim R (k i) (k' i)) :
    ∀ l, Sim R (seqAll l k) (seqAll l k')
  | [] => .nothing
  | i :: l => Sim.seq (h i) (seqAll_sim h l)

theorem msg_sim {P P' : PEnv} {G : Bool → FieldDesc → Val → Val → Prop} (h0 : ∀ f, G true f .null .null)
    (hG : ∀ i f, Sim (G i f) (fieldCode P rec i f) (fieldCode P' rec' i f)) (d : MsgDesc) :
    Sim (Contents G) (msgCode P rec d) (msgCode P' rec' d) := by
  have hb : Sim (Contents G)
      (seqAll d.oneofs (oneofCode P rec) ;; seqAll d.fields (fun f => on (fun c => getField c.1 f) (fieldCode P rec false f)))
      (seqAll d.oneofs (oneofCode P' rec') ;; seqAll d.fields (fun f => on (fun c => getField c.1 f) (fieldCode P' rec' false f))) := by
    refine Sim.seq (seqAll_sim (fun od => ?_) _) (seqAll_sim (fun f => ?_) _)
    · refine Sim.seq (member_sim h0 (hG true) od _) (Sim.gen _ (Sim.raiseIf fun c c' h => ?_))
      rcases h.2 od.name with ⟨h1, h2⟩ | ⟨m, v, w, h1, h2, _⟩ <;> simp only [h1, h2]
    · exact Sim.mono (Sim.on (hG false f)) fun c c' h => h.1 f
  unfold msgCode
  refine Sim.ite ?_ hb
  revert hb
  generalize (seqAll d.oneofs (oneofCode P rec) ;; _) = a
  generalize (seqAll d.oneofs (oneofCode P' rec') ;; _) = a'
  intro hb
  rcases a with _ | l <;> rcases a' with _ | l'
  · trivial
  · exact hb.elim
  · exact hb.elim
  · exact ⟨by simp, fun _ _ _ => by simp [runAll]⟩

theorem alike_refl {R : α → α → Prop} {xs : List α} (h : ∀ x, R x x) : Alike R xs xs := by
  intro p q hpq
  exact ⟨fun hp x hx => (hpq x x (h x)).1 (hp x hx), fun hq x hx => (hpq x x (h x)).2 (hq x hx)⟩

theorem field_refl (hr : ∀ v, rec v = .ok () ↔ rec' v = .ok ()) (f : FieldDesc) (v : Val) : Field rec rec' f v v :=
  ⟨⟨.inl rfl, hr v⟩, fun _ _ => ⟨rfl, alike_refl fun x => ⟨.inl rfl, hr x⟩, fun _ => Iff.rfl⟩,
    fun _ _ _ => ⟨rfl, alike_refl fun x => ⟨rfl, .inl rfl, hr x.2⟩⟩⟩

theorem fuel_ordered {S : Schema} : ∀ (n : Nat) (v : Val),
    validateFuel (ordered P o ho) S n v = .ok () ↔ validateFuel P S n v = .ok ()
  | 0, _ => Iff.rfl
  | n + 1, v => by
    simp only [validateFuel]
    unfold validateStep
    split
    · split
      · refine (msg_sim (G := fun _ f => Field (validateFuel (ordered P o ho) S n) (validateFuel P S n) f)
          (fun f => field_refl (fuel_ordered n) f _) (fun i f => field_sim) _).run ⟨fun f => field_refl (fuel_ordered n) f _, fun m => ?_⟩
        dsimp only
        rename_i os _ _ _
        cases hl : List.lookup m os with
        | none => exact .inl ⟨rfl, rfl⟩
        | some p => exact .inr ⟨p.1, p.2, p.2, rfl, rfl, fun f => field_refl (fuel_ordered n) f _⟩
      · rfl
    · rfl

theorem unique_big {u u' : Val} (h : Big u) (h' : Big u') :
    ∀ {l r seen : List Val}, uniqueLoop nm seen (l ++ u :: r) = .ok () ↔ uniqueLoop nm seen (l ++ u' :: r) = .ok ()
  | [], r, seen => by
    have hh : ∀ {x : Val}, Big x → uniqueLoop nm seen (x :: r) = .error .crash := by
      intro x hx
      rcases big_cases hx with ⟨_, _, _, rfl⟩ | ⟨_, rfl⟩ | ⟨_, rfl⟩ <;> rfl
    show uniqueLoop nm seen (u :: r) = .ok () ↔ uniqueLoop nm seen (u' :: r) = .ok ()
    rw [hh h, hh h']
  | v :: l, r, seen => by
    show uniqueLoop nm seen (v :: (l ++ u :: r)) = .ok () ↔ uniqueLoop nm seen (v :: (l ++ u' :: r)) = .ok ()
    unfold uniqueLoop
    split
    · rfl
    · split
      · rfl
      · exact unique_big h h' (l := l)

theorem alike_subst {R : α → α → Prop} (hr : ∀ x, R x x) {l r : List α} {a b : α} (h : R a b) :
    Alike R (l ++ a :: r) (l ++ b :: r) := by
  intro p q hpq
  simp only [List.mem_append, List.mem_cons]
  constructor
  · intro hp y hy
    rcases hy with hy | rfl | hy
    · exact (hpq y y (hr y)).1 (hp y (.inl hy))
    · exact (hpq a _ h).1 (hp a (.inr (.inl rfl)))
    · exact (hpq y y (hr y)).1 (hp y (.inr (.inr hy)))
  · intro hq y hy
    rcases hy with hy | rfl | hy
    · exact (hpq y y (hr y)).2 (hq y (.inl hy))
    · exact (hpq _ b h).2 (hq b (.inr (.inl rfl)))
    · exact (hpq y y (hr y)).2 (hq y (.inr (.inr hy)))

theorem alike_perm {R : α → α → Prop} (hr : ∀ x, R x x) {xs ys : List α} (h : xs.Perm ys) : Alike R xs ys := by
  intro p q hpq
  simp only [h.mem_iff]
  exact alike_refl hr p q hpq

theorem run_sim {c : Code α} : Sim (fun x y => c.run x = .ok () ↔ c.run y = .ok ()) c c := by
  rcases c with _ | l
  · trivial
  · exact ⟨Iff.rfl, fun _ _ h => h⟩

theorem rel_refl (x : Val) : Rel rec rec x x := ⟨.inl rfl, Iff.rfl⟩

theorem nil_lists : Lists rec rec [] [] := ⟨rfl, alike_refl rel_refl, fun _ => Iff.rfl⟩

theorem nil_pairs : Pairs rec rec [] [] := ⟨rfl, alike_refl fun x => ⟨rfl, rel_refl x.2⟩⟩

theorem compositional (P : PEnv) (S : Schema) (hP : Respects fun v => P.other v = .ok ()) :
    Compositional (fun (i : Bool) f v => (fieldCode P (validate P S) i f).run v = .ok ())
      (fun v => validate P S v = .ok ()) where
  plain i f u u' hs hs' h h' hk := by
    refine (field_sim (P := P) (o := P.order) (ho := P.order_perm)).run ⟨⟨.inr ⟨h, h'⟩, hk⟩, fun e ht => ?_, fun kt vt ht => ?_⟩
    · rcases big_cases h with ⟨_, _, _, rfl⟩ | ⟨_, rfl⟩ | ⟨_, rfl⟩ <;>
      rcases big_cases h' with ⟨_, _, _, rfl⟩ | ⟨_, rfl⟩ | ⟨_, rfl⟩ <;> first | exact nil_lists | simp_all [Sorted]
    · rcases big_cases h with ⟨_, _, _, rfl⟩ | ⟨_, rfl⟩ | ⟨_, rfl⟩ <;>
      rcases big_cases h' with ⟨_, _, _, rfl⟩ | ⟨_, rfl⟩ | ⟨_, rfl⟩ <;> first | exact nil_pairs | simp_all [Sorted]
  perm i f kt vt kvs kvs' ht hp := by
    have hk : validate P S (.map kvs) = .ok () ↔ validate P S (.map kvs') = .ok () := by
      rw [validate_eq, validate_eq]
      exact hP _ _ (.map hp)
    refine (field_sim (P := P) (o := P.order) (ho := P.order_perm)).run
      ⟨⟨.inr ⟨trivial, trivial⟩, hk⟩, fun e he => ?_, fun kt vt _ => ⟨hp.length_eq, ?_⟩⟩
    · rw [ht] at he; cases he
    · exact alike_perm (fun x => ⟨rfl, rel_refl x.2⟩) hp
  entry i f kt vt l k u u' r ht hr hk := by
    have hm : validate P S (.map (l ++ (k, u) :: r)) = .ok () ↔ validate P S (.map (l ++ (k, u') :: r)) = .ok () := by
      rw [validate_eq, validate_eq]
      exact hP _ _ (.entry hr)
    refine (field_sim (P := P) (o := P.order) (ho := P.order_perm)).run
      ⟨⟨.inr ⟨trivial, trivial⟩, hm⟩, fun e he => ?_, fun kt vt _ => ⟨by simp [entriesOf], ?_⟩⟩
    · rw [ht] at he; cases he
    · exact alike_subst (fun x => ⟨rfl, rel_refl x.2⟩) ⟨rfl, .inr (reorder_big hr), hk⟩
  item i f e l u u' r ht hr hk := by
    have hm : validate P S (.list (l ++ u :: r)) = .ok () ↔ validate P S (.list (l ++ u' :: r)) = .ok () := by
      rw [validate_eq, validate_eq]
      exact hP _ _ (.item hr)
    refine (field_sim (P := P) (o := P.order) (ho := P.order_perm)).run
      ⟨⟨.inr ⟨trivial, trivial⟩, hm⟩, fun e _ => ⟨by simp [itemsOf], ?_, fun nm => ?_⟩, fun kt vt he => ?_⟩
    · exact alike_subst rel_refl ⟨.inr (reorder_big hr), hk⟩
    · exact unique_big (reorder_big hr).1 (reorder_big hr).2
    · rw [ht] at he; cases he
  field typ l n u u' r os hr hf := by
    rw [validate_eq, validate_eq]
    unfold validateStep
    dsimp only
    cases S typ with
    | generated d =>
      refine (msg_sim (G := fun i f x y => (fieldCode P (validate P S) i f).run x = .ok () ↔
        (fieldCode P (validate P S) i f).run y = .ok ()) (fun _ => Iff.rfl) (fun i f => run_sim) d).run ⟨fun f => ?_, fun m => ?_⟩
      · rcases getField_subst (l := l) (n := n) (u := u) (u' := u') (r := r) (f := f) with he | ⟨h1, h2⟩
        · dsimp only; rw [he]
        · dsimp only; rw [h1, h2]; exact hf _ _
      · cases hl : List.lookup m os with
        | none => exact .inl ⟨rfl, rfl⟩
        | some p => exact .inr ⟨p.1, p.2, p.2, rfl, rfl, fun _ => Iff.rfl⟩
    | _ => exact hP _ _ (.field hr)
  member typ fs l n m u u' r hr hf := by
    rw [validate_eq, validate_eq]
    unfold validateStep
    dsimp only
    cases S typ with
    | generated d =>
      refine (msg_sim (G := fun i f x y => (fieldCode P (validate P S) i f).run x = .ok () ↔
        (fieldCode P (validate P S) i f).run y = .ok ()) (fun _ => Iff.rfl) (fun i f => run_sim) d).run ⟨fun f => Iff.rfl, fun x => ?_⟩
      dsimp only
      rcases lookup_subst (l := l) (n := n) (u := (m, u)) (u' := (m, u')) (r := r) (x := x) with he | ⟨h1, h2⟩
      · rw [he]
        cases hl : List.lookup x (l ++ (n, m, u') :: r) with
        | none => exact .inl ⟨rfl, rfl⟩
        | some p => exact .inr ⟨p.1, p.2, p.2, rfl, rfl, fun _ => Iff.rfl⟩
      · exact .inr ⟨m, u, u', h1, h2, fun f => hf true f⟩
    | _ => exact hP _ _ (.member hr)
  other u u' hr hn := by
    have hn' := reorder_not_msg hr hn
    rw [validate_eq, validate_eq]
    have e1 : validateStep P S (validate P S) u = P.other u := by
      cases u <;> first | rfl | exact absurd rfl (hn _ _ _)
    have e2 : validateStep P S (validate P S) u' = P.other u' := by
      cases u' <;> first | rfl | exact absurd rfl (hn' _ _ _)
    rw [e1, e2]
    exact hP _ _ hr

theorem verdict (P : PEnv) (S : Schema) (hP : Respects fun v => P.other v = .ok ()) (o ho) {v w : Val} (h : Reorder v w) :
    validate (ordered P o ho) S v = .ok () ↔ validate P S w = .ok () :=
  (fuel_ordered _ v).trans ((compositional P S hP).verdict h).2

end PGV.MapOrder.Py
