import Verif.Lemmas.CppMsg

/-!
Which field a C++ validator blames.
-/

set_option linter.unusedSimpArgs false
set_option autoImplicit false

namespace PGV.Cpp
open PGV
open PGV.Go (Ctx)

/-- When the statement returns `false`, it blames the field. -/
def Blames (msg field : String) (x : Run) : Prop :=
  ∀ e, x = .error (.invalid e) → ∃ i r c, e = .viol msg field i false r c

variable {m f : String}

theorem Blames.ok : Blames m f (.ok ()) := by intro e h; cases h

theorem Blames.fail (c : Ctx) (hm : c.msg = m ∧ c.onKey = false) (hf : c.field = f) (r : List Go.Piece) :
    Blames m f (fail c r) := by
  intro e h; cases h; exact ⟨_, _, _, by rw [hm.1, hm.2, hf]⟩

theorem Blames.failIdx (c : Ctx) (hm : c.msg = m ∧ c.onKey = false) (hf : c.field = f) (i : Option Go.Idx)
    (k : Option CErr) (r : List Go.Piece) : Blames m f (failIdx c i k r) := by
  intro e h; cases h; exact ⟨_, _, _, by rw [hm.1, hm.2, hf]⟩

theorem Blames.throw (w : String) : Blames m f (throw w) := by intro e h; cases h

theorem Blames.unimplemented (w : String) : Blames m f (.error (.unimplemented w)) := by
  intro e h; cases h

theorem Blames.seq {x y : Run} (hx : Blames m f x) (hy : Blames m f y) : Blames m f (x ⊳ y) := by
  intro e h
  unfold Cpp.seq at h
  split at h
  · exact hy e h
  · exact hx e h

theorem Blames.when {b : Bool} {x : Run} (hx : Blames m f x) : Blames m f (when b x) := by
  unfold Cpp.when; split
  · exact hx
  · exact Blames.ok

theorem Blames.withOpt {α : Type} {o : Option α} {k : α → Run} (h : ∀ a, Blames m f (k a)) :
    Blames m f (withOpt o k) := by
  cases o
  · exact Blames.ok
  · exact h _

theorem Blames.withBytes {o : Option Bytes} {k : Bytes → Run} (h : ∀ a, Blames m f (k a)) :
    Blames m f (withBytes o k) := by
  unfold Cpp.withBytes; split
  · exact Blames.ok
  · exact h _

theorem Blames.forEach {α : Type} {xs : List α} {k : α → Run} (h : ∀ a ∈ xs, Blames m f (k a)) :
    Blames m f (forEach xs k) := by
  induction xs with
  | nil => exact Blames.ok
  | cons x xs ih =>
    exact (h x List.mem_cons_self).seq (ih fun a ha => h a (List.mem_cons_of_mem _ ha))

/-- Take a template apart. -/
macro "blame" : tactic => `(tactic|
  repeat' first
    | exact Blames.ok
    | exact Blames.throw _
    | exact Blames.unimplemented _
    | exact Blames.fail _ (by assumption) (by assumption) _
    | exact Blames.failIdx _ (by assumption) (by assumption) _ _ _
    | apply Blames.seq
    | apply Blames.when
    | (refine Blames.withOpt fun _ => ?_)
    | (refine Blames.withBytes fun _ => ?_)
    | split)

section
variable (c : Ctx) (hm : c.msg = m ∧ c.onKey = false) (hf : c.field = f)
include hm hf

theorem blames_ltgt (P : CEnv) (r : NumRules) (v : CNum) : Blames m f (ltgtTpl P c r v) := by
  unfold ltgtTpl; dsimp only; blame

theorem blames_in {α : Type} (a b : List α) (g : List α → Bool) (w : List α → Go.Piece) :
    Blames m f (inTpl c a b g w) := by unfold inTpl; blame

theorem blames_num (P : CEnv) (k : NumKind) (r : NumRules) (n : Num) :
    Blames m f (numTpl P c k r n) := by
  have h1 := blames_ltgt c hm hf P r (cnum k n)
  have h2 := blames_in c hm hf r.ins r.notIns (fun l => setFind CNum.lt (l.map (setKey P k)) (cnum k n))
    .nums
  unfold numTpl; dsimp only
  blame <;> assumption

theorem blames_bool (r : BoolRules) (b : Bool) : Blames m f (boolTpl c r b) := by
  unfold boolTpl; blame

theorem blames_len (T : LenText) (a b d : Option Nat) (n : Nat) : Blames m f (lenTpl T c a b d n) := by
  unfold lenTpl; blame

theorem blames_pattern (P : CEnv) (p : Option Bytes) (s : Bytes) : Blames m f (patternTpl P c p s) := by
  unfold patternTpl; blame

theorem blames_wellKnown (P : CEnv) (r : StringRules) (s : Bytes) :
    Blames m f (strWellKnownTpl P c r s) := by
  unfold strWellKnownTpl; blame

theorem blames_str (P : CEnv) (r : StringRules) (s : Bytes) : Blames m f (strTpl P c r s) := by
  unfold strTpl; dsimp only
  repeat' first
    | exact blames_in c hm hf _ _ _ _
    | exact blames_len c hm hf _ _ _ _ _
    | exact blames_pattern c hm hf _ _ _
    | exact blames_wellKnown c hm hf _ _ _
    | exact Blames.ok
    | exact Blames.fail _ (by assumption) (by assumption) _
    | apply Blames.seq
    | apply Blames.when
    | (refine Blames.withOpt fun _ => ?_)
    | split

theorem blames_bytes (P : CEnv) (r : BytesRules) (s : Bytes) : Blames m f (bytesTpl P c r s) := by
  unfold bytesTpl; dsimp only
  repeat' first
    | exact blames_in c hm hf _ _ _ _
    | exact blames_len c hm hf _ _ _ _ _
    | exact blames_pattern c hm hf _ _ _
    | exact Blames.ok
    | exact Blames.throw _
    | exact Blames.fail _ (by assumption) (by assumption) _
    | apply Blames.seq
    | apply Blames.when
    | (refine Blames.withBytes fun _ => ?_)
    | split

theorem blames_enum (l : List Int) (r : EnumRules) (n : Int) : Blames m f (enumTpl c l r n) := by
  unfold enumTpl
  exact (Blames.withOpt fun _ => (Blames.fail c hm hf _).when).seq
    ((blames_in c hm hf _ _ _ _).seq (Blames.fail c hm hf _).when)

theorem blames_required (a b : Bool) : Blames m f (requiredTpl c a b) := by
  unfold requiredTpl; blame

theorem blames_any (P : CEnv) (r : AnyRules) (u : Option Bytes) : Blames m f (anyTpl P c r u) := by
  unfold anyTpl; dsimp only
  refine (blames_required c hm hf _ _).seq ?_
  blame

theorem blames_durRange (r : DurationRules) (d : PDur) : Blames m f (durRangeTpl c r d) := by
  unfold durRangeTpl; dsimp only; blame

theorem blames_duration (r : DurationRules) (d : Option PDur) : Blames m f (durationTpl c r d) := by
  unfold durationTpl
  refine (blames_required c hm hf _ _).seq ?_
  repeat' first
    | exact blames_in c hm hf _ _ _ _
    | exact blames_durRange c hm hf _ _
    | exact Blames.ok
    | exact Blames.fail _ (by assumption) (by assumption) _
    | exact Blames.failIdx _ (by assumption) (by assumption) _ _ _
    | apply Blames.seq
    | apply Blames.when
    | (refine Blames.withOpt fun _ => ?_)
    | split

theorem blames_timestamp (r : TimestampRules) (t : Option PTime) : Blames m f (timestampTpl c r t) := by
  unfold timestampTpl
  refine (blames_required c hm hf _ _).seq ?_
  blame

theorem blames_scalar (P : CEnv) (e : ElemT) (t : TypeRules) (v : Scalar) :
    Blames m f (scalarTpl P c e t v) := by
  unfold scalarTpl
  repeat' first
    | exact blames_num c hm hf _ _ _ _
    | exact blames_bool c hm hf _ _
    | exact blames_str c hm hf _ _ _
    | exact blames_bytes c hm hf _ _ _
    | exact blames_enum c hm hf _ _ _
    | exact Blames.ok
    | split

theorem blames_message (rec : Val → Run) (r : Option MessageRules) (v : Val) :
    Blames m f (messageTpl rec c r v) := by
  unfold messageTpl
  refine (blames_required c hm hf _ _).seq ?_
  blame

theorem blames_wrapper (P : CEnv) (e : ElemT) (t : TypeRules) (r : Option MessageRules) (v : Val) :
    Blames m f (wrapperTpl P c e t r v) := by
  unfold wrapperTpl
  split
  · exact blames_scalar { c with index := none, onKey := false } ⟨hm.1, rfl⟩ hf _ _ _ _
  · exact (Blames.fail c hm hf _).when
  · exact Blames.ok

theorem blames_elem (P : CEnv) (rec : Val → Run) (e : ElemT) (r : FieldRules) (v : Val) :
    Blames m f (elemTpl P rec c e r v) := by
  unfold elemTpl
  repeat' first
    | exact blames_message c hm hf _ _ _
    | exact blames_wrapper c hm hf _ _ _ _ _
    | exact blames_any c hm hf _ _ _
    | exact blames_duration c hm hf _ _
    | exact blames_timestamp c hm hf _ _
    | exact blames_scalar c hm hf _ _ _ _
    | exact Blames.ok
    | split

theorem blames_count (w : String) (a b : Option Nat) (n : Nat) : Blames m f (countTpl w c a b n) := by
  unfold countTpl; blame

theorem blames_repLoop (u : Bool) (same : Val → Val → Bool) (item : Nat → Val → Run)
    (h : ∀ i v, Blames m f (item i v)) (i : Nat) (seen vs : List Val) :
    Blames m f (repLoop u same c item i seen vs) := by
  induction vs generalizing i seen with
  | nil => exact Blames.ok
  | cons v vs ih => exact (Blames.failIdx c hm hf _ _ _).when.seq ((h i v).seq (ih _ _))

theorem blames_rep (P : CEnv) (rec : Val → Run) (e : ElemT) (r : RepeatedRules) (items : FieldRules)
    (vs : List Val) : Blames m f (repTpl P rec c e r items vs) := by
  unfold repTpl; dsimp only
  repeat' first
    | exact blames_count c hm hf _ _ _ _
    | exact blames_repLoop c hm hf _ _ _ (fun i v => blames_elem { c with index := some (.pos i) } hm hf _ _ _ _ _) _ _ _
    | exact Blames.ok
    | apply Blames.seq
    | apply Blames.when
    | split

theorem blames_key (P : CEnv) (e : ElemT) (r : FieldRules) (k : Scalar) :
    Blames m f (keyTpl P c e r k) := by
  unfold keyTpl
  split
  · exact Blames.ok
  · exact blames_scalar c hm hf _ _ _ _

theorem blames_map (P : CEnv) (rec : Val → Run) (kt vt : ElemT) (r : MapRules) (keys values : FieldRules)
    (kvs : List (Scalar × Val)) : Blames m f (mapTpl P rec c kt vt r keys values kvs) := by
  have he : ∀ kv, Blames m f (mapEntry P rec c kt vt keys values kv) := fun kv =>
    (blames_key { c with index := some (.key kv.1) } hm hf _ _ _ _).seq (blames_elem { c with index := some (.key kv.1) } hm hf _ _ _ _ _)
  unfold mapTpl; dsimp only
  repeat' first
    | exact blames_count c hm hf _ _ _ _
    | exact Blames.forEach fun kv _ => he kv
    | exact Blames.ok
    | exact Blames.throw _
    | apply Blames.seq
    | apply Blames.when
    | split

end

/-- A rejected field is the one blamed. -/
theorem blames_field (P : CEnv) (rec : Val → Run) (msg : String) (fd : FieldDesc) (v : Val) :
    Blames msg fd.name (renderField P rec msg fd v) := by
  unfold renderField; dsimp only
  repeat' first
    | exact blames_elem _ ⟨rfl, rfl⟩ rfl _ _ _ _ _
    | exact blames_rep _ ⟨rfl, rfl⟩ rfl _ _ _ _ _ _
    | exact blames_map _ ⟨rfl, rfl⟩ rfl _ _ _ _ _ _ _ _
    | exact Blames.ok
    | split

/-- A loop that stops stops at its first failing round. -/
theorem forEach_stops {α : Type} {xs : List α} {k : α → Run} {s : Stop}
    (h : forEach xs k = .error s) :
    ∃ pre x post, xs = pre ++ x :: post ∧ (∀ y ∈ pre, k y = .ok ()) ∧ k x = .error s := by
  induction xs with
  | nil => cases h
  | cons x xs ih =>
    simp only [forEach, seq] at h
    split at h
    · rename_i u hx
      obtain ⟨pre, y, post, rfl, hp, hy⟩ := ih h
      refine ⟨x :: pre, y, post, rfl, ?_, hy⟩
      intro z hz
      rcases List.mem_cons.1 hz with rfl | hz
      · exact hx
      · exact hp z hz
    · rename_i e hx
      cases h
      exact ⟨[], x, xs, rfl, by simp, hx⟩

/-- …and one that does not passed in every round. -/
theorem forEach_passes {α : Type} {xs : List α} {k : α → Run} (h : forEach xs k = .ok ()) :
    ∀ x ∈ xs, k x = .ok () := by
  induction xs with
  | nil => simp
  | cons x xs ih =>
    simp only [forEach, seq] at h
    split at h
    · rename_i u hx
      intro y hy
      rcases List.mem_cons.1 hy with rfl | hy
      · exact hx
      · exact ih h y hy
    · cases h

end PGV.Cpp
