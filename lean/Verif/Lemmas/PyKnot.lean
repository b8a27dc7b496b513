import Verif.Py.Templates
import Verif.Lemmas.Knot

/-!
The bound on the depth of calls in the Python model is never felt: `validate` satisfies the recursion
equation of the code (python/protoc_gen_validate/validator.py:49-63).
-/

set_option linter.unusedSimpArgs false

namespace PGV.Py
open PGV PGV.Py.Code
open PGV.Go (depth)

variable {nm : String}

/-- Two texts that parse alike and do the same on the values in `D`. -/
def AgreeOn {α : Type} (D : α → Prop) (c c' : Code α) : Prop :=
  match c, c' with
  | none, none => True
  | some l, some l' => (l = [] ↔ l' = []) ∧ ∀ x, D x → runAll l x = runAll l' x
  | _, _ => False

theorem AgreeOn.refl {α : Type} {D : α → Prop} (c : Code α) : AgreeOn D c c := by
  cases c <;> simp [AgreeOn]

theorem AgreeOn.run {α : Type} {D : α → Prop} {c c' : Code α} (h : AgreeOn D c c') {x : α} (hx : D x) :
    c.run x = c'.run x := by
  cases c <;> cases c' <;> simp_all [AgreeOn, Code.run]

theorem runAll_append {α : Type} (l m : List (α → Run)) (x : α) :
    runAll (l ++ m) x = (match runAll l x with | .ok () => runAll m x | e => e) := by
  induction l with
  | nil => rfl
  | cons s l ih =>
    simp only [List.cons_append, runAll]
    rcases h : s x with e | ⟨⟨⟩⟩
    · rfl
    · simp only [ih]

theorem AgreeOn.ite {α : Type} {D : α → Prop} {b : Bool} {a a' c c' : Code α} (h1 : AgreeOn D a a')
    (h2 : AgreeOn D c c') : AgreeOn D (if b = true then a else c) (if b = true then a' else c') := by
  cases b
  · exact h2
  · exact h1

theorem AgreeOn.seq {α : Type} {D : α → Prop} {a a' b b' : Code α} (h1 : AgreeOn D a a') (h2 : AgreeOn D b b') :
    AgreeOn D (a ;; b) (a' ;; b') := by
  cases a <;> cases a' <;> cases b <;> cases b' <;> simp_all [AgreeOn, Code.seq]
  intro x hx
  rw [runAll_append, runAll_append, h1.2 x hx, h2.2 x hx]

theorem AgreeOn.gen {α : Type} {D : α → Prop} {a a' : Code α} (g : Bool) (h : AgreeOn D a a') :
    AgreeOn D (gen g a) (gen g a') := by
  cases g
  · exact .refl _
  · exact h

theorem AgreeOn.stmt {α : Type} {D : α → Prop} {s s' : α → Run} (h : ∀ x, D x → s x = s' x) :
    AgreeOn D (stmt s) (stmt s') := by
  simp only [AgreeOn, Code.stmt]
  refine ⟨by simp, fun x hx => ?_⟩
  simp only [runAll, h x hx]

theorem AgreeOn.block {α : Type} {D : α → Prop} {a a' : Code α} (t : α → Bool) (h : AgreeOn D a a') :
    AgreeOn D (block t a) (block t a') := by
  rcases a with _ | l <;> rcases a' with _ | l'
  · exact .refl _
  · exact h.elim
  · exact h.elim
  · obtain ⟨h1, h2⟩ := h
    rcases l with _ | ⟨s, l⟩ <;> rcases l' with _ | ⟨s', l'⟩
    · exact .refl _
    · simp at h1
    · simp at h1
    · refine AgreeOn.stmt fun x hx => ?_
      rw [h2 x hx]

theorem runAll_map {α β : Type} (g : β → α) (l : List (α → Run)) (x : β) :
    runAll (l.map fun s x => s (g x)) x = runAll l (g x) := by
  induction l with
  | nil => rfl
  | cons s l ih => simp only [List.map_cons, runAll, ih]

theorem AgreeOn.on {α β : Type} {D : α → Prop} {a a' : Code α} (g : β → α) (h : AgreeOn D a a') :
    AgreeOn (fun x => D (g x)) (on g a) (on g a') := by
  rcases a with _ | l <;> rcases a' with _ | l'
  · exact .refl _
  · exact h.elim
  · exact h.elim
  · obtain ⟨h1, h2⟩ := h
    refine ⟨by simpa using h1, fun x hx => ?_⟩
    rw [runAll_map, runAll_map, h2 _ hx]

theorem forEach_agree {α : Type} {f g : α → Run} (l : List α) (h : ∀ x ∈ l, f x = g x) : forEach l f = forEach l g := by
  induction l with
  | nil => rfl
  | cons x l ih =>
    simp only [forEach, h x (.head _), ih fun y hy => h y (.tail _ hy)]

theorem AgreeOn.loop {α : Type} {D : α → Prop} {a a' : Code α} (h : AgreeOn D a a') :
    AgreeOn (fun xs => ∀ x ∈ xs, D x) (loop a) (loop a') := by
  rcases a with _ | l <;> rcases a' with _ | l'
  · exact .refl _
  · exact h.elim
  · exact h.elim
  · refine AgreeOn.stmt fun xs hx => ?_
    exact forEach_agree _ fun x hm => h.2 x (hx x hm)

theorem AgreeOn.mono {α : Type} {D D' : α → Prop} {a a' : Code α} (h : AgreeOn D a a') (hd : ∀ x, D' x → D x) :
    AgreeOn D' a a' := by
  rcases a with _ | l <;> rcases a' with _ | l'
  · trivial
  · exact h.elim
  · exact h.elim
  · exact ⟨h.1, fun x hx => h.2 x (hd x hx)⟩

/-- The values on which the text of a field calls `validate`. -/
inductive Called : FieldT → Val → Val → Prop
  | one {t w v} : v ≠ .null → Called (.one (.embed t w)) v v
  | item {e v vs} : v ∈ vs → Called (.rep e) v (.list vs)
  | entry {k e} {kv : Scalar × Val} {kvs} : kv ∈ kvs → Called (.map k e) kv.2 (.map kvs)

theorem Called.depth_le {t : FieldT} {w v : Val} (h : Called t w v) : depth w ≤ depth v := by
  cases h with
  | one => exact Nat.le_refl _
  | item h => exact (Go.Inside.list h).depth_le
  | entry h => exact (Go.Inside.map h).depth_le

theorem Called.zero {t : FieldT} {w : Val} (h : Called t w t.zero) : False := by
  generalize hz : t.zero = z at h
  cases h with
  | one hn => exact hn hz.symm
  | item hm => simp only [FieldT.zero, Val.list.injEq] at hz; subst hz; cases hm
  | entry hm => simp only [FieldT.zero, Val.map.injEq] at hz; subst hz; cases hm

theorem messageCode_agree {rec rec' : Val → Run} {m : Option MessageRules} (pl : Place) :
    AgreeOn (fun v => pl.guard v = true → rec v = rec' v) (messageCode rec nm pl m) (messageCode rec' nm pl m) := by
  unfold messageCode
  refine AgreeOn.seq (.refl _) ?_
  split
  · exact .refl _
  · refine AgreeOn.stmt fun v hv => ?_
    cases hg : pl.guard v
    · rfl
    · cases pl
      · simpa using hv hg
      · rfl

theorem switcher_eq {P : PEnv} {rec rec' : Val → Run} {e : ElemT} {rules : FieldRules} :
    switcher P rec nm e rules = switcher P rec' nm e rules := by
  have : ∀ m, messageCode rec nm .element m = messageCode rec' nm .element m := by
    intro m; rfl
  unfold switcher
  simp only [this]

theorem repeatedCode_agree {P : PEnv} {rec rec' : Val → Run} {e : ElemT} {r : RepeatedRules} {items : FieldRules} :
    AgreeOn (fun vs => ∀ v ∈ vs, rec v = rec' v) (repeatedCode P rec nm e r items) (repeatedCode P rec' nm e r items) := by
  unfold repeatedCode
  rw [switcher_eq (rec := rec) (rec' := rec')]
  have h1 : AgreeOn (fun vs => ∀ v ∈ vs, rec v = rec' v)
      (loop (gen (!msgSkip items.message) (stmt rec))) (loop (gen (!msgSkip items.message) (stmt rec'))) :=
    AgreeOn.loop (AgreeOn.gen _ (AgreeOn.stmt fun x hx => hx))
  have h2 := AgreeOn.seq (AgreeOn.refl (D := fun vs => ∀ v ∈ vs, rec v = rec' v)
      (genPos r.minItems (fun n => raiseIf nm [.s "needs to contain at least ", .nat n, .s " items"] fun x => decide (x.length < n))))
    (AgreeOn.seq (AgreeOn.refl (genPos r.maxItems (fun n =>
        raiseIf nm [.s "needs to contain at most ", .nat n, .s " items"] fun x => decide (x.length > n))))
      (AgreeOn.seq (AgreeOn.refl (gen (optB r.unique) (stmt (uniqueLoop nm []))))
        (AgreeOn.seq (AgreeOn.gen e.isEmbed h1)
          (AgreeOn.refl (gen (rulesText items) (loop (switcher P rec' "item" e items)))))))
  unfold ignoreBlock
  split
  · exact AgreeOn.block _ h2
  · exact h2

theorem mapCode_agree {P : PEnv} {rec rec' : Val → Run} {vt : ElemT} {r : MapRules} {keys values : FieldRules} :
    AgreeOn (fun kvs => ∀ kv ∈ kvs, rec kv.2 = rec' kv.2) (mapCode P rec nm vt r keys values)
      (mapCode P rec' nm vt r keys values) := by
  unfold mapCode
  rw [switcher_eq (rec := rec) (rec' := rec')]
  have h1 : AgreeOn (fun kvs => ∀ kv ∈ kvs, rec kv.2 = rec' kv.2)
      (on P.order (loop (on Prod.snd (stmt rec)))) (on P.order (loop (on Prod.snd (stmt rec')))) := by
    refine AgreeOn.mono (AgreeOn.on P.order (AgreeOn.loop (AgreeOn.on Prod.snd
      (AgreeOn.stmt (D := fun v => rec v = rec' v) fun x hx => hx)))) ?_
    intro kvs h kv hkv
    exact h kv ((P.order_perm kvs).mem_iff.1 hkv)
  have h2 := AgreeOn.seq (AgreeOn.refl (D := fun kvs => ∀ kv ∈ kvs, rec kv.2 = rec' kv.2)
      (genPos r.minPairs (fun n => raiseIf nm [.s "needs to contain at least ", .nat n, .s " items"] fun x => decide (x.length < n))))
    (AgreeOn.seq (AgreeOn.refl (genPos r.maxPairs (fun n =>
        raiseIf nm [.s "can contain at most ", .nat n, .s " items"] fun x => decide (x.length > n))))
      (b := if rulesText keys || rulesText values then
        on P.order (loop (on (fun kv => Val.sc kv.1) (keyCode P keys) ;; 
          on Prod.snd (switcher P rec' (nm ++ "[key]") vt values)))
      else gen vt.isEmbed (on P.order (loop (on Prod.snd (stmt rec)))))
      (b' := if rulesText keys || rulesText values then
        on P.order (loop (on (fun kv => Val.sc kv.1) (keyCode P keys) ;; 
          on Prod.snd (switcher P rec' (nm ++ "[key]") vt values)))
      else gen vt.isEmbed (on P.order (loop (on Prod.snd (stmt rec')))))
      (by
        split
        · exact .refl _
        · exact AgreeOn.gen _ h1))
  unfold ignoreBlock
  split
  · exact AgreeOn.block _ h2
  · exact h2

theorem fieldCode_agree {P : PEnv} {rec rec' : Val → Run} {inOneof : Bool} {f : FieldDesc} :
    AgreeOn (fun v => ∀ w, Called f.typ w v → rec w = rec' w) (fieldCode P rec inOneof f)
      (fieldCode P rec' inOneof f) := by
  obtain ⟨name, ft, rules⟩ := f
  have hmsg : ∀ nm t wkt m, AgreeOn (fun v => ∀ w, Called (.one (.embed t wkt)) w v → rec w = rec' w)
      (messageCode rec nm .field m) (messageCode rec' nm .field m) := by
    intro nm t wkt m
    refine AgreeOn.mono (messageCode_agree .field) fun v h hg => h v (.one ?_)
    rintro rfl
    simp [Place.guard, Place.has, isNull] at hg
  have hrep : ∀ nm e r items, AgreeOn (fun v => ∀ w, Called (.rep e) w v → rec w = rec' w)
      (on itemsOf (repeatedCode P rec nm e r items)) (on itemsOf (repeatedCode P rec' nm e r items)) := by
    intro nm e r items
    refine AgreeOn.mono (AgreeOn.on itemsOf repeatedCode_agree) fun v h w hw => ?_
    cases v with
    | list vs => exact h w (.item hw)
    | _ => cases hw
  have hmap : ∀ nm k e r keys values, AgreeOn (fun v => ∀ w, Called (.map k e) w v → rec w = rec' w)
      (on entriesOf (mapCode P rec nm e r keys values)) (on entriesOf (mapCode P rec' nm e r keys values)) := by
    intro nm k e r keys values
    refine AgreeOn.mono (AgreeOn.on entriesOf mapCode_agree) fun v h w hw => ?_
    cases v with
    | map kvs => exact h w.2 (.entry hw)
    | _ => cases hw
  cases ft with
  | one e =>
    cases e with
    | embed t wkt =>
      simp only [fieldCode]
      refine AgreeOn.ite (.refl _) ?_
      simp only [messageField]
      have hor : ∀ nm m other, AgreeOn (fun v => ∀ w, Called (.one (.embed t wkt)) w v → rec w = rec' w)
          (messageField.messageOr rec nm m other) (messageField.messageOr rec' nm m other) := by
        intro nm m other
        unfold messageField.messageOr
        split
        · exact hmsg _ t wkt m
        · exact .refl _
      cases rules with
      | absent =>
        simp only []
        split
        · exact .refl _
        · exact hmsg _ t wkt none
      | mk m ty =>
        cases ty <;> simp only [] <;> first | exact hor _ _ _ | (split <;> first | exact .refl _ | exact hor _ _ _)
    | _ => exact .refl _
  | rep e =>
    cases e with
    | embed t wkt =>
      simp only [fieldCode]
      refine AgreeOn.ite (.refl _) (AgreeOn.ite (.refl _) ?_)
      simp only [messageList]
      cases rules with
      | absent =>
        simp only []
        split
        · exact .refl _
        · exact hrep _ _ _ _
      | mk m ty =>
        simp only []
        split
        · exact .refl _
        · cases ty <;> simp only [] <;> first | exact .refl _ | (split <;> first | exact .refl _ | exact hrep _ _ _ _)
    | _ => exact .refl _
  | map k vt =>
    simp only [fieldCode, mapField]
    cases rules with
    | absent => exact hmap _ _ _ _ _ _
    | mk m ty =>
      simp only []
      split
      · exact .refl _
      · cases ty <;> simp only [] <;> first | exact .refl _ | (split <;> first | exact .refl _ | exact hmap _ _ _ _ _ _)

theorem seqAll_agree {α β : Type} {D : β → Prop} {l : List α} {k k' : α → Code β}
    (h : ∀ a ∈ l, AgreeOn D (k a) (k' a)) : AgreeOn D (seqAll l k) (seqAll l k') := by
  induction l with
  | nil => exact .refl _
  | cons a l ih => exact AgreeOn.seq (h a (.head _)) (ih fun b hb => h b (.tail _ hb))

theorem memberCode_agree {P : PEnv} {rec rec' : Val → Run} {o : OneofDesc} (fs : List FieldDesc) :
    AgreeOn (fun c : Content => ∀ n v f, c.2.lookup o.name = some (n, v) → ∀ w, Called f w v → rec w = rec' w)
      (memberCode P rec o fs) (memberCode P rec' o fs) := by
  induction fs with
  | nil => exact .refl _
  | cons f fs ih =>
    refine AgreeOn.seq (AgreeOn.block _ (AgreeOn.seq (.refl _) ?_)) ih
    refine AgreeOn.mono (AgreeOn.on _ fieldCode_agree) fun c hc w hw => ?_
    cases hl : c.2.lookup o.name with
    | none =>
      simp only [hl] at hw
      generalize f.typ = ft at hw
      cases hw with
      | one hn => exact absurd rfl hn
    | some nv =>
      obtain ⟨n, v⟩ := nv
      simp only [hl] at hw
      exact hc n v f.typ hl w hw

theorem validateStep_congr {P : PEnv} {S : Schema} {rec rec' : Val → Run} {v : Val}
    (h : ∀ w, depth w < depth v → rec w = rec' w) : validateStep P S rec v = validateStep P S rec' v := by
  cases v with
  | msg typ fs os =>
    unfold validateStep
    cases hS : S typ with
    | generated d =>
      simp only [hS]
      have body : AgreeOn (fun c : Content => c = (fs, os))
          (seqAll d.oneofs (oneofCode P rec) ;; seqAll d.fields (fun f => on (fun c => getField c.1 f) (fieldCode P rec false f)))
          (seqAll d.oneofs (oneofCode P rec') ;; seqAll d.fields (fun f => on (fun c => getField c.1 f) (fieldCode P rec' false f))) := by
        refine AgreeOn.seq (seqAll_agree fun o _ => ?_) (seqAll_agree fun f _ => ?_)
        · refine AgreeOn.seq (AgreeOn.mono (memberCode_agree _) ?_) (.refl _)
          rintro c rfl n v f hl w hw
          refine h w ?_
          have h1 := hw.depth_le
          have h2 := Go.depthOneofs_lookup (show os.lookup o.name = _ from hl)
          simp only [depth]; omega
        · refine AgreeOn.mono (AgreeOn.on _ fieldCode_agree) ?_
          rintro c rfl w hw
          unfold getField at hw
          cases hf : fs.lookup f.name with
          | some v =>
            rw [hf] at hw
            have h1 := hw.depth_le
            have h2 := Go.depthFields_lookup hf
            refine h w ?_
            simp only [Option.getD_some] at h1
            simp only [depth]; omega
          | none =>
            rw [hf] at hw
            exact hw.zero.elim
      have : AgreeOn (fun c : Content => c = (fs, os)) (msgCode P rec d) (msgCode P rec' d) := by
        unfold msgCode
        split
        · revert body
          generalize (seqAll d.oneofs (oneofCode P rec) ;; seqAll d.fields (fun f => on (fun c : Content => getField c.1 f) (fieldCode P rec false f))) = a
          generalize (seqAll d.oneofs (oneofCode P rec') ;; seqAll d.fields (fun f => on (fun c : Content => getField c.1 f) (fieldCode P rec' false f))) = a'
          intro body
          cases a <;> cases a' <;> simp_all [AgreeOn]
        · exact body
      exact this.run rfl
    | _ => simp only [hS]
  | _ => rfl

theorem fuel_enough (P : PEnv) (S : Schema) (n m : Nat) (v : Val) (hn : depth v ≤ n)
    (hm : depth v ≤ m) : validateFuel P S n v = validateFuel P S m v := by
  induction n generalizing m v with
  | zero => have := Go.depth_pos v; omega
  | succ n ih =>
    cases m with
    | zero => have := Go.depth_pos v; omega
    | succ m => exact validateStep_congr fun w hw => ih m w (by omega) (by omega)

/-- The recursion equation of `validate`. -/
theorem validate_eq (P : PEnv) (S : Schema) (v : Val) :
    validate P S v = validateStep P S (validate P S) v := by
  unfold validate
  have hp := Go.depth_pos v
  obtain ⟨n, hn⟩ : ∃ n, depth v = n + 1 := ⟨depth v - 1, by omega⟩
  rw [hn]
  exact validateStep_congr fun w hw => fuel_enough P S n (depth w) w (by omega) (Nat.le_refl _)

end PGV.Py
