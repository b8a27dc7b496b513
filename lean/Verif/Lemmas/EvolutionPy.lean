import Verif.Lemmas.Evolution
import Verif.Lemmas.PyKnot

/-!
What a validator accepts does not depend on the order of declarations, nor on fields without rules: Python.
-/

set_option linter.unusedSimpArgs false

namespace PGV.Evolution.Py
open PGV PGV.Spec PGV.Py PGV.Py.Code
open PGV.Go (depth)

variable {nm : String}

/-- Two texts that parse alike, the second of which ends well where the first does, on the values in `D`. -/
def Carries {α : Type} (D : α → Prop) (c c' : Code α) : Prop :=
  match c, c' with
  | none, none => True
  | some l, some l' => (l = [] ↔ l' = []) ∧ ∀ x, D x → runAll l x = .ok () → runAll l' x = .ok ()
  | _, _ => False

theorem Carries.run {α : Type} {D : α → Prop} {c c' : Code α} (h : Carries D c c') {x : α} (hx : D x)
    (hr : c.run x = .ok ()) : c'.run x = .ok () := by
  cases c <;> cases c' <;> simp_all [Carries, Code.run]

theorem Carries.some {α : Type} {D : α → Prop} {c c' : Code α} (h : Carries D c c') : c.isSome = c'.isSome := by
  cases c <;> cases c' <;> simp_all [Carries]

theorem Carries.refl {α : Type} {D : α → Prop} (c : Code α) : Carries D c c := by
  cases c <;> simp [Carries]

theorem Carries.ite {α : Type} {D : α → Prop} {b : Bool} {a a' c c' : Code α} (h1 : Carries D a a')
    (h2 : Carries D c c') : Carries D (if b = true then a else c) (if b = true then a' else c') := by
  cases b
  · exact h2
  · exact h1

theorem Carries.seq {α : Type} {D : α → Prop} {a a' b b' : Code α} (h1 : Carries D a a') (h2 : Carries D b b') :
    Carries D (a ;; b) (a' ;; b') := by
  cases a <;> cases a' <;> cases b <;> cases b' <;> simp_all [Carries, Code.seq]
  intro x hx h
  rw [Code.runAll_append] at h ⊢
  exact ⟨h1.2 x hx h.1, h2.2 x hx h.2⟩

theorem Carries.gen {α : Type} {D : α → Prop} {a a' : Code α} (g : Bool) (h : Carries D a a') :
    Carries D (gen g a) (gen g a') := by
  cases g
  · exact .refl _
  · exact h

theorem Carries.stmt {α : Type} {D : α → Prop} {s s' : α → Run} (h : ∀ x, D x → s x = .ok () → s' x = .ok ()) :
    Carries D (stmt s) (stmt s') := by
  simp only [Carries, Code.stmt]
  refine ⟨by simp, fun x hx hs => ?_⟩
  simp only [runAll_one] at hs ⊢
  exact h x hx hs

theorem Carries.block {α : Type} {D : α → Prop} {a a' : Code α} (t : α → Bool) (h : Carries D a a') :
    Carries D (block t a) (block t a') := by
  rcases a with _ | l <;> rcases a' with _ | l'
  · exact .refl _
  · exact h.elim
  · exact h.elim
  · obtain ⟨h1, h2⟩ := h
    rcases l with _ | ⟨s, l⟩ <;> rcases l' with _ | ⟨s', l'⟩
    · exact .refl _
    · simp at h1
    · simp at h1
    · refine Carries.stmt fun x hx => ?_
      split
      · exact h2 x hx
      · exact id

theorem Carries.on {α β : Type} {D : α → Prop} {a a' : Code α} (g : β → α) (h : Carries D a a') :
    Carries (fun x => D (g x)) (on g a) (on g a') := by
  rcases a with _ | l <;> rcases a' with _ | l'
  · exact .refl _
  · exact h.elim
  · exact h.elim
  · obtain ⟨h1, h2⟩ := h
    refine ⟨by simpa using h1, fun x hx hr => ?_⟩
    rw [runAll_map] at hr ⊢
    exact h2 _ hx hr

theorem Carries.loop {α : Type} {D : α → Prop} {a a' : Code α} (h : Carries D a a') :
    Carries (fun xs => ∀ x ∈ xs, D x) (loop a) (loop a') := by
  rcases a with _ | l <;> rcases a' with _ | l'
  · exact .refl _
  · exact h.elim
  · exact h.elim
  · refine Carries.stmt fun xs hx hr => ?_
    rw [forEach_ok] at hr ⊢
    exact fun x hm => h.2 x (hx x hm) (hr x hm)

theorem Carries.mono {α : Type} {D D' : α → Prop} {a a' : Code α} (h : Carries D a a') (hd : ∀ x, D' x → D x) :
    Carries D' a a' := by
  rcases a with _ | l <;> rcases a' with _ | l'
  · trivial
  · exact h.elim
  · exact h.elim
  · exact ⟨h.1, fun x hx => h.2 x (hd x hx)⟩

theorem messageCode_carries {rec rec' : Val → Run} {m : Option MessageRules} (pl : Place) :
    Carries (fun v => pl.guard v = true → (rec v = .ok () → rec' v = .ok ())) (messageCode rec nm pl m) (messageCode rec' nm pl m) := by
  unfold messageCode
  refine Carries.seq (.refl _) ?_
  split
  · exact .refl _
  · refine Carries.stmt fun v hv => ?_
    cases hg : pl.guard v
    · exact id
    · cases pl
      · simpa using hv hg
      · exact id

theorem repeatedCode_carries {P : PEnv} {rec rec' : Val → Run} {e : ElemT} {r : RepeatedRules} {items : FieldRules} :
    Carries (fun vs => ∀ v ∈ vs, (rec v = .ok () → rec' v = .ok ())) (repeatedCode P rec nm e r items) (repeatedCode P rec' nm e r items) := by
  unfold repeatedCode
  rw [switcher_eq (rec := rec) (rec' := rec')]
  have h1 : Carries (fun vs => ∀ v ∈ vs, (rec v = .ok () → rec' v = .ok ()))
      (loop (gen (!msgSkip items.message) (stmt rec))) (loop (gen (!msgSkip items.message) (stmt rec'))) :=
    Carries.loop (Carries.gen _ (Carries.stmt fun x hx => hx))
  have h2 := Carries.seq (Carries.refl (D := fun vs => ∀ v ∈ vs, (rec v = .ok () → rec' v = .ok ()))
      (genPos r.minItems (fun n => raiseIf nm [.s "needs to contain at least ", .nat n, .s " items"] fun x => decide (x.length < n))))
    (Carries.seq (Carries.refl (genPos r.maxItems (fun n =>
        raiseIf nm [.s "needs to contain at most ", .nat n, .s " items"] fun x => decide (x.length > n))))
      (Carries.seq (Carries.refl (gen (optB r.unique) (stmt (uniqueLoop nm []))))
        (Carries.seq (Carries.gen e.isEmbed h1)
          (Carries.refl (gen (rulesText items) (loop (switcher P rec' "item" e items)))))))
  unfold ignoreBlock
  split
  · exact Carries.block _ h2
  · exact h2

theorem mapCode_carries {P : PEnv} {rec rec' : Val → Run} {vt : ElemT} {r : MapRules} {keys values : FieldRules} :
    Carries (fun kvs => ∀ kv ∈ kvs, (rec kv.2 = .ok () → rec' kv.2 = .ok ())) (mapCode P rec nm vt r keys values)
      (mapCode P rec' nm vt r keys values) := by
  unfold mapCode
  rw [switcher_eq (rec := rec) (rec' := rec')]
  have h1 : Carries (fun kvs => ∀ kv ∈ kvs, (rec kv.2 = .ok () → rec' kv.2 = .ok ()))
      (on P.order (loop (on Prod.snd (stmt rec)))) (on P.order (loop (on Prod.snd (stmt rec')))) := by
    refine Carries.mono (Carries.on P.order (Carries.loop (Carries.on Prod.snd
      (Carries.stmt (D := fun v => (rec v = .ok () → rec' v = .ok ())) fun x hx => hx)))) ?_
    intro kvs h kv hkv
    exact h kv ((P.order_perm kvs).mem_iff.1 hkv)
  have h2 := Carries.seq (Carries.refl (D := fun kvs => ∀ kv ∈ kvs, (rec kv.2 = .ok () → rec' kv.2 = .ok ()))
      (genPos r.minPairs (fun n => raiseIf nm [.s "needs to contain at least ", .nat n, .s " items"] fun x => decide (x.length < n))))
    (Carries.seq (Carries.refl (genPos r.maxPairs (fun n =>
        raiseIf nm [.s "can contain at most ", .nat n, .s " items"] fun x => decide (x.length > n))))
      (b := if rulesText keys || rulesText values then
        on P.order (loop (on (fun kv => Val.sc kv.1) (keyCode P keys) ;; 
          on Prod.snd (switcher P rec' (nm ++ "[key]") vt values)))
      else gen vt.isEmbed (on P.order (loop (on Prod.snd (stmt rec)))))
      (b' := if rulesText keys || rulesText values then
        on P.order (loop (on (fun kv => Val.sc kv.1) (keyCode P keys) ;; 
          on Prod.snd (switcher P rec' (nm ++ "[key]") vt values)))
      else gen vt.isEmbed (on P.order (loop (on Prod.snd (stmt rec')))))
      (by
        split
        · exact .refl _
        · exact Carries.gen _ h1))
  unfold ignoreBlock
  split
  · exact Carries.block _ h2
  · exact h2

theorem fieldCode_carries {P : PEnv} {rec rec' : Val → Run} {inOneof : Bool} {f : FieldDesc} :
    Carries (fun v => ∀ w, Called f.typ w v → (rec w = .ok () → rec' w = .ok ())) (fieldCode P rec inOneof f)
      (fieldCode P rec' inOneof f) := by
  obtain ⟨name, ft, rules⟩ := f
  have hmsg : ∀ nm t wkt m, Carries (fun v => ∀ w, Called (.one (.embed t wkt)) w v → (rec w = .ok () → rec' w = .ok ()))
      (messageCode rec nm .field m) (messageCode rec' nm .field m) := by
    intro nm t wkt m
    refine Carries.mono (messageCode_carries .field) fun v h hg => h v (.one ?_)
    rintro rfl
    simp [Place.guard, Place.has, isNull] at hg
  have hrep : ∀ nm e r items, Carries (fun v => ∀ w, Called (.rep e) w v → (rec w = .ok () → rec' w = .ok ()))
      (on itemsOf (repeatedCode P rec nm e r items)) (on itemsOf (repeatedCode P rec' nm e r items)) := by
    intro nm e r items
    refine Carries.mono (Carries.on itemsOf repeatedCode_carries) fun v h w hw => ?_
    cases v with
    | list vs => exact h w (.item hw)
    | _ => cases hw
  have hmap : ∀ nm k e r keys values, Carries (fun v => ∀ w, Called (.map k e) w v → (rec w = .ok () → rec' w = .ok ()))
      (on entriesOf (mapCode P rec nm e r keys values)) (on entriesOf (mapCode P rec' nm e r keys values)) := by
    intro nm k e r keys values
    refine Carries.mono (Carries.on entriesOf mapCode_carries) fun v h w hw => ?_
    cases v with
    | map kvs => exact h w.2 (.entry hw)
    | _ => cases hw
  cases ft with
  | one e =>
    cases e with
    | embed t wkt =>
      simp only [fieldCode]
      refine Carries.ite (.refl _) ?_
      simp only [messageField]
      have hor : ∀ nm m other, Carries (fun v => ∀ w, Called (.one (.embed t wkt)) w v → (rec w = .ok () → rec' w = .ok ()))
          (messageField.messageOr rec nm m other) (messageField.messageOr rec' nm m other) := by
        intro nm m other
        unfold messageField.messageOr
        split
        · exact hmsg _ t wkt m
        · exact .refl _
      cases rules with
      | absent =>
        simp only []
        split
        · exact .refl _
        · exact hmsg _ t wkt none
      | mk m ty =>
        cases ty <;> simp only [] <;> first | exact hor _ _ _ | (split <;> first | exact .refl _ | exact hor _ _ _)
    | _ => exact .refl _
  | rep e =>
    cases e with
    | embed t wkt =>
      simp only [fieldCode]
      refine Carries.ite (.refl _) (Carries.ite (.refl _) ?_)
      simp only [messageList]
      cases rules with
      | absent =>
        simp only []
        split
        · exact .refl _
        · exact hrep _ _ _ _
      | mk m ty =>
        simp only []
        split
        · exact .refl _
        · cases ty <;> simp only [] <;> first | exact .refl _ | (split <;> first | exact .refl _ | exact hrep _ _ _ _)
    | _ => exact .refl _
  | map k vt =>
    simp only [fieldCode, mapField]
    cases rules with
    | absent => exact hmap _ _ _ _ _ _
    | mk m ty =>
      simp only []
      split
      · exact .refl _
      · cases ty <;> simp only [] <;> first | exact .refl _ | (split <;> first | exact .refl _ | exact hmap _ _ _ _ _ _)


section
variable {P : PEnv} {S S' : Schema} {rec rec' : Val → Run} {b : Bool}

theorem field_some {f : FieldDesc} : (fieldCode P rec b f).isSome = (fieldCode P rec' b f).isSome :=
  (fieldCode_carries (rec := rec) (rec' := rec')).some

theorem free {f : FieldDesc} {u : Val} (h : Free f u) : (fieldCode P rec b f).run u = .ok () := by
  obtain ⟨name, ft, rules⟩ := f
  obtain ⟨hr, h⟩ := h
  dsimp only at hr
  subst hr
  cases ft with
  | one e =>
    cases e with
    | embed t k =>
      rcases h with h | h
      · exact (h rfl).elim
      · subst h
        simp only [fieldCode, messageField]
        split
        · rfl
        · split
          · rfl
          · simp [messageCode, requiredCode, msgSkip, FieldT.zero, ElemT.zero, Place.guard, Place.has, isNull, optB]
    | _ => rfl
  | rep e =>
    cases e with
    | embed t k =>
      rcases h with h | h
      · exact (h rfl).elim
      · subst h
        simp only [fieldCode, messageList]
        split
        · rfl
        · split
          · simp [pairList, FieldT.zero, itemsOf, stmt]
          · split
            · rfl
            · simp [repeatedCode, FieldT.zero, itemsOf, ignoreBlock, optB, genPos, rulesText, ElemT.isEmbed, msgSkip,
                FieldRules.message, optN, stmt]
    | _ => rfl
  | map k e =>
    have hz : P.order [] = [] := List.Perm.eq_nil (P.order_perm [])
    simp only [fieldCode, mapField]
    rcases h with h | h
    · have he : e.isEmbed = false := by simpa [HoldsMessages] using h
      simp [mapCode, ignoreBlock, optB, genPos, rulesText, he, optN]
    · subst h
      simp [mapCode, ignoreBlock, optB, genPos, rulesText, FieldT.zero, entriesOf, hz, optN, stmt]

theorem absent_some {f : FieldDesc} (h : f.rules = .absent) : (fieldCode P rec b f).isSome = true :=
  some_of_run (free (u := f.typ.zero) ⟨h, .inr rfl⟩)

theorem some_block_stmt {α : Type} {t : α → Bool} {s : α → Run} {c : Code α} (h : c.isSome = true) :
    (block t (stmt s ;; c)).isSome = true := by
  cases c with
  | none => cases h
  | some l => rfl

theorem member_some {o : OneofDesc} (fs : List FieldDesc) (h : ∀ f ∈ fs, (fieldCode P rec true f).isSome = true) :
    (memberCode P rec o fs).isSome = true := by
  induction fs with
  | nil => rfl
  | cons f fs ih =>
    unfold memberCode
    rw [some_seq]
    refine ⟨some_block_stmt ?_, ih fun g hg => h g (.tail _ hg)⟩
    rw [some_on]
    exact h f (.head _)

theorem oneof_some {o : OneofDesc} : (oneofCode P rec o).isSome = true ↔ ∀ f ∈ o.fields, (fieldCode P rec true f).isSome = true := by
  unfold oneofCode
  simp only [some_seq]
  constructor
  · exact fun h => memberCode_some h.1
  · intro h
    refine ⟨member_some _ h, ?_⟩
    cases o.required <;> rfl

theorem parses {d d' : MsgDesc} {fs : List (String × Val)} {os : List (String × String × Val)} (hm : NoMore d d' fs os)
    (ho : ∀ o ∈ d.oneofs, (oneofCode P rec o).isSome = true) (hf : ∀ f ∈ d.fields, (fieldCode P rec false f).isSome = true) :
    (∀ o ∈ d'.oneofs, (oneofCode P rec' o).isSome = true) ∧ ∀ f ∈ d'.fields, (fieldCode P rec' false f).isSome = true := by
  refine ⟨fun o' ho' => oneof_some.2 fun f hf' => ?_, fun f hf' => ?_⟩
  · rcases hm.oneofs o' ho' with ⟨o, hoo, -, -, hmem⟩ | ⟨-, hmem⟩
    · rcases hmem f hf' with h | h
      · rw [field_some (rec' := rec)]
        exact oneof_some.1 (ho o hoo) f h
      · exact absent_some h.1
    · exact absent_some (hmem f hf').1
  · rcases hm.fields f hf' with h | h
    · rw [field_some (rec' := rec)]
      exact hf f h
    · exact absent_some h.1

theorem called {d : MsgDesc} {typ : String} {fs : List (String × Val)} {os : List (String × String × Val)}
    {f : FieldDesc} {u w : Val} (h : Active d fs os f u) (hc : PGV.Py.Called f.typ w u) :
    Part w (.msg typ fs os) ∧ depth w < depth (.msg typ fs os) := by
  rcases active_part (typ := typ) h with ⟨hp, hd⟩ | rfl
  · have := hc.depth_le
    exact ⟨Local.part_trans (Local.Py.called_part hc) hp, by omega⟩
  · exact hc.zero.elim

theorem valid : ∀ n v, depth v ≤ n → Evolved S S' v → validate P S v = .ok () → validate P S' v = .ok () := by
  intro n
  induction n with
  | zero => intro v hv; have := PGV.Go.depth_pos v; omega
  | succ n ih =>
    intro v hv hS ha
    rw [validate_eq] at ha ⊢
    cases v with
    | msg typ fs os =>
      unfold validateStep at ha ⊢
      dsimp only at ha ⊢
      rcases hS typ fs os .self with ⟨d, d', h1, h2, h3⟩ | ⟨h1, h2⟩
      · rw [h1] at ha
        rw [h2]
        dsimp only at ha ⊢
        have key : ∀ f u, Active d' fs os f u → ∀ w, PGV.Py.Called f.typ w u → validate P S w = .ok () →
            validate P S' w = .ok () := by
          intro f u hact w hw
          obtain ⟨hp, hlt⟩ := called (typ := typ) hact hw
          exact ih w (by omega) (evolved_part hS hp)
        unfold msgCode at ha ⊢
        dsimp only at ha ⊢
        rw [← h3.disabled, ← h3.ignored]
        split
        · rename_i hi
          rw [if_pos hi] at ha
          have hs := some_of_run ha
          simp only [Option.isSome_map, some_seq, some_seqAll, some_on] at hs
          have hs' := parses (rec' := validate P S') h3.more hs.1 hs.2
          have : (seqAll d'.oneofs (oneofCode P (validate P S')) ;;
              seqAll d'.fields fun f => on (fun c : Content => getField c.1 f) (fieldCode P (validate P S') false f)).isSome = true := by
            simp only [some_seq, some_seqAll, some_on]
            exact hs'
          revert this
          cases (seqAll d'.oneofs (oneofCode P (validate P S')) ;;
              seqAll d'.fields fun f => on (fun c : Content => getField c.1 f) (fieldCode P (validate P S') false f)) with
          | none => intro h; cases h
          | some l => intro _; rfl
        · rename_i hi
          rw [if_neg hi] at ha
          simp only [run_seq, run_seqAll, run_on] at ha ⊢
          obtain ⟨ho, hf⟩ := ha
          have hs' := parses (rec' := validate P S') h3.more (fun o h => some_of_run (ho o h)) (fun f h => some_of_run (hf f h))
          refine ⟨fun o' ho' => ?_, fun f hf' => ?_⟩
          · have hso := hs'.1 o' ho'
            unfold oneofCode at hso ⊢
            simp only [some_seq] at hso
            simp only [run_seq, memberCode_ok hso.1, run_gen, run_raiseIf]
            have decl := h3.new.declared o' ho'
            have spare : ∀ u f, os.lookup o'.name = some (f.name, u) → ¬ Spare os o' f := fun u f hl hs => hs.2 u hl
            rcases h3.more.oneofs o' ho' with ⟨o, hoo, hn, hr, hmem⟩ | ⟨hr, hmem⟩
            · have h := ho o hoo
              have hsm := some_of_run h
              unfold oneofCode at h hsm
              simp only [some_seq] at hsm
              simp only [run_seq, memberCode_ok hsm.1, run_gen, run_raiseIf] at h
              obtain ⟨ha, hb⟩ := h
              rw [hn] at ha hb
              rw [hr] at hb
              refine ⟨fun f hf v hl => ?_, fun hreq => ?_⟩
              · rcases hmem f hf with hm | hm
                · exact fieldCode_carries.run (key f v (.member ho' hl (Py.find_of_nodup (h3.new.names o' ho') hf))) (ha f hm v hl)
                · exact (spare v f hl hm).elim
              · have hb := hb hreq
                cases hl : os.lookup o'.name with
                | none => simp only [hl] at hb; cases hb
                | some mu =>
                  obtain ⟨m, u⟩ := mu
                  obtain ⟨f, hf, hfm⟩ := decl m u hl
                  simp only [Bool.not_eq_false', List.any_eq_true]
                  exact ⟨f, hf, by simp [hfm]⟩
            · refine ⟨fun f hf v hl => (spare v f hl (hmem f hf)).elim, fun hreq => ?_⟩
              rw [hr] at hreq
              cases hreq
          · rcases h3.more.fields f hf' with h | h
            · exact fieldCode_carries.run (key f _ (.field hf')) (hf f h)
            · exact free h
      · rw [← h1]
        cases hg : S typ with
        | generated d => exact (h2 d hg).elim
        | _ => rw [hg] at ha; exact ha
    | _ => exact ha

end

end PGV.Evolution.Py
