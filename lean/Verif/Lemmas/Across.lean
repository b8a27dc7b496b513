import Verif.Spec.Across
import Verif.Lemmas.JavaMsg
import Verif.Lemmas.PyMsg
import Verif.Lemmas.PyKnot

/-!
A Java or Python validator that accepts a message accepts the messages it embeds.
-/

set_option linter.unusedSimpArgs false

namespace PGV.Across
open PGV PGV.Spec
open PGV.Go (resolve elemTypNotNone)

namespace Java
open PGV.Java

theorem seq_ok {a b : Run} : a ⊳ b = .ok () ↔ a = .ok () ∧ b = .ok () := by
  unfold seq
  cases a with
  | ok u => cases u; simp
  | error e => simp

theorem forEach_ok {α : Type} {xs : List α} {f : α → Run} :
    forEach xs f = .ok () ↔ ∀ x ∈ xs, f x = .ok () := by
  induction xs with
  | nil => simp [forEach]
  | cons x xs ih => simp [forEach, seq_ok, ih]

theorem guarded {ie b : Bool} {body : Run} (h : (if ie = true then when b body else body) = .ok ())
    (hb : b = true) : body = .ok () := by
  subst hb
  cases ie <;> simpa [when] using h

theorem message_ok {J : JEnv} {rec : Val → Run} {f : String} {n : String} {k : Option WKT}
    {rules : FieldRules} {w : Val} (hr : rules.type = .unset) (hk : msgSkip rules.message = false)
    (hw : isNull w = false) (h : elemTpl J rec f (.embed n k) rules w = .ok ()) : rec w = .ok () := by
  unfold elemTpl at h
  have : resolve (.embed n k) rules = .message rules.message := by
    simp [resolve, hr, ElemT.isEmbed]
  simp only [this, messageTpl, hk, hw, seq_ok, Bool.false_eq_true, if_false] at h
  simpa [when] using h.2

theorem embedded_typ {n : String} {k : Option WKT} {rules : FieldRules} (hr : rules.type = .unset) :
    elemTypNotNone (.embed n k) rules = true := by
  simp [elemTypNotNone, resolve, hr, ElemT.isEmbed]

theorem held_ok {J : JEnv} {rec : Val → Run} {typ : String} {f : FieldDesc} {v w : Val}
    {i : Option Go.Idx} {rules : FieldRules} (h : renderField J rec typ f v = .ok ())
    (hh : HeldBy f v i rules w) (hr : rules.type = .unset) (hk : msgSkip rules.message = false)
    (hw : isNull w = false) : rec w = .ok () := by
  obtain ⟨name, ftyp, frules⟩ := f
  cases hh with
  | field ht =>
    simp only at ht
    subst ht
    exact message_ok hr hk hw h
  | item ht hi hm =>
    simp only at ht
    subst ht
    rename_i t k vs n
    have hm := List.mem_of_getElem? hm
    unfold renderField at h
    unfold itemRules at hi
    simp only at hi h
    have key : ∀ r items vs, w ∈ vs → items.type = .unset → msgSkip items.message = false →
        repeatedTpl J rec (fullyQualified typ name) (.embed t k) r items vs = .ok () → rec w = .ok () := by
      intro r items vs hm hr hk h
      unfold repeatedTpl at h
      have hb := guarded h (by cases vs <;> simp_all)
      simp only [seq_ok, forEach_ok] at hb
      exact message_ok hr hk hw (hb.2.2.2 w hm)
    split at hi
    · rename_i r items hq
      cases hi
      rw [hq] at h
      exact key _ _ _ hm hr hk h
    · rename_i hq
      cases hi
      rw [hq] at h
      exact key _ _ _ hm hr hk h
    · simp at hi
  | value ht hi hm =>
    simp only at ht
    subst ht
    rename_i kt t k kvs key'
    unfold renderField at h
    unfold valueRules at hi
    simp only at hi h
    have key : ∀ r kt keys values kvs, (key', w) ∈ kvs → values.type = .unset → msgSkip values.message = false →
        mapTpl J rec (fullyQualified typ name) kt (.embed t k) r keys values kvs = .ok () → rec w = .ok () := by
      intro r kt keys values kvs hm hr hk h
      unfold mapTpl at h
      have hb := guarded h (by cases kvs <;> simp_all)
      simp only [seq_ok, embedded_typ hr, Bool.true_or, when, if_true, forEach_ok] at hb
      exact message_ok hr hk hw (hb.2.2.2.2 _ ((J.order_perm kvs).mem_iff.2 hm))
    split at hi
    · rename_i r keys values hq
      cases hi
      rw [hq] at h
      exact key _ _ _ _ _ hm hr hk h
    · rename_i hq
      cases hi
      rw [hq] at h
      simp only [ElemT.isEmbed, if_true] at h
      exact key _ _ _ _ _ hm hr hk h
    · simp at hi

theorem embeds_ok {J : JEnv} {S : Schema} {v w : Val} {i : Go.FieldRef} (hv : Validated S v)
    (h : assertValid J S v = .ok ()) (he : Embeds S v i w) : assertValid J S w = .ok () := by
  cases he with
  | mk hS hd ha hh hr hk hw =>
    rename_i typ fs os d f v i rules
    obtain ⟨typ', fs', os', d', e, hS', hi⟩ := hv
    cases e
    rw [hS] at hS'
    cases hS'
    rw [assertValid_eq] at h
    simp only [assertStep, hS, hi, hd, Bool.false_eq_true, if_false, seq_ok, forEach_ok] at h
    obtain ⟨typw, fsw, osw, dw, rfl, hSw, hiw⟩ := hw
    refine held_ok (J := J) (typ := typ) (v := v) ?_ hh hr hk rfl
    cases ha with
    | field hf => exact h.1 f hf
    | member ho hl hfind =>
      have := h.2 _ ho
      rw [hl] at this
      unfold oneofTpl at this
      simpa only [hfind] using this

end Java

namespace Py
open PGV.Py PGV.Py.Code

theorem ignore_run {α : Type} {o : Option Bool} {e : α → Bool} {c : Code α} {x : α}
    (h : (ignoreBlock o e c).run x = .ok ()) (hx : e x = false) : c.run x = .ok () := by
  have hs := some_of_run h
  unfold ignoreBlock at *
  split at h
  · rename_i ho
    rw [if_pos ho] at hs
    exact (run_block hs x).1 h (by simp [hx])
  · exact h

theorem field_run {rec : Val → Run} {nm : String} {m : Option MessageRules} {w : Val}
    (hk : msgSkip m = false) (hw : isNull w = false)
    (h : (messageCode rec nm .field m).run w = .ok ()) : rec w = .ok () := by
  simp only [messageCode, run_seq, hk, Bool.false_eq_true, if_false, run_stmt, Place.guard, hw, Bool.not_false,
    if_true] at h
  exact h.2

theorem element_run {rec : Val → Run} {nm : String} {m : Option MessageRules} {w : Val}
    (hk : msgSkip m = false) (hw : isNull w = false) :
    (messageCode rec nm .element m).run w ≠ .ok () := by
  simp [messageCode, run_seq, hk, Place.guard, hw]

theorem held_run {P : PEnv} {rec : Val → Run} {inOneof : Bool} {f : FieldDesc} {v w : Val}
    {i : Option Go.Idx} {rules : FieldRules} (h : (fieldCode P rec inOneof f).run v = .ok ())
    (hh : HeldBy f v i rules w) (hr : rules.type = .unset) (hk : msgSkip rules.message = false)
    (hw : isNull w = false) (hf : PyFollows P f) : rec w = .ok () := by
  obtain ⟨name, ftyp, frules⟩ := f
  cases hf with
  | one ht hg =>
    simp only at ht
    subst ht
    cases hh with
    | item ht' => simp at ht'
    | value ht' => simp at ht'
    | field _ =>
      cases frules with
      | absent =>
        simp only [fieldCode, unruled, hg rfl, Bool.and_false, messageField, Option.isSome_none, Bool.false_eq_true,
          if_false] at h
        exact field_run (by simp [msgSkip]) hw h
      | mk m t =>
        simp only [FieldRules.type] at hr
        subst hr
        simp only [fieldCode, unruled, messageField, typeText, Bool.false_and, Bool.false_eq_true, if_false,
          messageField.messageOr] at h
        split at h
        · exact field_run hk hw h
        · simp at h
  | rep ht hskip hg hpair =>
    rename_i t
    simp only at ht
    subst ht
    cases hh with
    | field ht' => simp at ht'
    | value ht' => simp at ht'
    | item _ hi hm =>
      rename_i vs n _
      have hm := List.mem_of_getElem? hm
      have key : ∀ r items, msgSkip items.message = false → items.type = .unset →
          (repeatedCode P rec (pName ⟨name, .rep (.embed t none), frules⟩) (.embed t none) r items).run vs = .ok () →
          rec w = .ok () := by
        intro r items hk hr h
        have hb := ignore_run h (by cases vs <;> simp_all)
        simp only [run_seq, run_gen, run_loop, ElemT.isEmbed, true_implies, hk, Bool.not_false, run_stmt] at hb
        exact hb.2.2.2.1.2 w hm
      cases frules with
      | absent =>
        have hmap : isMap P t = false := by
          unfold isMap
          split
          · rename_i k v e
            refine Bool.eq_false_iff.2 fun hc => ?_
            obtain ⟨k1, k2⟩ := k
            obtain ⟨v1, v2⟩ := v
            simp only [Bool.and_eq_true, beq_iff_eq] at hc
            obtain ⟨rfl, rfl⟩ := hc
            exact hpair rfl _ _ e
          · rfl
        simp only [fieldCode, unruled, hg rfl, hmap, Bool.and_false, messageList, Option.isSome_none,
          Bool.false_eq_true, if_false, run_on, itemsOf] at h
        exact key _ _ (by simp only [FieldRules.message, msgSkip]) rfl h
      | mk m t =>
        simp only [fieldCode, unruled, Bool.false_and, Bool.false_eq_true, if_false, messageList] at h
        split at h
        · rw [if_neg (by simpa [FieldRules.message] using hskip)] at h
          simp at h
        · split at h
          · split at h
            · simp only [run_on, itemsOf] at h
              simp only [itemRules, FieldRules.type, Option.some.injEq] at hi
              subst hi
              exact key _ _ hk hr h
            · simp at h
          · simp at h
  | map ht hskip hc =>
    rename_i kt t
    simp only at ht
    subst ht
    cases hh with
    | field ht' => simp at ht'
    | item ht' => simp at ht'
    | value _ hi hm =>
      rename_i kvs key' _
      have key : ∀ nm r keys values, msgSkip values.message = false → values.type = .unset →
          ((keys = .absent ∧ values = .absent) ∨ ∃ m, values.message = some m ∧ m ≠ {}) →
          (mapCode P rec nm (.embed t none) r keys values).run kvs = .ok () → rec w = .ok () := by
        intro nm r keys values hk hr hc h
        have hb := ((run_seq _ _ _).1 ((run_seq _ _ _).1 (ignore_run h (by cases kvs <;> simp_all))).2).2
        have hm' := (P.order_perm kvs).mem_iff.2 hm
        rcases hc with ⟨rfl, rfl⟩ | ⟨m, hmm, hne⟩
        · simp only [rulesText, Bool.or_self, Bool.false_eq_true, if_false, run_gen, ElemT.isEmbed, true_implies,
            run_on, run_loop, run_stmt] at hb
          exact hb.2 _ hm'
        · cases values with
          | absent => simp [FieldRules.message] at hmm
          | mk m' t' =>
            simp only [FieldRules.message] at hmm hk
            simp only [FieldRules.type] at hr
            subst hmm hr
            simp only [rulesText, Option.isSome_some, Bool.true_or, Bool.or_true, if_true, run_on, run_loop,
              run_seq, switcher, typeText, Bool.false_eq_true, if_false, run_gen] at hb
            have := (hb.2 _ hm').2 (by simpa [messageText] using hne)
            exact absurd this (element_run hk hw)
      cases frules with
      | absent =>
        simp only [fieldCode, mapField, run_on, entriesOf] at h
        exact key _ _ _ _ (by simp only [FieldRules.message, msgSkip]) rfl (.inl ⟨rfl, rfl⟩) h
      | mk m t =>
        simp only [fieldCode, mapField] at h
        split at h
        · rw [if_neg (by simpa [FieldRules.message] using hskip)] at h
          simp at h
        · split at h
          · split at h
            · simp only [run_on, entriesOf] at h
              simp only [valueRules, FieldRules.type, Option.some.injEq] at hi
              subst hi
              exact key _ _ _ _ hk hr (hc _ _ _ rfl) h
            · simp at h
          · simp at h

theorem member_run {P : PEnv} {rec : Val → Run} {o : OneofDesc} {c : Content} {m : String} {v : Val}
    {f : FieldDesc} (h : (oneofCode P rec o).run c = .ok ()) (hl : c.2.lookup o.name = some (m, v))
    (hf : o.fields.find? (fun f => f.name == m) = some f) : (fieldCode P rec true f).run v = .ok () := by
  have hs := some_of_run h
  simp only [oneofCode, some_seq] at hs
  simp only [oneofCode, run_seq, memberCode_ok hs.1] at h
  have hm : f.name = m := by simpa using List.find?_some hf
  exact h.1 f (List.mem_of_find?_eq_some hf) v (by rw [hl, hm])

theorem embeds_run {P : PEnv} {S : Schema} {typ : String} {fs : List (String × Val)}
    {os : List (String × String × Val)} {d : MsgDesc} {f : FieldDesc} {v w : Val} {i : Option Go.Idx}
    {rules : FieldRules} (hS : S typ = .generated d) (hd : d.disabled = false) (hi : d.ignored = false)
    (ha : Active d fs os f v) (hh : HeldBy f v i rules w) (hr : rules.type = .unset)
    (hk : msgSkip rules.message = false) (hw : Validated S w) (hf : PyFollows P f)
    (h : validate P S (.msg typ fs os) = .ok ()) : validate P S w = .ok () := by
  rw [PGV.Py.validate_eq] at h
  simp only [validateStep, hS, msgCode, hi, hd, Bool.or_self, Bool.false_eq_true, if_false, run_seq, run_seqAll,
    run_on] at h
  obtain ⟨typw, fsw, osw, dw, rfl, hSw, hiw⟩ := hw
  cases ha with
  | field hm => exact held_run (h.2 f hm) hh hr hk rfl hf
  | member ho hl hfind => exact held_run (member_run (h.1 _ ho) hl hfind) hh hr hk rfl hf

end Py
end PGV.Across
