import Verif.Java.Validator
import Verif.Spec.Fallback
import Verif.Lemmas.JavaMsg
import Verif.Lemmas.Local

/-!
What a Java validator accepts grows with what its fallback accepts.
-/

set_option linter.unusedSimpArgs false

namespace PGV.Java.Fallback
open PGV PGV.Spec PGV.Java
open PGV.Go (resolve Resolved elemTypNotNone depth)

variable {J : JEnv} {o : Val → Run} {rec rec' : Val → Run}

theorem scalar (f : String) (e : ElemT) (t : TypeRules) (v : Scalar) :
    scalarTpl (J.fallingBack o) f e t v = scalarTpl J f e t v := rfl

theorem elem {f : String} {e : ElemT} {rules : FieldRules} {v : Val}
    (h : e.isEmbed = true → v ≠ .null → rec v = .ok () → rec' v = .ok ())
    (ha : elemTpl J rec f e rules v = .ok ()) : elemTpl (J.fallingBack o) rec' f e rules v = .ok () := by
  unfold elemTpl at ha ⊢
  cases hr : resolve e rules with
  | message m =>
    have he : e.isEmbed = true := by
      unfold resolve at hr
      cases ht : rules.type with
      | unset => cases he : e.isEmbed <;> simp_all
      | num k r => cases he : e.isEmbed <;> cases k <;> simp_all
      | _ => cases he : e.isEmbed <;> simp_all
    rw [hr] at ha
    dsimp only at ha ⊢
    unfold messageTpl at ha ⊢
    split
    · rfl
    · rename_i hs
      rw [if_neg hs] at ha
      simp only [seq_ok, when_ok] at ha ⊢
      refine ⟨ha.1, fun hn => h he ?_ (ha.2 hn)⟩
      rintro rfl
      cases hn
  | none => rfl
  | _ =>
    rw [hr] at ha
    exact ha

theorem repeated {f : String} {e : ElemT} {r : RepeatedRules} {items : FieldRules} {vs : List Val}
    (h : ∀ v ∈ vs, e.isEmbed = true → v ≠ .null → rec v = .ok () → rec' v = .ok ())
    (ha : repeatedTpl J rec f e r items vs = .ok ()) : repeatedTpl (J.fallingBack o) rec' f e r items vs = .ok () := by
  unfold repeatedTpl at ha ⊢
  dsimp only at ha ⊢
  split
  · rename_i hi
    rw [if_pos hi] at ha
    simp only [seq_ok, when_ok, forEach_ok] at ha ⊢
    exact fun hn => ⟨(ha hn).1, (ha hn).2.1, (ha hn).2.2.1, fun v hv => elem (h v hv) ((ha hn).2.2.2 v hv)⟩
  · rename_i hi
    rw [if_neg hi] at ha
    simp only [seq_ok, when_ok, forEach_ok] at ha ⊢
    exact ⟨ha.1, ha.2.1, ha.2.2.1, fun v hv => elem (h v hv) (ha.2.2.2 v hv)⟩

theorem map {f : String} {kt vt : ElemT} {r : MapRules} {keys values : FieldRules} {kvs : List (Scalar × Val)}
    (h : ∀ kv ∈ kvs, vt.isEmbed = true → kv.2 ≠ .null → rec kv.2 = .ok () → rec' kv.2 = .ok ())
    (ha : mapTpl J rec f kt vt r keys values kvs = .ok ()) :
    mapTpl (J.fallingBack o) rec' f kt vt r keys values kvs = .ok () := by
  have mem : ∀ kv, kv ∈ J.order kvs → kv ∈ kvs := fun kv hm => (J.order_perm kvs).mem_iff.1 hm
  unfold mapTpl at ha ⊢
  dsimp only at ha ⊢
  split
  · rename_i hi
    rw [if_pos hi] at ha
    simp only [seq_ok, when_ok, forEach_ok] at ha ⊢
    exact fun hn => ⟨(ha hn).1, (ha hn).2.1, (ha hn).2.2.1, fun ht => ⟨((ha hn).2.2.2 ht).1, fun kv hm =>
      elem (h kv (mem kv hm)) (((ha hn).2.2.2 ht).2 kv hm)⟩⟩
  · rename_i hi
    rw [if_neg hi] at ha
    simp only [seq_ok, when_ok, forEach_ok] at ha ⊢
    exact ⟨ha.1, ha.2.1, ha.2.2.1, fun ht => ⟨(ha.2.2.2 ht).1, fun kv hm =>
      elem (h kv (mem kv hm)) ((ha.2.2.2 ht).2 kv hm)⟩⟩

theorem held_called {f : FieldDesc} {u x : Val} {i : Option Go.Idx} {rules : FieldRules} (h : HeldBy f u i rules x)
    (hn : x ≠ .null) : Called f.typ x u := by
  cases h with
  | field ht => rw [ht]; exact .one rfl hn
  | item ht _ hg => rw [ht]; exact .item (List.mem_of_getElem? hg) hn
  | value ht _ hm => rw [ht]; exact .entry hm hn

theorem embed_of {e : ElemT} (h : e.isEmbed = true) : ∃ t k, e = .embed t k := by
  cases e with
  | embed t k => exact ⟨t, k, rfl⟩
  | _ => cases h

theorem field {typ : String} {f : FieldDesc} {v : Val}
    (h : ∀ i rules w, HeldBy f v i rules w → w ≠ .null → rec w = .ok () → rec' w = .ok ())
    (ha : renderField J rec typ f v = .ok ()) : renderField (J.fallingBack o) rec' typ f v = .ok () := by
  obtain ⟨name, ft, rules⟩ := f
  cases ft with
  | one e =>
    refine elem (fun he hn => ?_) ha
    obtain ⟨t, k, rfl⟩ := embed_of he
    exact h _ _ v (.field rfl) hn
  | rep e =>
    cases v with
    | list vs =>
      have hc : ∀ items, itemRules rules = some items → ∀ v ∈ vs, e.isEmbed = true → v ≠ .null → rec v = .ok () →
          rec' v = .ok () := by
        intro items hi v hv he hn
        obtain ⟨t, k, rfl⟩ := embed_of he
        obtain ⟨n, hn'⟩ := List.getElem?_of_mem hv
        exact h _ _ v (.item rfl hi hn') hn
      unfold renderField at ha ⊢
      dsimp only at ha ⊢
      cases ht : rules.type with
      | repeated => rw [ht] at ha; exact repeated (hc _ (by unfold itemRules; rw [ht])) ha
      | unset => rw [ht] at ha; exact repeated (hc _ (by unfold itemRules; rw [ht])) ha
      | _ => rfl
    | _ => rfl
  | map kt vt =>
    cases v with
    | map kvs =>
      have hc : ∀ values, valueRules rules = some values → ∀ kv ∈ kvs, vt.isEmbed = true → kv.2 ≠ .null →
          rec kv.2 = .ok () → rec' kv.2 = .ok () := by
        intro values hi kv hv he hn
        obtain ⟨t, k, rfl⟩ := embed_of he
        exact h _ _ kv.2 (.value rfl hi hv) hn
      unfold renderField at ha ⊢
      dsimp only at ha ⊢
      cases ht : rules.type with
      | map => rw [ht] at ha; exact map (hc _ (by unfold valueRules; rw [ht])) ha
      | unset =>
        rw [ht] at ha
        dsimp only at ha ⊢
        split
        · rename_i he
          rw [if_pos he] at ha
          exact map (hc _ (by unfold valueRules; rw [ht])) ha
        · rfl
      | _ => rfl
    | _ => rfl

theorem valid {S : Schema} : ∀ n v, depth v ≤ n →
    (∀ w, Handed S v w → Unknown S w → J.other w = .ok () → o w = .ok ()) →
    assertValid J S v = .ok () → assertValid (J.fallingBack o) S v = .ok () := by
  intro n
  induction n with
  | zero => intro v hv; have := Go.depth_pos v; omega
  | succ n ih =>
    intro v hv ho ha
    rw [assertValid_eq] at ha ⊢
    cases v with
    | msg typ fs os =>
      unfold assertStep at ha ⊢
      dsimp only at ha ⊢
      cases hg : S typ with
      | generated d =>
        rw [hg] at ha
        dsimp only at ha ⊢
        split
        · rename_i hi
          rw [if_pos hi] at ha
          refine ho _ (.self _) (fun t fs' os' d' e hd => ?_) ha
          cases e
          rw [hg] at hd
          cases hd
          exact hi
        · rename_i hi
          rw [if_neg hi] at ha
          split
          · rfl
          · rename_i hd
            rw [if_neg hd] at ha
            simp only [seq_ok, forEach_ok] at ha ⊢
            have key : ∀ (f : FieldDesc) u, Active d fs os f u → (depth u ≤ n ∨ u = f.typ.zero) → ∀ i rules w,
                HeldBy f u i rules w → w ≠ .null → assertValid J S w = .ok () →
                assertValid (J.fallingBack o) S w = .ok () := by
              intro f u hact hu i rules w hw hn
              have hc := held_called hw hn
              rcases hu with hd | rfl
              · exact ih w (by have := hc.depth_le; omega) fun x hx => ho x (.inner hg hact hw hn hx)
              · exact hc.zero.elim
            refine ⟨fun f hf => field (key f _ (.field hf) ?_) (ha.1 f hf), fun q hq => ?_⟩
            · unfold getField
              cases hl : fs.lookup f.name with
              | none => exact .inr rfl
              | some u =>
                have hd := PGV.Go.depthFields_lookup hl
                simp only [depth] at hv
                exact .inl (by simp only [Option.getD_some]; omega)
            · have hok := ha.2 q hq
              cases hl : os.lookup q.name with
              | none => rw [hl] at hok; exact hok
              | some mv =>
                obtain ⟨m, u⟩ := mv
                rw [hl] at hok
                have hd := PGV.Go.depthOneofs_lookup hl
                simp only [depth] at hv
                unfold oneofTpl at hok ⊢
                dsimp only at hok ⊢
                split
                · rename_i f hf
                  rw [hf] at hok
                  exact field (key f u (.member hq hl hf) (.inl (by omega))) hok
                · rfl
      | _ =>
        rw [hg] at ha
        refine ho _ (.self _) (fun t fs' os' d' e hd => ?_) ha
        cases e
        rw [hg] at hd
        cases hd
    | _ => exact ho _ (.self _) (fun t fs' os' d' e hd => by cases e) ha

end PGV.Java.Fallback
