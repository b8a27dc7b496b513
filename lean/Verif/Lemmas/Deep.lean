import Verif.Spec.Path
import Verif.Lemmas.Found
import Verif.Lemmas.Raises

/-!
`ValidateAll` passes on what it finds in embedded messages.
-/

set_option linter.unusedSimpArgs false

namespace PGV.Deep
open PGV PGV.Go PGV.Go.Exec PGV.Spec PGV.Found

/-- The fragment appends `e`, among others. -/
def Says (e : Err) (x : Exec) : Prop := ∃ l, (∀ acc, x acc = .ok (acc ++ l)) ∧ e ∈ l

/-- The fragment appends some errors. -/
def Goes (x : Exec) : Prop := ∃ l, ∀ acc, x acc = .ok (acc ++ l)

theorem Goes.of_ok {W : Err → Prop} {x : Bool → Exec} {P : Prop} (h : Ok W x P) : Goes (x true) := ⟨_, h.all⟩

theorem Goes.of_sim {x y : Exec} (h : Sim x y) : Goes x := by
  obtain ⟨l, _, h, _⟩ := h
  exact ⟨l, h⟩

theorem Goes.seq {a b : Exec} (h : Goes a) (h' : Goes b) : Goes (a ;; b) := by
  obtain ⟨l, h⟩ := h
  obtain ⟨m, h'⟩ := h'
  exact ⟨l ++ m, fun acc => by simp [Exec.seq, h, h']⟩

theorem Goes.skip : Goes Exec.skip := ⟨[], by simp [Exec.skip]⟩

theorem Goes.forEach {α : Type} {f : α → Exec} : ∀ xs : List α, (∀ x ∈ xs, Goes (f x)) → Goes (Exec.forEach xs f)
  | [], _ => Goes.skip
  | x :: xs, h => (h x (.head _)).seq (Goes.forEach xs fun y hy => h y (.tail _ hy))

theorem Says.before {e : Err} {a b : Exec} (h : Says e a) (h' : Goes b) : Says e (a ;; b) := by
  obtain ⟨l, h, he⟩ := h
  obtain ⟨m, h'⟩ := h'
  exact ⟨l ++ m, fun acc => by simp [Exec.seq, h, h'], by simp [he]⟩

theorem Says.after {e : Err} {a b : Exec} (h : Goes a) (h' : Says e b) : Says e (a ;; b) := by
  obtain ⟨l, h⟩ := h
  obtain ⟨m, h', he⟩ := h'
  exact ⟨l ++ m, fun acc => by simp [Exec.seq, h, h'], by simp [he]⟩

theorem Says.forEach {α : Type} {e : Err} {f : α → Exec} {a : α} : ∀ xs : List α, (∀ x ∈ xs, Goes (f x)) → a ∈ xs →
    Says e (f a) → Says e (Exec.forEach xs f)
  | x :: xs, h, ha, hs => by
    cases ha with
    | head => exact hs.before (Goes.forEach xs fun y hy => h y (.tail _ hy))
    | tail _ ha => exact Says.after (h x (.head _)) (Says.forEach xs (fun y hy => h y (.tail _ hy)) ha hs)

theorem Says.mem {e : Err} {x : Bool → Exec} (h : Says e (x true)) : e ∈ allErrs x := by
  obtain ⟨l, h, he⟩ := h
  unfold allErrs
  rw [h]
  simpa using he

section
variable {E : Env} {S : Schema} {rec : Rec}

theorem elem_goes (hr : RecOk rec) (c : Ctx) (e : ElemT) (rules : FieldRules) (v : Val) :
    Goes (elemTpl E S true rec c e rules v) := Goes.of_ok (elem_ok E S rec hr c e rules v)

theorem elem (c : Ctx) {t : String} {k : Option WKT} {rules : FieldRules} {w : Val} {x : Err}
    (ht : rules.type = .unset) (hs : msgSkip rules.message = false) (hv : Validated S w) (hx : rec true w = some x) :
    Says (errCause c x [.s "embedded message failed validation"]) (elemTpl E S true rec c (.embed t k) rules w) := by
  obtain ⟨typ, fs, os, d, rfl, hS, hi⟩ := hv
  have hres : resolve (.embed t k) rules = .message rules.message := by simp [resolve, ht, ElemT.isEmbed]
  unfold elemTpl
  simp only [hres]
  unfold messageTpl
  refine Says.after (Goes.of_ok (required_ok c (msgRequired rules.message) _)) ?_
  have hm : methods S (.msg typ fs os) = .both := by simp [methods, hS, hi]
  simp only [hs, hm, hx, if_true, Bool.false_eq_true, if_false]
  exact ⟨[_], fun _ => rfl, by simp⟩

theorem loop_goes {u : Bool} {c : Ctx} {i : Nat → Val → Exec} : ∀ (vs : List Val) (n : Nat) (seen : List Val),
    (∀ n v, v ∈ vs → Goes (i n v)) → Goes (repLoop true u c i n seen vs)
  | [], _, _, _ => Goes.skip
  | v :: vs, n, seen, h => by
    unfold repLoop
    exact (Goes.of_sim (Sim.when (Sim.report _))).seq
      ((h n v (.head _)).seq (loop_goes vs _ _ fun n w hw => h n w (.tail _ hw)))

theorem loop {u : Bool} {c : Ctx} {i : Nat → Val → Exec} {e : Err} {w : Val} : ∀ (vs : List Val) (n m : Nat)
    (seen : List Val), (∀ n v, v ∈ vs → Goes (i n v)) → vs[m]? = some w → Says e (i (n + m) w) →
    Says e (repLoop true u c i n seen vs)
  | [], _, _, _, _, hm, _ => by simp at hm
  | v :: vs, n, m, seen, h, hm, hs => by
    unfold repLoop
    refine Says.after (Goes.of_sim (Sim.when (Sim.report _))) ?_
    have hrest := fun n w (hw : w ∈ vs) => h n w (.tail _ hw)
    cases m with
    | zero =>
      simp only [List.getElem?_cons_zero, Option.some.injEq] at hm
      subst hm
      exact hs.before (loop_goes vs _ _ hrest)
    | succ m =>
      simp only [List.getElem?_cons_succ] at hm
      refine Says.after (h n v (.head _)) (loop vs (n + 1) m _ hrest hm ?_)
      rwa [show n + 1 + m = n + (m + 1) by omega]

theorem notNone {t : String} {k : Option WKT} {rules : FieldRules} (ht : rules.type = .unset) :
    elemTypNotNone (.embed t k) rules = true := by
  simp [elemTypNotNone, resolve, ht, ElemT.isEmbed]

theorem repeated (hr : RecOk rec) {c : Ctx} {t : String} {k : Option WKT} {r : RepeatedRules} {items : FieldRules}
    {vs : List Val} {n : Nat} {w : Val} {x : Err} (hn : vs[n]? = some w) (ht : items.type = .unset)
    (hs : msgSkip items.message = false) (hv : Validated S w) (hx : rec true w = some x) :
    Says (errCause { c with index := some (.pos n) } x [.s "embedded message failed validation"])
      (repTpl E S true rec c (.embed t k) r items vs) := by
  have hlen : 0 < vs.length := by
    cases vs with
    | nil => simp at hn
    | cons => simp
  unfold repTpl
  simp only [notNone ht, Bool.or_true, if_true, hlen, gt_iff_lt, decide_true, Exec.when, ite_self]
  refine Says.after (Goes.of_sim (repLen c r vs.length)) (loop vs 0 n [] (fun n v _ => elem_goes hr _ _ _ _) hn ?_)
  rw [Nat.zero_add]
  exact elem _ ht hs hv hx

theorem map (hr : RecOk rec) {c : Ctx} {kt : ElemT} {t : String} {k : Option WKT} {r : MapRules}
    {keys values : FieldRules} {kvs : List (Scalar × Val)} {key : Scalar} {w : Val} {x : Err} (hn : (key, w) ∈ kvs)
    (ht : values.type = .unset) (hs : msgSkip values.message = false) (hv : Validated S w) (hx : rec true w = some x) :
    Says (errCause { c with index := some (.key key) } x [.s "embedded message failed validation"])
      (mapTpl E S true rec c kt (.embed t k) r keys values kvs) := by
  have hlen : 0 < kvs.length := by
    cases kvs with
    | nil => cases hn
    | cons => simp
  unfold mapTpl
  simp only [notNone ht, Bool.or_true, Bool.true_or, if_true, hlen, gt_iff_lt, decide_true, Exec.when, ite_self]
  refine Says.after (Goes.of_sim (mapLen c r kvs.length)) (Says.forEach (a := (key, w)) _ (fun kv _ => ?_)
    ((E.order_perm kvs).mem_iff.2 hn) ?_)
  · exact (Goes.of_sim (Sim.when (Sim.report _))).seq ((Goes.of_ok (keyTpl_ok E _ kt keys kv.1)).seq (elem_goes hr _ _ _ _))
  · exact Says.after (Goes.of_sim (Sim.when (Sim.report _))) (Says.after (Goes.of_ok (keyTpl_ok E _ kt keys key))
      (elem _ ht hs hv hx))

theorem field (hr : RecOk rec) {msg : String} {f : FieldDesc} {v w : Val} {i : Option Idx} {rules : FieldRules} {x : Err}
    (hh : HeldBy f v i rules w) (ht : rules.type = .unset) (hs : msgSkip rules.message = false) (hv : Validated S w)
    (hx : rec true w = some x) :
    Says (errCause { msg := msg, field := f.name, index := i } x [.s "embedded message failed validation"])
      (renderField E S true rec msg f v) := by
  obtain ⟨name, typ, fr⟩ := f
  cases hh with
  | field hT =>
    simp only at hT
    subst hT
    exact elem _ ht hs hv hx
  | item hT hI hn =>
    simp only at hT hI
    subst hT
    unfold renderField
    unfold itemRules at hI
    dsimp only
    split at hI
    · cases hI
      rename_i he
      simp only [he]
      exact repeated hr (c := { msg := msg, field := name }) hn ht hs hv hx
    · cases hI
      rename_i he
      simp only [he]
      exact repeated hr (c := { msg := msg, field := name }) hn ht hs hv hx
    · cases hI
  | value hT hI hn =>
    simp only at hT hI
    subst hT
    unfold renderField
    unfold valueRules at hI
    dsimp only
    split at hI
    · cases hI
      rename_i he
      simp only [he]
      exact map hr (c := { msg := msg, field := name }) hn ht hs hv hx
    · cases hI
      rename_i he
      simp only [he, ElemT.isEmbed, if_true]
      exact map hr (c := { msg := msg, field := name }) hn ht hs hv hx
    · cases hI

end

/-- What is found in an embedded message is found in the message. -/
theorem step {E : Env} {S : Schema} {typ : String} {fs : List (String × Val)} {os : List (String × String × Val)}
    {d : MsgDesc} {i : FieldRef} {w : Val} {q : List (String × FieldRef)} {x : Err}
    (he : Embeds S (.msg typ fs os) i w) (hd : S typ = .generated d) (h : Finds (validate E S true w) q x) :
    Finds (validate E S true (.msg typ fs os)) ((d.name, i) :: q) x := by
  obtain ⟨e, hv, hf⟩ := h
  cases he with
  | mk hS hdis hA hH ht hs hV =>
    rw [hd] at hS
    cases hS
    have hr := validate_recOk E S
    rw [finds_msg hd hdis]
    have hsay := field (E := E) hr (msg := d.name) hH ht hs hV hv
    cases hA with
    | field hm => exact .inl ⟨_, hm, _, Says.mem (x := fun all => renderField E S all (validate E S) d.name _ _) hsay, .cause hf⟩
    | member ho hl hfind =>
      rename_i f _ i _ o _
      have hsay' : Says (errCause { msg := d.name, field := f.name, index := i } e
          [.s "embedded message failed validation"])
          (oneofTpl E S true (validate E S) d.name o (os.lookup o.name)) := by
        simp only [oneofTpl, hl, hfind]
        exact hsay
      exact .inr ⟨_, ho, _, Says.mem (x := fun all => oneofTpl E S all (validate E S) d.name _ _) hsay', .cause hf⟩

theorem errs_raises {Q : Err → Prop} {x : Bool → Exec} (h : Raises Q (x true)) : ∀ e ∈ allErrs x, Q e := by
  intro e he
  have := h []
  unfold allErrs at he
  cases hx : x true [] with
  | error a =>
    rw [hx] at he this
    simp only [List.mem_singleton] at he
    exact he ▸ this
  | ok es =>
    rw [hx] at he this
    obtain ⟨l, rfl, hl⟩ := this
    exact hl e (by simpa using he)

/-- Where what `ValidateAll` finds comes from. -/
theorem source {E : Env} {S : Schema} : ∀ n v, depth v ≤ n → ∀ r x, Finds (validate E S true v) r x →
    ∃ p w q, At S v p w ∧ r = p ++ q ∧ OwnViolation E S w q x := by
  intro n
  induction n with
  | zero => intro v hv; have := PGV.Go.depth_pos v; omega
  | succ n ih =>
    intro v hn r x h
    obtain ⟨e0, h0, hf⟩ := h
    have h' := h0
    rw [validate_eq] at h'
    cases v with
    | msg typ fs os =>
      cases hS : S typ with
      | generated d =>
        cases hd : d.disabled with
        | true => simp [validateStep, hS, hd] at h'
        | false =>
          simp only [validateStep, hS, hd, Bool.false_eq_true, if_false] at h'
          have hb := body_ok E S (validate E S) (validate_recOk E S) d fs os
          rw [hb.all] at h'
          cases hl : allErrs (fun all => bodyExec E S all (validate E S) d fs os) with
          | nil => simp [hl, finish] at h'
          | cons a as =>
            have h'' := h'
            rw [hl] at h'
            simp only [List.nil_append, finish] at h'
            cases h'
            cases hf with
            | among hm hf =>
              rename_i e
              have hm' : e ∈ allErrs (fun all => bodyExec E S all (validate E S) d fs os) := hl ▸ hm
              have hM := errs_raises (x := fun all => bodyExec E S all (validate E S) d fs os)
                (body_raises E S true (validate E S) d fs os) e hm'
              have leaf : ∀ {f reason cause k}, e = .viol d.name f reason cause k →
                  (cause = none ∨ (∃ text, cause = some (.lib text)) ∨ ∃ u c, cause = some c ∧ E.legacy u = some c) →
                  ∃ p w q, At S (.msg typ fs os) p w ∧ r = p ++ q ∧ OwnViolation E S w q x := by
                intro f reason cause k hq hc
                exact ⟨[], _, r, .here _, rfl, d.name, _, e, h0, hm, hf, f, reason, cause, k, hq, hc⟩
              cases hM with
              | oneof ho hl => exact leaf rfl (.inl rfl)
              | field hA hF =>
                cases hF with
                | own hp =>
                  rename_i cause
                  refine leaf rfl ?_
                  cases cause with
                  | none => exact .inl rfl
                  | some c =>
                    cases c with
                    | lib t => exact .inr (.inl ⟨t, rfl⟩)
                    | viol => simp [PlainCause] at hp
                    | multi => simp [PlainCause] at hp
                | nested hH ht hs hc =>
                  rename_i f v i rules w y
                  rcases hc with ⟨hV, hx⟩ | hx
                  · have hE : Embeds S (.msg typ fs os) ⟨f.name, i⟩ w := .mk hS hd hA hH ht hs hV
                    have hdw : depth w < depth (.msg typ fs os) := embeds_depth hE
                    cases hf with
                    | cause hf =>
                      obtain ⟨p, u, q, h1, rfl, h3⟩ := ih w (by omega) _ x ⟨y, hx, hf⟩
                      exact ⟨_ :: p, u, q, .inner hE hS h1, rfl, h3⟩
                  · exact leaf rfl (.inr (.inr ⟨w, y, rfl, hx⟩))
      | legacy => simp [validateStep, hS] at h'
      | foreign => simp [validateStep, hS] at h'
    | _ => simp [validateStep] at h'

theorem firstOf {e e' : Err} (h : FirstOf e e') : ∀ p x, Found e p x → Found e' p x := by
  induction h with
  | same => exact fun _ _ h => h
  | nested _ ih =>
    intro p x h
    cases h with
    | cause h => exact .cause (.among (.head _) (ih _ _ h))

end PGV.Deep
