import Verif.Spec.CppStrict
import Verif.Lemmas.CppMsg
import Verif.Props.Fixtures

/-!
C70: C++ validators accept a message only if they accept all messages inside it, and never skip over a
rule they do not implement.
-/

set_option linter.unusedSimpArgs false

namespace PGV.Props.CppStrict
open PGV PGV.Cpp PGV.Spec PGV.Spec.Cpp
open PGV.Go (Ctx resolve elemTypNotNone)

/-! ### Statements that succeed -/

theorem seq_ok {a b : Run} : a ⊳ b = .ok () ↔ a = .ok () ∧ b = .ok () := by
  unfold seq
  cases a with
  | ok u => cases u; simp
  | error e => simp

theorem forEach_ok {α : Type} {xs : List α} {f : α → Run} :
    forEach xs f = .ok () ↔ ∀ x ∈ xs, f x = .ok () := by
  induction xs with
  | nil => simp [forEach]
  | cons x xs ih => simp [forEach, seq_ok, ih]

theorem when_ok {b : Bool} {x : Run} : when b x = .ok () ↔ (b = true → x = .ok ()) := by
  unfold when; cases b <;> simp

theorem repLoop_ok {u : Bool} {same : Val → Val → Bool} {c : Ctx} {item : Nat → Val → Run}
    {vs : List Val} : ∀ {i seen}, repLoop u same c item i seen vs = .ok () →
    ∀ w ∈ vs, ∃ j, item j w = .ok () := by
  induction vs with
  | nil => simp
  | cons v vs ih =>
    intro i seen h w hw
    rw [repLoop, seq_ok, seq_ok] at h
    rcases List.mem_cons.1 hw with rfl | hw
    · exact ⟨i, h.2.1⟩
    · exact ih h.2.2 w hw

theorem throw_ne_ok {s : String} : Cpp.throw s ≠ .ok () := by unfold Cpp.throw; simp

/-! ### Positions -/

theorem guarded {ie b : Bool} {body : Run} (h : (if ie = true then when b body else body) = .ok ())
    (hb : ie = true → b = true) : body = .ok () := by
  cases ie with
  | true => exact (when_ok.1 h) (hb rfl)
  | false => exact h

theorem none_ok {P : CEnv} {rec : Val → Run} {c : Ctx} {e : ElemT} {rules : FieldRules} {w : Val}
    (h : elemTypNotNone e rules = false) : elemTpl P rec c e rules w = .ok () := by
  have : resolve e rules = .none := by
    unfold elemTypNotNone at h
    revert h
    cases resolve e rules <;> simp
  unfold elemTpl
  simp only [this]

theorem none_key_ok {P : CEnv} {c : Ctx} {e : ElemT} {rules : FieldRules} {k : Scalar}
    (h : elemTypNotNone e rules = false) : keyTpl P c e rules k = .ok () := by
  have : rules.type = .unset := by
    unfold elemTypNotNone resolve at h
    cases ht : rules.type with
    | unset => rfl
    | num n r => cases he : e.isEmbed <;> cases n <;> simp [ht, he] at h
    | _ => cases he : e.isEmbed <;> simp [ht, he] at h
  unfold keyTpl
  simp only [this]

theorem repTpl_item {P : CEnv} {rec : Val → Run} {c : Ctx} {e : ElemT} {r : RepeatedRules}
    {items : FieldRules} {vs : List Val} {w : Val} (h : repTpl P rec c e r items vs = .ok ())
    (hw : w ∈ vs) : ∃ c, elemTpl P rec c e items w = .ok () := by
  have hne : 0 < vs.length := List.length_pos_iff.2 (List.ne_nil_of_mem hw)
  unfold repTpl at h
  have hb := guarded h (fun _ => by simpa using hne)
  rw [seq_ok] at hb
  have hb := hb.2
  split at hb
  · obtain ⟨j, hj⟩ := repLoop_ok hb w hw
    exact ⟨_, hj⟩
  · rename_i hn
    simp only [Bool.or_eq_true, not_or, Bool.not_eq_true] at hn
    exact ⟨c, none_ok hn.2⟩

theorem mapTpl_entry {P : CEnv} {rec : Val → Run} {c : Ctx} {kt vt : ElemT} {r : MapRules}
    {keys values : FieldRules} {kvs : List (Scalar × Val)} {kv : Scalar × Val}
    (h : mapTpl P rec c kt vt r keys values kvs = .ok ()) (hw : kv ∈ kvs) :
    (∃ c, keyTpl P c kt keys kv.1 = .ok ()) ∧ ∃ c, elemTpl P rec c vt values kv.2 = .ok () := by
  have hne : 0 < kvs.length := List.length_pos_iff.2 (List.ne_nil_of_mem hw)
  unfold mapTpl at h
  have hb := guarded h (fun _ => by simpa using hne)
  rw [seq_ok] at hb
  have hb := hb.2
  split at hb
  · rw [seq_ok, forEach_ok] at hb
    have := hb.1 kv ((P.order_perm kvs).mem_iff.2 hw)
    unfold mapEntry at this
    rw [seq_ok] at this
    exact ⟨⟨_, this.1⟩, ⟨_, this.2⟩⟩
  · rename_i hn
    simp only [Bool.or_eq_true, not_or, Bool.not_eq_true] at hn
    exact ⟨⟨c, none_key_ok hn.2⟩, ⟨c, none_ok hn.1.2⟩⟩

/-- Wherever a value is, its template has run to its end. -/
theorem valueAt_ok {P : CEnv} {rec : Val → Run} {msg : String} {f : FieldDesc} {v w : Val} {e : ElemT}
    {rules : FieldRules} (h : renderField P rec msg f v = .ok ()) (hv : ValueAt f v e rules w) :
    (∃ c, elemTpl P rec c e rules w = .ok ()) ∨ (∃ c k, w = .sc k ∧ keyTpl P c e rules k = .ok ()) := by
  obtain ⟨name, typ, frules⟩ := f
  cases hv with
  | field ht =>
    simp only at ht
    subst ht
    exact .inl ⟨_, h⟩
  | item ht hr hw =>
    simp only at ht
    subst ht
    unfold renderField at h
    unfold itemRules at hr
    simp only at hr h
    split at hr
    · rename_i r items hq
      cases hr
      rw [hq] at h
      exact .inl (repTpl_item h hw)
    · rename_i hq
      cases hr
      rw [hq] at h
      exact .inl (repTpl_item h hw)
    · simp at hr
  | key ht hr hw =>
    simp only at ht hr
    subst ht
    unfold renderField at h
    simp only [hr] at h
    obtain ⟨c, hc⟩ := (mapTpl_entry h hw).1
    exact .inr ⟨c, _, rfl, hc⟩
  | value ht hr hw =>
    simp only at ht
    subst ht
    unfold renderField at h
    unfold valueRules at hr
    simp only at hr h
    split at hr
    · rename_i r keys values hq
      cases hr
      rw [hq] at h
      exact .inl (mapTpl_entry h hw).2
    · rename_i hq
      cases hr
      rw [hq] at h
      simp only at h
      split at h
      · exact .inl (mapTpl_entry h hw).2
      · rename_i he
        refine .inl ⟨{ msg := msg, field := name }, none_ok ?_⟩
        simp only [elemTypNotNone, resolve, FieldRules.type]
        simp [he]
    · simp at hr

theorem active_ok {P : CEnv} {rec : Val → Run} {d : MsgDesc} {fs : List (String × Val)}
    {os : List (String × String × Val)} {f : FieldDesc} {v : Val} (hd : d.disabled = false)
    (h : validateMsg P rec d fs os = .ok ()) (ha : Active d fs os f v) :
    renderField P rec d.name f v = .ok () := by
  unfold validateMsg at h
  simp only [hd, Bool.false_eq_true, if_false, seq_ok, forEach_ok] at h
  cases ha with
  | field hf => exact h.1 f hf
  | member ho hl hfind =>
    have := h.2 _ ho
    rw [hl] at this
    unfold oneofTpl at this
    simpa only [hfind] using this

/-! ### Embedded messages -/

theorem embeds_ok {P : CEnv} {S : Schema} {v w : Val} {i : Go.FieldRef} (hv : Validated S v)
    (h : checkMessage P S v = .ok ()) (he : Embeds S v i w) : checkMessage P S w = .ok () := by
  cases he with
  | mk hS hd ha hh hr hk hw =>
    rename_i typ fs os d f v i rules
    obtain ⟨typ', fs', os', d', e, hS', hi⟩ := hv
    cases e
    rw [hS] at hS'
    cases hS'
    rw [checkMessage_eq] at h
    simp only [checkStep, hS, hi, hd, Bool.or_self, Bool.false_eq_true, if_false] at h
    have hf := active_ok hd h ha
    obtain ⟨n, k, hva⟩ : ∃ n k, ValueAt f v (.embed n k) rules w := by
      cases hh with
      | field ht => exact ⟨_, _, .field ht⟩
      | item ht hr hw => exact ⟨_, _, .item ht hr (List.mem_of_getElem? hw)⟩
      | value ht hr hw => exact ⟨_, _, .value ht hr hw⟩
    obtain ⟨typw, fsw, osw, dw, rfl, hSw, hiw⟩ := hw
    rcases valueAt_ok hf hva with ⟨c, hc⟩ | ⟨c, k', hq, _⟩
    · unfold elemTpl at hc
      have : resolve (.embed n k) rules = .message rules.message := by
        simp [resolve, hr, ElemT.isEmbed]
      simp only [this] at hc
      unfold messageTpl at hc
      rw [seq_ok] at hc
      have hc := hc.2
      simp only [hk, isNull, Bool.false_eq_true, if_false] at hc
      split at hc
      · assumption
      · simp [failIdx] at hc
      · simp at hc
    · simp at hq

/-- **C70** A C++ validator accepts a message only if it accepts every message embedded in it, at any
depth: a rejection or an exception inside is never lost. -/
theorem C70_nested_accepted (P : CEnv) (S : Schema) (v u : Val) (hv : Validated S v)
    (h : checkMessage P S v = .ok ()) (hn : Nested S v u) : checkMessage P S u = .ok () := by
  induction hn with
  | self v => exact h
  | inner he _ ih =>
    refine ih ?_ (embeds_ok hv h he)
    cases he with
    | mk _ _ _ _ _ _ hw => exact hw

/-! ### Rules that are not implemented -/

theorem string_ne_ok {P : CEnv} {c : Ctx} {r : StringRules} {s : Bytes}
    (hw : r.wellKnown = some (.email true) ∨ r.wellKnown = some (.uri true) ∨
        r.wellKnown = some (.uriRef true))
    (hi : ¬ (r.ignoreEmpty = some true ∧ s = [])) : strTpl P c r s ≠ .ok () := by
  intro h
  unfold strTpl at h
  have hb := guarded h (fun hie => by
    have hie : r.ignoreEmpty = some true := by
      cases hq : r.ignoreEmpty with
      | none => simp [hq, optB] at hie
      | some b => cases b <;> simp_all [optB]
    simp only [hie, true_and] at hi
    simpa using hi)
  simp only [seq_ok] at hb
  obtain ⟨-, -, -, -, -, -, -, -, -, hb⟩ := hb
  unfold strWellKnownTpl at hb
  rcases hw with hw | hw | hw <;>
    simp [hw, StringRules.getIp, StringRules.getIpv4, StringRules.getIpv6, StringRules.getEmail,
      StringRules.getAddress, StringRules.getHostname, StringRules.getUri, StringRules.getUriRef,
      Cpp.throw] at hb

theorem bytes_ne_ok {P : CEnv} {c : Ctx} {r : BytesRules} {s : Bytes}
    (hw : r.wellKnown = some (.ip true) ∨ r.wellKnown = some (.ipv4 true) ∨
        r.wellKnown = some (.ipv6 true))
    (hi : ¬ (r.ignoreEmpty = some true ∧ s = [])) : bytesTpl P c r s ≠ .ok () := by
  intro h
  unfold bytesTpl at h
  have hb := guarded h (fun hie => by
    have hie : r.ignoreEmpty = some true := by
      cases hq : r.ignoreEmpty with
      | none => simp [hq, optB] at hie
      | some b => cases b <;> simp_all [optB]
    simp only [hie, true_and] at hi
    simpa [List.length_pos_iff] using hi)
  simp only [seq_ok] at hb
  obtain ⟨-, -, -, -, -, -, -, hb⟩ := hb
  rcases hw with hw | hw | hw <;>
    simp [hw, BytesRules.getIp, BytesRules.getIpv4, BytesRules.getIpv6, Cpp.throw, when] at hb

theorem unimplemented_ne_ok {P : CEnv} {rec : Val → Run} {c : Ctx} {e : ElemT} {rules : FieldRules}
    {w : Val} (h : Unimplemented e rules w) : elemTpl P rec c e rules w ≠ .ok () := by
  cases h with
  | text hr hs hw hi =>
    unfold elemTpl resolve
    rcases hs with ⟨rfl, rfl⟩ | ⟨⟨n, k, rfl⟩, rfl⟩
    · simp only [hr, ElemT.isEmbed, Bool.false_eq_true, if_false, scalarTpl]
      exact string_ne_ok hw hi
    · simp only [hr, ElemT.isEmbed, if_true, wrapperTpl, scalarTpl]
      exact string_ne_ok hw hi
  | address hr hs hw hi =>
    unfold elemTpl resolve
    rcases hs with ⟨rfl, rfl⟩ | ⟨⟨n, k, rfl⟩, rfl⟩
    · simp only [hr, ElemT.isEmbed, Bool.false_eq_true, if_false, scalarTpl]
      exact bytes_ne_ok hw hi
    · simp only [hr, ElemT.isEmbed, if_true, wrapperTpl, scalarTpl]
      exact bytes_ne_ok hw hi
  | time hr hv hc =>
    rename_i r
    have hcc : (r.lt.isSome || r.lte.isSome || r.gt.isSome || r.gte.isSome || r.ltNow.isSome ||
        r.gtNow.isSome || r.within.isSome || r.const.isSome) = true := by
      unfold TsConstrained at hc
      simpa only [Bool.or_eq_true, Option.isSome_iff_ne_none, or_assoc] using hc
    have ht : ∀ t, timestampTpl c r t ≠ .ok () := by
      intro t
      unfold timestampTpl
      rw [Ne, seq_ok, hcc]
      simp [when, Cpp.throw]
    unfold elemTpl resolve
    rcases hv with rfl | ⟨t, rfl⟩
    · simp only [hr]; exact ht none
    · simp only [hr]; exact ht (some t)

theorem unimplemented_key {P : CEnv} {c : Ctx} {e : ElemT} {rules : FieldRules}
    {k : Scalar} (h : Unimplemented e rules (.sc k)) : keyTpl P c e rules k ≠ .ok () := by
  cases h with
  | text hr hs hw hi =>
    unfold keyTpl
    rcases hs with ⟨rfl, h⟩ | ⟨⟨n, k', rfl⟩, h⟩
    · cases h
      simp only [hr, scalarTpl]
      exact string_ne_ok hw hi
    · simp at h
  | address hr hs hw hi =>
    unfold keyTpl
    rcases hs with ⟨rfl, h⟩ | ⟨⟨n, k', rfl⟩, h⟩
    · cases h
      simp only [hr, scalarTpl]
      exact bytes_ne_ok hw hi
    · simp at h
  | time hr hv hc => rcases hv with h | ⟨t, h⟩ <;> simp at h

theorem sparse_ne_ok {P : CEnv} {rec : Val → Run} {msg : String} {f : FieldDesc} {v : Val}
    (h : SparseRule f v) : renderField P rec msg f v ≠ .ok () := by
  obtain ⟨k, e, r, keys, values, kvs, ht, hr, rfl, hs, hi⟩ := h
  intro h
  unfold renderField at h
  simp only [ht, hr] at h
  unfold mapTpl at h
  have hb := guarded h (fun hie => by
    have hie : r.ignoreEmpty = some true := by
      cases hq : r.ignoreEmpty with
      | none => simp [hq, optB] at hie
      | some b => cases b <;> simp_all [optB]
    simp only [hie, true_and] at hi
    simpa [List.length_pos_iff] using hi)
  rw [seq_ok] at hb
  have hb := hb.2
  have ho : optB r.noSparse = true := by rw [hs]; rfl
  rw [ho, Bool.true_or, Bool.true_or, if_pos rfl, seq_ok] at hb
  simp [when, Cpp.throw] at hb

/-- **C70** A C++ validator never accepts a message with a value under a rule it does not implement, in
the message or in one embedded in it: it throws, or rejects the message for another reason. -/
theorem C70_never_silent (P : CEnv) (S : Schema) (v u : Val) (hv : Validated S v) (hn : Nested S v u)
    (hu : HasUnimplemented S u) : checkMessage P S v ≠ .ok () := by
  intro h
  have h := C70_nested_accepted P S v u hv h hn
  obtain ⟨typ, fs, os, d, f, w, rfl, hS, hd, hi, ha, hc⟩ := hu
  rw [checkMessage_eq] at h
  simp only [checkStep, hS, hi, hd, Bool.or_self, Bool.false_eq_true, if_false] at h
  have hf := active_ok hd h ha
  rcases hc with ⟨e, rules, x, hx, hux⟩ | hs
  · rcases valueAt_ok hf hx with ⟨c, hc⟩ | ⟨c, k, rfl, hc⟩
    · exact unimplemented_ne_ok hux hc
    · exact unimplemented_key hux hc
  · exact sparse_ne_ok hs hf

/-! ### Both are about something -/

/-- An e-mail address that may be left empty. -/
def mail : FieldDesc :=
  { name := "Mail", typ := .one .string,
    rules := .mk none (.string { wellKnown := some (.email true), ignoreEmpty := some true }) }

/-- The next message of a chain. -/
def next : FieldDesc := { name := "Next", typ := .one (.embed "Node" none), rules := .absent }

/-- The type of a chain of messages, each with an e-mail address. -/
def node : MsgDesc := { name := "Node", fields := [mail, next] }

def nodes : Schema := fun _ => .generated node

/-- A chain of two messages. -/
def chain (inner : Val) : Val := .msg "Node" [("Next", inner)] []

theorem chain_embeds (fs : List (String × Val)) : Embeds nodes (chain (.msg "Node" fs [])) ⟨"Next", none⟩
    (.msg "Node" fs []) := by
  have ha : Active node [("Next", .msg "Node" fs [])] [] next (.msg "Node" fs []) :=
    .field (f := next) (by simp [node])
  exact .mk (f := next) rfl rfl ha (.field rfl) rfl rfl ⟨_, _, _, node, rfl, rfl, rfl⟩

/-- `C70_nested_accepted` applies to a chain of two messages without addresses, in any library. -/
example (P : CEnv) : Validated nodes (chain (.msg "Node" [] [])) ∧
    checkMessage P nodes (chain (.msg "Node" [] [])) = .ok () ∧
    Nested nodes (chain (.msg "Node" [] [])) (.msg "Node" [] []) :=
  ⟨⟨_, _, _, node, rfl, rfl, rfl⟩, rfl, .inner (chain_embeds []) (.self _)⟩

/-- `C70_never_silent` applies to a chain whose second message has an address. -/
example : Validated nodes (chain (.msg "Node" [("Mail", .sc (.str (asc "a")))] [])) ∧
    ∃ u, Nested nodes (chain (.msg "Node" [("Mail", .sc (.str (asc "a")))] [])) u ∧
      HasUnimplemented nodes u := by
  refine ⟨⟨_, _, _, node, rfl, rfl, rfl⟩, _, .inner (chain_embeds _) (.self _), ?_⟩
  refine ⟨_, _, _, node, mail, _, rfl, rfl, rfl, rfl, .field (f := mail) (by simp [node]), .inl ?_⟩
  exact ⟨_, _, _, .field rfl, .text (s := asc "a") rfl (.inl ⟨rfl, rfl⟩) (.inl rfl) (by simp [asc])⟩

end PGV.Props.CppStrict
