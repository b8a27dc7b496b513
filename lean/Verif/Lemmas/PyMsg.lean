import Verif.Lemmas.PyTpl

/-!
Generated Python code for elements, lists, maps, fields and messages.
-/

set_option linter.unusedSimpArgs false
set_option autoImplicit false

namespace PGV.Py
open PGV PGV.Spec.Python PGV.Checker Code
open PGV.Spec hiding Common FormatAgrees TextLibs LibsAgree PortString PortBytes PortEnum PortDuration
  PortType FitsScalar FitsVal FitsItem PortField Portable
open PGV.Go (Env depth)

variable {nm : String}

theorem isNull_iff (v : Val) : isNull v = true ↔ v = .null := by cases v <;> simp [isNull]
theorem isNull_false_iff (v : Val) : isNull v = false ↔ v ≠ .null := by cases v <;> simp [isNull]

/-! ### Rules without text constrain nothing -/

theorem numOk_empty (v : Num) : NumOk {} v := by
  right; simp [ListOk, numUpper, numLower, RangeOk]

theorem stringOk_empty (E : Env) (s : Bytes) : StringOk E {} s := by
  right; simp [ListOk, LenOk, WellKnownOk]

theorem bytesOk_empty (E : Env) (s : Bytes) : BytesOk E {} s := by
  right; simp [ListOk, LenOk]

theorem scalarOk_untexted (E : Env) (e : ElemT) (t : TypeRules) (h : typeText t = false) (s : Scalar) :
    ScalarOk E e t s := by
  cases t <;> cases s <;> simp only [ScalarOk, typeText, bne_eq_false_iff_eq] at h ⊢
  · subst h; exact numOk_empty _
  · subst h; simp
  · subst h; exact stringOk_empty E _
  · subst h; exact bytesOk_empty E _
  · subst h; cases e <;> simp [EnumOk, ListOk]

theorem of_ite {α : Type} {p : Prop} [Decidable p] {c : Code α}
    (h : Option.isSome (if p then c else none) = true) : p := by
  by_cases hp : p
  · exact hp
  · rw [if_neg hp] at h; simp at h

/-! ### One scalar -/

theorem run_onNum (c : Code Num) (x : Num) : (onScalar getNum c).run (.sc (.num x)) = c.run x :=
  run_onScalar rfl
theorem run_onBool (c : Code Bool) (x : Bool) : (onScalar getBool c).run (.sc (.bool x)) = c.run x :=
  run_onScalar rfl
theorem run_onStr (c : Code PStr) (x : Bytes) :
    (onScalar getStr c).run (.sc (.str x)) = c.run (pstr x) := run_onScalar rfl
theorem run_onBytes (c : Code Bytes) (x : Bytes) :
    (onScalar getBytes c).run (.sc (.bytes x)) = c.run x := run_onScalar rfl
theorem run_onEnum (c : Code Int) (x : Int) : (onScalar getEnum c).run (.sc (.enum x)) = c.run x :=
  run_onScalar rfl

section
variable {C : Common} {E : Env} {P : PEnv} (hL : TextLibs C E P)

include hL in
theorem wrapped_ok (e : ElemT) {t : TypeRules} (hk : WrapperKind t) (hs : (wrappedCode P nm t).isSome = true)
    (hp : PortType C t) (s : Scalar) (hf : FitsScalar C t s) :
    (wrappedCode P nm t).run (.wrapper s) = .ok () ↔ ScalarOk E e t s := by
  cases t with
  | num k r =>
    cases s <;> simp only [FitsScalar] at hf
    simp only [wrappedCode, some_onWrapped] at hs ⊢
    rw [run_onWrapped (get := getNum) rfl]
    exact numCode_ok hs hp _
  | bool r =>
    cases s <;> simp only [FitsScalar] at hf
    simp only [wrappedCode]
    rw [run_onWrapped (get := getBool) rfl]
    exact boolCode_ok r _
  | string r =>
    cases s <;> simp only [FitsScalar] at hf
    simp only [wrappedCode, some_onWrapped] at hs ⊢
    rw [run_onWrapped (get := getStr) rfl]
    exact strCode_ok hL hs hp _ hf.1 hf.2
  | bytes r =>
    cases s <;> simp only [FitsScalar] at hf
    simp only [wrappedCode, some_onWrapped] at hs ⊢
    rw [run_onWrapped (get := getBytes) rfl]
    exact bytesCode_ok E hs hp _
  | _ => exact hk.elim

theorem wrapperKind_iff (t : TypeRules) : wrapperKind t = true ↔ WrapperKind t := by
  cases t with
  | num k r => cases k <;> simp [wrapperKind, WrapperKind]
  | _ => simp [wrapperKind, WrapperKind]

theorem inline_some {r : StringRules} {c : Code PStr} (h : (inline r c).isSome = true) :
    inline r c = c := by
  unfold inline at *
  split at h
  · simp at h
  · rename_i h'; rw [if_neg h']

include hL in
/-- Code for a list item or map value of a scalar type. -/
theorem switcher_scalar (rec : Val → Run) (e : ElemT) {t : TypeRules} (he : e.isEmbed = false)
    (hk : KindOf e t) (hu : t ≠ .unset) (hnb : ∀ r, t ≠ .bytes r)
    (hs : (switcher P rec nm e (.mk none t)).isSome = true)
    (hp : PortType C t) (s : Scalar) (hf : FitsScalar C t s) :
    (switcher P rec nm e (.mk none t)).run (.sc s) = .ok () ↔ ScalarOk E e t s := by
  unfold switcher at *
  cases ht : typeText t with
  | false => simp [ht, messageText, scalarOk_untexted E e t ht s]
  | true =>
    simp only [ht, if_true] at hs ⊢
    cases t with
    | num k r =>
      cases s <;> simp only [FitsScalar] at hf
      simp only [some_onScalar] at hs
      simp only [run_onNum]
      exact numCode_ok hs hp _
    | bool r =>
      cases s <;> simp only [FitsScalar] at hf
      simp only [run_onBool]
      exact boolCode_ok r _
    | string r =>
      cases s <;> simp only [FitsScalar] at hf
      simp only [some_onScalar] at hs
      simp only [run_onStr]
      have h1 := inline_some hs
      rw [h1] at hs ⊢
      exact strCode_ok hL hs hp _ hf.1 hf.2
    | bytes r => exact absurd rfl (hnb r)
    | enum r =>
      cases s <;> simp only [FitsScalar] at hf
      simp only [run_onEnum]
      cases e <;> simp only [KindOf] at hk
      · exact enumCode_ok hp _ _
      · exact hk.elim
    | unset => exact absurd rfl hu
    | _ => cases s <;> exact hf.elim

include hL in
/-- Code for a map key. -/
theorem keyCode_ok (kt : ElemT) (keys : FieldRules) (k : Scalar)
    (hs : (keyCode P keys).isSome = true) (hp : PortKey C kt keys k) :
    (keyCode P keys).run (.sc k) = .ok () ↔ ScalarOk E kt keys.type k := by
  obtain ⟨-, hp, -, hf, n1, n2, n3⟩ := hp
  unfold keyCode at *
  cases ht : keys.type with
  | unset => simp [ht, ScalarOk]
  | num nk r =>
    rw [ht] at hp hf
    have hf := hf.resolve_left (by simp)
    cases k <;> simp only [FitsScalar] at hf
    have hne : nk ≠ .float := fun h => n1 r (by rw [ht, h])
    have key : ∀ x : Num, (gen (typeText (.num nk r)) (onScalar getNum (numCode "key" r))).isSome = true →
        ((gen (typeText (.num nk r)) (onScalar getNum (numCode "key" r))).run (.sc (.num x)) = .ok () ↔
          ScalarOk E kt (.num nk r) (.num x)) := by
      intro x hs
      cases hx : typeText (.num nk r) with
      | false => simp [scalarOk_untexted E kt _ hx]
      | true =>
        rw [hx, some_gen] at hs
        have hs := hs rfl
        rw [some_onScalar] at hs
        rw [run_gen, run_onNum]
        simp only [true_implies]
        exact numCode_ok hs hp _
    rw [ht] at hs
    cases nk <;> first | exact absurd rfl hne | exact key _ hs
  | bool r =>
    rw [ht] at hp hf
    have hf := hf.resolve_left (by simp)
    cases k <;> simp only [FitsScalar] at hf
    simp only [run_gen, run_onBool]
    cases hx : typeText (.bool r) with
    | false => simp [scalarOk_untexted E kt _ hx]
    | true =>
      simp only [true_implies]
      exact boolCode_ok r _
  | string r =>
    rw [ht] at hp hf
    have hf := hf.resolve_left (by simp)
    cases k <;> simp only [FitsScalar] at hf
    simp only [ht, some_gen, some_onScalar] at hs
    simp only [run_gen, run_onStr]
    cases hx : typeText (.string r) with
    | false => simp [scalarOk_untexted E kt _ hx]
    | true =>
      have hs := hs hx
      have h1 := inline_some hs
      rw [h1] at hs ⊢
      simp only [true_implies]
      exact strCode_ok hL hs hp _ hf.1 hf.2
  | bytes r => exact absurd ht (n2 r)
  | enum r => exact absurd ht (n3 r)
  | _ =>
    rw [ht] at hf
    have hf := hf.resolve_left (by simp)
    cases k <;> exact hf.elim

end

/-! ### Messages and items -/

section
variable {C : Common} {E : Env} {P : PEnv} {S : Schema} (hL : LibsAgree C E P S)

theorem messageCode_ok (rec : Val → Run) (ok : Val → Prop) (m : Option MessageRules) (v : Val)
    (hrec : v ≠ .null → (rec v = .ok () ↔ EmbeddedOk E S ok v)) :
    (messageCode rec nm .field m).run v = .ok () ↔
      (msgRequired m = true → v ≠ .null) ∧ (msgSkip m = false → EmbeddedOk E S ok v) := by
  unfold messageCode
  rw [run_seq, run_required]
  refine and_congr ?_ ?_
  · cases m with
    | none => simp [msgRequired]
    | some m => simp [msgRequired, optB_iff, Place.has, isNull_false_iff]
  · cases hs : msgSkip m with
    | true => simp
    | false =>
      simp only [Bool.false_eq_true, if_false, run_stmt, true_implies]
      by_cases hn : v = .null
      · subst hn; simp [Place.guard, isNull, EmbeddedOk]
      · have : Place.field.guard v = true := by
          simp only [Place.guard, Bool.not_eq_true', isNull_false_iff]; exact hn
        simp only [this, if_true, hrec hn]

theorem embedded_of_fits (ok : Val → Prop) {n : String} {w : WKT} {v : Val}
    (h : FitsVal C S (.embed n (some w)) .unset v) : EmbeddedOk E S ok v := by
  have h := h (.inl ⟨n, w, rfl⟩)
  unfold EmbeddedOk
  cases v with
  | msg typ fs os => simp [h typ fs os rfl]
  | _ => trivial

theorem embedded_of_google (ok : Val → Prop) {n : String} {w : Option WKT} {v : Val} (hg : C.google n)
    (h : FitsVal C S (.embed n w) .unset v) : EmbeddedOk E S ok v := by
  have h := h (.inr ⟨n, w, rfl, hg⟩)
  unfold EmbeddedOk
  cases v with
  | msg typ fs os => simp [h typ fs os rfl]
  | _ => trivial

theorem rulesText_false {rules : FieldRules} (h : rulesText rules = false) : rules.type = .unset ∧
    rules.message = none := by
  cases rules with
  | absent => exact ⟨rfl, rfl⟩
  | mk m t =>
    simp only [rulesText, Bool.or_eq_false_iff, Option.isSome_eq_false_iff,
      Option.isNone_iff_eq_none] at h
    cases t <;> simp_all [FieldRules.type, FieldRules.message]

include hL in
/-- Items: rule code and validation of embedded messages together. -/
theorem item_ok (rec : Val → Run) (ok : Val → Prop) (e : ElemT) (rules : FieldRules) (v : Val)
    (hrec : e.isEmbed = true → (rec v = .ok () ↔ EmbeddedOk E S ok v))
    (hs : rulesText rules = true → (switcher P rec nm e rules).isSome = true) (hp : PortItem C S e rules v) :
    ((rulesText rules = true → (switcher P rec nm e rules).run v = .ok ()) ∧
     (e.isEmbed = true → rules.type = .unset → msgSkip rules.message = false → rec v = .ok ())) ↔
      ValueOk E S ok e rules v := by
  obtain ⟨hk, hp, hf, hreq, hnb, hnw, hm⟩ := hp
  cases rules with
  | absent =>
    simp only [rulesText, Bool.false_eq_true, false_implies, true_and, ValueOk, FieldRules.type,
      true_implies]
    refine imp_congr_right fun he => ?_
    simp [FieldRules.message, msgRequired, msgSkip, hrec he]
  | mk m t =>
    simp only [FieldRules.type, FieldRules.message] at hk hp hf hreq hnb hnw hm hs ⊢
    by_cases hu : t = .unset
    · subst hu
      simp only [ValueOk, FieldRules.type, FieldRules.message, true_implies]
      rcases hm with rfl | ⟨-, he, hskip, hr⟩
      · simp only [rulesText, Option.isSome_none, Bool.or_self, Bool.false_eq_true, false_implies, true_and]
        refine imp_congr_right fun he => ?_
        simp [msgRequired, msgSkip, hrec he]
      · simp only [hskip, hr, he, Bool.false_eq_true, false_implies, and_true, true_implies, true_iff,
          reduceCtorEq, implies_true]
        rw [iff_true]
        intro _
        simp only [switcher, typeText, Bool.false_eq_true, if_false, run_gen]
        intro _
        simp only [messageCode, run_seq, hskip, if_true, run_nothing, and_true, run_required]
        intro h
        cases m with
        | none => simp at h
        | some m =>
          simp only [Option.bind_some] at h
          simp [msgRequired, h, optB] at hr
    · have hm : m = none := hm.resolve_right (fun h => hu h.1)
      subst hm
      have hrt : rulesText (.mk none t) = true := by cases t <;> first | rfl | exact absurd rfl hu
      have hs := hs hrt
      simp only [hrt, true_implies, hu, false_implies, implies_true, and_true]
      cases he : e.isEmbed with
      | false =>
        have hfit : ∃ s, v = .sc s ∧ FitsScalar C t s := by
          cases t <;> simp only [FitsVal, he, Bool.false_eq_true, if_false] at hf <;>
            first | exact hf | exact absurd rfl hu | (cases e <;> simp_all [KindOf, ElemT.isEmbed])
        obtain ⟨s, rfl, hfs⟩ := hfit
        rw [switcher_scalar hL.toTextLibs rec e he hk hu hnb hs hp s hfs]
        cases t <;> simp only [ValueOk, FieldRules.type, he, Bool.false_eq_true, false_and, false_implies,
          true_and, not_false_eq_true, true_implies] <;>
          first | exact absurd rfl hu | (cases e <;> simp_all [KindOf, ElemT.isEmbed])
      | true =>
        have hno := hnw he
        cases e with
        | embed n w =>
          cases t with
          | unset => exact absurd rfl hu
          | any r =>
            simp only [switcher, messageText, Bool.false_eq_true, if_false] at hs ⊢
            cases ht : typeText (.any r) with
            | false =>
              simp only [typeText, bne_eq_false_iff_eq] at ht
              subst ht
              rcases hf with rfl | ⟨u, b, rfl, hu⟩ <;> simp [ValueOk, FieldRules.type, AnyOk, ListOk]
            | true =>
              simp only [ht, if_true] at hs ⊢
              rcases hf with rfl | ⟨u, b, rfl, hu⟩
              · simp only [ValueOk, FieldRules.type, AnyOk]
                refine iff_of_true ?_ hreq
                unfold anyCode at *
                simp only [some_seq, some_gen] at hs
                obtain ⟨-, s1, s2⟩ := hs
                simp only [run_seq, run_gen, run_required]
                refine ⟨fun e => absurd e hreq, fun hi => ?_, fun hi => ?_⟩
                · have := s1 hi
                  by_cases hl : listOk P (r.ins ++ r.notIns) = true
                  · rw [if_pos hl]; simp [Place.guard, raiseUrl, run_stmt, isNull]
                  · rw [if_neg hl] at this; simp at this
                · have := s2 hi
                  by_cases hl : listOk P (r.ins ++ r.notIns) = true
                  · rw [if_pos hl]; simp [Place.guard, raiseUrl, run_stmt, isNull]
                  · rw [if_neg hl] at this; simp at this
              · exact anyCode_some .element hs (fun _ => hreq) hp.1 hp.2.1 hp.2.2 u b hu
          | duration r =>
            simp only [switcher, messageText] at hs ⊢
            cases ht : typeText (.duration r) with
            | false =>
              simp only [typeText, bne_eq_false_iff_eq] at ht
              subst ht
              rcases hf with rfl | ⟨d, rfl, hd⟩ <;>
                simp [ValueOk, FieldRules.type, DurationOk, DurConstrained]
            | true =>
              simp only [ht, if_true] at hs ⊢
              rcases hf with rfl | ⟨d, rfl, hd⟩
              · exact iff_of_true (durationCode_element_null hs hreq) hreq
              · exact durationCode_some .element hs (fun _ => hreq) hp d hd
          | timestamp r =>
            simp only [switcher, messageText] at hs ⊢
            cases ht : typeText (.timestamp r) with
            | false =>
              simp only [typeText, bne_eq_false_iff_eq] at ht
              subst ht
              rcases hf with rfl | ⟨d, rfl, hd⟩ <;>
                simp [ValueOk, FieldRules.type, TimestampOk, TsConstrained]
            | true =>
              simp only [ht, if_true] at hs ⊢
              rcases hf with rfl | ⟨d, rfl, hd⟩
              · exact iff_of_true (timestampCode_element_null hs hreq) hreq
              · exact timestampCode_some hL.clock .element hs (fun _ => hreq) hp d hd
          | _ => exact absurd hk hno
        | _ => simp [ElemT.isEmbed] at he

/-! ### Lists -/

theorem uniqueLoop_ok (vs seen : List Val) (hh : ∀ v ∈ vs, hashable v = true) :
    uniqueLoop nm seen vs = .ok () ↔
      (∀ v ∈ vs, ∀ w ∈ seen, sameItem v w = false) ∧ vs.Pairwise (fun a b => sameItem b a = false) := by
  induction vs generalizing seen with
  | nil => simp [uniqueLoop]
  | cons v vs ih =>
    unfold uniqueLoop
    rw [hh v (by simp), if_neg (by simp)]
    by_cases h : (seen.any fun w => sameItem v w) = true
    · rw [if_pos h]
      simp only [reduceCtorEq, false_iff, not_and]
      intro h'
      rw [List.any_eq_true] at h
      obtain ⟨w, hw, e⟩ := h
      have := h' v (by simp) w hw
      simp [e] at this
    · rw [if_neg h, ih _ fun w hw => hh w (by simp [hw])]
      have h0 : ∀ w ∈ seen, sameItem v w = false := by simpa using h
      simp only [List.mem_cons, forall_eq_or_imp, List.pairwise_cons]
      constructor
      · rintro ⟨h1, h2⟩
        exact ⟨⟨h0, fun a ha w hw => (h1 a ha).2 w hw⟩, fun a ha => (h1 a ha).1, h2⟩
      · rintro ⟨⟨-, h1⟩, h2, h3⟩
        exact ⟨fun a ha => ⟨h2 a ha, h1 a ha⟩, h3⟩

theorem sameItem_iff {e : ElemT} {a b : Val} (ha : FitsItem e a) (hb : FitsItem e b) :
    sameItem b a = false ↔ ¬ SameItem a b := by
  rw [← Bool.not_eq_true]
  refine not_congr ?_
  unfold FitsItem at ha hb
  split at ha
  · rcases b with ⟨⟨b⟩⟩ | _ <;> try exact hb.elim
    simp only [sameItem, SameItem, Num.eq_iff]
    exact Java.numSame_symm
  · rcases b with ⟨⟨b⟩⟩ | _ <;> try exact hb.elim
    simp only [sameItem, SameItem, beq_iff_eq]
    exact eq_comm
  · rcases b with ⟨⟨b⟩⟩ | _ <;> try exact hb.elim
    simp only [sameItem, SameItem, beq_iff_eq, pstr_inj hb ha]
    exact eq_comm
  · rcases b with ⟨⟨b⟩⟩ | _ <;> try exact hb.elim
    simp only [sameItem, SameItem, beq_iff_eq]
    exact eq_comm
  · rcases b with ⟨⟨b⟩⟩ | _ <;> try exact hb.elim
    simp only [sameItem, SameItem, beq_iff_eq]
    exact eq_comm
  · exact ha.elim

theorem fitsItem_hashable {e : ElemT} {v : Val} (h : FitsItem e v) : hashable v = true := by
  unfold FitsItem at h
  split at h <;> first | rfl | exact h.elim

theorem count_ok {α : Type} (w1 w2 : Nat → Text) (min max : Option Nat) (h2 : max ≠ some 0) (x : List α) :
    (((genPos min fun n => raiseIf nm (w1 n) fun x : List α => decide (x.length < n)).run x = .ok ()) ∧
     ((genPos max fun n => raiseIf nm (w2 n) fun x : List α => decide (x.length > n)).run x = .ok ())) ↔
      CountOk min max x.length := by
  rw [genPos_len min _ x (fun n => n ≤ x.length) (by simp) (by simp),
    genPos_len max _ x (fun n => x.length ≤ n) (by simp) (fun h => absurd h h2)]
  rfl

include hL in
theorem repeatedCode_ok (rec : Val → Run) (ok : Val → Prop) (e : ElemT) (r : RepeatedRules)
    (items : FieldRules) (vs : List Val)
    (hs : (repeatedCode P rec nm e r items).isSome = true)
    (hrec : ∀ v ∈ vs, e.isEmbed = true → (rec v = .ok () ↔ EmbeddedOk E S ok v))
    (hmax : r.maxItems ≠ some 0) (hp : ∀ v ∈ vs, PortItem C S e items v)
    (hu : r.unique = some true → ∀ v ∈ vs, FitsItem e v) :
    (repeatedCode P rec nm e r items).run vs = .ok () ↔ RepeatedOk E S ok e r items vs := by
  unfold repeatedCode at *
  refine run_ignoreBlock hs vs (by rw [List.isEmpty_iff]) fun hb => ?_
  simp only [some_seq, some_gen, some_loop] at hb
  obtain ⟨-, -, -, -, hsw⟩ := hb
  simp only [run_seq]
  rw [← count_ok (fun n => [.s "needs to contain at least ", .nat n, .s " items"])
    (fun n => [.s "needs to contain at most ", .nat n, .s " items"]) r.minItems r.maxItems hmax vs, and_assoc]
  refine and_congr_right fun _ => and_congr_right fun _ => and_congr ?_ ?_
  · rw [run_gen, optB_iff]
    refine imp_congr_right fun h => ?_
    rw [run_stmt, uniqueLoop_ok vs [] fun v hv => fitsItem_hashable (hu h v hv)]
    simp only [List.not_mem_nil, false_implies, implies_true, true_and]
    exact Java.pairwise_congr fun a ha b hb => sameItem_iff (hu h a ha) (hu h b hb)
  · simp only [run_gen, run_loop, some_gen, run_stmt]
    have hitem := fun v hv => item_ok hL rec ok e items v (hrec v hv) hsw (hp v hv)
    constructor
    · rintro ⟨h1, h2⟩ v hv
      rw [← hitem v hv]
      exact ⟨fun h => (h2 h).2 v hv, fun he _ hsk => (h1 he).2 v hv (by simp [hsk])⟩
    · intro h
      refine ⟨fun he => ⟨fun _ => rfl, fun v hv hsk => ?_⟩, fun hr => ⟨hsw hr, fun v hv => ?_⟩⟩
      · have hsk : msgSkip items.message = false := by simpa using hsk
        have hv' := h v hv
        by_cases hty : items.type = .unset
        · exact ((hitem v hv).2 hv').2 he hty hsk
        · rw [hrec v hv he]
          have hf := (hp v hv).2.2.1
          have hnw := (hp v hv).2.2.2.2.2.1 he
          have hk := (hp v hv).1
          cases e with
          | embed n w =>
            cases ht : items.type <;> simp only [ht, FitsVal, KindOf] at hf hty hk hnw <;>
              first
              | exact absurd rfl hty
              | (simp at hty; done)
              | exact absurd hk hnw
              | (rcases hf with rfl | ⟨d, rfl, -⟩ <;> trivial)
              | (rcases hf with rfl | ⟨u, b, rfl, -⟩ <;> trivial)
          | _ => simp [ElemT.isEmbed] at he
      · exact ((hitem v hv).2 (h v hv)).1 hr

/-! ### Maps -/

include hL in
theorem mapCode_ok (rec : Val → Run) (ok : Val → Prop) (kt vt : ElemT) (r : MapRules)
    (keys values : FieldRules) (kvs : List (Scalar × Val))
    (hs : (mapCode P rec nm vt r keys values).isSome = true)
    (hrec : ∀ kv ∈ kvs, vt.isEmbed = true → (rec kv.2 = .ok () ↔ EmbeddedOk E S ok kv.2))
    (hmax : r.maxPairs ≠ some 0) (hsp : r.noSparse ≠ some true)
    (hp : ∀ kv ∈ kvs, PortKey C kt keys kv.1 ∧ PortItem C S vt values kv.2)
    (hmsg : vt.isEmbed = true → values.type = .unset →
      (keys = .absent ∧ values = .absent) ∨ msgSkip values.message = true) :
    (mapCode P rec nm vt r keys values).run kvs = .ok () ↔ MapOk E S ok kt vt r keys values kvs := by
  unfold mapCode at *
  refine run_ignoreBlock hs kvs (by rw [List.isEmpty_iff]) fun hb => ?_
  simp only [some_seq] at hb
  obtain ⟨-, -, hb⟩ := hb
  simp only [run_seq]
  rw [← count_ok (fun n => [.s "needs to contain at least ", .nat n, .s " items"])
    (fun n => [.s "can contain at most ", .nat n, .s " items"]) r.minPairs r.maxPairs hmax kvs, and_assoc]
  refine and_congr_right fun _ => and_congr_right fun _ => ?_
  by_cases hc : (rulesText keys || rulesText values) = true
  · rw [if_pos hc] at hb ⊢
    simp only [some_on, some_loop, some_seq] at hb
    obtain ⟨hk, hv⟩ := hb
    simp only [run_on, run_loop, some_seq, some_on, hk, hv, true_and, run_seq,
      (P.order_perm kvs).mem_iff, and_self]
    refine forall_congr' fun kv => imp_congr_right fun hkv => ?_
    simp only [hsp, false_implies, true_and]
    refine and_congr (keyCode_ok hL.toTextLibs kt keys kv.1 hk (hp kv hkv).1) ?_
    have h := item_ok hL rec ok vt values kv.2 (hrec kv hkv) (fun _ => hv) (hp kv hkv).2
    rw [← h]
    have hno : ¬ (vt.isEmbed = true ∧ values.type = .unset ∧ msgSkip values.message = false) := by
      rintro ⟨h1, h2, h3⟩
      rcases hmsg h1 h2 with ⟨rfl, rfl⟩ | h
      · simp [rulesText] at hc
      · rw [h] at h3; simp at h3
    refine ⟨fun h => ⟨fun _ => h, fun h1 h2 h3 => absurd ⟨h1, h2, h3⟩ hno⟩, fun h => ?_⟩
    cases hr : rulesText values with
    | true => exact h.1 hr
    | false =>
      obtain ⟨h1, h2⟩ := rulesText_false hr
      cases values with
      | absent => rfl
      | mk m t =>
        simp only [FieldRules.type, FieldRules.message] at h1 h2
        subst h1; subst h2
        rfl
  · rw [if_neg hc]
    simp only [Bool.or_eq_true, not_or, Bool.not_eq_true] at hc
    obtain ⟨k1, k2⟩ := rulesText_false hc.1
    obtain ⟨v1, v2⟩ := rulesText_false hc.2
    simp only [run_gen, run_on, run_loop, some_on, run_stmt, (P.order_perm kvs).mem_iff]
    have e1 : Option.isSome (stmt rec) = true := rfl
    simp only [e1, true_and]
    constructor
    · intro h kv hkv
      refine ⟨fun h => absurd h hsp, by rw [k1]; cases kv.1 <;> simp [ScalarOk], ?_⟩
      simp only [ValueOk, v1, v2]
      intro he
      exact ⟨by simp [msgRequired], fun _ => (hrec kv hkv he).1 (h he kv hkv)⟩
    · intro h he kv hkv
      have := (h kv hkv).2.2
      simp only [ValueOk, v1, v2] at this
      exact (hrec kv hkv he).2 ((this he).2 rfl)

end

/-! ### Fields -/

section
variable {C : Common} {E : Env} {P : PEnv} {S : Schema} (hL : LibsAgree C E P S)
include hL

omit hL in
theorem scalarField_ok (hL : TextLibs C E P) (ok : Val → Prop) (inOneof : Bool) (f : FieldDesc) (e : ElemT)
    (v : Val) (he : e.isEmbed = false) (hs : (scalarField P inOneof f e false).isSome = true)
    (hp : PortOne C S e f.rules v) :
    (scalarField P inOneof f e false).run v = .ok () ↔ ValueOk E S ok e f.rules v := by
  obtain ⟨hk, hp, hf, hm, -⟩ := hp
  have hm := hm he
  unfold scalarField at *
  cases hr : f.rules with
  | absent => simp [ValueOk, FieldRules.type, he]
  | mk m t =>
    rw [hr] at hk hp hf hm
    simp only [FieldRules.type, FieldRules.message] at hk hp hf hm
    subst hm
    simp only [hr, messageText, Bool.not_false, Bool.and_true, Bool.false_eq_true, if_false] at hs ⊢
    have hu : t ≠ .unset := by
      rintro rfl
      simp [typeText] at hs
    · cases t with
      | unset => exact absurd rfl hu
      | num k r =>
        have ht := of_ite hs
        rw [if_pos ht] at hs ⊢
        simp only [FitsVal, he, Bool.false_eq_true, if_false] at hf
        obtain ⟨s, rfl, hf⟩ := hf
        cases s <;> simp only [FitsScalar] at hf
        simp only [some_onScalar] at hs
        simp only [run_onNum, ValueOk, FieldRules.type, he, Bool.false_eq_true,
          false_and, false_implies, true_and, not_false_eq_true, true_implies]
        exact numCode_ok hs hp _
      | bool r =>
        have ht := of_ite hs
        rw [if_pos ht] at hs ⊢
        simp only [FitsVal, he, Bool.false_eq_true, if_false] at hf
        obtain ⟨s, rfl, hf⟩ := hf
        cases s <;> simp only [FitsScalar] at hf
        simp only [run_onBool, ValueOk, FieldRules.type, he, Bool.false_eq_true,
          false_and, false_implies, true_and, not_false_eq_true, true_implies]
        exact boolCode_ok r _
      | string r =>
        have ht := of_ite hs
        rw [if_pos ht] at hs ⊢
        simp only [FitsVal, he, Bool.false_eq_true, if_false] at hf
        obtain ⟨s, rfl, hf⟩ := hf
        cases s <;> simp only [FitsScalar] at hf
        simp only [some_onScalar] at hs
        simp only [run_onStr, ValueOk, FieldRules.type, he, Bool.false_eq_true,
          false_and, false_implies, true_and, not_false_eq_true, true_implies]
        have h1 : oneofText inOneof r (strCode P (pName f) r) = strCode P (pName f) r := by
          unfold oneofText at *
          cases inOneof with
          | true => exact inline_some hs
          | false => rfl
        rw [h1] at hs ⊢
        exact strCode_ok hL hs hp _ hf.1 hf.2
      | bytes r =>
        have ht := of_ite hs
        rw [if_pos ht] at hs ⊢
        simp only [FitsVal, he, Bool.false_eq_true, if_false] at hf
        obtain ⟨s, rfl, hf⟩ := hf
        cases s <;> simp only [FitsScalar] at hf
        simp only [some_onScalar] at hs
        simp only [run_onBytes, ValueOk, FieldRules.type, he, Bool.false_eq_true,
          false_and, false_implies, true_and, not_false_eq_true, true_implies]
        exact bytesCode_ok E hs hp _
      | enum r =>
        have ht := of_ite hs
        rw [if_pos ht] at hs ⊢
        simp only [FitsVal, he, Bool.false_eq_true, if_false] at hf
        obtain ⟨s, rfl, hf⟩ := hf
        cases s <;> simp only [FitsScalar] at hf
        simp only [run_onEnum, ValueOk, FieldRules.type, he, Bool.false_eq_true,
          false_and, false_implies, true_and, not_false_eq_true, true_implies]
        cases e <;> simp only [KindOf] at hk
        · exact enumCode_ok hp _ _
        · exact hk.elim
      | repeated r items => cases e <;> first | exact hk.elim | simp [ElemT.isEmbed] at he
      | map r ks vs => cases e <;> first | exact hk.elim | simp [ElemT.isEmbed] at he
      | any r => cases e <;> first | exact hk.elim | simp [ElemT.isEmbed] at he
      | duration r => cases e <;> first | exact hk.elim | simp [ElemT.isEmbed] at he
      | timestamp r => cases e <;> first | exact hk.elim | simp [ElemT.isEmbed] at he

theorem messageField_ok (rec : Val → Run) (ok : Val → Prop) (f : FieldDesc) (n : String)
    (wkt : Option WKT) (v : Val) (hs : (messageField P rec f wkt).isSome = true)
    (hrec : v ≠ .null → (rec v = .ok () ↔ EmbeddedOk E S ok v))
    (hp : PortOne C S (.embed n wkt) f.rules v) :
    (messageField P rec f wkt).run v = .ok () ↔ ValueOk E S ok (.embed n wkt) f.rules v := by
  obtain ⟨hk, hp, hf, -, hm⟩ := hp
  have he : (ElemT.embed n wkt).isEmbed = true := rfl
  have M := fun m => messageCode_ok (nm := f.name) rec ok m v hrec
  unfold messageField at *
  cases hr : f.rules with
  | absent =>
    rw [hr] at hf
    simp only [hr]
    cases wkt with
    | none =>
      have := M none
      simp only [Option.isSome_none, Bool.false_eq_true, if_false, this, ValueOk, FieldRules.type,
        FieldRules.message, he, true_implies]
    | some w =>
      have := embedded_of_fits (E := E) ok hf
      simp [ValueOk, FieldRules.type, FieldRules.message, msgRequired, this]
  | mk m t =>
    rw [hr] at hk hp hf hm
    simp only [FieldRules.type, FieldRules.message] at hk hp hf hm
    simp only [hr] at hs ⊢
    have wrap : WrapperKind t → (t ≠ .unset) → FitsVal C S (.embed n wkt) t v → PortType C t →
        (if (typeText t && wrapperKind t) = true then wrapperCode P (pName f) t m
          else messageField.messageOr rec f.name m none).isSome = true →
        ((if (typeText t && wrapperKind t) = true then wrapperCode P (pName f) t m
          else messageField.messageOr rec f.name m none).run v = .ok () ↔
        (match (generalizing := false) v with
         | .wrapper s => ScalarOk E (.embed n wkt) t s
         | .null => msgRequired m = false
         | _ => True)) := by
      intro hw hu hf hp hs
      have hf : v = .null ∨ ∃ s, v = .wrapper s ∧ FitsScalar C t s := by
        cases t <;> simp only [FitsVal, he, if_true] at hf <;>
          first | exact hf | exact hw.elim | exact absurd rfl hu
      rw [(wrapperKind_iff t).2 hw] at hs ⊢
      simp only [Bool.and_true] at hs ⊢
      cases ht : typeText t with
      | true =>
        simp only [ht, if_true, wrapperCode, some_seq] at hs
        simp only [if_true, wrapperCode, run_seq, run_block hs.1, run_gen, run_raiseIf]
        rcases hf with rfl | ⟨s, rfl, hfs⟩
        · simp [isNull]
        · have := wrapped_ok hL.toTextLibs (.embed n wkt) hw (some_block hs.1) hp s hfs
          simp [isNull, this]
      | false =>
        simp only [ht, Bool.false_eq_true, if_false, messageField.messageOr] at hs ⊢
        by_cases hmt : messageText m = true
        · rw [if_pos hmt, M m]
          rcases hf with rfl | ⟨s, rfl, hf⟩
          · simp [EmbeddedOk]
          · simp [EmbeddedOk, scalarOk_untexted E _ t ht s]
        · rw [if_neg hmt] at hs; simp at hs
    cases t with
    | unset =>
      simp only [typeText, Bool.false_and, Bool.false_eq_true, if_false, messageField.messageOr] at hs ⊢
      by_cases hmt : messageText m = true
      · rw [if_pos hmt, M m]
        simp [ValueOk, FieldRules.type, FieldRules.message, he]
      · rw [if_neg hmt] at hs; simp at hs
    | any r =>
      have hm := hm trivial
      subst hm
      simp only [messageField.messageOr, messageText, Bool.false_eq_true, if_false] at hs ⊢
      by_cases hne : (r != {}) = true
      · rw [if_pos hne] at hs ⊢
        rcases hf with rfl | ⟨u, b, rfl, hu⟩
        · exact anyCode_null hs
        · exact anyCode_some .field hs (by simp) hp.1 hp.2.1 hp.2.2 u b hu
      · rw [if_neg hne] at hs; simp at hs
    | duration r =>
      have hm := hm trivial
      subst hm
      simp only [messageField.messageOr, messageText, Bool.false_eq_true, if_false] at hs ⊢
      by_cases hne : (r != {}) = true
      · rw [if_pos hne] at hs ⊢
        rcases hf with rfl | ⟨d, rfl, hd⟩
        · exact durationCode_null hs
        · exact durationCode_some .field hs (by simp) hp d hd
      · rw [if_neg hne] at hs; simp at hs
    | timestamp r =>
      have hm := hm trivial
      subst hm
      simp only [messageField.messageOr, messageText, Bool.false_eq_true, if_false] at hs ⊢
      by_cases hne : (r != {}) = true
      · rw [if_pos hne] at hs ⊢
        rcases hf with rfl | ⟨d, rfl, hd⟩
        · exact timestampCode_null (E := E) hs
        · exact timestampCode_some hL.clock .field hs (by simp) hp d hd
      · rw [if_neg hne] at hs; simp at hs
    | num k r =>
      refine (wrap hk (by simp) hf hp hs).trans ?_
      have hk' : (ElemT.embed n wkt).isEmbed = true ∧ WrapperKind (.num k r) := ⟨he, hk⟩
      simp only [ValueOk, FieldRules.type, FieldRules.message]
      simp only [hk', true_implies, not_true_eq_false, false_implies, and_true]
      cases v <;> simp
    | bool r =>
      refine (wrap hk (by simp) hf hp hs).trans ?_
      have hk' : (ElemT.embed n wkt).isEmbed = true ∧ WrapperKind (.bool r) := ⟨he, hk⟩
      simp only [ValueOk, FieldRules.type, FieldRules.message]
      simp only [hk', true_implies, not_true_eq_false, false_implies, and_true]
      cases v <;> simp
    | string r =>
      refine (wrap hk (by simp) hf hp hs).trans ?_
      have hk' : (ElemT.embed n wkt).isEmbed = true ∧ WrapperKind (.string r) := ⟨he, hk⟩
      simp only [ValueOk, FieldRules.type, FieldRules.message]
      simp only [hk', true_implies, not_true_eq_false, false_implies, and_true]
      cases v <;> simp
    | bytes r =>
      refine (wrap hk (by simp) hf hp hs).trans ?_
      have hk' : (ElemT.embed n wkt).isEmbed = true ∧ WrapperKind (.bytes r) := ⟨he, hk⟩
      simp only [ValueOk, FieldRules.type, FieldRules.message]
      simp only [hk', true_implies, not_true_eq_false, false_implies, and_true]
      cases v <;> simp
    | enum r => exact hk.elim
    | repeated r i => exact hk.elim
    | map r i j => exact hk.elim

omit hL in
theorem kind_unset (e : ElemT) : KindOf e .unset := by cases e <;> trivial

omit hL in
theorem unruled_iff {f : FieldDesc} : unruled f = true ↔ f.rules = .absent := by
  unfold unruled
  split <;> simp_all

theorem not_isMap {n : String} (h : ¬ C.pair n) : isMap P n = false := by
  unfold isMap
  split
  · rename_i k v e
    refine Bool.eq_false_iff.2 fun hc => h ?_
    obtain ⟨k1, k2⟩ := k
    obtain ⟨v1, v2⟩ := v
    simp only [Bool.and_eq_true, beq_iff_eq] at hc
    obtain ⟨rfl, rfl⟩ := hc
    exact hL.pair n _ _ e
  · rfl

theorem repField_ok (rec : Val → Run) (ok : Val → Prop) (inOneof : Bool) (f : FieldDesc) (e : ElemT)
    (v : Val) (ht : f.typ = .rep e) (hs : (fieldCode P rec inOneof f).isSome = true)
    (hrec : ∀ w, Go.Inside w v → (rec w = .ok () ↔ EmbeddedOk E S ok w)) (hp : PortField C S f v) :
    (fieldCode P rec inOneof f).run v = .ok () ↔ FieldOk E S ok f v := by
  simp only [PortField, ht] at hp
  obtain ⟨hm, vs, rfl, hp⟩ := hp
  simp only [FieldOk, ht]
  have hrec' : ∀ w ∈ vs, (rec w = .ok () ↔ EmbeddedOk E S ok w) := fun w hw => hrec w (.list hw)
  cases hr : f.rules with
  | absent =>
    simp only [hr, FieldRules.type] at hp ⊢
    obtain ⟨hp, hpair⟩ := hp
    cases e with
    | embed n wkt =>
      simp only [fieldCode, ht, messageList, hr, unruled, Bool.true_and] at hs ⊢
      cases hg : P.google n with
      | true =>
        simp only [if_true, run_nothing, true_iff]
        intro v hv _
        exact embedded_of_google ok (hL.google n hg) (hp v hv)
      | false =>
      simp only [hg, Bool.false_eq_true, if_false] at hs ⊢
      cases wkt with
      | some w =>
        simp only [Option.isSome_some, Option.isNone_some, Bool.false_and, Bool.false_eq_true, if_false, if_true,
          run_nothing, true_iff]
        intro v hv _
        exact embedded_of_fits ok (hp v hv)
      | none =>
        have hmap := not_isMap hL (hpair n rfl)
        simp only [hmap, Option.isSome_none, Option.isNone_none, Bool.true_and, Bool.false_eq_true, if_false,
          some_on] at hs ⊢
        rw [run_on]
        refine (repeatedCode_ok hL rec ok _ _ _ vs hs (fun v hv _ => hrec' v hv) (by simp) ?_
          (by simp)).trans ?_
        · intro v hv
          exact ⟨kind_unset _, trivial, hp v hv, trivial, by simp [FieldRules.type],
            fun _ h => h, .inl rfl⟩
        · simp [RepeatedOk, CountOk, ValueOk, FieldRules.type, FieldRules.message, msgRequired, msgSkip]
    | _ => simp [fieldCode, ht, scalarField, hr, ElemT.isEmbed]
  | mk m t =>
    rw [hr] at hm
    simp only [FieldRules.message] at hm
    subst hm
    simp only [hr, FieldRules.type] at hp ⊢
    cases t with
    | unset =>
      exfalso
      cases e <;> simp [fieldCode, ht, messageList, scalarField, hr, unruled, messageText, typeText] at hs
    | repeated r items =>
      obtain ⟨h1, h2, h3⟩ := hp
      simp only
      have main : ∀ rec', (e.isEmbed = true → rec' = rec) →
          (repeatedCode P rec' (pName f) e r items).isSome = true →
          ((repeatedCode P rec' (pName f) e r items).run vs = .ok () ↔ RepeatedOk E S ok e r items vs) := by
        intro rec' he hs
        refine repeatedCode_ok hL rec' ok e r items vs hs (fun v hv hE => ?_) h1 h2 h3
        rw [he hE]; exact hrec' v hv
      cases e with
      | embed n wkt =>
        simp only [fieldCode, ht, messageList, hr, unruled, Bool.false_and, messageText, Bool.false_eq_true,
          if_false] at hs ⊢
        have hc := of_ite hs
        rw [if_pos hc, some_on] at hs
        rw [if_pos hc, run_on]
        exact main rec (fun _ => rfl) hs
      | _ =>
        simp only [fieldCode, ht, scalarField, hr, messageText, Bool.false_eq_true, if_false,
          Bool.or_false, Bool.not_false, Bool.and_true, if_true] at hs ⊢
        have hc := of_ite hs
        rw [if_pos hc, some_on] at hs
        rw [if_pos hc, run_on]
        exact main _ (fun h => by simp [ElemT.isEmbed] at h) hs
    | _ => exact hp.elim

theorem mapField_ok (rec : Val → Run) (ok : Val → Prop) (inOneof : Bool) (f : FieldDesc) (kt vt : ElemT)
    (v : Val) (ht : f.typ = .map kt vt) (hs : (fieldCode P rec inOneof f).isSome = true)
    (hrec : ∀ w, Go.Inside w v → (rec w = .ok () ↔ EmbeddedOk E S ok w)) (hp : PortField C S f v) :
    (fieldCode P rec inOneof f).run v = .ok () ↔ FieldOk E S ok f v := by
  simp only [PortField, ht] at hp
  obtain ⟨hm, kvs, rfl, hp⟩ := hp
  simp only [FieldOk, ht]
  have hrec' : ∀ kv ∈ kvs, (rec kv.2 = .ok () ↔ EmbeddedOk E S ok kv.2) :=
    fun kv hkv => hrec kv.2 (.map hkv)
  simp only [fieldCode, ht, mapField] at hs ⊢
  cases hr : f.rules with
  | absent =>
    simp only [hr, FieldRules.type] at hp ⊢
    simp only [run_on, entriesOf, mapCode, ignoreBlock, optB, optN, rulesText, genPos, Bool.or_self,
      Option.getD_none, bne_self_eq_false, false_implies, Bool.false_eq_true, if_false, run_seq, run_nothing, true_and, run_gen, run_loop, some_on, run_stmt,
      (P.order_perm kvs).mem_iff]
    have e1 : Option.isSome (stmt rec) = true := rfl
    try simp only [e1, true_and]
    exact ⟨fun h kv hkv he => (hrec' kv hkv).1 (h he kv hkv),
      fun h he kv hkv => (hrec' kv hkv).2 (h kv hkv he)⟩
  | mk m t =>
    rw [hr] at hm
    simp only [FieldRules.message] at hm
    subst hm
    simp only [hr, FieldRules.type, messageText, Bool.false_eq_true, if_false] at hs hp ⊢
    cases t with
    | unset => simp at hs
    | map r keys values =>
      obtain ⟨h1, h2, h3, h4⟩ := hp
      simp only at hs ⊢
      have hc := of_ite hs
      rw [if_pos hc, some_on] at hs
      rw [if_pos hc, run_on]
      exact mapCode_ok hL rec ok kt vt r keys values kvs hs (fun kv hkv _ => hrec' kv hkv) h1 h2 h3 h4
    | _ => exact hp.elim

/-- One field. -/
theorem fieldCode_ok (rec : Val → Run) (ok : Val → Prop) (inOneof : Bool) (f : FieldDesc)
    (v : Val) (hs : (fieldCode P rec inOneof f).isSome = true)
    (hrec : ∀ w, Go.Inside w v → (rec w = .ok () ↔ EmbeddedOk E S ok w)) (hp : PortField C S f v) :
    (fieldCode P rec inOneof f).run v = .ok () ↔ FieldOk E S ok f v := by
  cases ht : f.typ with
  | rep e => exact repField_ok hL rec ok inOneof f e v ht hs hrec hp
  | map kt vt => exact mapField_ok hL rec ok inOneof f kt vt v ht hs hrec hp
  | one e =>
    simp only [PortField, ht] at hp
    simp only [FieldOk, ht]
    cases e with
    | embed n wkt =>
      simp only [fieldCode, ht] at hs ⊢
      cases hg : unruled f && P.google n with
      | true =>
        have h := Bool.and_eq_true_iff.1 hg
        have hr := unruled_iff.1 h.1
        have he := embedded_of_google (E := E) ok (hL.google n h.2) (hr ▸ hp.2.2.1)
        simp [ValueOk, hr, FieldRules.type, FieldRules.message, msgRequired, he]
      | false =>
        simp only [hg, Bool.false_eq_true, if_false] at hs ⊢
        exact messageField_ok hL rec ok f n wkt v hs (fun _ => hrec v (.self v)) hp
    | _ =>
      simp only [fieldCode, ht] at hs ⊢
      exact scalarField_ok hL.toTextLibs ok inOneof f _ v rfl hs hp

end

/-! ### Oneofs -/

theorem memberCode_some {P : PEnv} {rec : Val → Run} {o : OneofDesc} {fields : List FieldDesc}
    (h : (memberCode P rec o fields).isSome = true) :
    ∀ f ∈ fields, (fieldCode P rec true f).isSome = true := by
  induction fields with
  | nil => simp
  | cons f fs ih =>
    simp only [memberCode, some_seq] at h
    have h1 := some_block h.1
    simp only [some_seq, some_on] at h1
    intro g hg
    rcases List.mem_cons.1 hg with rfl | hg
    · exact h1.2
    · exact ih h.2 g hg

theorem memberCode_ok {P : PEnv} {rec : Val → Run} {o : OneofDesc} {fields : List FieldDesc}
    (h : (memberCode P rec o fields).isSome = true) (c : Content) :
    (memberCode P rec o fields).run c = .ok () ↔
      ∀ f ∈ fields, ∀ v, c.2.lookup o.name = some (f.name, v) →
        (fieldCode P rec true f).run v = .ok () := by
  induction fields with
  | nil => simp [memberCode]
  | cons f fs ih =>
    simp only [memberCode, some_seq] at h
    simp only [memberCode, run_seq, run_block h.1, ih h.2, List.mem_cons, forall_eq_or_imp, run_stmt,
      run_on, true_and]
    refine and_congr ?_ Iff.rfl
    cases hl : c.2.lookup o.name with
    | none => simp
    | some nv =>
      obtain ⟨n, v⟩ := nv
      simp only [beq_iff_eq, Option.some.injEq, Prod.mk.injEq]
      constructor
      · rintro h w ⟨e, rfl⟩; exact h e
      · intro h e; exact h v ⟨e, rfl⟩

theorem find_of_nodup {fields : List FieldDesc} (hn : (fields.map (·.name)).Nodup) {f : FieldDesc}
    (hf : f ∈ fields) : fields.find? (fun g => g.name == f.name) = some f := by
  induction fields with
  | nil => simp at hf
  | cons g gs ih =>
    simp only [List.map_cons, List.nodup_cons] at hn
    rcases List.mem_cons.1 hf with rfl | hf
    · simp
    · have : g.name ≠ f.name := fun e => hn.1 (e ▸ List.mem_map_of_mem hf)
      rw [List.find?_cons_of_neg (by simpa using this)]
      exact ih hn.2 hf

theorem eq_of_nodup {fields : List FieldDesc} (hn : (fields.map (·.name)).Nodup) {f g : FieldDesc}
    (hf : f ∈ fields) (hg : g ∈ fields) (h : f.name = g.name) : f = g := by
  have h1 := find_of_nodup hn hf
  have h2 := find_of_nodup hn hg
  rw [h] at h1
  exact Option.some.inj (h1.symm.trans h2)

theorem oneofCode_ok {C : Common} {E : Env} {P : PEnv} {S : Schema} (hL : LibsAgree C E P S)
    (rec : Val → Run) (ok : Val → Prop) (o : OneofDesc) (c : Content)
    (hs : (oneofCode P rec o).isSome = true)
    (hrec : ∀ m u, c.2.lookup o.name = some (m, u) →
      ∀ w, Go.Inside w u → (rec w = .ok () ↔ EmbeddedOk E S ok w))
    (hn : (o.fields.map (·.name)).Nodup)
    (hp : ∀ m u, c.2.lookup o.name = some (m, u) → ∃ f, f ∈ o.fields ∧ f.name = m ∧ PortField C S f u) :
    (oneofCode P rec o).run c = .ok () ↔ OneofOk E S ok o (c.2.lookup o.name) := by
  simp only [oneofCode, some_seq] at hs
  simp only [oneofCode, run_seq, memberCode_ok hs.1, run_gen, run_raiseIf]
  cases hl : c.2.lookup o.name with
  | none => simp [OneofOk]
  | some mu =>
    obtain ⟨m, u⟩ := mu
    obtain ⟨f, hf, rfl, hpf⟩ := hp m u hl
    have hany : (o.fields.any fun g => g.name == f.name) = true := by
      rw [List.any_eq_true]; exact ⟨f, hf, by simp⟩
    have hfind := find_of_nodup hn hf
    simp only [OneofOk, hfind, Option.some.injEq, forall_eq', hany, Bool.not_true, implies_true, and_true,
      Prod.mk.injEq]
    have key := fieldCode_ok hL rec ok true f u (memberCode_some hs.1 f hf) (hrec _ _ hl) hpf
    rw [← key]
    constructor
    · intro h; exact h f hf u ⟨rfl, rfl⟩
    · rintro h g hg v ⟨e, rfl⟩
      rw [← eq_of_nodup hn hf hg e]; exact h

/-! ### Messages -/

theorem fuel_nonmsg {C : Common} {E : Env} {P : PEnv} {S : Schema} (hL : LibsAgree C E P S) (n : Nat)
    (v : Val) (h : ∀ t fs os, v ≠ .msg t fs os) : validateFuel P S n v = .ok () := by
  cases n with
  | zero => rfl
  | succ n =>
    have hO : Outside S v := fun t fs os d e => absurd e (h t fs os)
    have e : validateFuel P S (n + 1) v = P.other v := by
      unfold validateFuel validateStep
      cases v <;> first | rfl | exact absurd rfl (h _ _ _)
    rw [e, hL.other v hO]
    cases v <;> first | trivial | exact absurd rfl (h _ _ _)

theorem part_inside {C : Common} {P : PEnv} {S : Schema} {u w v : Val} (hi : Go.Inside w u)
    (h : ∀ x, Part x u → Part x v) (hP : Portable C P S v) : Portable C P S w := by
  intro typ fs os d hp
  refine hP typ fs os d (h _ ?_)
  cases hi with
  | self => exact hp
  | list hm => exact .item hm hp
  | map hm => exact .entry hm hp

/-- Enough fuel gives exactly the declarative meaning. -/
theorem fuel_ok {C : Common} {E : Env} {P : PEnv} {S : Schema} (hL : LibsAgree C E P S) (n : Nat) :
    ∀ v, depth v ≤ n → Portable C P S v →
      (validateFuel P S n v = .ok () ↔ EmbeddedOk E S (fun w => Go.validate E S false w = none) v) := by
  induction n with
  | zero => intro v hv; have := Go.depth_pos v; omega
  | succ n ih =>
    intro v hv hP
    by_cases hm : ∀ t fs os, v ≠ .msg t fs os
    · rw [fuel_nonmsg hL (n + 1) v hm]
      cases v <;> first | exact absurd rfl (hm _ _ _) | simp [EmbeddedOk]
    · simp only [Classical.not_forall, ne_eq, Decidable.not_not] at hm
      obtain ⟨typ, fs, os, rfl⟩ : ∃ t fs os, v = .msg t fs os := by
        obtain ⟨t, fs, os, h⟩ := hm
        exact ⟨t, fs, os, Classical.not_not.1 h⟩
      have hrec : ∀ u, (∀ x, Part x u → Part x (.msg typ fs os)) → depth u ≤ n →
          ∀ w, Go.Inside w u → (validateFuel P S n w = .ok () ↔
            EmbeddedOk E S (fun w => Go.validate E S false w = none) w) := by
        intro u hu hd w hw
        refine ih w ?_ (part_inside hw hu hP)
        have := hw.depth_le
        omega
      unfold validateFuel validateStep
      cases hS : S typ with
      | generated d =>
        obtain ⟨hparse, hport⟩ := hP typ fs os d .self hS
        have hparse := hparse (validateFuel P S n)
        simp only [hS, EmbeddedOk]
        unfold msgCode at *
        by_cases hdi : (d.disabled || d.ignored) = true
        · simp only [hdi, if_true, Option.isSome_map] at hparse ⊢
          refine iff_of_true ?_ ?_
          · obtain ⟨b, hb⟩ := Option.isSome_iff_exists.1 hparse
            rw [hb]; rfl
          · intro hig
            rw [Go.validate_spec]
            simp only [MessageOk, hS]
            intro hdis
            simp [hdis, hig] at hdi
        · simp only [hdi, Bool.false_eq_true, if_false, some_seq, some_seqAll, some_on] at hparse ⊢
          simp only [Bool.or_eq_true, not_or, Bool.not_eq_true] at hdi
          obtain ⟨hdis, hig⟩ := hdi
          obtain ⟨hF, hO⟩ := hport hdis hig
          simp only [hig, true_implies]
          rw [Go.validate_spec]
          simp only [MessageOk, hS, hdis, true_implies, run_seq, run_seqAll, run_on]
          rw [and_comm]
          refine and_congr ?_ ?_
          · refine forall_congr' fun f => imp_congr_right fun hf => ?_
            refine fieldCode_ok hL _ _ false f _ (hparse.2 f hf) ?_ (hF f hf)
            intro w hw
            unfold getField at hw
            cases hl : fs.lookup f.name with
            | some u =>
              rw [hl] at hw
              refine hrec u (fun x hx => .field (Java.mem_of_lookup hl) hx) ?_ w hw
              have := Go.depthFields_lookup hl
              simp only [depth] at hv
              omega
            | none =>
              rw [hl] at hw
              have hw' := Go.zero_not_msg hw
              rw [fuel_nonmsg hL n w hw']
              cases w <;> first | exact absurd rfl (hw' _ _ _) | simp [EmbeddedOk]
          · refine forall_congr' fun o => imp_congr_right fun ho => ?_
            refine oneofCode_ok hL _ _ o (fs, os) (hparse.1 o ho) ?_ (hO o ho).1 (hO o ho).2
            intro m u hl
            have hl : os.lookup o.name = some (m, u) := hl
            refine hrec u (fun x hx => .member (Java.mem_of_lookup hl) hx) ?_
            have := Go.depthOneofs_lookup hl
            simp only [depth] at hv
            omega
      | _ =>
        simp only [hS]
        rw [hL.other]
        · simp [EmbeddedOk, hS]
        · intro t fs' os' d' e hS'
          cases e
          rw [hS] at hS'
          cases hS'

end PGV.Py
