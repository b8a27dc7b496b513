import Verif.Spec.GoCompile
import Verif.Lemmas.GenFails
import Verif.Lemmas.Times
import Verif.Lemmas.Checked

/-!
Well-formedness of the generated Go code, template by template.
-/

set_option linter.unusedSimpArgs false

namespace PGV.Props
open PGV PGV.Go PGV.Spec

/-- The accessor has the type, and the index variable is in scope. -/
structure CtxOk (G : Scope) (c : SCtx) (T : Ty) : Prop where
  acc : c.acc.ty G = some T
  idx : ∀ x, c.index = some x → (G x).isSome = true

/-- The tables and the pattern that the rules use are declared with the right key type. -/
structure TabsOk (ds : List Decl) (T : Ty) (i n p : Bool) : Prop where
  ins : i = true → keyTy ds .inLookup = some T
  notIns : n = true → keyTy ds .notInLookup = some T
  pat : p = true → hasPattern ds = true

section
variable {ds : List Decl} {G : Scope} {c : SCtx} {T : Ty}

theorem err_ok (h : CtxOk G c T) : c.err.ok ds G = true := by
  unfold SCtx.err Code.ok
  cases hi : c.index with
  | none => rfl
  | some x => exact h.idx x hi

theorem codeIf_ok {b : Bool} {x : Code} (h : b = true → x.ok ds G = true) : (codeIf b x).ok ds G = true := by
  unfold codeIf
  cases b
  · rfl
  · exact h rfl

theorem cmpOpt_ok {α : Type} {o : Option α} {k : α → Code} (h : ∀ a, o = some a → (k a).ok ds G = true) :
    (cmpOpt o k).ok ds G = true := by
  unfold cmpOpt
  cases o with
  | none => rfl
  | some a => exact h a rfl

theorem cmp_ok (h : CtxOk G c T) {l : Lit} (hl : l.fits T = true) : (Code.cmp c.acc l).ok ds G = true := by
  simp [Code.ok, h.acc, hl]

theorem seq_ok {a b : Code} (ha : a.ok ds G = true) (hb : b.ok ds G = true) : (Code.seq a b).ok ds G = true := by
  simp [Code.ok, ha, hb]

theorem inCode_ok (h : CtxOk G c T) {i n : Bool} {look : Var → Code}
    (hi : i = true → (look .inLookup).ok ds G = true) (hn : n = true → (look .notInLookup).ok ds G = true) :
    (inCode c i n look).ok ds G = true := by
  unfold inCode
  cases i
  · cases n
    · rfl
    · exact seq_ok (hn rfl) (err_ok h)
  · exact seq_ok (hi rfl) (err_ok h)

theorem num_fits {k : NumKind} {x : Num} (h : k.inRange x = true) (hf : FiniteNum x) :
    (Lit.num x).fits (NumKind.goTy k) = true := by
  cases x with
  | int i =>
    cases k <;> simp only [NumKind.inRange, Bool.false_eq_true] at h <;>
      simpa [NumKind.goTy, Lit.fits, intFits] using h
  | f32 b =>
    cases k <;> simp [NumKind.inRange] at h
    simp only [NumKind.goTy, Lit.fits, finite32, bne_iff_ne, ne_eq]
    exact hf
  | f64 b =>
    cases k <;> simp [NumKind.inRange] at h
    simp only [NumKind.goTy, Lit.fits, finite64, bne_iff_ne, ne_eq]
    exact hf

theorem ltgt_ok (h : CtxOk G c T) {r : NumRules} (hl : ∀ x, NumberIn r x → (Lit.num x).fits T = true) :
    (ltgtCode c r).ok ds G = true := by
  have one : ∀ x, NumberIn r x → (Code.cmp c.acc (.num x)).ok ds G = true := fun x hx => cmp_ok h (hl x hx)
  have he : c.err.ok ds G = true := err_ok h
  unfold ltgtCode
  cases hlt : r.lt <;> cases hlte : r.lte <;> cases hgt : r.gt <;> cases hgte : r.gte <;>
    simp only <;>
    first
    | rfl
    | exact seq_ok (one _ (by simp [NumberIn, hlt, hlte, hgt, hgte])) he
    | exact seq_ok (one _ (by simp [NumberIn, hlt, hlte, hgt, hgte]))
        (seq_ok (one _ (by simp [NumberIn, hlt, hlte, hgt, hgte])) he)

theorem index_ok (h : CtxOk G c T) {v : Var} (hv : keyTy ds v = some T) : (Code.index v c.acc).ok ds G = true := by
  simp [Code.ok, h.acc, hv]

theorem zero_fits (k : NumKind) : Lit.zero.fits (NumKind.goTy k) = true := by cases k <;> rfl

theorem numCode_ok {k : NumKind} (h : CtxOk G c (NumKind.goTy k)) {r : NumRules}
    (hl : ∀ x, NumberIn r x → k.inRange x = true ∧ FiniteNum x)
    (ht : TabsOk ds (NumKind.goTy k) (!r.ins.isEmpty) (!r.notIns.isEmpty) false) :
    (numCode c r).ok ds G = true := by
  have hl' : ∀ x, NumberIn r x → (Lit.num x).fits (NumKind.goTy k) = true :=
    fun x hx => num_fits (hl x hx).1 (hl x hx).2
  unfold numCode
  refine seq_ok (codeIf_ok fun _ => cmp_ok h (zero_fits k)) (seq_ok (cmpOpt_ok fun a ha => ?_)
    (seq_ok (ltgt_ok h hl') (inCode_ok h (fun hi => index_ok h (ht.ins hi)) fun hn => index_ok h (ht.notIns hn))))
  exact seq_ok (cmp_ok h (hl' a (.inl ha))) (err_ok h)

theorem boolCode_ok (h : CtxOk G c .bool) (r : BoolRules) : (boolCode c r).ok ds G = true :=
  cmpOpt_ok fun _ _ => seq_ok (cmp_ok h rfl) (err_ok h)

theorem optN_lt {n : Option Nat} (h : IntLimit n) : optN n < 2 ^ 63 := by
  cases n with
  | none => simp [optN]
  | some k => exact h k rfl

theorem lenCode_ok (h : CtxOk G c T) {len min max : Option Nat} {cmp : Nat → Code} (h1 : IntLimit len)
    (h23 : len = none → IntLimit min ∧ IntLimit max) (hc : ∀ n, n < 2 ^ 63 → (cmp n).ok ds G = true) :
    (lenCode c len min max cmp).ok ds G = true := by
  have e := err_ok (ds := ds) h
  have a1 := hc _ (optN_lt h1)
  unfold lenCode
  cases hl : len with
  | some n => rw [hl] at a1; exact seq_ok a1 e
  | none =>
  have a2 := hc _ (optN_lt (h23 hl).1)
  have a3 := hc _ (optN_lt (h23 hl).2)
  simp only [Option.isSome_none, Bool.false_or, Bool.false_eq_true, if_false]
  split
  · exact seq_ok a2 e
  · split
    · split
      · exact seq_ok a2 (seq_ok a3 e)
      · exact seq_ok a2 e
    · split
      · exact seq_ok a3 e
      · rfl

theorem strCode_ok (h : CtxOk G c .string) {t : FieldT} {r : StringRules} (hc : GoConstants t (.string r))
    (ht : TabsOk ds .string (!r.ins.isEmpty) (!r.notIns.isEmpty) r.pattern.isSome) :
    (strCode c r).ok ds G = true := by
  have e := err_ok (ds := ds) h
  have s : (Code.onString c.acc).ok ds G = true := by simp [Code.ok, h.acc]
  obtain ⟨h1, h2, h3, h4, h5, h6, -, -⟩ := hc
  unfold strCode
  refine seq_ok (codeIf_ok fun _ => cmp_ok h rfl) (seq_ok (cmpOpt_ok fun a ha => seq_ok (cmp_ok h rfl) e)
    (seq_ok (inCode_ok h (fun hi => index_ok h (ht.ins hi)) fun hn => index_ok h (ht.notIns hn))
    (seq_ok (lenCode_ok h h1 (fun _ => ⟨h2, h3⟩) fun n hn => ?_) (seq_ok (lenCode_ok h h4 (fun _ => ⟨h5, h6⟩) fun n hn => ?_)
    (seq_ok ?_ (seq_ok (codeIf_ok fun _ => seq_ok s e) (codeIf_ok fun hp => seq_ok ?_ e)))))))
  · simp only [Code.ok, h.acc, beq_self_eq_true, Bool.true_and, Lit.fits, decide_eq_true_eq]; exact hn
  · simp only [Code.ok, h.acc, Bool.true_and, Lit.fits, decide_eq_true_eq]; exact hn
  · exact seq_ok (codeIf_ok fun _ => seq_ok s e) (seq_ok (codeIf_ok fun _ => seq_ok s e)
      (seq_ok (codeIf_ok fun _ => seq_ok s e) (codeIf_ok fun _ => seq_ok s e)))
  · simp [Code.ok, h.acc, ht.pat hp]

theorem bytesCode_ok (h : CtxOk G c .bytes) {t : FieldT} {r : BytesRules} (hc : GoConstants t (.bytes r))
    (ht : TabsOk ds .string (!r.ins.isEmpty) (!r.notIns.isEmpty) r.pattern.isSome) :
    (bytesCode c r).ok ds G = true := by
  have e := err_ok (ds := ds) h
  have s : (Code.onBytes c.acc).ok ds G = true := by simp [Code.ok, h.acc]
  have hlen : ∀ n, n < 2 ^ 63 → (Code.len c.acc n).ok ds G = true := by
    intro n hn
    simp only [Code.ok, h.acc, Bool.true_and, Lit.fits, decide_eq_true_eq]; exact hn
  obtain ⟨h1, h2, -, -, -, -⟩ := hc
  unfold bytesCode
  refine seq_ok (codeIf_ok fun _ => hlen 0 (by decide)) (seq_ok (lenCode_ok h h1 h2 hlen)
    (seq_ok (codeIf_ok fun _ => seq_ok s e) (seq_ok (codeIf_ok fun _ => seq_ok s e)
    (seq_ok (codeIf_ok fun _ => seq_ok s e) (seq_ok (inCode_ok h ?_ ?_)
    (seq_ok (codeIf_ok fun _ => seq_ok s e) (seq_ok (codeIf_ok fun _ => seq_ok s e)
    (codeIf_ok fun hp => seq_ok ?_ e))))))))
  · intro hi; simp [Code.ok, h.acc, ht.ins hi]
  · intro hn; simp [Code.ok, h.acc, ht.notIns hn]
  · simp [Code.ok, h.acc, ht.pat hp]

theorem enumCode_ok (h : CtxOk G c .enum) {t : FieldT} {r : EnumRules} (hc : GoConstants t (.enum r))
    (ht : TabsOk ds .enum (!r.ins.isEmpty) (!r.notIns.isEmpty) false) : (enumCode c r).ok ds G = true := by
  have e := err_ok (ds := ds) h
  unfold enumCode
  refine seq_ok (cmpOpt_ok fun a ha => seq_ok (cmp_ok h ?_) e)
    (seq_ok (inCode_ok h (fun hi => index_ok h (ht.ins hi)) fun hn => index_ok h (ht.notIns hn))
    (codeIf_ok fun _ => seq_ok ?_ e))
  · have := hc.1 a (.inl ha)
    simp only [Lit.fits, intFits, decide_eq_true_eq]
    exact this
  · simp [Code.ok, h.acc]

theorem requiredCode_ok {w : Option WKT} (h : CtxOk G c (.ptr w)) (b : Bool) :
    (requiredCode c b).ok ds G = true :=
  codeIf_ok fun _ => seq_ok (by simp [Code.ok, h.acc]) (err_ok h)

theorem set_same (G : Scope) (x : Local) (t : Ty) : (G.set x t) x = some t := by simp [Scope.set]

theorem set_isSome {G : Scope} {x y : Local} {t : Ty} (h : (G y).isSome = true) :
    ((G.set x t) y).isSome = true := by
  unfold Scope.set
  split
  · rfl
  · exact h

theorem set_ne {G : Scope} {x y : Local} {t : Ty} (h : y ≠ x) : (G.set x t) y = G y := by
  simp [Scope.set, h]

/-- The error of a context in a larger scope. -/
theorem err_ok_set (h : CtxOk G c T) (x : Local) (t : Ty) : c.err.ok ds (G.set x t) = true := by
  unfold SCtx.err Code.ok
  cases hi : c.index with
  | none => rfl
  | some y => exact set_isSome (h.idx y hi)

theorem bind_ok {x : Local} {r : Rhs} {body : Code} {t : Ty} (hr : r.ty G = some t)
    (hu : body.uses x = true) (hb : body.ok ds (G.set x t) = true) : (Code.bind x r body).ok ds G = true := by
  simp [Code.ok, hr, hu, hb]

theorem inCode_ok' {i n : Bool} {look : Var → Code} (he : c.err.ok ds G = true)
    (hi : i = true → (look .inLookup).ok ds G = true) (hn : n = true → (look .notInLookup).ok ds G = true) :
    (inCode c i n look).ok ds G = true := by
  unfold inCode
  cases i
  · cases n
    · rfl
    · exact seq_ok (hn rfl) he
  · exact seq_ok (hi rfl) he

theorem anyCode_ok (h : CtxOk G c (.ptr (some .any))) {r : AnyRules}
    (ht : TabsOk ds .string (!r.ins.isEmpty) (!r.notIns.isEmpty) false) : (anyCode c r).ok ds G = true := by
  unfold anyCode
  refine seq_ok (requiredCode_ok h _) (bind_ok (t := .ptr (some .any)) h.acc ?_ (seq_ok ?_ (inCode_ok' ?_ ?_ ?_)))
  · simp [Code.uses, Opnd.uses]
  · simp [Code.ok, Opnd.ty, set_same]
  · exact err_ok_set h _ _
  · intro hi; simp [Code.ok, set_same, ht.ins hi]
  · intro hn; simp [Code.ok, set_same, ht.notIns hn]

end

theorem durLit_fits {d : PDur} (hv : ValidDuration d) (hi : InInt64 (length d)) : durLitFits d = true := by
  unfold durLitFits intFits PDur.exact
  unfold ValidDuration at hv
  unfold InInt64 length at hi
  simp only [Bool.and_eq_true, decide_eq_true_eq]
  omega

theorem tsLit_fits {t : PTime} (hv : ValidTimestamp t) : tsLitFits t = true := by
  unfold tsLitFits intFits
  unfold ValidTimestamp at hv
  simp only [Bool.and_eq_true, decide_eq_true_eq]
  omega


/-- What is in scope stays in scope. -/
def Ext (G G' : Scope) : Prop := ∀ y, (G y).isSome = true → (G' y).isSome = true

theorem Ext.refl (G : Scope) : Ext G G := fun _ h => h

theorem Ext.set {G G' : Scope} (h : Ext G G') (x : Local) (t : Ty) : Ext G (G'.set x t) :=
  fun y hy => set_isSome (h y hy)

theorem err_ext {ds : List Decl} {G G' : Scope} {c : SCtx} {T : Ty} (h : CtxOk G c T) (he : Ext G G') :
    c.err.ok ds G' = true := by
  unfold SCtx.err Code.ok
  cases hi : c.index with
  | none => rfl
  | some y => exact he y (h.idx y hi)

theorem inCode_uses {c : SCtx} {i n : Bool} {look : Var → Code} {x : Local} (h : ∀ v, (look v).uses x = true)
    (hb : i = true ∨ n = true) : (inCode c i n look).uses x = true := by
  unfold inCode
  cases i
  · cases n
    · simp at hb
    · simp [Code.uses, h]
  · simp [Code.uses, h]

theorem durBounds {r : DurationRules} (hc : Checker.checkDuration r = true) :
    (∀ x, DurBound r x → ValidDuration x) ∧ (r.lt = none ∨ r.lte = none) ∧ (r.gt = none ∨ r.gte = none) := by
  unfold Checker.checkDuration at hc
  simp only [Bool.and_eq_true, checkNums_iff] at hc
  obtain ⟨⟨⟨⟨⟨⟨⟨h1, h2⟩, h3⟩, h4⟩, h5⟩, h6⟩, -⟩, -⟩ := hc
  refine ⟨?_, by simpa using h6.2.2.2.1, by simpa using h6.2.2.2.2.1⟩
  intro x hx
  rw [← valid_iff]
  rcases hx with hx | hx | hx | hx | hx <;>
    simp only [hx, Checker.durOk] at h1 h2 h3 h4 h5 <;> assumption

/-- The declarations of the four bounds and their scope. -/
def bounds {α : Type} (lt lte gt gte : Option α) (k : α → Rhs) (body : Code) : Code :=
  bindOpt .lt lt k (bindOpt .lte lte k (bindOpt .gt gt k (bindOpt .gte gte k body)))

/-- A scope with the bounds that are set. -/
structure BoundScope (G G' : Scope) (T : Ty) (lt lte gt gte : Bool) : Prop where
  ext : Ext G G'
  same : ∀ y, y ≠ .lt → y ≠ .lte → y ≠ .gt → y ≠ .gte → G' y = G y
  lt : lt = true → G' .lt = some T
  lte : lte = true → G' .lte = some T
  gt : gt = true → G' .gt = some T
  gte : gte = true → G' .gte = some T

theorem bounds_ok {α : Type} {ds : List Decl} {G : Scope} {lt lte gt gte : Option α} {k : α → Rhs} {T : Ty}
    {body : Code} (hk : ∀ a G, (lt = some a ∨ lte = some a ∨ gt = some a ∨ gte = some a) → (k a).ty G = some T)
    (u1 : lt.isSome = true → body.uses .lt = true) (u2 : lte.isSome = true → body.uses .lte = true)
    (u3 : gt.isSome = true → body.uses .gt = true) (u4 : gte.isSome = true → body.uses .gte = true)
    (hb : ∀ G', BoundScope G G' T lt.isSome lte.isSome gt.isSome gte.isSome → body.ok ds G' = true) :
    (bounds lt lte gt gte k body).ok ds G = true := by
  unfold bounds
  have k1 : ∀ a, lt = some a → ∀ G, (k a).ty G = some T := fun a h G => hk a G (.inl h)
  have k2 : ∀ a, lte = some a → ∀ G, (k a).ty G = some T := fun a h G => hk a G (.inr (.inl h))
  have k3 : ∀ a, gt = some a → ∀ G, (k a).ty G = some T := fun a h G => hk a G (.inr (.inr (.inl h)))
  have k4 : ∀ a, gte = some a → ∀ G, (k a).ty G = some T := fun a h G => hk a G (.inr (.inr (.inr h)))
  clear hk
  cases lt <;> cases lte <;> cases gt <;> cases gte <;>
    simp only [Option.isSome_none, Option.isSome_some, Bool.false_eq_true, false_imp_iff, true_imp_iff,
      forall_const, Option.some.injEq, forall_eq', reduceCtorEq, implies_true] at u1 u2 u3 u4 k1 k2 k3 k4 <;>
    simp only [bindOpt, Code.ok, k1, k2, k3, k4, Code.uses, u1, u2, u3, u4, Bool.or_true, Bool.and_true, Bool.true_and,
      bne_iff_ne, ne_eq, reduceCtorEq, not_false_eq_true, Bool.and_eq_true, Bool.or_eq_true, or_true, true_and,
      and_self] <;>
    (refine hb _ ⟨?_, ?_, ?_, ?_, ?_, ?_⟩ <;>
      first
      | (intro h; simp at h; done)
      | (intro _; simp [Scope.set]; done)
      | (intro y a b c d; simp [Scope.set, a, b, c, d]; done)
      | exact Ext.refl G
      | exact (Ext.refl G).set _ _
      | exact ((Ext.refl G).set _ _).set _ _
      | exact (((Ext.refl G).set _ _).set _ _).set _ _
      | exact ((((Ext.refl G).set _ _).set _ _).set _ _).set _ _)

theorem chain_uses {use : Local → Code} {c : SCtx} {lt lte gt gte : Bool} {rest : Code} {x : Local}
    (hu : lt = false ∨ lte = false) (hl : gt = false ∨ gte = false) (h : (use x).uses x = true)
    (hx : (lt = true ∧ x = .lt) ∨ (lte = true ∧ x = .lte) ∨ (gt = true ∧ x = .gt) ∨ (gte = true ∧ x = .gte)) :
    (chainCode use c lt lte gt gte rest).uses x = true := by
  unfold chainCode
  cases lt <;> cases lte <;> cases gt <;> cases gte <;> simp at hu hl hx <;>
    (first
      | (subst hx; simp [Code.uses, h])
      | (rcases hx with hx | hx <;> subst hx <;> simp [Code.uses, h]))

/-- When a bound is set, the chain mentions whatever its comparisons mention. -/
theorem chain_uses_any {use : Local → Code} {c : SCtx} {lt lte gt gte : Bool} {rest : Code} {x : Local}
    (h : ∀ y, (use y).uses x = true) (hx : lt = true ∨ lte = true ∨ gt = true ∨ gte = true) :
    (chainCode use c lt lte gt gte rest).uses x = true := by
  unfold chainCode
  cases lt <;> cases lte <;> cases gt <;> cases gte <;> simp at hx <;> simp [Code.uses, h]

theorem chain_ok {ds : List Decl} {G' : Scope} {use : Local → Code} {c : SCtx} {lt lte gt gte : Bool} {rest : Code}
    {T : Ty} (hb : ∀ y, G' y = some T → (use y).ok ds G' = true) (he : c.err.ok ds G' = true)
    (h1 : lt = true → G' .lt = some T) (h2 : lte = true → G' .lte = some T) (h3 : gt = true → G' .gt = some T)
    (h4 : gte = true → G' .gte = some T)
    (hr : lt = false → lte = false → gt = false → gte = false → rest.ok ds G' = true) :
    (chainCode use c lt lte gt gte rest).ok ds G' = true := by
  unfold chainCode
  cases lt <;> cases lte <;> cases gt <;> cases gte <;>
    simp only [Bool.false_eq_true, if_true, if_false, Code.ok, he, Bool.and_true, Bool.and_eq_true] <;>
    simp_all

theorem bounds_uses {α : Type} {lt lte gt gte : Option α} {k : α → Rhs} {body : Code} {x : Local}
    (hx : x ≠ .lt ∧ x ≠ .lte ∧ x ≠ .gt ∧ x ≠ .gte) (h : body.uses x = true) :
    (bounds lt lte gt gte k body).uses x = true := by
  unfold bounds
  cases lt <;> cases lte <;> cases gt <;> cases gte <;>
    simp [bindOpt, Code.uses, h, Ne.symm hx.1, Ne.symm hx.2.1, Ne.symm hx.2.2.1, Ne.symm hx.2.2.2]

theorem durationCode_ok {ds : List Decl} {G : Scope} {c : SCtx} (h : CtxOk G c (.ptr (some .duration)))
    {t : FieldT} {r : DurationRules} (hchk : Checker.checkDuration r = true) (hc : GoConstants t (.duration r))
    (ht : TabsOk ds .duration (!r.ins.isEmpty) (!r.notIns.isEmpty) false) : (durationCode c r).ok ds G = true := by
  obtain ⟨hv, hu, hl⟩ := durBounds hchk
  have hu' : r.lt.isSome = false ∨ r.lte.isSome = false := by
    rcases hu with h | h <;> simp [h]
  have hl' : r.gt.isSome = false ∨ r.gte.isSome = false := by
    rcases hl with h | h <;> simp [h]
  have hf : ∀ x, DurBound r x → durLitFits x = true := fun x hx => durLit_fits (hv x hx) (hc.1 x hx)
  have he : ∀ G', Ext G G' → c.err.ok ds G' = true := fun G' hG' => err_ext h hG'
  have hcmp : durationcmpCode c r = (cmpOpt r.const (fun k => .cmpDur .dur k ;; c.err) ;;
      bounds r.lt r.lte r.gt r.gte .durLit
        (chainCode (.durVars .dur) c r.lt.isSome r.lte.isSome r.gt.isSome r.gte.isSome .skip ;;
         inCode c (!r.ins.isEmpty) (!r.notIns.isEmpty) (fun v => .index v (.loc .dur)))) := rfl
  unfold durationCode
  refine seq_ok (requiredCode_ok h _) (codeIf_ok fun hb => bind_ok (t := .ptr (some .duration)) h.acc ?_
    (seq_ok (by simp [Code.ok, Opnd.ty, set_same]) (bind_ok (t := .duration) (by simp [Rhs.ty, set_same]) ?_
      (seq_ok (he _ ((Ext.refl G).set _ _ |>.set _ _)) ?_))))
  · simp [Code.uses, Opnd.uses]
  · have hb' : ((!r.ins.isEmpty) = true ∨ (!r.notIns.isEmpty) = true) ∨ (r.lt.isSome = true ∨ r.lte.isSome = true ∨
        r.gt.isSome = true ∨ r.gte.isSome = true) ∨ r.const.isSome = true := by
      simpa [or_assoc] using hb
    rw [hcmp]
    rcases hb' with hi | hb' | hb'
    · have := inCode_uses (c := c) (look := fun v => Code.index v (.loc .dur)) (x := .dur)
        (fun v => by simp [Code.uses, Opnd.uses]) hi
      have := bounds_uses (lt := r.lt) (lte := r.lte) (gt := r.gt) (gte := r.gte) (k := .durLit) (x := .dur)
        (body := (chainCode (.durVars .dur) c r.lt.isSome r.lte.isSome r.gt.isSome r.gte.isSome .skip ;;
         inCode c (!r.ins.isEmpty) (!r.notIns.isEmpty) (fun v => .index v (.loc .dur)))) (by decide)
        (by simp [Code.uses, this])
      simp [Code.uses, this]
    · have := chain_uses_any (use := .durVars .dur) (c := c) (rest := .skip) (x := .dur)
        (fun y => by simp [Code.uses]) hb'
      have := bounds_uses (lt := r.lt) (lte := r.lte) (gt := r.gt) (gte := r.gte) (k := .durLit) (x := .dur)
        (body := (chainCode (.durVars .dur) c r.lt.isSome r.lte.isSome r.gt.isSome r.gte.isSome .skip ;;
         inCode c (!r.ins.isEmpty) (!r.notIns.isEmpty) (fun v => .index v (.loc .dur)))) (by decide)
        (by simp [Code.uses, this])
      simp [Code.uses, this]
    · cases h0 : r.const with
      | some x => simp [cmpOpt, Code.uses]
      | none => simp [h0] at hb'
  · rw [hcmp]
    have e2 : Ext G ((G.set .d (.ptr (some .duration))).set .dur .duration) := (Ext.refl G).set _ _ |>.set _ _
    generalize hG : (G.set .d (.ptr (some .duration))).set .dur .duration = G2 at e2
    have hd : G2 .dur = some .duration := by rw [← hG, set_same]
    clear hG
    refine seq_ok (cmpOpt_ok fun a ha => seq_ok ?_ (he _ e2)) (bounds_ok (T := .duration) ?_ ?_ ?_ ?_ ?_ ?_)
    · simp [Code.ok, hd, hf a (.inl ha)]
    · intro a G' ha; simp [Rhs.ty, hf a (.inr ha)]
    · intro h; simp [Code.uses, chain_uses (use := .durVars .dur) (x := .lt) hu' hl' (by simp [Code.uses])
        (.inl ⟨h, rfl⟩)]
    · intro h; simp [Code.uses, chain_uses (use := .durVars .dur) (x := .lte) hu' hl' (by simp [Code.uses])
        (.inr (.inl ⟨h, rfl⟩))]
    · intro h; simp [Code.uses, chain_uses (use := .durVars .dur) (x := .gt) hu' hl' (by simp [Code.uses])
        (.inr (.inr (.inl ⟨h, rfl⟩)))]
    · intro h; simp [Code.uses, chain_uses (use := .durVars .dur) (x := .gte) hu' hl' (by simp [Code.uses])
        (.inr (.inr (.inr ⟨h, rfl⟩)))]
    · intro G' hG'
      have hd' : G' .dur = some .duration := by
        rw [hG'.same _ (by decide) (by decide) (by decide) (by decide)]; exact hd
      have eG : Ext G G' := fun y hy => hG'.ext y (e2 y hy)
      refine seq_ok (chain_ok (T := .duration) (fun y hy => by simp [Code.ok, hd', hy]) (he _ eG) hG'.lt hG'.lte
        hG'.gt hG'.gte fun _ _ _ _ => rfl) (inCode_ok' (he _ eG) ?_ ?_)
      · intro hi; simp [Code.ok, Opnd.ty, hd', ht.ins hi]
      · intro hn; simp [Code.ok, Opnd.ty, hd', ht.notIns hn]

theorem tsBounds {r : TimestampRules} (hc : Checker.checkTimestamp r = true) :
    (∀ x, (r.const = some x ∨ r.lt = some x ∨ r.lte = some x ∨ r.gt = some x ∨ r.gte = some x) → ValidTimestamp x) ∧
    (r.lt = none ∨ r.lte = none) ∧ (r.gt = none ∨ r.gte = none) ∧
    (r.ltNow ≠ none ∨ r.gtNow ≠ none ∨ r.within ≠ none → r.lt = none ∧ r.lte = none ∧ r.gt = none ∧ r.gte = none) ∧
    ∀ x, r.within = some x → ValidDuration x := by
  unfold Checker.checkTimestamp at hc
  simp only [Bool.and_eq_true, checkNums_iff, Bool.or_eq_true, Option.isNone_iff_eq_none] at hc
  obtain ⟨⟨⟨⟨⟨⟨⟨⟨⟨⟨h1, h2⟩, h3⟩, h4⟩, h5⟩, h6⟩, h7⟩, h8⟩, -⟩, h9⟩, -⟩ := hc
  refine ⟨?_, by simpa using h6.2.2.2.1, by simpa using h6.2.2.2.2.1, ?_, ?_⟩
  · intro x hx
    rw [← tsValid_iff]
    rcases hx with hx | hx | hx | hx | hx <;>
      simp only [hx, Checker.tsOk] at h1 h2 h3 h4 h5 <;> assumption
  · intro hx
    rcases hx with hx | hx | hx
    · rcases h7 with h7 | h7
      · exact absurd h7.1 hx
      · simpa [and_assoc] using h7
    · rcases h7 with h7 | h7
      · exact absurd h7.2 hx
      · simpa [and_assoc] using h7
    · rcases h8 with h8 | h8
      · exact absurd h8 hx
      · simpa [and_assoc] using h8
  · intro x hx
    rw [← valid_iff]
    simpa [hx, Checker.durOk] using h9

theorem bindOpt_ok {α : Type} {ds : List Decl} {G : Scope} {x : Local} {b : Option α} {k : α → Rhs} {T : Ty}
    {body : Code} (hk : ∀ a, b = some a → (k a).ty G = some T) (hu : b.isSome = true → body.uses x = true)
    (hb : ∀ G', Ext G G' → (∀ y, y ≠ x → G' y = G y) → (b.isSome = true → G' x = some T) → body.ok ds G' = true) :
    (bindOpt x b k body).ok ds G = true := by
  cases b with
  | none => exact hb G (Ext.refl G) (fun _ _ => rfl) (by simp)
  | some a =>
    exact bind_ok (hk a rfl) (hu rfl)
      (hb _ ((Ext.refl G).set _ _) (fun y hy => set_ne hy) fun _ => set_same _ _ _)

theorem bindOpt_uses {α : Type} {x y : Local} {b : Option α} {k : α → Rhs} {body : Code} (hx : x ≠ y)
    (h : body.uses y = true) : (bindOpt x b k body).uses y = true := by
  cases b with
  | none => exact h
  | some a => simp [bindOpt, Code.uses, h, hx]

theorem nowCode_uses {c : SCtx} {r : TimestampRules} {x : Local}
    (hx : (x = .within ∧ r.within.isSome = true) ∨ ((x = .now ∨ x = .ts) ∧
      (r.ltNow.isSome = true ∨ r.gtNow.isSome = true ∨ r.within.isSome = true))) :
    (nowCode c r).uses x = true := by
  unfold nowCode
  cases h1 : r.ltNow <;> cases h2 : r.gtNow <;> cases h3 : r.within <;> simp [h1, h2, h3] at hx <;>
    (first
      | (subst hx; simp [Code.uses, codeIf])
      | (rcases hx with hx | hx <;> subst hx <;> simp [Code.uses, codeIf])
      | (rcases hx with hx | hx | hx <;> subst hx <;> simp [Code.uses, codeIf]))

theorem nowCode_ok {ds : List Decl} {G : Scope} {c : SCtx} {r : TimestampRules} (he : c.err.ok ds G = true)
    (hts : G .ts = some .time)
    (hnow : r.ltNow.isSome = true ∨ r.gtNow.isSome = true ∨ r.within.isSome = true → G .now = some .time)
    (hw : r.within.isSome = true → G .within = some .duration) : (nowCode c r).ok ds G = true := by
  unfold nowCode
  cases h1 : r.ltNow <;> cases h2 : r.gtNow <;> cases h3 : r.within <;>
    simp only [h1, h2, h3, Option.isSome_none, Option.isSome_some, Bool.false_eq_true, false_imp_iff, true_imp_iff,
      or_true, true_or, or_self, forall_const] at hnow hw <;>
    simp [Code.ok, codeIf, he, hts, hnow, hw]

theorem timestampCode_ok {ds : List Decl} {G : Scope} {c : SCtx} (h : CtxOk G c (.ptr (some .timestamp)))
    {t : FieldT} {r : TimestampRules} (hchk : Checker.checkTimestamp r = true)
    (hc : GoConstants t (.timestamp r)) : (timestampCode c r).ok ds G = true := by
  obtain ⟨hv, hu, hl, hn, hw⟩ := tsBounds hchk
  have hu' : r.lt.isSome = false ∨ r.lte.isSome = false := by
    rcases hu with h | h <;> simp [h]
  have hl' : r.gt.isSome = false ∨ r.gte.isSome = false := by
    rcases hl with h | h <;> simp [h]
  have hf : ∀ x, (r.const = some x ∨ r.lt = some x ∨ r.lte = some x ∨ r.gt = some x ∨ r.gte = some x) →
      tsLitFits x = true := fun x hx => tsLit_fits (hv x hx)
  have hwf : ∀ x, r.within = some x → durLitFits x = true := fun x hx => durLit_fits (hw x hx) (hc x hx)
  have he : ∀ G', Ext G G' → c.err.ok ds G' = true := fun G' hG' => err_ext h hG'
  let chain := chainCode (.timeVars .ts) c r.lt.isSome r.lte.isSome r.gt.isSome r.gte.isSome (nowCode c r)
  have hcmp : timestampcmpCode c r = (cmpOpt r.const (fun k => .cmpTime .ts k ;; c.err) ;;
      bindOpt .now (if r.ltNow.isSome || r.gtNow.isSome || r.within.isSome then some () else none) (fun _ => .now)
        (bounds r.lt r.lte r.gt r.gte .tsLit (bindOpt .within r.within .durLit chain))) := rfl
  have hnowSome : (if r.ltNow.isSome || r.gtNow.isSome || r.within.isSome then some () else none).isSome = true ↔
      (r.ltNow.isSome = true ∨ r.gtNow.isSome = true ∨ r.within.isSome = true) := by
    cases r.ltNow <;> cases r.gtNow <;> cases r.within <;> simp
  have none4 : r.ltNow.isSome = true ∨ r.gtNow.isSome = true ∨ r.within.isSome = true →
      chain = nowCode c r := by
    intro hx
    have hx' : r.ltNow ≠ none ∨ r.gtNow ≠ none ∨ r.within ≠ none := by
      rcases hx with hx | hx | hx
      · exact .inl (by intro e; simp [e] at hx)
      · exact .inr (.inl (by intro e; simp [e] at hx))
      · exact .inr (.inr (by intro e; simp [e] at hx))
    obtain ⟨a, b, c', d⟩ := hn hx'
    simp only [chain, a, b, c', d, chainCode, Option.isSome_none, Bool.false_eq_true, if_false]
  have usesChain : ∀ x, ((x = .lt ∧ r.lt.isSome = true) ∨ (x = .lte ∧ r.lte.isSome = true) ∨
      (x = .gt ∧ r.gt.isSome = true) ∨ (x = .gte ∧ r.gte.isSome = true)) → chain.uses x = true := by
    intro x hx
    refine chain_uses (x := x) hu' hl' (by simp [Code.uses]) ?_
    rcases hx with ⟨a, b⟩ | ⟨a, b⟩ | ⟨a, b⟩ | ⟨a, b⟩
    · exact .inl ⟨b, a⟩
    · exact .inr (.inl ⟨b, a⟩)
    · exact .inr (.inr (.inl ⟨b, a⟩))
    · exact .inr (.inr (.inr ⟨b, a⟩))
  have usesW : r.within.isSome = true → chain.uses .within = true := by
    intro hx
    rw [none4 (.inr (.inr hx))]
    exact nowCode_uses (.inl ⟨rfl, hx⟩)
  have usesNow : r.ltNow.isSome = true ∨ r.gtNow.isSome = true ∨ r.within.isSome = true →
      chain.uses .now = true ∧ chain.uses .ts = true := by
    intro hx
    rw [none4 hx]
    exact ⟨nowCode_uses (.inr ⟨.inl rfl, hx⟩), nowCode_uses (.inr ⟨.inr rfl, hx⟩)⟩
  unfold timestampCode
  refine seq_ok (requiredCode_ok h _) (codeIf_ok fun hb => bind_ok (t := .ptr (some .timestamp)) h.acc ?_
    (seq_ok (by simp [Code.ok, Opnd.ty, set_same]) (bind_ok (t := .time) (by simp [Rhs.ty, set_same]) ?_
      (seq_ok (he _ ((Ext.refl G).set _ _ |>.set _ _)) ?_))))
  · simp [Code.uses, Opnd.uses]
  · rw [hcmp]
    have hb' : ((r.lt.isSome = true ∨ r.lte.isSome = true ∨ r.gt.isSome = true ∨ r.gte.isSome = true) ∨
        (r.ltNow.isSome = true ∨ r.gtNow.isSome = true ∨ r.within.isSome = true)) ∨ r.const.isSome = true := by
      simpa [or_assoc] using hb
    rcases hb' with hb' | hb'
    · have hch : chain.uses .ts = true := by
        rcases hb' with hb' | hb'
        · exact chain_uses_any (fun y => by simp [Code.uses]) hb'
        · exact (usesNow hb').2
      have := bindOpt_uses (x := .now)
        (b := if r.ltNow.isSome || r.gtNow.isSome || r.within.isSome then some () else none) (k := fun _ => .now)
        (by decide) (bounds_uses (lt := r.lt) (lte := r.lte) (gt := r.gt) (gte := r.gte) (k := .tsLit) (x := .ts)
          (by decide) (bindOpt_uses (x := .within) (b := r.within) (k := .durLit) (by decide) hch))
      simp only [Code.uses, this, Bool.or_true]
    · cases h0 : r.const with
      | some x => simp [cmpOpt, Code.uses]
      | none => simp [h0] at hb'
  · rw [hcmp]
    have e2 : Ext G ((G.set .t (.ptr (some .timestamp))).set .ts .time) := (Ext.refl G).set _ _ |>.set _ _
    generalize hG : (G.set .t (.ptr (some .timestamp))).set .ts .time = G2 at e2
    have hd : G2 .ts = some .time := by rw [← hG, set_same]
    clear hG
    refine seq_ok (cmpOpt_ok fun a ha => seq_ok ?_ (he _ e2)) (bindOpt_ok (T := .time) (fun _ _ => rfl) ?_ ?_)
    · simp [Code.ok, hd, hf a (.inl ha)]
    · intro hx
      rw [hnowSome] at hx
      exact bounds_uses (by decide) (bindOpt_uses (by decide) (usesNow hx).1)
    intro G3 e3 s3 n3
    rw [hnowSome] at n3
    refine bounds_ok (T := .time) ?_ ?_ ?_ ?_ ?_ ?_
    · intro a G' ha; simp [Rhs.ty, hf a (.inr ha)]
    · exact fun hx => bindOpt_uses (by decide) (usesChain _ (.inl ⟨rfl, hx⟩))
    · exact fun hx => bindOpt_uses (by decide) (usesChain _ (.inr (.inl ⟨rfl, hx⟩)))
    · exact fun hx => bindOpt_uses (by decide) (usesChain _ (.inr (.inr (.inl ⟨rfl, hx⟩))))
    · exact fun hx => bindOpt_uses (by decide) (usesChain _ (.inr (.inr (.inr ⟨rfl, hx⟩))))
    intro G4 hG4
    refine bindOpt_ok (T := .duration) ?_ usesW ?_
    · intro a ha; simp [Rhs.ty, hwf a ha]
    intro G5 e5 s5 w5
    have ts4 : G4 .ts = some .time := by
      rw [hG4.same _ (by decide) (by decide) (by decide) (by decide), s3 _ (by decide), hd]
    have eG : Ext G G5 := fun y hy => e5 y (hG4.ext y (e3 y (e2 y hy)))
    have ts5 : G5 .ts = some .time := by rw [s5 _ (by decide), ts4]
    refine chain_ok (T := .time) (fun y hy => by simp [Code.ok, ts5, hy]) (he _ eG) ?_ ?_ ?_ ?_ ?_
    · intro hx; rw [s5 _ (by decide)]; exact hG4.lt hx
    · intro hx; rw [s5 _ (by decide)]; exact hG4.lte hx
    · intro hx; rw [s5 _ (by decide)]; exact hG4.gt hx
    · intro hx; rw [s5 _ (by decide)]; exact hG4.gte hx
    · intro _ _ _ _
      refine nowCode_ok (he _ eG) ts5 ?_ w5
      intro hx
      rw [s5 _ (by decide), hG4.same _ (by decide) (by decide) (by decide) (by decide)]
      exact n3 hx

end PGV.Props
