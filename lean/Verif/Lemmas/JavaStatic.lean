import Verif.Java.Static
import Verif.Spec.JavaCompile
import Verif.Lemmas.JavaLit
import Verif.Props.JavaLiterals

/-!
The types of the generated Java code.
-/

set_option linter.unusedSimpArgs false

namespace PGV.Java
open PGV PGV.Spec
open PGV.Go (resolve Resolved elemTypNotNone allFields)

/-- Declarations and statements compile when the constants are those of `G`. -/
def Good (G : CName → Option JT) (c : Code) : Prop :=
  c.decls.all Decl.ok = true ∧ c.body.all (Stmt.ok G) = true

theorem append_decls (a b : Code) : (a ++ b).decls = a.decls ++ b.decls := rfl
theorem append_body (a b : Code) : (a ++ b).body = a.body ++ b.body := rfl

theorem good_append {G : CName → Option JT} {a b : Code} : Good G (a ++ b) ↔ Good G a ∧ Good G b := by
  simp only [Good, append_decls, append_body, List.all_append, Bool.and_eq_true]
  constructor
  · rintro ⟨⟨h1, h2⟩, h3, h4⟩; exact ⟨⟨h1, h3⟩, h2, h4⟩
  · rintro ⟨⟨h1, h3⟩, h2, h4⟩; exact ⟨⟨h1, h2⟩, h3, h4⟩

theorem good_empty {G : CName → Option JT} : Good G {} := by simp [Good]

theorem all_opt {α β : Type} (o : Option α) (k : α → β) (p : β → Bool) :
    (opt o k).all p = true ↔ ∀ a, o = some a → p (k a) = true := by
  cases o <;> simp [opt]

theorem all_onlyIf {β : Type} (c : Bool) (b : List β) (p : β → Bool) :
    (onlyIf c b).all p = true ↔ (c = true → b.all p = true) := by
  cases c <;> simp [onlyIf]

theorem mem_opt {α β : Type} {o : Option α} {k : α → β} {a : α} (h : o = some a) : k a ∈ opt o k := by
  simp [opt, h]

theorem all_listDecl {α : Type} (n : CName) (t : JT) (k : α → Ex) (l : List α) :
    (listDecl n t k l).all Decl.ok = true ↔ ∀ a ∈ l, (k a).fits t = true := by
  unfold listDecl
  rw [all_onlyIf]
  cases l with
  | nil => simp
  | cons a l => simp [Decl.ok]

theorem mem_listDecl {α : Type} {n : CName} {t : JT} {k : α → Ex} {l : List α} (h : l ≠ []) :
    (⟨n, .array t, .many t (l.map k)⟩ : Decl) ∈ listDecl n t k l := by
  cases l with
  | nil => exact absurd rfl h
  | cons a l => simp [listDecl, onlyIf]

/-! ### Shared parts of the bodies -/

theorem rangeCode_ok {G : CName → Option JT} {c : JCtx} {o : Order} {α : Type} {lt lte gt gte : Option α} {T : JT}
    (ho : o.on (boxT c.valueType) = true) (hT : boxT c.valueType = boxT T)
    (h1 : lt ≠ none → G (c.const "Lt") = some T) (h2 : lte ≠ none → G (c.const "Lte") = some T)
    (h3 : gt ≠ none → G (c.const "Gt") = some T) (h4 : gte ≠ none → G (c.const "Gte") = some T) :
    (rangeCode c o lt lte gt gte).all (Stmt.ok G) = true := by
  rw [hT] at ho
  unfold rangeCode
  cases lt <;> cases lte <;> cases gt <;> cases gte <;>
    simp_all [opt, Stmt.ok, Ex.type]

theorem listCode_ok {G : CName → Option JT} {c : JCtx} {α : Type} {ins notIns : List α} {v : Ex} {T : JT}
    (hv : (v.type G).isSome = true) (h1 : ins ≠ [] → G (c.const "In") = some (.array T))
    (h2 : notIns ≠ [] → G (c.const "NotIn") = some (.array T)) :
    (listCode c v ins notIns).all (Stmt.ok G) = true := by
  obtain ⟨s, hs⟩ := Option.isSome_iff_exists.1 hv
  unfold listCode
  cases ins <;> cases notIns <;> simp_all [onlyIf, Stmt.ok, Ex.type]

theorem guarded_ok {G : CName → Option JT} {c : JCtx} {b : List Stmt} (h : c.hasOk = true) :
    (guarded c b).all (Stmt.ok G) = b.all (Stmt.ok G) := by
  unfold guarded
  induction b with
  | nil => rfl
  | cons s b ih =>
    rw [List.flatMap_cons, List.all_append, ih]
    simp [Stmt.ok, h]

theorem requiredCode_ok {G : CName → Option JT} {c : JCtx} {b : Bool} (h : c.hasOk = true)
    (hv : Param.message.takes c.valueType = true) : (requiredCode c b).all (Stmt.ok G) = true := by
  unfold requiredCode
  rw [all_onlyIf]
  intro _
  simp [Stmt.ok, h, Ex.type, hv]

/-! ### Numbers -/

/-- The suffix of literals of a type. -/
def suffixOf : Prim → Suffix
  | .long => .L
  | .float => .F
  | .double => .D
  | _ => .none

theorem intLit_iff (i : Int) : intLit i = true ↔ JavaInt i := by
  simp only [intLit, JavaInt, Bool.and_eq_true, decide_eq_true_eq]
  constructor <;> rintro ⟨h1, h2⟩ <;> constructor <;> omega

theorem longLit_iff (i : Int) : longLit i = true ↔ JavaLong i := by
  simp only [longLit, JavaLong, Bool.and_eq_true, decide_eq_true_eq]
  constructor <;> rintro ⟨h1, h2⟩ <;> constructor <;> omega

theorem nat_fits {n : Nat} : (intLit (n : Int) = true) ↔ n < 2 ^ 31 := by
  rw [intLit_iff]
  unfold JavaInt
  constructor
  · rintro ⟨_, h⟩; omega
  · intro h; constructor <;> omega

theorem num_fits' {x : Num} {t : Suffix} {p : Prim} {b : Bool} (h : numLitType x t = if b = true then some p else none) :
    (Ex.num x t).fits (.boxed p) = b := by
  simp only [Ex.fits, Ex.type, h]
  cases b <;> simp [assignable, boxT]

theorem num_fits {k : NumKind} {x : Num} (h : k.inRange x = true) :
    (Ex.num x (suffixOf (primOf k))).fits (.boxed (primOf k)) = true ↔ JavaNumber k x := by
  cases x with
  | int i =>
    cases k <;> simp only [NumKind.inRange, Bool.false_eq_true] at h <;>
      (first
        | (rw [num_fits' (b := intLit i) rfl, intLit_iff]; simp [JavaNumber, NumKind32])
        | (rw [num_fits' (b := longLit i) rfl, longLit_iff]; simp [JavaNumber, NumKind32]))
  | f32 b =>
    cases k <;> simp only [NumKind.inRange, Bool.false_eq_true] at h
    rw [num_fits' (b := litCompiles .float (.f32 b)) rfl]
    simp [JavaNumber, FiniteNum, litCompiles]
  | f64 b =>
    cases k <;> simp only [NumKind.inRange, Bool.false_eq_true] at h
    rw [num_fits' (b := litCompiles .double (.f64 b)) rfl]
    simp [JavaNumber, FiniteNum, litCompiles]

/-- What the numeric template needs of its context. -/
structure NumCtx (k : NumKind) (c : JCtx) : Prop where
  value : boxT c.valueType = .boxed (primOf k)
  decl : c.declType = .boxed (primOf k)
  suffix : c.suffix = suffixOf (primOf k)

theorem primOf_ne (k : NumKind) : primOf k ≠ .boolean := by cases k <;> simp [primOf]

theorem numCode_good {G : CName → Option JT} {c : JCtx} {k : NumKind} {r : NumRules} (hc : NumCtx k c)
    (hr : ∀ x, NumberIn r x → k.inRange x = true) (hG : ∀ d ∈ (numCode c r).decls, G d.name = some d.type) :
    Good G (numCode c r) ↔ ∀ x, NumberIn r x → JavaNumber k x := by
  have hbody : (numCode c r).body.all (Stmt.ok G) = true := by
    simp only [numCode, List.mem_append] at hG
    simp only [numCode, List.all_append, Bool.and_eq_true, all_onlyIf, all_opt]
    refine ⟨⟨⟨?_, ?_⟩, ?_⟩, ?_⟩
    · intro _
      have hv := hc.value
      have := primOf_ne k
      cases hcv : c.valueType <;> simp_all [boxT, Stmt.ok, Ex.type]
    · intro x hx
      have := hG _ (.inl (.inl (.inl (.inl (.inl (.inl (mem_opt hx)))))))
      simp only at this
      simp [Stmt.ok, Ex.type, this]
    · refine rangeCode_ok (T := c.declType) (by simp [hc.value, Order.on]) (by rw [hc.value, hc.decl]; rfl) ?_ ?_ ?_ ?_
      · intro h
        obtain ⟨x, hx⟩ := Option.ne_none_iff_exists'.1 h
        exact hG _ (.inl (.inl (.inl (.inl (.inl (.inr (mem_opt hx)))))))
      · intro h
        obtain ⟨x, hx⟩ := Option.ne_none_iff_exists'.1 h
        exact hG _ (.inl (.inl (.inl (.inl (.inr (mem_opt hx))))))
      · intro h
        obtain ⟨x, hx⟩ := Option.ne_none_iff_exists'.1 h
        exact hG _ (.inl (.inl (.inl (.inr (mem_opt hx)))))
      · intro h
        obtain ⟨x, hx⟩ := Option.ne_none_iff_exists'.1 h
        exact hG _ (.inl (.inl (.inr (mem_opt hx))))
    · exact listCode_ok (T := c.declType) rfl (fun h => hG _ (.inl (.inr (mem_listDecl h))))
        (fun h => hG _ (.inr (mem_listDecl h)))
  have hdecls : (numCode c r).decls.all Decl.ok = true ↔ ∀ x, NumberIn r x → JavaNumber k x := by
    simp only [numCode, List.all_append, Bool.and_eq_true, all_opt, all_listDecl, Decl.ok, hc.decl, hc.suffix]
    constructor
    · rintro ⟨⟨⟨⟨⟨⟨h1, h2⟩, h3⟩, h4⟩, h5⟩, h6⟩, h7⟩ x hx
      have hn := hr x hx
      rcases hx with h | h | h | h | h | h | h
      · exact (num_fits hn).1 (h1 x h)
      · exact (num_fits hn).1 (h2 x h)
      · exact (num_fits hn).1 (h3 x h)
      · exact (num_fits hn).1 (h4 x h)
      · exact (num_fits hn).1 (h5 x h)
      · exact (num_fits hn).1 (h6 x h)
      · exact (num_fits hn).1 (h7 x h)
    · intro h
      have h' : ∀ x, NumberIn r x → (Ex.num x (suffixOf (primOf k))).fits (.boxed (primOf k)) = true :=
        fun x hx => (num_fits (hr x hx)).2 (h x hx)
      refine ⟨⟨⟨⟨⟨⟨?_, ?_⟩, ?_⟩, ?_⟩, ?_⟩, ?_⟩, ?_⟩ <;> intro x hx <;> exact h' x (by simp [NumberIn, hx])
  rw [Good, hdecls]
  exact and_iff_left hbody

/-! ### Booleans, enums -/

theorem boolCode_good {G : CName → Option JT} {c : JCtx} {r : BoolRules} : Good G (boolCode c r) := by
  refine ⟨rfl, ?_⟩
  simp only [boolCode, all_opt]
  intro b _
  simp [Stmt.ok, Ex.type]

theorem enum_fits {vs : List Int} {i : Int} (h : JavaInt i) : (Ex.forNumber (.enum vs) i).fits (.enum vs) = true := by
  simp [Ex.fits, Ex.type, (intLit_iff i).2 h, assignable]

theorem enumCode_good {G : CName → Option JT} {c : JCtx} {vs : List Int} {r : EnumRules}
    (hv : c.valueType = .enum vs) (hd : c.declType = .enum vs)
    (hr : ∀ i, r.const = some i ∨ i ∈ r.ins ∨ i ∈ r.notIns → JavaInt i)
    (hG : ∀ d ∈ (enumCode c r).decls, G d.name = some d.type) : Good G (enumCode c r) := by
  constructor
  · simp only [enumCode, List.all_append, Bool.and_eq_true, all_listDecl, hd]
    exact ⟨fun i hi => enum_fits (hr i (.inr (.inl hi))), fun i hi => enum_fits (hr i (.inr (.inr hi)))⟩
  · simp only [enumCode, List.mem_append] at hG
    simp only [enumCode, List.all_append, Bool.and_eq_true, all_onlyIf, all_opt, hv, hd]
    refine ⟨⟨?_, ?_⟩, ?_⟩
    · intro i hi
      simp [Stmt.ok, Ex.type, (intLit_iff i).2 (hr i (.inl hi))]
    · intro _
      simp [Stmt.ok, Ex.type, Param.takes]
    · exact listCode_ok (T := c.declType) rfl (fun h => hG _ (.inl (mem_listDecl h)))
        (fun h => hG _ (.inr (mem_listDecl h)))

/-- Enum values of maps: the type written for the constants is `Object`, which has no `forNumber`. -/
theorem enumCode_object {G : CName → Option JT} {c : JCtx} {vs : List Int} {r : EnumRules}
    (hv : c.valueType = .enum vs) (hd : c.declType = .object) :
    Good G (enumCode c r) ↔ r.const = none ∧ r.ins = [] ∧ r.notIns = [] := by
  have hf : ∀ i, (Ex.forNumber .object i).fits .object = false := by intro i; simp [Ex.fits, Ex.type]
  constructor
  · rintro ⟨h1, h2⟩
    simp only [enumCode, List.all_append, Bool.and_eq_true, all_listDecl, hd] at h1
    simp only [enumCode, List.all_append, Bool.and_eq_true, all_onlyIf, all_opt, hv, hd] at h2
    refine ⟨?_, ?_, ?_⟩
    · cases hc : r.const with
      | none => rfl
      | some i => have := h2.1.1 i hc; simp [Stmt.ok, Ex.type] at this
    · cases hi : r.ins with
      | nil => rfl
      | cons i l => have := h1.1 i (by simp [hi]); simp [hf] at this
    · cases hi : r.notIns with
      | nil => rfl
      | cons i l => have := h1.2 i (by simp [hi]); simp [hf] at this
  · rintro ⟨h1, h2, h3⟩
    constructor
    · simp [enumCode, h2, h3, listDecl, onlyIf]
    · simp [enumCode, h1, h2, h3, opt, onlyIf, listCode, all_onlyIf, hv]
      cases optB r.definedOnly <;> simp [Stmt.ok, Ex.type, Param.takes]

/-! ### Strings, bytes -/

theorem text_type {G : CName → Option JT} {s : Bytes} :
    (Ex.text (rawString s)).type G = if (javaString (rawString s)).isSome then some .string else none := rfl

theorem javaText_iff {s : Bytes} : JavaText s ↔ (javaString (rawString s)).isSome = true := by
  unfold JavaText rawString
  exact Option.isSome_iff_ne_none.symm

theorem text_fits {T : JT} (hT : T = .string ∨ T = .object) {s : Bytes} :
    (Ex.text (rawString s)).fits T = true ↔ JavaText s := by
  rw [javaText_iff]
  cases h : (javaString (rawString s)).isSome <;> rcases hT with rfl | rfl <;>
    simp [Ex.fits, text_type, h, assignable]

theorem compile_fits {src : Bytes} : (Ex.compile src).fits .pattern = true ↔ javaString src ≠ none := by
  rw [← Option.isSome_iff_ne_none]
  cases h : (javaString src).isSome <;> simp [Ex.fits, Ex.type, h, assignable]

/-- The text written for the pattern is a Java literal. -/
def PatternText (isPrint : Nat → Bool) (p : Bytes) : Prop := javaString (javaStringEscape isPrint p) ≠ none

theorem count_ok {G : CName → Option JT} {P : Param} {t : JT} {n : Nat} (h : P.takes t = true) :
    Stmt.ok G (.call [(P, .value t), (.int, .nat n)]) = true ↔ n < 2 ^ 31 := by
  rw [← nat_fits]
  cases hn : intLit (n : Int) <;> simp [Stmt.ok, Ex.type, h, hn] <;> simp [Param.takes]

theorem count_all {G : CName → Option JT} {P : Param} {t : JT} {o : Option Nat} (h : P.takes t = true) :
    (∀ a, o = some a → Stmt.ok G (.call [(P, .value t), (.int, .nat a)]) = true) ↔ JavaCount o :=
  forall_congr' fun _ => forall_congr' fun _ => count_ok h

theorem affix_ok {G : CName → Option JT} {s : Bytes} :
    Stmt.ok G (.call [(.string, .value .string), (.string, .text (rawString s))]) = true ↔ JavaText s := by
  rw [javaText_iff]
  cases h : (javaString (rawString s)).isSome <;> simp [Stmt.ok, Ex.type, h, Param.takes]

theorem constText_ok {G : CName → Option JT} {s : Bytes} :
    Stmt.ok G (.constant (.value .string) (.text (rawString s))) = true ↔ JavaText s := by
  rw [javaText_iff]
  cases h : (javaString (rawString s)).isSome <;> simp [Stmt.ok, Ex.type, h]

theorem alone_ok {G : CName → Option JT} {P : Param} {t : JT} (h : P.takes t = true) :
    Stmt.ok G (.call [(P, .value t)]) = true := by simp [Stmt.ok, Ex.type, h]

theorem stringCode_good {G : CName → Option JT} {isPrint : Nat → Bool} {c : JCtx} {r : StringRules}
    (hv : c.valueType = .string) (hT : c.declType = .string ∨ c.declType = .object)
    (hG : ∀ d ∈ (stringCode isPrint c r).decls, G d.name = some d.type) :
    Good G (stringCode isPrint c r) ↔ JavaConstants (PatternText isPrint) (.string r) := by
  simp only [stringCode, List.mem_append] at hG
  have hlist : (listCode c (.value .string) r.ins r.notIns).all (Stmt.ok G) = true :=
    listCode_ok (T := c.declType) rfl (fun h => hG _ (.inl (.inl (mem_listDecl h))))
      (fun h => hG _ (.inl (.inr (mem_listDecl h))))
  have hpat : (∀ p, r.pattern = some p →
      Stmt.ok G (.call [(.string, .value .string), (.pattern, .const (c.const "Pattern"))]) = true) := by
    intro p hp
    have := hG _ (.inr (mem_opt hp))
    simp only at this
    simp [Stmt.ok, Ex.type, this, Param.takes]
  have hempty : Stmt.ok G (.nonEmpty (.value .string)) = true := by simp [Stmt.ok, Ex.type]
  have hcount : ∀ o, (∀ a, o = some a → Stmt.ok G (.call [(.string, .value .string), (.int, .nat a)]) = true) ↔
      JavaCount o := fun o => count_all (by simp [Param.takes])
  have halone : Stmt.ok G (.call [(.string, .value .string)]) = true := alone_ok (by simp [Param.takes])
  simp only [Good, stringCode, List.all_append, Bool.and_eq_true, all_onlyIf, all_opt, all_listDecl, Decl.ok,
    text_fits hT, compile_fits, hv, hlist, List.all_cons, List.all_nil, hempty, halone, hcount, constText_ok, affix_ok,
    implies_true, and_true, true_and, JavaConstants, PatternText, StringIn, Bool.and_true]
  constructor
  · rintro ⟨⟨⟨h1, h2⟩, h3⟩, h4⟩
    obtain ⟨⟨⟨⟨⟨⟨⟨⟨⟨⟨⟨a1, a2⟩, a3⟩, a4⟩, a5⟩, a6⟩, a7⟩, a8⟩, a9⟩, a10⟩, a11⟩, a12⟩ := h4
    refine ⟨a2, a3, a4, a5, a6, a7, ?_, h3⟩
    rintro s (h | h | h | h | h | h | h)
    · exact a1 s h
    · exact a9 s h
    · exact a12 s h
    · exact a10 s h
    · exact a11 s h
    · exact h1 s h
    · exact h2 s h
  · rintro ⟨a2, a3, a4, a5, a6, a7, hs, h3⟩
    exact ⟨⟨⟨fun s h => hs s (by simp [h]), fun s h => hs s (by simp [h])⟩, h3⟩,
      ⟨⟨⟨⟨⟨⟨⟨⟨⟨⟨⟨fun s h => hs s (by simp [h]), a2⟩, a3⟩, a4⟩, a5⟩, a6⟩, a7⟩, hpat⟩, fun s h => hs s (by simp [h])⟩,
        fun s h => hs s (by simp [h])⟩, fun s h => hs s (by simp [h])⟩, fun s h => hs s (by simp [h])⟩⟩

theorem copyFrom_fits (b : Bytes) : (Ex.copyFrom (byteArrayLit b)).fits .bytes = true := by
  simp [Ex.fits, Ex.type, Props.C74_bytes, assignable]

theorem bytesOf_fits (b : Bytes) : (Ex.bytesOf (byteArrayLit b)).fits .byteArray = true := by
  simp [Ex.fits, Ex.type, Props.C74_bytes, assignable]

theorem mem_onlyIf {β : Type} {c : Bool} {b : β} (h : c = true) : b ∈ onlyIf c [b] := by simp [onlyIf, h]

theorem bytesCode_good {G : CName → Option JT} {isPrint : Nat → Bool} {c : JCtx} {r : BytesRules}
    (hv : c.valueType = .bytes) (hG : ∀ d ∈ (bytesCode isPrint c r).decls, G d.name = some d.type) :
    Good G (bytesCode isPrint c r) ↔ JavaConstants (PatternText isPrint) (.bytes r) := by
  simp only [bytesCode, List.mem_append] at hG
  have hlist : (listCode c (.value .bytes) r.ins r.notIns).all (Stmt.ok G) = true :=
    listCode_ok (T := .bytes) rfl (fun h => hG _ (.inl (.inl (.inl (.inl (.inl (.inr (mem_listDecl h))))))))
      (fun h => hG _ (.inl (.inl (.inl (.inl (.inr (mem_listDecl h)))))))
  have hpat : (∀ p, r.pattern = some p →
      Stmt.ok G (.call [(.bytes, .value .bytes), (.pattern, .const (c.const "Pattern"))]) = true) := by
    intro p hp
    have := hG _ (.inl (.inl (.inl (.inr (mem_opt hp)))))
    simp only at this
    simp [Stmt.ok, Ex.type, this, Param.takes]
  have hconst : (!(optS r.const).isEmpty) = true →
      Stmt.ok G (.constant (.value .bytes) (.const (c.const "Const"))) = true := by
    intro hp
    have := hG _ (.inl (.inl (.inl (.inl (.inl (.inl (mem_onlyIf hp)))))))
    simp only at this
    simp [Stmt.ok, Ex.type, this]
  have hpfx : (!(optS r.pfx).isEmpty) = true →
      Stmt.ok G (.call [(.bytes, .value .bytes), (.byteArray, .const (c.const "Prefix"))]) = true := by
    intro hp
    have := hG _ (.inl (.inl (.inr (mem_onlyIf hp))))
    simp only at this
    simp [Stmt.ok, Ex.type, this, Param.takes]
  have hcon : (!(optS r.contains).isEmpty) = true →
      Stmt.ok G (.call [(.bytes, .value .bytes), (.byteArray, .const (c.const "Contains"))]) = true := by
    intro hp
    have := hG _ (.inl (.inr (mem_onlyIf hp)))
    simp only at this
    simp [Stmt.ok, Ex.type, this, Param.takes]
  have hsfx : (!(optS r.sfx).isEmpty) = true →
      Stmt.ok G (.call [(.bytes, .value .bytes), (.byteArray, .const (c.const "Suffix"))]) = true := by
    intro hp
    have := hG _ (.inr (mem_onlyIf hp))
    simp only at this
    simp [Stmt.ok, Ex.type, this, Param.takes]
  have hempty : Stmt.ok G (.nonEmpty (.value .bytes)) = true := by simp [Stmt.ok, Ex.type]
  have hcount : ∀ o, (∀ a, o = some a → Stmt.ok G (.call [(.bytes, .value .bytes), (.int, .nat a)]) = true) ↔
      JavaCount o := fun o => count_all (by simp [Param.takes])
  have halone : Stmt.ok G (.call [(.bytes, .value .bytes)]) = true := alone_ok (by simp [Param.takes])
  simp only [Good, bytesCode, List.all_append, Bool.and_eq_true, all_onlyIf, all_opt, all_listDecl, Decl.ok,
    copyFrom_fits, bytesOf_fits, compile_fits, hv, hlist, List.all_cons, List.all_nil, hempty, halone, hcount,
    implies_true, and_true, true_and, JavaConstants, PatternText, Bool.and_true]
  constructor
  · rintro ⟨h3, h4⟩
    obtain ⟨⟨⟨⟨⟨⟨⟨a1, a2⟩, a3⟩, a4⟩, a5⟩, a6⟩, a7⟩, a8⟩ := h4
    exact ⟨a2, a3, a4, h3⟩
  · rintro ⟨a2, a3, a4, h3⟩
    exact ⟨h3, ⟨⟨⟨⟨⟨⟨hconst, a2⟩, a3⟩, a4⟩, hpat⟩, hpfx⟩, hcon⟩, hsfx⟩

/-! ### Well-known messages -/

theorem anyCode_good {G : CName → Option JT} {c : JCtx} {P : Bytes → Prop} {r : AnyRules}
    (hv : c.valueType = .known .any) (hh : c.hasOk = true)
    (hG : ∀ d ∈ (anyCode c r).decls, G d.name = some d.type) :
    Good G (anyCode c r) ↔ JavaConstants P (.any r) := by
  simp only [anyCode, List.mem_append] at hG
  have hlist : (listCode c (.typeUrl (.known .any)) r.ins r.notIns).all (Stmt.ok G) = true :=
    listCode_ok (T := .string) rfl (fun h => hG _ (.inl (mem_listDecl h))) (fun h => hG _ (.inr (mem_listDecl h)))
  simp only [Good, anyCode, List.all_append, Bool.and_eq_true, all_listDecl, text_fits (.inl rfl), guarded_ok hh, hv,
    hlist, requiredCode_ok hh (show Param.message.takes c.valueType = true by rw [hv]; rfl), and_true, JavaConstants]
  constructor
  · rintro ⟨h1, h2⟩ s (h | h)
    · exact h1 s h
    · exact h2 s h
  · intro h
    exact ⟨fun s hs => h s (.inl hs), fun s hs => h s (.inr hs)⟩

theorem duration_fits {d : PDur} (h : JavaInt d.nanos) :
    (Ex.duration d).fits (.known .duration) = true ↔ JavaInt d.seconds := by
  rw [← intLit_iff]
  cases hs : intLit d.seconds <;> simp [Ex.fits, Ex.type, hs, (intLit_iff _).2 h, assignable]

theorem timestamp_fits {d : PTime} (h : JavaInt d.nanos) :
    (Ex.timestamp d).fits (.known .timestamp) = true ↔ JavaInt d.seconds := by
  rw [← intLit_iff]
  cases hs : intLit d.seconds <;> simp [Ex.fits, Ex.type, hs, (intLit_iff _).2 h, assignable]

theorem durationCode_good {G : CName → Option JT} {c : JCtx} {P : Bytes → Prop} {r : DurationRules}
    (hv : c.valueType = .known .duration) (hh : c.hasOk = true) (hr : ProtoRanges (.duration r))
    (hG : ∀ d ∈ (durationCode c r).decls, G d.name = some d.type) :
    Good G (durationCode c r) ↔ JavaConstants P (.duration r) := by
  simp only [durationCode, List.mem_append] at hG
  have hlist : (listCode c (.value (.known .duration)) r.ins r.notIns).all (Stmt.ok G) = true :=
    listCode_ok (T := .known .duration) rfl (fun h => hG _ (.inl (.inr (mem_listDecl h))))
      (fun h => hG _ (.inr (mem_listDecl h)))
  have hrange : (rangeCode c .durations r.lt r.lte r.gt r.gte).all (Stmt.ok G) = true := by
    refine rangeCode_ok (T := .known .duration) (by simp [hv, Order.on, boxT]) (by rw [hv]) ?_ ?_ ?_ ?_
    · intro h
      obtain ⟨x, hx⟩ := Option.ne_none_iff_exists'.1 h
      exact hG _ (.inl (.inl (.inl (.inl (.inl (.inr (mem_opt hx)))))))
    · intro h
      obtain ⟨x, hx⟩ := Option.ne_none_iff_exists'.1 h
      exact hG _ (.inl (.inl (.inl (.inl (.inr (mem_opt hx))))))
    · intro h
      obtain ⟨x, hx⟩ := Option.ne_none_iff_exists'.1 h
      exact hG _ (.inl (.inl (.inl (.inr (mem_opt hx)))))
    · intro h
      obtain ⟨x, hx⟩ := Option.ne_none_iff_exists'.1 h
      exact hG _ (.inl (.inl (.inr (mem_opt hx))))
  have hconst : ∀ a, r.const = some a →
      Stmt.ok G (.constant (.value (.known .duration)) (.const (c.const "Const"))) = true := by
    intro x hx
    have := hG _ (.inl (.inl (.inl (.inl (.inl (.inl (mem_opt hx)))))))
    simp only at this
    simp [Stmt.ok, Ex.type, this]
  have hbody : (durationCode c r).body.all (Stmt.ok G) = true := by
    simp only [durationCode, List.all_append, Bool.and_eq_true, guarded_ok hh, hv, hlist, hrange, all_opt,
      requiredCode_ok hh (show Param.message.takes c.valueType = true by rw [hv]; rfl), and_true, true_and]
    exact hconst
  rw [Good, and_iff_left hbody]
  simp only [durationCode, List.all_append, Bool.and_eq_true, all_opt, all_listDecl, Decl.ok]
  simp only [JavaConstants]
  constructor
  · rintro ⟨⟨⟨⟨⟨⟨h1, h2⟩, h3⟩, h4⟩, h5⟩, h6⟩, h7⟩ x hx
    refine (duration_fits (hr x hx)).1 ?_
    rcases hx with (h | h | h | h | h) | h | h
    · exact h1 x h
    · exact h2 x h
    · exact h3 x h
    · exact h4 x h
    · exact h5 x h
    · exact h6 x h
    · exact h7 x h
  · intro h
    have h' : ∀ x, DurationIn r x → (Ex.duration x).fits (.known .duration) = true :=
      fun x hx => (duration_fits (hr x hx)).2 (h x hx)
    refine ⟨⟨⟨⟨⟨⟨?_, ?_⟩, ?_⟩, ?_⟩, ?_⟩, ?_⟩, ?_⟩ <;> intro x hx <;> exact h' x (by simp [DurationIn, DurBound, hx])

theorem timestampCode_good {G : CName → Option JT} {c : JCtx} {P : Bytes → Prop} {r : TimestampRules}
    (hv : c.valueType = .known .timestamp) (hh : c.hasOk = true) (hr : ProtoRanges (.timestamp r))
    (hG : ∀ d ∈ (timestampCode c r).decls, G d.name = some d.type) :
    Good G (timestampCode c r) ↔ JavaConstants P (.timestamp r) := by
  simp only [timestampCode, List.mem_append] at hG
  have hrange : (rangeCode c .timestamps r.lt r.lte r.gt r.gte).all (Stmt.ok G) = true := by
    refine rangeCode_ok (T := .known .timestamp) (by simp [hv, Order.on, boxT]) (by rw [hv]) ?_ ?_ ?_ ?_
    · intro h
      obtain ⟨x, hx⟩ := Option.ne_none_iff_exists'.1 h
      exact hG _ (.inl (.inl (.inl (.inl (.inr (mem_opt hx))))))
    · intro h
      obtain ⟨x, hx⟩ := Option.ne_none_iff_exists'.1 h
      exact hG _ (.inl (.inl (.inl (.inr (mem_opt hx)))))
    · intro h
      obtain ⟨x, hx⟩ := Option.ne_none_iff_exists'.1 h
      exact hG _ (.inl (.inl (.inr (mem_opt hx))))
    · intro h
      obtain ⟨x, hx⟩ := Option.ne_none_iff_exists'.1 h
      exact hG _ (.inl (.inr (mem_opt hx)))
  have hconst : ∀ a, r.const = some a →
      Stmt.ok G (.constant (.value (.known .timestamp)) (.const (c.const "Const"))) = true := by
    intro x hx
    have := hG _ (.inl (.inl (.inl (.inl (.inl (mem_opt hx))))))
    simp only at this
    simp [Stmt.ok, Ex.type, this]
  have hwithin : ∀ a, r.within = some a →
      Stmt.ok G (.call [(.timestamp, .value (.known .timestamp)), (.duration, .const (c.const "Within")),
        (.timestamp, .now)]) = true := by
    intro x hx
    have := hG _ (.inr (mem_opt hx))
    simp only at this
    simp [Stmt.ok, Ex.type, this, Param.takes]
  have hnow : Stmt.ok G (.compare (.value (.known .timestamp)) .now .timestamps) = true := by
    simp [Stmt.ok, Ex.type, Order.on, boxT]
  have hbody : (timestampCode c r).body.all (Stmt.ok G) = true := by
    simp only [timestampCode, List.all_append, Bool.and_eq_true, guarded_ok hh, hv, hrange, all_opt, hnow,
      requiredCode_ok hh (show Param.message.takes c.valueType = true by rw [hv]; rfl), and_true, true_and,
      implies_true]
    exact ⟨hconst, hwithin⟩
  rw [Good, and_iff_left hbody]
  simp only [timestampCode, List.all_append, Bool.and_eq_true, all_opt, Decl.ok]
  simp only [JavaConstants]
  constructor
  · rintro ⟨⟨⟨⟨⟨h1, h2⟩, h3⟩, h4⟩, h5⟩, h6⟩
    refine ⟨fun x hx => ?_, fun x hx => (duration_fits (hr.2 x hx)).1 (h6 x hx)⟩
    refine (timestamp_fits (hr.1 x hx)).1 ?_
    rcases hx with h | h | h | h | h
    · exact h1 x h
    · exact h2 x h
    · exact h3 x h
    · exact h4 x h
    · exact h5 x h
  · rintro ⟨h, hw⟩
    have h' : ∀ x, TimestampIn r x → (Ex.timestamp x).fits (.known .timestamp) = true :=
      fun x hx => (timestamp_fits (hr.1 x hx)).2 (h x hx)
    refine ⟨⟨⟨⟨⟨?_, ?_⟩, ?_⟩, ?_⟩, ?_⟩, fun x hx => (duration_fits (hr.2 x hx)).2 (hw x hx)⟩ <;> intro x hx <;>
      exact h' x (by simp [TimestampIn, hx])

theorem messageCode_good {G : CName → Option JT} {c : JCtx} {m : Option MessageRules}
    (hv : Param.message.takes c.valueType = true) (hh : c.hasOk = true) : Good G (messageCode c m) := by
  refine ⟨rfl, ?_⟩
  unfold messageCode
  simp only
  split
  · rfl
  · simp [List.all_append, requiredCode_ok hh hv, Stmt.ok, hh, Ex.type]

/-! ### Contexts -/

/-- The context of a value of type `e`: a singular field, an item of a list, a key or a value of a map. -/
inductive Place : JCtx → ElemT → Prop
  | field (n : String) (e : ElemT) : Place ⟨n, .one e, .field⟩ e
  | item (n : String) (e : ElemT) : Place ⟨n, .rep e, .item⟩ e
  | key (n : String) (e v : ElemT) : Place ⟨n, .map e v, .key⟩ e
  | value (n : String) (k e : ElemT) : Place ⟨n, .map k e, .value⟩ e

theorem place_num {c : JCtx} {k : NumKind} (h : Place c (.scalar k)) : NumCtx k c := by
  have hs : suffixForProto (.scalar k) = suffixOf (primOf k) := by cases k <;> rfl
  cases h <;> exact ⟨rfl, rfl, hs⟩

theorem place_string {c : JCtx} (h : Place c .string) : c.valueType = .string ∧ c.declType = .string := by
  cases h <;> exact ⟨rfl, rfl⟩

theorem place_bytes {c : JCtx} (h : Place c .bytes) : c.valueType = .bytes := by
  cases h <;> rfl

theorem place_enum {c : JCtx} {vs : List Int} (h : Place c (.enum vs)) :
    c.valueType = .enum vs ∧
    (c.acc = .key ∨ c.acc = .value → c.declType = .object) ∧
    (c.acc ≠ .key → c.acc ≠ .value → c.declType = .enum vs) := by
  cases h <;> simp [JCtx.valueType, JCtx.declType, getterType, boxT, typeForProto]

theorem place_embed {c : JCtx} {n : String} {w : Option WKT} (h : Place c (.embed n w)) :
    c.valueType = classOf n w ∧ c.hasOk = true := by
  have hb : boxT (classOf n w) = classOf n w := by cases w <;> rfl
  cases h with
  | field => cases w <;> exact ⟨rfl, rfl⟩
  | item => exact ⟨hb, rfl⟩
  | key => exact ⟨hb, rfl⟩
  | value => exact ⟨hb, rfl⟩

/-- What the rules `t` of a value must not be: comparisons of map values with enum constants. -/
def NoMapEnum (c : JCtx) (t : TypeRules) : Prop :=
  c.acc = .key ∨ c.acc = .value → ∀ r, t = .enum r → r.const = none ∧ r.ins = [] ∧ r.notIns = []

theorem typeCode_good {G : CName → Option JT} {isPrint : Nat → Bool} {c : JCtx} {e : ElemT} {t : TypeRules}
    (hp : Place c e) (hs : Suits (.one e) t) (hw : ¬ (e.isEmbed = true ∧ WrapperKind t)) (hr : ProtoRanges t)
    (hG : ∀ d ∈ (typeCode isPrint c t).decls, G d.name = some d.type) :
    Good G (typeCode isPrint c t) ↔ JavaConstants (PatternText isPrint) t ∧ NoMapEnum c t := by
  have hother : (∀ r, t ≠ .enum r) → NoMapEnum c t := fun h _ r hr => absurd hr (h r)
  cases t with
  | unset =>
    rw [and_iff_left (hother (by simp))]
    simp [typeCode, good_empty, JavaConstants]
  | num k r =>
    rw [and_iff_left (hother (by simp))]
    have : e = .scalar k := by
      rcases hs with hs | ⟨n, w, hs, hk⟩
      · cases hs; rfl
      · cases hs
        refine absurd ⟨rfl, ?_⟩ hw
        cases w <;> simp [WKT.wrapped] at hk <;> subst hk <;> simp [WrapperKind]
    subst this
    exact numCode_good (place_num hp) hr hG
  | bool r =>
    rw [and_iff_left (hother (by simp))]
    simp [typeCode, boolCode_good, JavaConstants]
  | string r =>
    rw [and_iff_left (hother (by simp))]
    have : e = .string := by
      rcases hs with hs | ⟨n, hs⟩
      · cases hs; rfl
      · cases hs
        exact absurd ⟨rfl, by simp [WrapperKind]⟩ hw
    subst this
    exact stringCode_good (place_string hp).1 (.inl (place_string hp).2) hG
  | bytes r =>
    rw [and_iff_left (hother (by simp))]
    have : e = .bytes := by
      rcases hs with hs | ⟨n, hs⟩
      · cases hs; rfl
      · cases hs
        exact absurd ⟨rfl, by simp [WrapperKind]⟩ hw
    subst this
    exact bytesCode_good (place_bytes hp) hG
  | enum r =>
    obtain ⟨vs, hs⟩ := hs
    cases hs
    obtain ⟨h1, h2, h3⟩ := place_enum hp
    by_cases hk : c.acc = .key ∨ c.acc = .value
    · have := enumCode_object (G := G) (r := r) h1 (h2 hk)
      simp only [typeCode, this, JavaConstants, true_and, NoMapEnum, hk, true_implies, TypeRules.enum.injEq,
        forall_eq']
    · have hk' : c.acc ≠ .key ∧ c.acc ≠ .value := ⟨fun h => hk (.inl h), fun h => hk (.inr h)⟩
      have := enumCode_good (G := G) h1 (h3 hk'.1 hk'.2) hr hG
      simp only [typeCode, this, JavaConstants, true_and, NoMapEnum, true_iff]
      exact fun h => absurd h hk
  | any r =>
    rw [and_iff_left (hother (by simp))]
    obtain ⟨n, hs⟩ := hs
    cases hs
    exact anyCode_good (place_embed hp).1 (place_embed hp).2 hG
  | duration r =>
    rw [and_iff_left (hother (by simp))]
    obtain ⟨n, hs⟩ := hs
    cases hs
    exact durationCode_good (place_embed hp).1 (place_embed hp).2 hr hG
  | timestamp r =>
    rw [and_iff_left (hother (by simp))]
    obtain ⟨n, hs⟩ := hs
    cases hs
    exact timestampCode_good (place_embed hp).1 (place_embed hp).2 hr hG
  | repeated r i => obtain ⟨_, hs⟩ := hs; cases hs
  | map r k v => obtain ⟨_, _, hs⟩ := hs; cases hs

theorem wrapped_good {G : CName → Option JT} {isPrint : Nat → Bool} {f n : String} {w : Option WKT} {t : TypeRules}
    (hs : Suits (.one (.embed n w)) t) (hw : WrapperKind t) (hr : ProtoRanges t)
    (hG : ∀ d ∈ (typeCode isPrint ⟨f, .one (.embed n w), .wrapped⟩ t).decls, G d.name = some d.type) :
    Good G (typeCode isPrint ⟨f, .one (.embed n w), .wrapped⟩ t) ↔ JavaConstants (PatternText isPrint) t := by
  cases t with
  | num k r =>
    rcases hs with hs | ⟨n', w', hs, hk⟩
    · cases hs
    cases hs
    refine numCode_good ?_ hr hG
    cases w' <;> simp [WKT.wrapped] at hk <;> subst hk <;> exact ⟨rfl, rfl, rfl⟩
  | bool r => simp [typeCode, boolCode_good, JavaConstants]
  | string r =>
    rcases hs with hs | ⟨n', hs⟩
    · cases hs
    cases hs
    exact stringCode_good rfl (.inr rfl) hG
  | bytes r =>
    rcases hs with hs | ⟨n', hs⟩
    · cases hs
    cases hs
    exact bytesCode_good rfl hG
  | _ => simp [WrapperKind] at hw

theorem resolve_wrapperKind {e : ElemT} {rules : FieldRules} (he : e.isEmbed = true) (hw : WrapperKind rules.type) :
    resolve e rules = .wrapper rules.type rules.message := by
  unfold resolve
  cases ht : rules.type with
  | num k r => rw [ht] at hw; cases k <;> simp_all [WrapperKind]
  | _ => simp_all [WrapperKind]

theorem resolve_plain {e : ElemT} {rules : FieldRules} (hw : ¬ (e.isEmbed = true ∧ WrapperKind rules.type))
    (hu : rules.type ≠ .unset) : resolve e rules = .plain rules.type := by
  unfold resolve
  cases ht : rules.type with
  | num k r => rw [ht] at hw; cases k <;> simp_all [WrapperKind]
  | unset => exact absurd ht hu
  | _ => simp_all [WrapperKind]

theorem classOf_message (n : String) (w : Option WKT) : Param.message.takes (classOf n w) = true := by
  cases w <;> rfl

theorem elemCode_good {G : CName → Option JT} {isPrint : Nat → Bool} {c : JCtx} {e : ElemT} {rules : FieldRules}
    (hp : Place c e) (hs : Suits (.one e) rules.type)
    (hw : e.isEmbed = true → WrapperKind rules.type → c.acc = .field) (hr : ProtoRanges rules.type)
    (hG : ∀ d ∈ (elemCode isPrint c e rules).decls, G d.name = some d.type) :
    Good G (elemCode isPrint c e rules) ↔
      JavaConstants (PatternText isPrint) rules.type ∧ NoMapEnum c rules.type := by
  by_cases hwr : e.isEmbed = true ∧ WrapperKind rules.type
  · have hacc := hw hwr.1 hwr.2
    have hno : NoMapEnum c rules.type := by intro h; rw [hacc] at h; simp at h
    rw [and_iff_left hno]
    simp only [elemCode, resolve_wrapperKind hwr.1 hwr.2] at hG ⊢
    cases e with
    | embed n w =>
      cases hp with
      | field f _ =>
        rw [good_append]
        have hhas : Good G { body := [Stmt.has (JCtx.hasOk ⟨f, .one (.embed n w), .field⟩)] } := by
          simp [Good, Stmt.ok, JCtx.hasOk]
        rw [and_iff_right hhas]
        refine wrapped_good hs hwr.2 hr fun d hd => hG d ?_
        rw [append_decls]
        exact List.mem_append_right _ hd
      | _ => cases hacc
    | _ => simp [ElemT.isEmbed] at hwr
  · by_cases hu : rules.type = .unset
    · have : Good G (elemCode isPrint c e rules) := by
        simp only [elemCode, resolve, hu]
        cases e with
        | embed n w =>
          simp only [ElemT.isEmbed, if_true]
          exact messageCode_good (by rw [(place_embed hp).1]; exact classOf_message n w) (place_embed hp).2
        | _ => simp [ElemT.isEmbed, good_empty]
      simp only [this, hu, JavaConstants, true_and, true_iff]
      intro _ r h; cases h
    · simp only [elemCode, resolve_plain hwr hu] at hG ⊢
      exact typeCode_good hp hs hwr hr hG

/-! ### Lists, maps and fields -/

theorem listCall_ok {G : CName → Option JT} {P : Param} {t : JT} {n : Option Nat} (h : P.takes t = true) :
    ((optN n != 0) = true → Stmt.ok G (.call [(P, .value t), (.int, .nat (optN n))]) = true) ↔ JavaCount n := by
  rw [count_ok h]
  unfold JavaCount
  constructor
  · intro h k hk
    subst hk
    by_cases h0 : k = 0
    · subst h0; decide
    · exact h (by simpa [optN] using h0)
  · intro h h0
    cases n with
    | none => simp [optN] at h0
    | some k => exact h k rfl

theorem repeatedCode_good {G : CName → Option JT} {isPrint : Nat → Bool} {f : String} {e : ElemT} {r : RepeatedRules}
    {items : FieldRules} (hs : Suits (.one e) items.type) (hw : ¬ (e.isEmbed = true ∧ WrapperKind items.type))
    (hr : ProtoRanges items.type)
    (hG : ∀ d ∈ (repeatedCode isPrint ⟨f, .rep e, .field⟩ e r items).decls, G d.name = some d.type) :
    Good G (repeatedCode isPrint ⟨f, .rep e, .field⟩ e r items) ↔
      (JavaCount r.minItems ∧ JavaCount r.maxItems) ∧ JavaConstants (PatternText isPrint) items.type := by
  unfold repeatedCode at hG ⊢
  rw [good_append]
  have hel := elemCode_good (G := G) (isPrint := isPrint) (Place.item f e) hs (fun h1 h2 => absurd ⟨h1, h2⟩ hw) hr
    (fun d hd => hG d (by rw [append_decls]; exact List.mem_append_right _ hd))
  have hno : NoMapEnum ⟨f, .rep e, .item⟩ items.type := by intro h; simp at h
  rw [and_iff_left hno] at hel
  refine and_congr ?_ hel
  have hv : (JCtx.mk f (.rep e) .field).valueType = .list := rfl
  have hl : Param.list.takes .list = true := rfl
  have hempty : Stmt.ok G (.nonEmpty (.value .list)) = true := by simp [Stmt.ok, Ex.type]
  simp only [Good, List.all_append, List.all_nil, true_and, Bool.and_eq_true, all_onlyIf, List.all_cons, hv,
    Bool.and_true, alone_ok hl, listCall_ok hl, and_true, implies_true, hempty]

theorem mapCode_good {G : CName → Option JT} {isPrint : Nat → Bool} {f : String} {k v : ElemT} {r : MapRules}
    {keys values : FieldRules} (hk : k.isEmbed = false ∧ ∀ vs, k ≠ .enum vs) (hsk : Suits (.one k) keys.type)
    (hrk : ProtoRanges keys.type) (hs : Suits (.one v) values.type)
    (hw : ¬ (v.isEmbed = true ∧ WrapperKind values.type)) (hr : ProtoRanges values.type)
    (hG : ∀ d ∈ (mapCode isPrint ⟨f, .map k v, .field⟩ k v r keys values).decls, G d.name = some d.type) :
    Good G (mapCode isPrint ⟨f, .map k v, .field⟩ k v r keys values) ↔
      (JavaCount r.minPairs ∧ JavaCount r.maxPairs) ∧ JavaConstants (PatternText isPrint) keys.type ∧
      JavaConstants (PatternText isPrint) values.type ∧
      ∀ e, values.type = .enum e → e.const = none ∧ e.ins = [] ∧ e.notIns = [] := by
  unfold mapCode at hG ⊢
  rw [good_append]
  have hv : (JCtx.mk f (.map k v) .field).valueType = .map := rfl
  have hl : Param.map.takes .map = true := rfl
  have hempty : Stmt.ok G (.nonEmpty (.value .map)) = true := by simp [Stmt.ok, Ex.type]
  refine and_congr ?_ ?_
  · simp only [Good, List.all_append, List.all_nil, true_and, Bool.and_eq_true, all_onlyIf, List.all_cons, hv,
      Bool.and_true, alone_ok hl, listCall_ok hl, and_true, implies_true, hempty]
  have hone : Good G { body := [Stmt.call [(.map, .value (JCtx.mk f (.map k v) .field).valueType)]] } := by
    rw [hv]
    simp [Good, alone_ok hl]
  split
  · rename_i hc
    simp only [hc, if_true, append_decls] at hG
    rw [good_append, good_append, good_append, and_iff_right hone, and_iff_right hone]
    have h1 := typeCode_good (G := G) (isPrint := isPrint) (Place.key f k v) hsk (by simp [hk.1]) hrk
      (fun d hd => hG d (by simp [hd]))
    have h2 := elemCode_good (G := G) (isPrint := isPrint) (Place.value f k v) hs (fun h1 h2 => absurd ⟨h1, h2⟩ hw) hr
      (fun d hd => hG d (by simp [hd]))
    have hno : NoMapEnum ⟨f, .map k v, .key⟩ keys.type := by
      intro _ r' hr'
      rw [hr'] at hsk
      obtain ⟨vs, hvs⟩ := hsk
      cases hvs
      exact absurd rfl (hk.2 vs)
    rw [and_iff_left hno] at h1
    rw [h1, h2]
    simp [NoMapEnum]
  · rename_i hc
    simp only [Bool.or_eq_true, not_or, Bool.not_eq_true] at hc
    have none_of : ∀ (e : ElemT) (rules : FieldRules), elemTypNotNone e rules = false → rules.type = .unset := by
      intro e rules h
      unfold elemTypNotNone resolve at h
      cases ht : rules.type with
      | unset => rfl
      | num k r => rw [ht] at h; cases k <;> cases e <;> simp [ElemT.isEmbed] at h
      | _ => rw [ht] at h; cases e <;> simp [ElemT.isEmbed] at h
    rw [none_of v values hc.1, none_of k keys hc.2]
    simp [good_empty, JavaConstants]

theorem ruleAt_rep {f : FieldDesc} {e : ElemT} {r : FieldRules} (h : RuleAt f (.rep e) r) :
    f.typ = .rep e ∧ r = f.rules := by
  generalize ht : FieldT.rep e = t at h
  cases h with
  | top => exact ⟨rfl, rfl⟩
  | _ => cases ht

theorem ruleAt_map {f : FieldDesc} {k v : ElemT} {r : FieldRules} (h : RuleAt f (.map k v) r) :
    f.typ = .map k v ∧ r = f.rules := by
  generalize ht : FieldT.map k v = t at h
  cases h with
  | top => exact ⟨rfl, rfl⟩
  | _ => cases ht

/-- All rules of a field: its own, and those of its items, keys and values. -/
theorem forall_ruleAt {f : FieldDesc} {P : TypeRules → Prop} :
    (∀ t r, RuleAt f t r → P r.type) ↔
      P f.rules.type ∧
      (∀ e r items, f.typ = .rep e → f.rules.type = .repeated r items → P items.type) ∧
      ∀ k v r keys values, f.typ = .map k v → f.rules.type = .map r keys values → P keys.type ∧ P values.type := by
  constructor
  · intro h
    refine ⟨h _ _ .top, ?_, ?_⟩
    · intro e r items ht hr
      obtain ⟨m, hm⟩ := rules_mk hr (by simp)
      exact h _ _ (.item (m := m) (r := r) (by rw [← ht, ← hm]; exact .top))
    · intro k v r keys values ht hr
      obtain ⟨m, hm⟩ := rules_mk hr (by simp)
      have htop : RuleAt f (.map k v) (.mk m (.map r keys values)) := by rw [← ht, ← hm]; exact .top
      exact ⟨h _ _ (.key htop), h _ _ (.value htop)⟩
  · rintro ⟨h1, h2, h3⟩ t r h
    cases h with
    | top => exact h1
    | item h =>
      obtain ⟨ht, hr⟩ := ruleAt_rep h
      exact h2 _ _ _ ht (by rw [← hr]; rfl)
    | key h =>
      obtain ⟨ht, hr⟩ := ruleAt_map h
      exact (h3 _ _ _ _ _ ht (by rw [← hr]; rfl)).1
    | value h =>
      obtain ⟨ht, hr⟩ := ruleAt_map h
      exact (h3 _ _ _ _ _ ht (by rw [← hr]; rfl)).2
where
  rules_mk {r : FieldRules} {t : TypeRules} (h : r.type = t) (ht : t ≠ .unset) : ∃ m, r = .mk m t := by
    cases r with
    | absent => exact absurd h.symm (by simpa [FieldRules.type] using ht)
    | mk m t' => exact ⟨m, by rw [← h]; rfl⟩

theorem fieldCode_good {G : CName → Option JT} {isPrint : Nat → Bool} {f : FieldDesc}
    (hs : ∀ t r, RuleAt f t r → Suits t r.type) (hr : ∀ t r, RuleAt f t r → ProtoRanges r.type)
    (hw : ¬ WrappedElems f) (hk : ∀ k v, f.typ = .map k v → k.isEmbed = false ∧ ∀ vs, k ≠ .enum vs)
    (hG : ∀ d ∈ (fieldCode isPrint f).decls, G d.name = some d.type) :
    Good G (fieldCode isPrint f) ↔ JavaWritable (PatternText isPrint) f := by
  have hw' : JavaWritable (PatternText isPrint) f ↔
      (JavaConstants (PatternText isPrint) f.rules.type ∧
      (∀ e r items, f.typ = .rep e → f.rules.type = .repeated r items →
        JavaConstants (PatternText isPrint) items.type) ∧
      ∀ k v r keys values, f.typ = .map k v → f.rules.type = .map r keys values →
        JavaConstants (PatternText isPrint) keys.type ∧ JavaConstants (PatternText isPrint) values.type) ∧
      ∀ k v r keys values, f.typ = .map k v → f.rules.type = .map r keys values →
        ∀ e, values.type = .enum e → e.const = none ∧ e.ins = [] ∧ e.notIns = [] := by
    rw [← forall_ruleAt]
    constructor
    · intro h
      refine ⟨h.constants, fun k v r keys values ht hr e he => ?_⟩
      obtain ⟨m, hm⟩ := forall_ruleAt.rules_mk hr (by simp)
      exact h.mapEnums k v m r keys values e ht hm he
    · rintro ⟨h1, h2⟩
      exact ⟨h1, fun k v m r keys values e ht hm he => h2 k v r keys values ht (by rw [hm]; rfl) e he⟩
  have htop := hs _ _ RuleAt.top
  rw [hw']
  unfold fieldCode at hG ⊢
  cases htyp : f.typ with
  | one e =>
    rw [htyp] at htop
    simp only [htyp] at hG ⊢
    rw [elemCode_good (Place.field f.name e) htop (fun _ _ => rfl) (hr _ _ RuleAt.top) hG]
    have hno : NoMapEnum ⟨f.name, .one e, .field⟩ f.rules.type := by intro h; simp at h
    simp [hno]
  | rep e =>
    rw [htyp] at htop
    simp only [htyp] at hG ⊢
    cases hrt : f.rules.type with
    | repeated r items =>
      simp only [hrt] at hG ⊢
      obtain ⟨m, hm⟩ := forall_ruleAt.rules_mk hrt (by simp)
      have hat : RuleAt f (.one e) items := .item (m := m) (r := r) (by rw [← htyp, ← hm]; exact .top)
      rw [repeatedCode_good (hs _ _ hat) (fun h => hw (.inl ⟨e, r, items, htyp, hrt, h.1, h.2⟩)) (hr _ _ hat) hG]
      simp only [FieldT.rep.injEq, TypeRules.repeated.injEq, JavaConstants, reduceCtorEq, false_implies, implies_true,
        and_true]
      refine and_congr_right fun _ => ⟨fun h e r' items' _ he => he.2 ▸ h, fun h => h e r items rfl ⟨rfl, rfl⟩⟩
    | unset =>
      simp only [hrt] at hG ⊢
      rw [repeatedCode_good (by simp [FieldRules.type, Suits]) (by simp [FieldRules.type, WrapperKind])
        (by simp [FieldRules.type, ProtoRanges]) hG]
      simp [JavaCount, FieldRules.type, JavaConstants]
    | _ => rw [hrt] at htop; simp [Suits] at htop
  | map k v =>
    rw [htyp] at htop
    simp only [htyp] at hG ⊢
    cases hrt : f.rules.type with
    | map r keys values =>
      simp only [hrt] at hG ⊢
      obtain ⟨m, hm⟩ := forall_ruleAt.rules_mk hrt (by simp)
      have htp : RuleAt f (.map k v) (.mk m (.map r keys values)) := by rw [← htyp, ← hm]; exact .top
      rw [mapCode_good (hk k v htyp) (hs _ _ (.key htp)) (hr _ _ (.key htp)) (hs _ _ (.value htp))
        (fun h => hw (.inr ⟨k, v, r, keys, values, htyp, hrt, h.1, h.2⟩)) (hr _ _ (.value htp)) hG]
      simp only [FieldT.map.injEq, TypeRules.map.injEq, JavaConstants, reduceCtorEq, false_implies, implies_true,
        true_and]
      constructor
      · rintro ⟨h1, h2, h3, h4⟩
        exact ⟨⟨h1, fun _ _ _ _ _ _ he => he.2.1 ▸ he.2.2 ▸ ⟨h2, h3⟩⟩, fun _ _ _ _ _ _ he => he.2.2 ▸ h4⟩
      · rintro ⟨⟨h1, h2⟩, h3⟩
        have := h2 k v r keys values ⟨rfl, rfl⟩ ⟨rfl, rfl, rfl⟩
        exact ⟨h1, this.1, this.2, h3 k v r keys values ⟨rfl, rfl⟩ ⟨rfl, rfl, rfl⟩⟩
    | unset =>
      simp only [hrt] at hG ⊢
      split at hG
      · rename_i he
        simp only [he, if_true]
        rw [mapCode_good (hk k v htyp) (by simp [FieldRules.type, Suits]) (by simp [FieldRules.type, ProtoRanges])
          (by simp [FieldRules.type, Suits]) (by simp [FieldRules.type, WrapperKind])
          (by simp [FieldRules.type, ProtoRanges]) hG]
        simp [JavaCount, FieldRules.type, JavaConstants]
      · rename_i he
        simp [he, good_empty, JavaConstants]
    | _ => rw [hrt] at htop; simp [Suits] at htop

/-! ### Names of constants -/

/-- The names of the constants are among those of the listed rules of the context, each at most once. -/
def Named (c : JCtx) (rules : List String) (ds : List Decl) : Prop :=
  (ds.map (·.name)).Sublist (rules.map c.const)

theorem named_nil {c : JCtx} : Named c [] [] := List.Sublist.refl _

theorem named_append {c : JCtx} {r1 r2 : List String} {a b : List Decl} (h1 : Named c r1 a) (h2 : Named c r2 b) :
    Named c (r1 ++ r2) (a ++ b) := by
  unfold Named at *
  rw [List.map_append, List.map_append]
  exact h1.append h2

theorem named_opt {c : JCtx} {α : Type} {o : Option α} {k : α → Decl} {r : String} (h : ∀ a, (k a).name = c.const r) :
    Named c [r] (opt o k) := by
  cases o with
  | none => exact List.nil_sublist _
  | some a => simp [Named, opt, h]

theorem named_onlyIf {c : JCtx} {b : Bool} {d : Decl} {r : String} (h : d.name = c.const r) :
    Named c [r] (onlyIf b [d]) := by
  cases b with
  | false => exact List.nil_sublist _
  | true => simp [Named, onlyIf, h]

theorem named_list {c : JCtx} {α : Type} {t : JT} {k : α → Ex} {l : List α} {r : String} :
    Named c [r] (listDecl (c.const r) t k l) := named_onlyIf rfl

theorem const_inj {c : JCtx} {a b : String} (h : c.const a = c.const b) : a = b := by
  unfold JCtx.const at h
  exact (CName.mk.inj h).2.2

theorem named_nodup {c : JCtx} {rules : List String} {ds : List Decl} (h : Named c rules ds) (hr : rules.Nodup) :
    (ds.map (·.name)).Nodup := by
  refine h.nodup ?_
  rw [List.Nodup, List.pairwise_map]
  exact hr.imp fun hne he => hne (const_inj he)

theorem named_mem {c : JCtx} {rules : List String} {ds : List Decl} (h : Named c rules ds) {d : Decl} (hd : d ∈ ds) :
    d.name.field = c.field ∧ d.name.index = c.index ∧ d.name.rule ∈ rules := by
  have := h.subset (List.mem_map_of_mem hd)
  obtain ⟨r, hm, hr⟩ := List.mem_map.1 this
  rw [← hr]
  exact ⟨rfl, rfl, hm⟩

/-- The rules that have constants. -/
def ruleNames : List String :=
  ["Const", "Lt", "Lte", "Gt", "Gte", "In", "NotIn", "Pattern", "Prefix", "Contains", "Suffix", "Within"]

theorem typeCode_named (isPrint : Nat → Bool) (c : JCtx) (t : TypeRules) :
    ∃ rules : List String, (rules.Nodup ∧ ∀ r ∈ rules, r ∈ ruleNames) ∧ Named c rules (typeCode isPrint c t).decls := by
  cases t with
  | num k r =>
    refine ⟨["Const"] ++ ["Lt"] ++ ["Lte"] ++ ["Gt"] ++ ["Gte"] ++ ["In"] ++ ["NotIn"], by decide, ?_⟩
    exact named_append (named_append (named_append (named_append (named_append (named_append
      (named_opt fun _ => rfl) (named_opt fun _ => rfl)) (named_opt fun _ => rfl)) (named_opt fun _ => rfl))
      (named_opt fun _ => rfl)) named_list) named_list
  | string r =>
    refine ⟨["In"] ++ ["NotIn"] ++ ["Pattern"], by decide, ?_⟩
    exact named_append (named_append named_list named_list) (named_opt fun _ => rfl)
  | bytes r =>
    refine ⟨["Const"] ++ ["In"] ++ ["NotIn"] ++ ["Pattern"] ++ ["Prefix"] ++ ["Contains"] ++ ["Suffix"], by decide, ?_⟩
    exact named_append (named_append (named_append (named_append (named_append (named_append
      (named_onlyIf rfl) named_list) named_list) (named_opt fun _ => rfl))
      (named_onlyIf rfl)) (named_onlyIf rfl)) (named_onlyIf rfl)
  | enum r => exact ⟨["In"] ++ ["NotIn"], by decide, named_append named_list named_list⟩
  | any r => exact ⟨["In"] ++ ["NotIn"], by decide, named_append named_list named_list⟩
  | duration r =>
    refine ⟨["Const"] ++ ["Lt"] ++ ["Lte"] ++ ["Gt"] ++ ["Gte"] ++ ["In"] ++ ["NotIn"], by decide, ?_⟩
    exact named_append (named_append (named_append (named_append (named_append (named_append
      (named_opt fun _ => rfl) (named_opt fun _ => rfl)) (named_opt fun _ => rfl)) (named_opt fun _ => rfl))
      (named_opt fun _ => rfl)) named_list) named_list
  | timestamp r =>
    refine ⟨["Const"] ++ ["Lt"] ++ ["Lte"] ++ ["Gt"] ++ ["Gte"] ++ ["Within"], by decide, ?_⟩
    exact named_append (named_append (named_append (named_append (named_append
      (named_opt fun _ => rfl) (named_opt fun _ => rfl)) (named_opt fun _ => rfl)) (named_opt fun _ => rfl))
      (named_opt fun _ => rfl)) (named_opt fun _ => rfl)
  | _ => exact ⟨[], by decide, named_nil⟩

/-- The constants of a template have distinct names, all with the field and the index of the context. -/
structure Distinct (n : String) (indexes : List String) (ds : List Decl) : Prop where
  nodup : (ds.map (·.name)).Nodup
  field : ∀ d ∈ ds, d.name.field = n
  index : ∀ d ∈ ds, d.name.index ∈ indexes
  rule : ∀ d ∈ ds, d.name.rule ∈ ruleNames

theorem distinct_nil {n : String} {ix : List String} : Distinct n ix [] := ⟨List.nodup_nil, by simp, by simp, by simp⟩

theorem typeCode_distinct (isPrint : Nat → Bool) (c : JCtx) (t : TypeRules) :
    Distinct c.field [c.index] (typeCode isPrint c t).decls := by
  obtain ⟨rules, h1, h2⟩ := typeCode_named isPrint c t
  exact ⟨named_nodup h2 h1.1, fun d hd => (named_mem h2 hd).1, fun d hd => by simp [(named_mem h2 hd).2],
    fun d hd => h1.2 _ (named_mem h2 hd).2.2⟩

theorem elemCode_distinct (isPrint : Nat → Bool) (c : JCtx) (e : ElemT) (rules : FieldRules)
    (hw : c.acc ≠ .field → ¬ (e.isEmbed = true ∧ WrapperKind rules.type)) :
    Distinct c.field [c.index] (elemCode isPrint c e rules).decls := by
  unfold elemCode
  by_cases h : e.isEmbed = true ∧ WrapperKind rules.type
  · rw [resolve_wrapperKind h.1 h.2]
    simp only [append_decls, List.nil_append]
    have hacc : c.acc = .field := Decidable.byContradiction fun hn => hw hn h
    have hix : c.index = ({ c with acc := .wrapped } : JCtx).index := by simp [JCtx.index, hacc]
    rw [hix]
    exact typeCode_distinct isPrint { c with acc := .wrapped } rules.type
  · by_cases hu : rules.type = .unset
    · simp only [resolve, hu]
      cases e.isEmbed <;> exact distinct_nil
    · rw [resolve_plain h hu]
      exact typeCode_distinct isPrint c rules.type

theorem Distinct.mono {n : String} {i j : List String} {ds : List Decl} (h : Distinct n i ds) (hij : ∀ x ∈ i, x ∈ j) :
    Distinct n j ds := ⟨h.nodup, h.field, fun d hd => hij _ (h.index d hd), h.rule⟩

theorem Distinct.append {n : String} {i j : List String} {a b : List Decl} (h1 : Distinct n i a) (h2 : Distinct n j b)
    (hij : ∀ x ∈ i, x ∉ j) : Distinct n (i ++ j) (a ++ b) := by
  refine ⟨?_, ?_, ?_, ?_⟩
  · rw [List.map_append, List.nodup_append]
    refine ⟨h1.nodup, h2.nodup, ?_⟩
    intro x hx y hy hxy
    obtain ⟨d, hd, rfl⟩ := List.mem_map.1 hx
    obtain ⟨d', hd', rfl⟩ := List.mem_map.1 hy
    exact hij _ (h1.index d hd) (hxy ▸ h2.index d' hd')
  · intro d hd
    rcases List.mem_append.1 hd with hd | hd
    · exact h1.field d hd
    · exact h2.field d hd
  · intro d hd
    rcases List.mem_append.1 hd with hd | hd
    · exact List.mem_append_left _ (h1.index d hd)
    · exact List.mem_append_right _ (h2.index d hd)
  · intro d hd
    rcases List.mem_append.1 hd with hd | hd
    · exact h1.rule d hd
    · exact h2.rule d hd

theorem mapCode_distinct (isPrint : Nat → Bool) (n : String) (k v : ElemT) (r : MapRules) (keys values : FieldRules)
    (hw : ¬ (v.isEmbed = true ∧ WrapperKind values.type)) :
    Distinct n ["Key", "Value"] (mapCode isPrint ⟨n, .map k v, .field⟩ k v r keys values).decls := by
  unfold mapCode
  rw [append_decls]
  simp only [List.nil_append]
  split
  · simp only [append_decls, List.nil_append]
    exact Distinct.append (typeCode_distinct isPrint ⟨n, .map k v, .key⟩ keys.type)
      (elemCode_distinct isPrint ⟨n, .map k v, .value⟩ v values fun _ => hw) (by simp [JCtx.index])
  · exact distinct_nil

theorem fieldCode_distinct (isPrint : Nat → Bool) {f : FieldDesc} (hs : Suits f.typ f.rules.type)
    (hw : ¬ WrappedElems f) :
    Distinct f.name ["", "Key", "Value"] (fieldCode isPrint f).decls := by
  unfold fieldCode
  cases htyp : f.typ with
  | one e =>
    exact (elemCode_distinct isPrint ⟨f.name, .one e, .field⟩ e f.rules fun h => absurd rfl h).mono
      (by simp [JCtx.index])
  | rep e =>
    rw [htyp] at hs
    cases hrt : f.rules.type with
    | repeated r items =>
      simp only [repeatedCode, append_decls, List.nil_append]
      exact (elemCode_distinct isPrint ⟨f.name, .rep e, .item⟩ e items fun _ h =>
        hw (.inl ⟨e, r, items, htyp, hrt, h.1, h.2⟩)).mono (by simp [JCtx.index])
    | unset =>
      simp only [repeatedCode, append_decls, List.nil_append]
      exact (elemCode_distinct isPrint ⟨f.name, .rep e, .item⟩ e .absent fun _ h => by
        simp [FieldRules.type, WrapperKind] at h).mono (by simp [JCtx.index])
    | _ => rw [hrt] at hs; simp [Suits] at hs
  | map k v =>
    rw [htyp] at hs
    cases hrt : f.rules.type with
    | map r keys values =>
      exact (mapCode_distinct isPrint f.name k v r keys values fun h =>
        hw (.inr ⟨k, v, r, keys, values, htyp, hrt, h.1, h.2⟩)).mono (by simp)
    | unset =>
      simp only
      split
      · exact (mapCode_distinct isPrint f.name k v {} .absent .absent fun h => by
          simp [FieldRules.type, WrapperKind] at h).mono (by simp)
      · exact distinct_nil
    | _ => rw [hrt] at hs; simp [Suits] at hs

/-- A constant declared once is found under its name. -/
theorem scope_mem {ds : List Decl} (hn : (ds.map (·.name)).Nodup) {d : Decl} (hd : d ∈ ds) :
    scope ds d.name = some d.type := by
  unfold scope
  induction ds with
  | nil => cases hd
  | cons a l ih =>
    rw [List.map_cons, List.nodup_cons] at hn
    rw [List.find?_cons]
    rcases List.mem_cons.1 hd with rfl | hd
    · simp
    · have : a.name ≠ d.name := fun h => hn.1 (h ▸ List.mem_map_of_mem hd)
      simp only [beq_eq_false_iff_ne.2 this]
      exact ih hn.2 hd

theorem nodup_flatMap {isPrint : Nat → Bool} : ∀ (fs : List FieldDesc), (fs.map (·.name)).Nodup →
    (∀ f ∈ fs, Distinct f.name ["", "Key", "Value"] (fieldCode isPrint f).decls) →
    ((fs.flatMap fun f => (fieldCode isPrint f).decls).map (·.name)).Nodup := by
  intro fs
  induction fs with
  | nil => simp
  | cons f l ih =>
    intro hn hd
    rw [List.map_cons, List.nodup_cons] at hn
    rw [List.flatMap_cons, List.map_append, List.nodup_append]
    refine ⟨(hd f (by simp)).nodup, ih hn.2 fun g hg => hd g (by simp [hg]), ?_⟩
    intro x hx y hy hxy
    obtain ⟨d, hdm, rfl⟩ := List.mem_map.1 hx
    obtain ⟨d', hdm', rfl⟩ := List.mem_map.1 hy
    obtain ⟨g, hg, hdm'⟩ := List.mem_flatMap.1 hdm'
    have h1 := (hd f (by simp)).field d hdm
    have h2 := (hd g (by simp [hg])).field d' hdm'
    exact hn.1 (List.mem_map.2 ⟨g, hg, by rw [← h1, ← h2, hxy]⟩)

end PGV.Java
