import Verif.Lemmas.CppRead
import Verif.Lemmas.JavaStatic

/-!
Static types in generated C++ code, template by template.
-/

set_option linter.unusedSimpArgs false
set_option autoImplicit false

namespace PGV.Cpp
open PGV PGV.Spec PGV.Spec.Cpp
open PGV.Go (Var resolve Resolved elemTypNotNone allFields litString declIf tables)

theorem all_opt {α β : Type} (o : Option α) (k : α → List β) (p : β → Bool) :
    (opt o k).all p = true ↔ ∀ a, o = some a → (k a).all p = true := by
  cases o <;> simp [opt]

theorem all_onlyIf {β : Type} (c : Bool) (b : List β) (p : β → Bool) :
    (onlyIf c b).all p = true ↔ (c = true → b.all p = true) := by
  cases c <;> simp [onlyIf]

theorem intLit_iff (i : Int) : intLit i = true ↔ CppInt i := by
  simp only [intLit, decide_eq_true_eq, CppInt]
  omega

theorem natLit_iff (n : Nat) : intLit (n : Int) = true ↔ n < 2 ^ 63 := by
  simp only [intLit, decide_eq_true_eq]
  omega

theorem numLit_iff (x : Num) : numLit x = true ↔ CppNumber x := by
  cases x with
  | int i => exact intLit_iff i
  | f32 b => simp [numLit, notFinite, CppNumber, FiniteNum]
  | f64 b => simp [numLit, notFinite, CppNumber, FiniteNum]

theorem lengths_ok (len min max : Option Nat) :
    ((lengths len min max).all fun n : Nat => intLit n) = true ↔ LengthLimits len min max := by
  unfold LengthLimits IntLimit
  cases len with
  | some n => simp [lengths, natLit_iff]
  | none =>
    cases min with
    | none => cases max <;> simp [lengths, natLit_iff]
    | some a =>
      cases max with
      | none => simp [lengths, natLit_iff]
      | some b =>
        simp only [lengths]
        split
        · simp [natLit_iff]; omega
        · simp [natLit_iff]

theorem counts_ok (min max : Option Nat) :
    ((counts min max).all fun n : Nat => intLit n) = true ↔ IntLimit min ∧ IntLimit max := by
  unfold IntLimit counts
  cases min with
  | none => cases max <;> simp [optN, opt, natLit_iff]
  | some a =>
    cases max with
    | none => 
      by_cases h : a = 0 <;> simp [optN, opt, natLit_iff, h]
    | some b =>
      by_cases h : a = 0
      · simp [optN, opt, natLit_iff, h]
      · by_cases hb : a = b
        · simp [optN, opt, natLit_iff, h, hb]
        · simp [optN, opt, natLit_iff, h, hb]

/-! ### Lists -/

/-- The table a list refers to is as `ok` wants it. -/
def Finds {α : Type} (ok : Var → List α → Prop) (ins notIns : List α) : Prop :=
  (ins ≠ [] → ok .inLookup ins) ∧ (ins = [] → notIns ≠ [] → ok .notInLookup notIns)

theorem finds_none {α : Type} {ok : Var → List α → Prop} (h : ∀ v l, ¬ ok v l) (ins notIns : List α) :
    Finds ok ins notIns ↔ ¬ (ins ≠ [] ∨ notIns ≠ []) := by
  unfold Finds
  by_cases h1 : ins = [] <;> by_cases h2 : notIns = [] <;> simp [h, h1, h2]

/-- A table can be searched for values of type `T`. -/
def FindOk (G : Var → Option DT) (T : CT) (v : Var) : Prop := Stmt.ok G (.find (some T) v) = true

theorem inCode_ok {α : Type} {G : Var → Option DT} {c : Ctx} {T : CT} (hc : c.value = some T)
    (msg : String → List α → List Stmt) (M : Var → List α → Prop) (ins notIns : List α)
    (h1 : (msg "value must be in list " ins).all (Stmt.ok G) = true ↔ M .inLookup ins)
    (h2 : (msg "value must not be in list " notIns).all (Stmt.ok G) = true ↔ M .notInLookup notIns) :
    (inCode c msg ins notIns).all (Stmt.ok G) = true ↔ Finds (fun v l => FindOk G T v ∧ M v l) ins notIns := by
  unfold inCode Finds FindOk
  cases ins with
  | cons a as => simp [hc, ← h1]
  | nil =>
    cases notIns with
    | cons a as => simp [hc, onlyIf, ← h2]
    | nil => simp [onlyIf]

theorem inCode_plain {α : Type} {G : Var → Option DT} {c : Ctx} {T : CT} (hc : c.value = some T) (ins notIns : List α) :
    (inCode c plainMessage ins notIns).all (Stmt.ok G) = true ↔ Finds (fun v _ => FindOk G T v) ins notIns := by
  rw [inCode_ok hc plainMessage (fun _ _ => True) ins notIns (by simp [plainMessage]) (by simp [plainMessage])]
  simp

/-! ### Numbers -/

/-- The number is a bound that is written. -/
def BoundWritten (r : NumRules) (x : Num) : Prop :=
  r.const = some x ∨ r.lt = some x ∨ (r.lt = none ∧ r.lte = some x) ∨ r.gt = some x ∨ (r.gt = none ∧ r.gte = some x)

theorem ltgtCode_ok {G : Var → Option DT} {c : Ctx} {T : CT} (hc : c.value = some T) (hT : T.arithmetic = true)
    (r : NumRules) :
    (ltgtCode c r).all (Stmt.ok G) = true ↔
      (∀ x, r.lt = some x ∨ (r.lt = none ∧ r.lte = some x) ∨ r.gt = some x ∨ (r.gt = none ∧ r.gte = some x) →
        CppNumber x) := by
  have cmp : ∀ n, Stmt.ok G (.number c.value n) = true ↔ CppNumber n := by
    intro n; rw [hc]; simp [Stmt.ok, hT, numLit_iff]
  unfold ltgtCode
  cases h1 : r.lt <;> cases h2 : r.lte <;> cases h3 : r.gt <;> cases h4 : r.gte <;>
    simp [cmp] <;> first | (exact ⟨fun h x hx => by rcases hx with rfl | rfl <;> simp_all, fun h => ⟨h _ (by simp), h _ (by simp)⟩⟩) | skip

theorem numCode_ok {G : Var → Option DT} {c : Ctx} {T : CT} (hc : c.value = some T) (hT : T.arithmetic = true)
    (r : NumRules) :
    (numCode c r).all (Stmt.ok G) = true ↔
      (∀ x, BoundWritten r x → CppNumber x) ∧ Finds (fun v _ => FindOk G T v) r.ins r.notIns := by
  have cmp : ∀ n, Stmt.ok G (.number c.value n) = true ↔ CppNumber n := by
    intro n; rw [hc]; simp [Stmt.ok, hT, numLit_iff]
  unfold numCode
  simp only [List.all_append, Bool.and_eq_true, all_onlyIf, all_opt, ltgtCode_ok hc hT, inCode_plain hc, List.all_cons,
    List.all_nil, and_true, cmp]
  have hz : CppNumber (.int 0) := by simp [CppNumber, CppInt]
  simp only [hz, implies_true, true_and, BoundWritten]
  refine and_congr_left fun _ => ?_
  constructor
  · rintro ⟨h1, h2⟩ x (hx | hx)
    · exact h1 x hx
    · exact h2 x hx
  · intro h
    exact ⟨fun x hx => h x (.inl hx), fun x hx => h x (.inr hx)⟩

/-! ### Strings -/

theorem clit_append {a b : Bytes} (ha : CLiteral a) (hb : CLiteral b)
    (hs : ∀ d t, b = d :: t → ¬ isHex d = true) : CLiteral (a ++ b) := by
  induction a with
  | nil => exact hb
  | cons x a ih =>
    rw [clit_cons] at ha
    rw [List.cons_append, clit_cons]
    refine ⟨fun hx => ?_, ih ha.2⟩
    have : (a ++ b).takeWhile isHex = a.takeWhile isHex := by
      clear ih ha
      induction a with
      | nil =>
        cases b with
        | nil => rfl
        | cons d t => simp [List.takeWhile_cons, hs d t rfl]
      | cons y a ih =>
        rw [List.cons_append, List.takeWhile_cons, List.takeWhile_cons, ih]
    rw [this]
    exact ha.1 hx

theorem clit_plain {s : Bytes} (h : ∀ b ∈ s, ¬ HexEscaped b) : CLiteral s := by
  intro a c t e hc
  exact absurd hc (h c (by rw [e]; simp))

theorem utf8_append {a b : Bytes} (ha : Utf8 a) (hb : Utf8 b) : Utf8 (a ++ b) := by
  obtain ⟨x, hx, rfl⟩ := ha
  obtain ⟨y, hy, rfl⟩ := hb
  refine ⟨x ++ y, ?_, by simp⟩
  intro c hc
  rcases List.mem_append.1 hc with h | h
  · exact hx c h
  · exact hy c h

theorem utf8_ascii {p : Bytes} (h : ∀ c ∈ p, c.toNat < 0x80) : Utf8 p := by
  refine ⟨p.map (·.toNat), ?_, ?_⟩
  · intro c hc
    obtain ⟨b, hb, rfl⟩ := List.mem_map.1 hc
    have := h b hb
    unfold ScalarValue
    omega
  · induction p with
    | nil => rfl
    | cons b p ih =>
      rw [List.map_cons, List.flatMap_cons, ← ih fun c hc => h c (by simp [hc]), encode_small (h b (by simp))]
      simp

theorem spaces_clit (l : List Bytes) (h : ∀ s ∈ l, Utf8 s ∧ CLiteral s) :
    Utf8 (List.flatten (l.intersperse [0x20])) ∧ CLiteral (List.flatten (l.intersperse [0x20])) := by
  induction l with
  | nil => exact ⟨⟨[], by simp, rfl⟩, clit_plain (by simp)⟩
  | cons a l ih =>
    have ha := h a (by simp)
    cases l with
    | nil => simpa using ha
    | cons b l =>
      obtain ⟨i1, i2⟩ := ih fun s hs => h s (by simp [hs])
      rw [List.intersperse_cons_cons, List.flatten_cons, List.flatten_cons]
      refine ⟨utf8_append ha.1 (utf8_append (utf8_ascii (by decide)) i1), clit_append ha.2 ?_ ?_⟩
      · rw [List.singleton_append, clit_cons]
        exact ⟨fun hx => by simp [HexEscaped] at hx, i2⟩
      · intro d t e
        simp at e
        rw [← e.1]; decide

theorem listMessage_ok {G : Var → Option DT} {isPrint : Nat → Bool} (hp : PrintsAscii isPrint) {pre : String}
    (hpre : ∀ b ∈ ascii pre, 0x20 ≤ b.toNat ∧ b.toNat < 0x7F) {l : List Bytes} (h : ∀ s ∈ l, Utf8 s ∧ CLiteral s) :
    (listMessage isPrint pre l).all (Stmt.ok G) = true := by
  obtain ⟨i1, i2⟩ := spaces_clit l h
  have u : Utf8 (ascii pre ++ sprintList l) := by
    refine utf8_append (utf8_ascii fun c hc => by have := hpre c hc; omega) ?_
    exact utf8_append (a := [0x5B]) (utf8_ascii (by decide)) (utf8_append i1 (utf8_ascii (by decide)))
  have c : CLiteral (ascii pre ++ sprintList l) := by
    refine clit_append (clit_plain fun b hb => ?_) ?_ ?_
    · have := hpre b hb
      exact notEscaped_of_ge (by omega) (by omega)
    · show CLiteral (0x5B :: (List.flatten (l.intersperse [0x20]) ++ [0x5D]))
      rw [clit_cons]
      refine ⟨fun hx => by simp [HexEscaped] at hx, clit_append i2 (clit_plain (by simp [HexEscaped])) ?_⟩
      intro d t e
      simp at e
      rw [← e.1]; decide
    · intro d t e
      have : sprintList l = 0x5B :: (List.flatten (l.intersperse [0x20]) ++ [0x5D]) := rfl
      rw [this] at e
      simp at e
      rw [← e.1]; decide
  simp [listMessage, Stmt.ok, textLit_iff isPrint hp u, c]

/-- The string is compared with in the code. -/
def TextWritten (r : StringRules) (s : Bytes) : Prop :=
  r.const = some s ∨ r.pfx = some s ∨ r.sfx = some s ∨ r.contains = some s ∨ r.notContains = some s

theorem textWritten_in {r : StringRules} {s : Bytes} (h : TextWritten r s) : StringIn r s := by
  unfold TextWritten at h; unfold StringIn
  rcases h with h | h | h | h | h <;> simp [h]

/-- The message that lists the strings is a literal. -/
def ListText (isPrint : Nat → Bool) (G : Var → Option DT) (pre : String) (l : List Bytes) : Prop :=
  (listMessage isPrint pre l).all (Stmt.ok G) = true

/-- The messages of `in` and `not_in`. -/
def preOf : Var → String
  | .inLookup => "value must be in list "
  | _ => "value must not be in list "

theorem size_ok {G : Var → Option DT} {c : Ctx} {T : CT} (hc : c.value = some T)
    (hT : T = .string ∨ T = .list ∨ T = .map) (l : List Nat) :
    (onlyIf (!l.isEmpty) [Stmt.size c.value l]).all (Stmt.ok G) = true ↔ (l.all fun n : Nat => intLit n) = true := by
  cases l with
  | nil => simp [onlyIf]
  | cons a l => rcases hT with rfl | rfl | rfl <;> simp [onlyIf, hc, Stmt.ok]

theorem chars_ok {G : Var → Option DT} {c : Ctx} (hc : c.value = some .string) (l : List Nat) :
    (onlyIf (!l.isEmpty) [Stmt.chars c.value l]).all (Stmt.ok G) = true ↔ (l.all fun n : Nat => intLit n) = true := by
  cases l with
  | nil => simp [onlyIf]
  | cons a l => simp [onlyIf, hc, Stmt.ok]

theorem stringCode_ok {G : Var → Option DT} {isPrint : Nat → Bool} (hp : PrintsAscii isPrint) {c : Ctx}
    (hc : c.value = some .string) {r : StringRules} (hu : ∀ s, StringIn r s → Utf8 s) :
    (stringCode isPrint c r).all (Stmt.ok G) = true ↔
      LengthLimits r.len r.minLen r.maxLen ∧ LengthLimits r.lenBytes r.minBytes r.maxBytes ∧
      (∀ s, TextWritten r s → CLiteral s) ∧ (r.pattern ≠ none → G .pattern = some .regex) ∧
      Finds (fun v l => FindOk G .string v ∧ ListText isPrint G (preOf v) l) r.ins r.notIns := by
  have lit : ∀ o : Option Bytes, (∀ s, o = some s → TextWritten r s) →
      ((opt o fun s => [Stmt.text c.value (litString isPrint s)]).all (Stmt.ok G) = true ↔
        ∀ s, o = some s → CLiteral s) := by
    intro o ho
    rw [all_opt]
    refine forall_congr' fun s => ⟨fun h hs => ?_, fun h hs => ?_⟩
    · have := h hs
      simpa [hc, Stmt.ok, textLit_iff isPrint hp (hu s (textWritten_in (ho s hs)))] using this
    · simpa [hc, Stmt.ok, textLit_iff isPrint hp (hu s (textWritten_in (ho s hs)))] using h hs
  have pat : (opt r.pattern fun _ => [Stmt.fullMatch c.value]).all (Stmt.ok G) = true ↔
      (r.pattern ≠ none → G .pattern = some .regex) := by
    rw [all_opt]
    cases r.pattern <;> simp [hc, Stmt.ok]
  have wk : (if r.getIp || r.getIpv4 || r.getIpv6 then [Stmt.str c.value] else if r.getEmail then []
      else if r.getAddress || r.getHostname then [.str c.value] else if r.getUri || r.getUriRef then []
      else onlyIf r.getUuid [.str c.value]).all (Stmt.ok G) = true := by
    have : Stmt.ok G (.str c.value) = true := by simp [hc, Stmt.ok]
    unfold onlyIf
    repeat' split
    all_goals simp [this]
  have empty : (onlyIf (optB r.ignoreEmpty) [Stmt.text c.value [0x22, 0x22]]).all (Stmt.ok G) = true := by
    have : textLit [0x22, 0x22] = true := by decide
    rw [all_onlyIf]
    simp [hc, Stmt.ok, this]
  unfold stringCode
  simp only [List.all_append, Bool.and_eq_true]
  rw [lit r.const fun s h => .inl h, lit r.pfx fun s h => .inr (.inl h), lit r.sfx fun s h => .inr (.inr (.inl h)),
    lit r.contains fun s h => .inr (.inr (.inr (.inl h))),
    lit r.notContains fun s h => .inr (.inr (.inr (.inr h))), pat, chars_ok hc, size_ok hc (.inl rfl), lengths_ok,
    lengths_ok, inCode_ok hc (listMessage isPrint) (fun v l => ListText isPrint G (preOf v) l) r.ins r.notIns
      Iff.rfl Iff.rfl]
  simp only [wk, empty, true_and, and_true]
  unfold TextWritten
  constructor
  · rintro ⟨⟨⟨⟨⟨⟨⟨⟨h1, h2⟩, h3⟩, h4⟩, h5⟩, h6⟩, h7⟩, h8⟩, h9⟩
    refine ⟨h3, h4, ?_, h9, h2⟩
    rintro s (h | h | h | h | h)
    · exact h1 s h
    · exact h5 s h
    · exact h6 s h
    · exact h7 s h
    · exact h8 s h
  · rintro ⟨h3, h4, h, h9, h2⟩
    exact ⟨⟨⟨⟨⟨⟨⟨⟨fun s hs => h s (by simp [hs]), h2⟩, h3⟩, h4⟩, fun s hs => h s (by simp [hs])⟩,
      fun s hs => h s (by simp [hs])⟩, fun s hs => h s (by simp [hs])⟩, fun s hs => h s (by simp [hs])⟩, h9⟩

theorem bytesCode_ok {G : Var → Option DT} {c : Ctx} (hc : c.value = some .string) {r : BytesRules} :
    (bytesCode c r).all (Stmt.ok G) = true ↔
      LengthLimits r.len r.minLen r.maxLen ∧ (r.pattern ≠ none → G .pattern = some .regex) ∧
      Finds (fun v _ => FindOk G .string v) r.ins r.notIns := by
  have lit : ∀ o : Option Bytes,
      (onlyIf (!(optS o).isEmpty) [Stmt.text c.value (litBytes (optS o))]).all (Stmt.ok G) = true := by
    intro o
    rw [all_onlyIf]
    intro _
    simp [hc, Stmt.ok, textLit, read_litBytes]
  have pat : (opt r.pattern fun _ => [Stmt.fullMatch c.value]).all (Stmt.ok G) = true ↔
      (r.pattern ≠ none → G .pattern = some .regex) := by
    rw [all_opt]
    cases r.pattern <;> simp [hc, Stmt.ok]
  have empty : (onlyIf (optB r.ignoreEmpty) [Stmt.size c.value [0]]).all (Stmt.ok G) = true := by
    rw [all_onlyIf]
    simp [hc, Stmt.ok, natLit_iff, show intLit 0 = true by decide]
  unfold bytesCode
  simp only [List.all_append, Bool.and_eq_true, lit, pat, empty, inCode_plain hc, size_ok hc (.inl rfl), lengths_ok,
    true_and, and_true]
  constructor
  · rintro ⟨⟨h1, h2⟩, h3⟩; exact ⟨h2, h3, h1⟩
  · rintro ⟨h2, h3, h1⟩; exact ⟨⟨h1, h2⟩, h3⟩

/-! ### Enums and messages -/

theorem enumCode_ok {G : Var → Option DT} {p : Package} (hpk : p.ok = true) {c : Ctx} {T : CT} (hc : c.value = some T)
    (hT : T.arithmetic = true) {r : EnumRules} (hr : ProtoRanges (.enum r)) :
    (enumCode p c r).all (Stmt.ok G) = true ↔ Finds (fun v _ => FindOk G T v) r.ins r.notIns := by
  have cst : (opt r.const fun i => [Stmt.number c.value (.int i)]).all (Stmt.ok G) = true := by
    rw [all_opt]
    intro i hi
    have := hr i (.inl hi)
    have h2 : intLit i = true := (intLit_iff i).2 (by unfold JavaInt at this; unfold CppInt; omega)
    simp [hc, Stmt.ok, hT, numLit, h2]
  have dft : (onlyIf (optB r.definedOnly) [Stmt.isValid p.ok c.value]).all (Stmt.ok G) = true := by
    rw [all_onlyIf]
    simp [hc, Stmt.ok, hT, hpk]
  unfold enumCode
  simp only [List.all_append, Bool.and_eq_true, cst, dft, inCode_plain hc, true_and, and_true]

theorem requiredCode_ok {G : Var → Option DT} {c : Ctx} (hh : c.has = true) (b : Bool) :
    (requiredCode c b).all (Stmt.ok G) = true := by
  unfold requiredCode
  rw [all_onlyIf]
  simp [Stmt.ok, hh]

/-- The messages of `in` and `not_in` for `Any`. -/
def urlPreOf : Var → String
  | .inLookup => "type URL must be in list "
  | _ => "type URL must not be in list "

theorem anyCode_ok {G : Var → Option DT} {isPrint : Nat → Bool} {c : Ctx} {n : String} (hh : c.has = true)
    (hc : c.value = some (.message n (some .any))) {r : AnyRules} :
    (anyCode isPrint c r).all (Stmt.ok G) = true ↔
      Finds (fun v l => G v = some (.set .string) ∧ ListText isPrint G (urlPreOf v) l) r.ins r.notIns := by
  unfold anyCode Finds
  rw [List.all_append, requiredCode_ok hh]
  cases h1 : r.ins with
  | cons a as => simp [hc, hh, Stmt.ok, ListText, urlPreOf]
  | nil =>
    cases h2 : r.notIns with
    | cons a as => simp [hc, hh, onlyIf, Stmt.ok, ListText, urlPreOf]
    | nil => simp [onlyIf]

theorem durExpr_iff {d : PDur} (h : JavaInt d.nanos) : durExpr d = true ↔ CppInt d.seconds := by
  have h2 : intLit d.nanos = true := (intLit_iff _).2 (by unfold JavaInt at h; unfold CppInt; omega)
  simp [durExpr, h2, intLit_iff]

/-- The table holds durations. -/
def DurTable (G : Var → Option DT) (v : Var) : Prop := Stmt.ok G (.findDur v) = true

theorem durationCode_ok {G : Var → Option DT} {c : Ctx} {n : String} (hh : c.has = true)
    (hc : c.value = some (.message n (some .duration))) {r : DurationRules} (hr : ProtoRanges (.duration r)) :
    (durationCode c r).all (Stmt.ok G) = true ↔
      (∀ x, DurBound r x → CppInt x.seconds) ∧ Finds (fun v _ => DurTable G v) r.ins r.notIns := by
  have lit : ∀ o : Option PDur, (∀ x, o = some x → DurationIn r x) →
      ((opt o fun d => [Stmt.dur d]).all (Stmt.ok G) = true ↔ ∀ x, o = some x → CppInt x.seconds) := by
    intro o ho
    rw [all_opt]
    refine forall_congr' fun s => ⟨fun h hs => ?_, fun h hs => ?_⟩
    · simpa [Stmt.ok, durExpr_iff (hr s (ho s hs))] using h hs
    · simpa [Stmt.ok, durExpr_iff (hr s (ho s hs))] using h hs
  have fnd : (if !r.ins.isEmpty then [Stmt.findDur .inLookup]
      else onlyIf (!r.notIns.isEmpty) [.findDur .notInLookup]).all (Stmt.ok G) = true ↔
      Finds (fun v _ => DurTable G v) r.ins r.notIns := by
    unfold Finds DurTable
    cases r.ins <;> cases r.notIns <;> simp [onlyIf]
  have bound : ∀ o : Option PDur, (o = r.const ∨ o = r.lt ∨ o = r.lte ∨ o = r.gt ∨ o = r.gte) →
      ∀ x, o = some x → DurationIn r x := by
    rintro o (rfl | rfl | rfl | rfl | rfl) x hx
    · exact .inl (.inl hx)
    · exact .inl (.inr (.inl hx))
    · exact .inl (.inr (.inr (.inl hx)))
    · exact .inl (.inr (.inr (.inr (.inl hx))))
    · exact .inl (.inr (.inr (.inr (.inr hx))))
  unfold durationCode
  rw [List.all_append, requiredCode_ok hh, Bool.true_and, all_onlyIf]
  by_cases hany : (!r.ins.isEmpty || !r.notIns.isEmpty || r.lt.isSome || r.lte.isSome || r.gt.isSome || r.gte.isSome ||
      r.const.isSome) = true
  · simp only [hany, true_imp_iff, List.all_append, Bool.and_eq_true]
    rw [lit r.const (bound _ (by simp)), lit r.lt (bound _ (by simp)), lit r.lte (bound _ (by simp)),
      lit r.gt (bound _ (by simp)), lit r.gte (bound _ (by simp)), fnd]
    have h0 : [Stmt.has c.has, .durRef c.value].all (Stmt.ok G) = true := by simp [Stmt.ok, hh, hc]
    simp only [h0, true_and, DurBound]
    refine and_congr_left fun _ => ?_
    constructor
    · rintro ⟨⟨⟨⟨h1, h2⟩, h3⟩, h4⟩, h5⟩ x (h | h | h | h | h)
      · exact h1 x h
      · exact h2 x h
      · exact h3 x h
      · exact h4 x h
      · exact h5 x h
    · intro h
      exact ⟨⟨⟨⟨fun s hs => h s (by simp [hs]), fun s hs => h s (by simp [hs])⟩, fun s hs => h s (by simp [hs])⟩,
        fun s hs => h s (by simp [hs])⟩, fun s hs => h s (by simp [hs])⟩
  · have hany' := hany
    simp only [Bool.or_eq_true, not_or, Bool.not_eq_true, Bool.not_eq_false', List.isEmpty_iff, Option.isSome_eq_false_iff,
      Option.isNone_iff_eq_none] at hany'
    obtain ⟨⟨⟨⟨⟨⟨h1, h2⟩, h3⟩, h4⟩, h5⟩, h6⟩, h7⟩ := hany'
    refine iff_of_true (fun h => absurd h hany) ⟨?_, ?_⟩
    · unfold DurBound
      simp [h3, h4, h5, h6, h7]
    · simp [Finds, h1, h2]

theorem messageCode_ok {G : Var → Option DT} {N : Names} {c : Ctx} {n : String} {w : Option WKT}
    (hn : (N.package n).ok = true) (hh : c.has = true) (hc : c.value = some (.message n w)) (m : Option MessageRules) :
    (messageCode N c (.embed n w) m).all (Stmt.ok G) = true := by
  unfold messageCode
  rw [List.all_append, requiredCode_ok hh, Bool.true_and, all_onlyIf]
  simp [Stmt.ok, hh, hc, hn, getterType]

/-! ### Rules of one value -/

/-- Values of type `T`, in a context with or without `has`, are those the rules are for. -/
def Holds (T : CT) (has : Bool) : TypeRules → Prop
  | .unset => True
  | .num _ _ | .bool _ | .enum _ => T.arithmetic = true
  | .string _ | .bytes _ => T = .string
  | .any _ => has = true ∧ ∃ n, T = .message n (some .any)
  | .duration _ => has = true ∧ ∃ n, T = .message n (some .duration)
  | .timestamp _ => has = true
  | .repeated _ _ | .map _ _ _ => False

/-- Constants that are written where they are used. -/
def CodeConsts : TypeRules → Prop
  | .num _ r => ∀ x, BoundWritten r x → CppNumber x
  | .string r => LengthLimits r.len r.minLen r.maxLen ∧ LengthLimits r.lenBytes r.minBytes r.maxBytes ∧
    ∀ s, TextWritten r s → CLiteral s
  | .bytes r => LengthLimits r.len r.minLen r.maxLen
  | .duration r => ∀ x, DurBound r x → CppInt x.seconds
  | .repeated r _ => IntLimit r.minItems ∧ IntLimit r.maxItems
  | .map r _ _ => IntLimit r.minPairs ∧ IntLimit r.maxPairs
  | _ => True

/-- Members of lists. -/
def TableConsts : TypeRules → Prop
  | .num _ r => ∀ x, x ∈ r.ins ∨ x ∈ r.notIns → CppNumber x
  | .string r => ∀ x, x ∈ r.ins ∨ x ∈ r.notIns → CLiteral x
  | .any r => ∀ x, x ∈ r.ins ∨ x ∈ r.notIns → CLiteral x
  | .duration r => ∀ x, x ∈ r.ins ∨ x ∈ r.notIns → CppInt x.seconds
  | _ => True

/-- Patterns. -/
def PatConst : TypeRules → Prop
  | .string r => ∀ p, r.pattern = some p → CLiteral p
  | .bytes r => ∀ p, r.pattern = some p → CLiteral p
  | _ => True

theorem constants_split (t : TypeRules) : CppConstants t ↔ CodeConsts t ∧ TableConsts t ∧ PatConst t := by
  cases t with
  | num k r =>
    simp only [CppConstants, CodeConsts, TableConsts, PatConst, and_true]
    unfold NumberWritten BoundWritten
    constructor
    · intro h
      refine ⟨fun x hx => h x ?_, fun x hx => h x ?_⟩
      · rcases hx with h | h | h | h | h <;> simp [h]
      · rcases hx with h | h <;> simp [h]
    · rintro ⟨h1, h2⟩ x (h | h | h | h | h | h | h)
      · exact h1 x (.inl h)
      · exact h1 x (.inr (.inl h))
      · exact h1 x (.inr (.inr (.inl h)))
      · exact h1 x (.inr (.inr (.inr (.inl h))))
      · exact h1 x (.inr (.inr (.inr (.inr h))))
      · exact h2 x (.inl h)
      · exact h2 x (.inr h)
  | string r =>
    simp only [CppConstants, CodeConsts, TableConsts, PatConst]
    unfold StringIn TextWritten
    constructor
    · rintro ⟨a, b, h, p⟩
      refine ⟨⟨a, b, fun x hx => h x ?_⟩, fun x hx => h x ?_, p⟩
      · rcases hx with h | h | h | h | h <;> simp [h]
      · rcases hx with h | h <;> simp [h]
    · rintro ⟨⟨a, b, h1⟩, h2, p⟩
      refine ⟨a, b, ?_, p⟩
      rintro x (h | h | h | h | h | h | h)
      · exact h1 x (.inl h)
      · exact h1 x (.inr (.inl h))
      · exact h1 x (.inr (.inr (.inl h)))
      · exact h1 x (.inr (.inr (.inr (.inl h))))
      · exact h1 x (.inr (.inr (.inr (.inr h))))
      · exact h2 x (.inl h)
      · exact h2 x (.inr h)
  | duration r =>
    simp only [CppConstants, CodeConsts, TableConsts, PatConst, and_true]
    unfold DurationIn
    constructor
    · intro h
      exact ⟨fun x hx => h x (.inl hx), fun x hx => h x (.inr hx)⟩
    · rintro ⟨h1, h2⟩ x (h | h)
      · exact h1 x h
      · exact h2 x h
  | _ => simp [CppConstants, CodeConsts, TableConsts, PatConst]

/-- The lists refer to tables that are there. -/
def ListsFound (isPrint : Nat → Bool) (G : Var → Option DT) (T : CT) : TypeRules → Prop
  | .num _ r => Finds (fun v _ => FindOk G T v) r.ins r.notIns
  | .string r => Finds (fun v l => FindOk G T v ∧ ListText isPrint G (preOf v) l) r.ins r.notIns
  | .bytes r => Finds (fun v _ => FindOk G T v) r.ins r.notIns
  | .enum r => Finds (fun v _ => FindOk G T v) r.ins r.notIns
  | .any r => Finds (fun v l => G v = some (.set .string) ∧ ListText isPrint G (urlPreOf v) l) r.ins r.notIns
  | .duration r => Finds (fun v _ => DurTable G v) r.ins r.notIns
  | _ => True

theorem typeCode_ok {G : Var → Option DT} {isPrint : Nat → Bool} (hp : PrintsAscii isPrint) {N : Names} {f : FieldDesc}
    (hpk : (N.enum f).package.ok = true) {c : Ctx} {T : CT} (hc : c.value = some T) {t : TypeRules}
    (hh : Holds T c.has t) (hr : ProtoRanges t) (hu : TextRules t) :
    (typeCode N isPrint f c t).all (Stmt.ok G) = true ↔
      CodeConsts t ∧ (HasPattern t → G .pattern = some .regex) ∧ ListsFound isPrint G T t := by
  cases t with
  | unset => simp [typeCode, CodeConsts, HasPattern, ListsFound]
  | num k r =>
    simp only [typeCode, CodeConsts, HasPattern, ListsFound, false_imp_iff, true_and]
    exact numCode_ok hc hh r
  | bool r =>
    simp only [typeCode, CodeConsts, HasPattern, ListsFound, false_imp_iff, true_and, iff_true]
    have hT : T.arithmetic = true := hh
    unfold boolCode
    rw [all_opt]
    intro b _
    simp [hc, Stmt.ok, hT]
  | string r =>
    have hT : T = .string := hh
    subst hT
    simp only [typeCode, CodeConsts, HasPattern, ListsFound, and_assoc]
    exact stringCode_ok hp hc hu
  | bytes r =>
    have hT : T = .string := hh
    subst hT
    simp only [typeCode, CodeConsts, HasPattern, ListsFound]
    exact bytesCode_ok hc
  | enum r =>
    simp only [typeCode, CodeConsts, HasPattern, ListsFound, false_imp_iff, true_and]
    exact enumCode_ok hpk hc hh hr
  | any r =>
    obtain ⟨h1, n, rfl⟩ := hh
    simp only [typeCode, CodeConsts, HasPattern, ListsFound, false_imp_iff, true_and]
    exact anyCode_ok h1 hc
  | duration r =>
    obtain ⟨h1, n, rfl⟩ := hh
    simp only [typeCode, CodeConsts, HasPattern, ListsFound, false_imp_iff, true_and]
    exact durationCode_ok h1 hc hr
  | timestamp r =>
    simp only [typeCode, CodeConsts, HasPattern, ListsFound, false_imp_iff, true_and, iff_true]
    exact requiredCode_ok hh _
  | repeated r i => exact hh.elim
  | map r k v => exact hh.elim

theorem listsFound_none {isPrint : Nat → Bool} {G : Var → Option DT} {T : CT} (h1 : G .inLookup = none)
    (h2 : G .notInLookup = none) (t : TypeRules) : ListsFound isPrint G T t ↔ ¬ HasList t := by
  have key : ∀ {α : Type} (ok : Var → List α → Prop) (ins notIns : List α), (∀ l, ¬ ok .inLookup l) →
      (∀ l, ¬ ok .notInLookup l) → (Finds ok ins notIns ↔ ¬ (ins ≠ [] ∨ notIns ≠ [])) := by
    intro α ok ins notIns a b
    unfold Finds
    by_cases h1 : ins = [] <;> by_cases h2 : notIns = [] <;> simp [a, b, h1, h2]
  cases t <;> simp only [ListsFound, HasList, not_false_eq_true]
  all_goals exact key _ _ _ (by simp [FindOk, DurTable, Stmt.ok, h1]) (by simp [FindOk, DurTable, Stmt.ok, h2])

/-! ### Tables -/

theorem setDecl_ok {α : Type} (v : Var) (t : Option CT) (key : α → Init) (l : List α) :
    (setDecl v t key l).all Decl.ok = true ↔ (l ≠ [] → ∃ S, t = some S ∧ ∀ a ∈ l, (key a).fits S = true) := by
  unfold setDecl
  cases l with
  | nil => simp
  | cons a l => cases t <;> simp [Decl.ok]

theorem setDecls_ok {α : Type} (t : Option CT) (key : α → Init) (ins notIns : List α) :
    (setDecls t key ins notIns).all Decl.ok = true ↔
      (ins ≠ [] ∨ notIns ≠ [] → ∃ S, t = some S ∧ ∀ a, a ∈ ins ∨ a ∈ notIns → (key a).fits S = true) := by
  unfold setDecls
  rw [List.all_append, Bool.and_eq_true, setDecl_ok, setDecl_ok]
  constructor
  · rintro ⟨h1, h2⟩ (h | h)
    · obtain ⟨S, rfl, hS⟩ := h1 h
      refine ⟨S, rfl, ?_⟩
      rintro a (ha | ha)
      · exact hS a ha
      · obtain ⟨S', e, hS'⟩ := h2 (List.ne_nil_of_mem ha)
        cases e
        exact hS' a ha
    · obtain ⟨S, rfl, hS⟩ := h2 h
      refine ⟨S, rfl, ?_⟩
      rintro a (ha | ha)
      · obtain ⟨S', e, hS'⟩ := h1 (List.ne_nil_of_mem ha)
        cases e
        exact hS' a ha
      · exact hS a ha
  · intro h
    refine ⟨fun h1 => ?_, fun h1 => ?_⟩
    · obtain ⟨S, e, hS⟩ := h (.inl h1)
      exact ⟨S, e, fun a ha => hS a (.inl ha)⟩
    · obtain ⟨S, e, hS⟩ := h (.inr h1)
      exact ⟨S, e, fun a ha => hS a (.inr ha)⟩

theorem patternDecl_ok {isPrint : Nat → Bool} (hp : PrintsAscii isPrint) {p : Option Bytes}
    (hu : ∀ s, p = some s → Utf8 s) :
    (patternDecl isPrint p).all Decl.ok = true ↔ ∀ s, p = some s → CLiteral s := by
  cases p with
  | none => simp [patternDecl]
  | some s => simp [patternDecl, Decl.ok, textLit_iff isPrint hp (hu s rfl)]

theorem scope_pattern {isPrint : Nat → Bool} (p : Option Bytes) :
    scope (patternDecl isPrint p) .inLookup = none ∧ scope (patternDecl isPrint p) .notInLookup = none ∧
    (p ≠ none → scope (patternDecl isPrint p) .pattern = some .regex) := by
  cases p <;> simp [patternDecl, scope]

theorem scope_sets {α : Type} {isPrint : Nat → Bool} (t : Option CT) (key : α → Init) (ins notIns : List α)
    (p : Option Bytes) :
    (ins ≠ [] → scope (setDecls t key ins notIns ++ patternDecl isPrint p) .inLookup = t.map .set) ∧
    (notIns ≠ [] → scope (setDecls t key ins notIns ++ patternDecl isPrint p) .notInLookup = t.map .set) ∧
    (p ≠ none → scope (setDecls t key ins notIns ++ patternDecl isPrint p) .pattern = some .regex) := by
  cases ins <;> cases notIns <;> cases p <;> simp [setDecls, setDecl, patternDecl, scope]

theorem scope_sets' {α : Type} (t : Option CT) (key : α → Init) (ins notIns : List α) :
    (ins ≠ [] → scope (setDecls t key ins notIns) .inLookup = t.map .set) ∧
    (notIns ≠ [] → scope (setDecls t key ins notIns) .notInLookup = t.map .set) := by
  cases ins <;> cases notIns <;> simp [setDecls, setDecl, scope]

/-- Tables of the right type are found. -/
theorem finds_tables {α : Type} {G : Var → Option DT} {S : CT} {ok : Var → List α → Prop} {ins notIns : List α}
    (h1 : ins ≠ [] → G .inLookup = some (.set S)) (h2 : notIns ≠ [] → G .notInLookup = some (.set S))
    (h : ∀ v, G v = some (.set S) → (v = .inLookup → ok v ins) ∧ (v = .notInLookup → ok v notIns)) :
    Finds ok ins notIns :=
  ⟨fun hi => (h _ (h1 hi)).1 rfl, fun _ hn => (h _ (h2 hn)).2 rfl⟩

theorem findOk_cast {G : Var → Option DT} {S T : CT} {v : Var} (h : G v = some (.set S)) (hc : castable S T = true) :
    FindOk G T v := by
  simp [FindOk, Stmt.ok, h, hc]

theorem preOf_plain (v : Var) : ∀ b ∈ ascii (preOf v), 0x20 ≤ b.toNat ∧ b.toNat < 0x7F := by
  cases v <;> decide

theorem urlPreOf_plain (v : Var) : ∀ b ∈ ascii (urlPreOf v), 0x20 ≤ b.toNat ∧ b.toNat < 0x7F := by
  cases v <;> decide

theorem plainEnum_iff (e : EnumType) : e.oneOk = true ↔ PlainEnum e := by
  simp [EnumType.oneOk, PlainEnum]

theorem listEnum_iff (e : EnumType) : e.listOk = true ↔ PlainEnum e ∧ e.sameGo = true := by
  simp [EnumType.listOk, plainEnum_iff]

/-- The tables of string rules. -/
theorem string_tables {isPrint : Nat → Bool} (hp : PrintsAscii isPrint) {r : StringRules}
    (hu : ∀ s, StringIn r s → Utf8 s) (hq : ∀ s, r.pattern = some s → Utf8 s) {ds : List Decl}
    (hd : ds = setDecls (some .string) (fun s => .text (litString isPrint s)) r.ins r.notIns ++
      patternDecl isPrint r.pattern) :
    (ds.all Decl.ok = true ↔ TableConsts (.string r) ∧ PatConst (.string r)) ∧
    (ds.all Decl.ok = true → ListsFound isPrint (scope ds) .string (.string r)) ∧
    (HasPattern (.string r) → scope ds .pattern = some .regex) := by
  have hin : ∀ s, s ∈ r.ins ∨ s ∈ r.notIns → Utf8 s := by
    intro s hs
    refine hu s ?_
    unfold StringIn
    rcases hs with h | h <;> simp [h]
  have first : ds.all Decl.ok = true ↔ TableConsts (.string r) ∧ PatConst (.string r) := by
    rw [hd, List.all_append, Bool.and_eq_true, setDecls_ok, patternDecl_ok hp hq]
    refine and_congr_left fun _ => ?_
    simp only [TableConsts, Option.some.injEq, exists_eq_left', Init.fits]
    constructor
    · intro h x hx
      have : r.ins ≠ [] ∨ r.notIns ≠ [] := hx.imp List.ne_nil_of_mem List.ne_nil_of_mem
      exact (textLit_iff isPrint hp (hin x hx)).1 (h this x hx)
    · intro h _ x hx
      exact (textLit_iff isPrint hp (hin x hx)).2 (h x hx)
  have sc := scope_sets (isPrint := isPrint) (some .string) (fun s => Init.text (litString isPrint s)) r.ins r.notIns
    r.pattern
  rw [← hd] at sc
  refine ⟨first, fun h => ?_, fun h => sc.2.2 h⟩
  have hc := (first.1 h).1
  unfold ListsFound
  refine finds_tables (S := .string) sc.1 sc.2.1 fun v hv => ?_
  have hf : FindOk (scope ds) .string v := findOk_cast hv (by decide)
  exact ⟨fun _ => ⟨hf, listMessage_ok hp (preOf_plain v) fun s hs => ⟨hin s (.inl hs), hc s (.inl hs)⟩⟩,
    fun _ => ⟨hf, listMessage_ok hp (preOf_plain v) fun s hs => ⟨hin s (.inr hs), hc s (.inr hs)⟩⟩⟩

/-- The tables of a singular field. -/
theorem own_tables {isPrint : Nat → Bool} (hp : PrintsAscii isPrint) {N : Names} {f : FieldDesc} {e : ElemT}
    (hf : f.typ = .one e) (hs : Suits (.one e) f.rules.type) (ht : tablesFail f = false)
    (hr : ProtoRanges f.rules.type) (hu : TextRules f.rules.type) :
    ((fieldDecls N isPrint f).all Decl.ok = true ↔ TableConsts f.rules.type ∧ PatConst f.rules.type ∧
      ∀ vs, e = .enum vs → HasList f.rules.type → PlainEnum (N.enum f)) ∧
    ((fieldDecls N isPrint f).all Decl.ok = true → ∀ T has, Holds T has f.rules.type →
      ListsFound isPrint (scope (fieldDecls N isPrint f)) T f.rules.type) ∧
    (HasPattern f.rules.type → scope (fieldDecls N isPrint f) .pattern = some .regex) := by
  unfold tablesFail at ht
  rw [hf] at ht
  generalize hds : fieldDecls N isPrint f = ds
  unfold fieldDecls at hds
  cases hrt : f.rules.type with
  | unset =>
    simp only [hrt] at hds
    subst hds
    simp [TableConsts, PatConst, HasList, HasPattern, ListsFound]
  | num k r =>
    simp only [hrt] at hds hs ht hr
    have ho : r.ins ≠ [] ∨ r.notIns ≠ [] → ownType N f (.num k r) = some (.num k) := by
      intro hl
      rcases hs with hs | ⟨n, w, hs, hw⟩
      · cases hs; simp [ownType, hf]
      · cases hs
        simp only [tables, inTypeFails, Bool.and_true, Bool.or_eq_false_iff, Bool.not_eq_false', List.isEmpty_iff] at ht
        simp [ht.1, ht.2] at hl
    have first : ds.all Decl.ok = true ↔ TableConsts (.num k r) := by
      rw [← hds, setDecls_ok]
      simp only [TableConsts]
      constructor
      · intro h x hx
        have hne : r.ins ≠ [] ∨ r.notIns ≠ [] := hx.imp List.ne_nil_of_mem List.ne_nil_of_mem
        obtain ⟨S, e', hS⟩ := h hne
        rw [ho hne] at e'
        cases e'
        have := hS x hx
        simp only [Init.fits, Bool.and_eq_true] at this
        exact (numLit_iff x).1 this.1
      · intro h hne
        refine ⟨_, ho hne, fun x hx => ?_⟩
        simp only [Init.fits, Bool.and_eq_true]
        refine ⟨(numLit_iff x).2 (h x hx), hr x ?_⟩
        unfold NumberIn
        rcases hx with h | h <;> simp [h]
    have sc := scope_sets' (ownType N f (.num k r)) Init.num r.ins r.notIns
    rw [hds] at sc
    refine ⟨?_, fun _ T has hT => ?_, by simp [HasPattern]⟩
    · rw [first]
      simp only [PatConst, true_and, iff_self_and]
      rintro _ vs rfl
      rcases hs with hs | ⟨n, w, hs, hw⟩ <;> cases hs
    · unfold ListsFound
      refine finds_tables (G := scope ds) (S := .num k) (fun h => ?_) (fun h => ?_) fun v hv => ?_
      · rw [sc.1 h, ho (.inl h)]; rfl
      · rw [sc.2 h, ho (.inr h)]; rfl
      · have hTa : T.arithmetic = true := hT
        have : FindOk (scope ds) T v := findOk_cast hv (by unfold castable; rw [hTa]; rfl)
        exact ⟨fun _ => this, fun _ => this⟩
  | bool r =>
    simp only [hrt] at hds
    subst hds
    simp only [hrt] at hs
    simp [TableConsts, PatConst, HasList, HasPattern, ListsFound]
  | string r =>
    simp only [hrt] at hds hs hr hu
    have ho : ownType N f (.string r) = some .string := by
      rcases hs with hs | ⟨n, hs⟩ <;> (cases hs; simp [ownType, hf])
    rw [ho] at hds
    obtain ⟨h1, h2, h3⟩ := string_tables hp hu hr hds.symm
    refine ⟨?_, fun h T has hT => ?_, h3⟩
    · rw [h1]
      refine and_congr_right fun _ => ?_
      simp only [iff_self_and]
      rintro _ vs rfl
      rcases hs with hs | ⟨n, hs⟩ <;> cases hs
    · have : T = .string := hT
      subst this
      exact h2 h
  | bytes r =>
    simp only [hrt] at hds hs ht hr
    have ho : r.ins ≠ [] ∨ r.notIns ≠ [] → ownType N f (.bytes r) = some .string := by
      intro hl
      rcases hs with hs | ⟨n, hs⟩
      · cases hs; simp [ownType, hf]
      · cases hs
        simp only [tables, inTypeFails, Bool.and_true, Bool.or_eq_false_iff, Bool.not_eq_false', List.isEmpty_iff] at ht
        simp [ht.1, ht.2] at hl
    have sc := scope_sets (isPrint := isPrint) (ownType N f (.bytes r)) (fun b => Init.text (byteStr b)) r.ins r.notIns
      r.pattern
    rw [hds] at sc
    refine ⟨?_, fun _ T has hT => ?_, fun h => sc.2.2 h⟩
    · rw [← hds, List.all_append, Bool.and_eq_true, setDecls_ok, patternDecl_ok hp hr]
      have tb : (r.ins ≠ [] ∨ r.notIns ≠ [] → ∃ S, ownType N f (.bytes r) = some S ∧
          ∀ a, a ∈ r.ins ∨ a ∈ r.notIns → (Init.text (byteStr a)).fits S = true) := fun hne =>
        ⟨_, ho hne, fun a _ => by simp [Init.fits, textLit, read_byteStr]⟩
      simp only [TableConsts, PatConst, true_and]
      constructor
      · rintro ⟨_, h⟩
        refine ⟨h, ?_⟩
        rintro vs rfl
        rcases hs with hs | ⟨n, hs⟩ <;> cases hs
      · rintro ⟨h, _⟩
        exact ⟨tb, h⟩
    · have hTs : T = .string := hT
      subst hTs
      unfold ListsFound
      refine finds_tables (G := scope ds) (S := .string) (fun h => ?_) (fun h => ?_) fun v hv => ?_
      · rw [sc.1 h, ho (.inl h)]; rfl
      · rw [sc.2.1 h, ho (.inr h)]; rfl
      · have : FindOk (scope ds) .string v := findOk_cast hv (by decide)
        exact ⟨fun _ => this, fun _ => this⟩
  | enum r =>
    simp only [hrt] at hds hs hr
    obtain ⟨vs, hs⟩ := hs
    cases hs
    have ho : ownType N f (.enum r) = if (N.enum f).oneOk then some (.enum vs) else none := by simp [ownType, hf]
    have sc := scope_sets' (ownType N f (.enum r)) Init.enum r.ins r.notIns
    rw [hds] at sc
    have first : ds.all Decl.ok = true ↔ (r.ins ≠ [] ∨ r.notIns ≠ [] → (N.enum f).oneOk = true) := by
      rw [← hds, setDecls_ok]
      refine forall_congr' fun hne => ?_
      rw [ho]
      constructor
      · rintro ⟨S, e', _⟩
        split at e'
        · assumption
        · cases e'
      · intro h
        refine ⟨.enum vs, by simp [h], fun x hx => ?_⟩
        have := hr x (.inr hx)
        simp only [Init.fits]
        exact (intLit_iff x).2 (by unfold JavaInt at this; unfold CppInt; omega)
    refine ⟨?_, fun h T has hT => ?_, by simp [HasPattern]⟩
    · rw [first]
      simp only [TableConsts, PatConst, true_and, HasList, plainEnum_iff]
      exact ⟨fun h _ _ hl => h hl, fun h hl => h vs rfl hl⟩
    · have hok := first.1 h
      unfold ListsFound
      refine finds_tables (G := scope ds) (S := .enum vs) (fun h => ?_) (fun h => ?_) fun v hv => ?_
      · rw [sc.1 h, ho, if_pos (hok (.inl h))]; rfl
      · rw [sc.2 h, ho, if_pos (hok (.inr h))]; rfl
      · have hTa : T.arithmetic = true := hT
        have : FindOk (scope ds) T v := findOk_cast hv (by unfold castable; rw [hTa]; rfl)
        exact ⟨fun _ => this, fun _ => this⟩
  | repeated r i => simp only [hrt] at hs; obtain ⟨_, hs⟩ := hs; cases hs
  | map r k v => simp only [hrt] at hs; obtain ⟨_, _, hs⟩ := hs; cases hs
  | any r =>
    simp only [hrt] at hds hs hu
    obtain ⟨n, hs⟩ := hs
    cases hs
    have ho : ownType N f (.any r) = some .string := by simp [ownType, hf]
    have sc := scope_sets' (ownType N f (.any r)) (fun s => Init.text (litString isPrint s)) r.ins r.notIns
    rw [hds] at sc
    have first : ds.all Decl.ok = true ↔ TableConsts (.any r) := by
      rw [← hds, setDecls_ok, ho]
      simp only [TableConsts, Option.some.injEq, exists_eq_left', Init.fits]
      constructor
      · intro h x hx
        exact (textLit_iff isPrint hp (hu x hx)).1 (h (hx.imp List.ne_nil_of_mem List.ne_nil_of_mem) x hx)
      · intro h _ x hx
        exact (textLit_iff isPrint hp (hu x hx)).2 (h x hx)
    refine ⟨?_, fun h T has hT => ?_, by simp [HasPattern]⟩
    · rw [first]
      simp [PatConst]
    · have hok := first.1 h
      unfold ListsFound
      refine finds_tables (G := scope ds) (S := .string) (fun h => ?_) (fun h => ?_) fun v hv => ?_
      · rw [sc.1 h, ho]; rfl
      · rw [sc.2 h, ho]; rfl
      · exact ⟨fun _ => ⟨hv, listMessage_ok hp (urlPreOf_plain v) fun s hs => ⟨hu s (.inl hs), hok s (.inl hs)⟩⟩,
          fun _ => ⟨hv, listMessage_ok hp (urlPreOf_plain v) fun s hs => ⟨hu s (.inr hs), hok s (.inr hs)⟩⟩⟩
  | duration r =>
    simp only [hrt] at hds hs hr
    obtain ⟨n, hs⟩ := hs
    cases hs
    have ho : ownType N f (.duration r) = some (.message "google.protobuf.Duration" (some .duration)) := by
      simp [ownType, hf]
    have sc := scope_sets' (ownType N f (.duration r)) Init.dur r.ins r.notIns
    rw [hds] at sc
    have first : ds.all Decl.ok = true ↔ TableConsts (.duration r) := by
      rw [← hds, setDecls_ok, ho]
      simp only [TableConsts, Option.some.injEq, exists_eq_left', Init.fits]
      constructor
      · intro h x hx
        exact (durExpr_iff (hr x (.inr hx))).1 (h (hx.imp List.ne_nil_of_mem List.ne_nil_of_mem) x hx)
      · intro h _ x hx
        exact (durExpr_iff (hr x (.inr hx))).2 (h x hx)
    refine ⟨?_, fun h T has hT => ?_, by simp [HasPattern]⟩
    · rw [first]
      simp [PatConst]
    · unfold ListsFound
      refine finds_tables (G := scope ds) (S := .message "google.protobuf.Duration" (some .duration)) (fun h => ?_)
        (fun h => ?_) fun v hv => ?_
      · rw [sc.1 h, ho]; rfl
      · rw [sc.2 h, ho]; rfl
      · have : DurTable (scope ds) v := by simp [DurTable, Stmt.ok, hv]
        exact ⟨fun _ => this, fun _ => this⟩
  | timestamp r =>
    simp only [hrt] at hds
    subst hds
    simp [TableConsts, PatConst, HasList, HasPattern, ListsFound]

/-! ### Rules of a value in its place -/

theorem wrappedType_num {w : WKT} {k : NumKind} (h : w.wrapped = some (.num k)) : wrappedType w = .num k := by
  cases w <;> simp [WKT.wrapped] at h <;> subst h <;> rfl

/-- The code for a value of element type `e` compiles exactly if its constants do, and its tables are there. -/
theorem elemCode_ok {G : Var → Option DT} {isPrint : Nat → Bool} (hp : PrintsAscii isPrint) {N : Names} {f : FieldDesc}
    (hpk : (N.enum f).package.ok = true) (hpm : ∀ n, (N.package n).ok = true) {c : Ctx} {e : ElemT} {rules : FieldRules}
    (hc : c.value = some (getterType e) ∨ c.value = some (itemType e)) (hh : e.isEmbed = true → c.has = true)
    (hs : Suits (.one e) rules.type) (hr : ProtoRanges rules.type) (hu : TextRules rules.type) :
    ∃ T has, Holds T has rules.type ∧ ((elemCode N isPrint f c e rules).all (Stmt.ok G) = true ↔
      CodeConsts rules.type ∧ (HasPattern rules.type → G .pattern = some .regex) ∧
        ListsFound isPrint G T rules.type) := by
  by_cases hun : rules.type = .unset
  · refine ⟨.bool, true, by simp [hun, Holds], iff_of_true ?_ (by simp [hun, CodeConsts, HasPattern, ListsFound])⟩
    unfold elemCode resolve
    rw [hun]
    cases e with
    | embed n w =>
      simp only [ElemT.isEmbed, if_true]
      refine messageCode_ok (hpm n) (hh rfl) ?_ _
      rcases hc with h | h <;> exact h
    | _ => simp [ElemT.isEmbed]
  by_cases hwr : e.isEmbed = true ∧ WrapperKind rules.type
  · have hres := Java.resolve_wrapperKind hwr.1 hwr.2
    cases e with
    | embed n w =>
      have hv : ∃ T₀, c.value = some T₀ := by rcases hc with h | h <;> exact ⟨_, h⟩
      obtain ⟨T₀, hT₀⟩ := hv
      have hw : ∃ w', w = some w' ∧ Holds (wrappedType w') true rules.type := by
        cases hrt : rules.type with
        | num k r =>
          rw [hrt] at hs
          rcases hs with hs | ⟨n', w', hs, hw'⟩
          · cases hs
          · cases hs; exact ⟨w', rfl, by simp [Holds, wrappedType_num hw', CT.arithmetic]⟩
        | bool r =>
          rw [hrt] at hs
          rcases hs with hs | ⟨n', hs⟩
          · cases hs
          · cases hs; exact ⟨_, rfl, rfl⟩
        | string r =>
          rw [hrt] at hs
          rcases hs with hs | ⟨n', hs⟩
          · cases hs
          · cases hs; exact ⟨_, rfl, rfl⟩
        | bytes r =>
          rw [hrt] at hs
          rcases hs with hs | ⟨n', hs⟩
          · cases hs
          · cases hs; exact ⟨_, rfl, rfl⟩
        | _ => rw [hrt] at hwr; exact hwr.2.elim
      obtain ⟨w', rfl, hh'⟩ := hw
      refine ⟨_, true, hh', ?_⟩
      unfold elemCode
      simp only [hres, List.all_cons, Stmt.ok, hh hwr.1, Bool.true_and, hT₀, Option.map_some]
      exact typeCode_ok hp hpk rfl hh' hr hu
    | _ => simp [ElemT.isEmbed] at hwr
  · have hres := Java.resolve_plain hwr hun
    have hT : ∃ T, c.value = some T ∧ Holds T c.has rules.type := by
      cases hrt : rules.type with
      | unset => exact absurd hrt hun
      | num k r =>
        rw [hrt] at hs hwr
        rcases hs with hs | ⟨n', w', hs, hw'⟩
        · cases hs; rcases hc with h | h <;> exact ⟨_, h, rfl⟩
        · cases hs
          exact absurd ⟨rfl, by cases w' <;> simp [WKT.wrapped] at hw' <;> subst hw' <;> simp [WrapperKind]⟩ hwr
      | bool r =>
        rw [hrt] at hs hwr
        rcases hs with hs | ⟨n', hs⟩
        · cases hs; rcases hc with h | h <;> exact ⟨_, h, rfl⟩
        · cases hs; exact absurd ⟨rfl, trivial⟩ hwr
      | string r =>
        rw [hrt] at hs hwr
        rcases hs with hs | ⟨n', hs⟩
        · cases hs; rcases hc with h | h <;> exact ⟨_, h, rfl⟩
        · cases hs; exact absurd ⟨rfl, trivial⟩ hwr
      | bytes r =>
        rw [hrt] at hs hwr
        rcases hs with hs | ⟨n', hs⟩
        · cases hs; rcases hc with h | h <;> exact ⟨_, h, rfl⟩
        · cases hs; exact absurd ⟨rfl, trivial⟩ hwr
      | enum r =>
        rw [hrt] at hs
        obtain ⟨vs, hs⟩ := hs
        cases hs; rcases hc with h | h <;> exact ⟨_, h, rfl⟩
      | repeated r i => rw [hrt] at hs; obtain ⟨_, hs⟩ := hs; cases hs
      | map r k v => rw [hrt] at hs; obtain ⟨_, _, hs⟩ := hs; cases hs
      | any r =>
        rw [hrt] at hs
        obtain ⟨n, hs⟩ := hs
        cases hs; rcases hc with h | h <;> exact ⟨_, h, hh rfl, _, rfl⟩
      | duration r =>
        rw [hrt] at hs
        obtain ⟨n, hs⟩ := hs
        cases hs; rcases hc with h | h <;> exact ⟨_, h, hh rfl, _, rfl⟩
      | timestamp r =>
        rw [hrt] at hs
        obtain ⟨n, hs⟩ := hs
        cases hs; rcases hc with h | h <;> exact ⟨_, h, hh rfl⟩
    obtain ⟨T, hv, hH⟩ := hT
    refine ⟨T, c.has, hH, ?_⟩
    unfold elemCode
    simp only [hres]
    exact typeCode_ok hp hpk hv hH hr hu

end PGV.Cpp
