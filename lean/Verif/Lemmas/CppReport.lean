import Verif.Lemmas.CppMsg
import Verif.Lemmas.Reason
import Verif.Spec.CppReport

/-!
Every violation a C++ check reports is among those the Go check reports in "all" mode.
-/

set_option linter.unusedSimpArgs false
set_option autoImplicit false

namespace PGV.Cpp
open PGV PGV.Spec.Cpp
open PGV.Go (Ctx Env Err Exec resolve elemTypNotNone depth Idx)
open PGV.Spec (numVal numSame Reported PortDur)

/-- In "all" mode the fragment appends a fixed list. -/
def Appends (y : Exec) : Prop := ∃ l, ∀ acc, y acc = .ok (acc ++ l)

/-- The Go fragment appends a fixed list, with an error for each way in which the C++ code fails. -/
def Exhibits (Q : CErr → Err → Prop) (x : Run) (y : Exec) : Prop :=
  ∃ l, (∀ acc, y acc = .ok (acc ++ l)) ∧ ∀ e, x = .error (.invalid e) → ∃ g ∈ l, Q e g

theorem Appends.skip : Appends Go.Exec.skip := ⟨[], fun acc => by simp [Go.Exec.skip]⟩
theorem Appends.append (e : Err) : Appends (Go.Exec.append e) := ⟨[e], fun _ => rfl⟩
theorem Appends.report (e : Err) : Appends (Go.Exec.report true e) := ⟨[e], fun _ => rfl⟩
theorem Appends.when {b : Bool} {y : Exec} (h : Appends y) : Appends (Go.Exec.when b y) := by
  cases b
  · exact Appends.skip
  · exact h
theorem Appends.seq {x y : Exec} (hx : Appends x) (hy : Appends y) : Appends (Go.Exec.seq x y) := by
  obtain ⟨l, hl⟩ := hx
  obtain ⟨m, hm⟩ := hy
  exact ⟨l ++ m, fun acc => by simp [Go.Exec.seq, hl, hm]⟩
theorem Appends.forEach {α : Type} {xs : List α} {f : α → Exec} (h : ∀ a ∈ xs, Appends (f a)) :
    Appends (Go.Exec.forEach xs f) := by
  induction xs with
  | nil => exact Appends.skip
  | cons x xs ih =>
    exact (h x List.mem_cons_self).seq (ih fun a ha => h a (List.mem_cons_of_mem _ ha))

/-- Take a template apart. -/
macro "appends" : tactic => `(tactic|
  repeat' first
    | exact Appends.skip
    | exact Appends.append _
    | exact Appends.report _
    | apply Appends.seq
    | apply Appends.when
    | split)

section
variable {Q : CErr → Err → Prop}

theorem Exhibits.appends {x : Run} {y : Exec} (h : Exhibits Q x y) : Appends y := ⟨h.choose, h.choose_spec.1⟩

theorem Exhibits.of {x : Run} {y : Exec} (hy : Appends y) (h : ∀ e, x ≠ .error (.invalid e)) : Exhibits Q x y := by
  obtain ⟨l, hl⟩ := hy
  exact ⟨l, hl, fun e he => absurd he (h e)⟩

theorem Exhibits.ok {y : Exec} (hy : Appends y) : Exhibits Q (.ok ()) y := .of hy (by simp)

theorem Exhibits.skip : Exhibits Q (.ok ()) Go.Exec.skip := .ok .skip

theorem Exhibits.throw {y : Exec} (w : String) (hy : Appends y) : Exhibits Q (throw w) y := .of hy (by simp [Cpp.throw])

theorem Exhibits.left {x : Run} {y z : Exec} (h : Exhibits Q x y) (hz : Appends z) :
    Exhibits Q x (Go.Exec.seq y z) := by
  obtain ⟨l, hl, he⟩ := h
  obtain ⟨m, hm⟩ := hz
  refine ⟨l ++ m, fun acc => by simp [Go.Exec.seq, hl, hm], fun e h' => ?_⟩
  obtain ⟨g, hg, hQ⟩ := he e h'
  exact ⟨g, by simp [hg], hQ⟩

theorem Exhibits.right {x : Run} {y z : Exec} (hy : Appends y) (h : Exhibits Q x z) :
    Exhibits Q x (Go.Exec.seq y z) := by
  obtain ⟨l, hl, he⟩ := h
  obtain ⟨m, hm⟩ := hy
  refine ⟨m ++ l, fun acc => by simp [Go.Exec.seq, hl, hm], fun e h' => ?_⟩
  obtain ⟨g, hg, hQ⟩ := he e h'
  exact ⟨g, by simp [hg], hQ⟩

/-- Both checks are found in the same code; the second one if the first passes. -/
theorem Exhibits.both {x x' : Run} {y : Exec} (h : Exhibits Q x y) (h' : x = .ok () → Exhibits Q x' y) :
    Exhibits Q (x ⊳ x') y := by
  obtain ⟨l, hl, he⟩ := h
  refine ⟨l, hl, fun e hx => ?_⟩
  unfold Cpp.seq at hx
  split at hx
  · rename_i u
    obtain ⟨m, hm, he'⟩ := h' rfl
    have : l = m := by
      have h1 := (hl []).symm.trans (hm [])
      simpa using h1
    rw [this]
    exact he' e hx
  · exact he e hx

theorem Exhibits.seq {x x' : Run} {y y' : Exec} (h : Exhibits Q x y) (h' : Exhibits Q x' y') :
    Exhibits Q (x ⊳ x') (Go.Exec.seq y y') := (h.left h'.appends).both fun _ => h'.right h.appends

theorem Exhibits.when {b b' : Bool} {x : Run} {y : Exec} (hb : b = true → b' = true) (h : Exhibits Q x y) :
    Exhibits Q (when b x) (Go.Exec.when b' y) := by
  cases b with
  | false => exact .ok h.appends.when
  | true => rw [hb rfl]; exact h

theorem Exhibits.ite {p : Prop} [Decidable p] {x x' : Run} {y y' : Exec} (h : p → Exhibits Q x y)
    (h' : ¬ p → Exhibits Q x' y') : Exhibits Q (if p then x else x') (if p then y else y') := by
  by_cases hp : p
  · rw [if_pos hp, if_pos hp]; exact h hp
  · rw [if_neg hp, if_neg hp]; exact h' hp

theorem Exhibits.ignore {o : Option Bool} {b b' : Bool} {x : Run} {y : Exec} (hb : b = true → b' = true)
    (h : Exhibits Q x y) :
    Exhibits Q (if optB o then Cpp.when b x else x) (if optB o then Go.Exec.when b' y else y) :=
  .ite (fun _ => h.when hb) (fun _ => h)

theorem Exhibits.forEach {α : Type} {xs ys : List α} {f : α → Run} {g : α → Exec}
    (hx : ∀ a ∈ xs, a ∈ ys ∧ Exhibits Q (f a) (g a)) (hy : ∀ a ∈ ys, Appends (g a)) :
    Exhibits Q (forEach xs f) (Go.Exec.forEach ys g) := by
  have one : ∀ (x : Run) (a : α), a ∈ ys → Exhibits Q x (g a) → Exhibits Q x (Go.Exec.forEach ys g) := by
    intro x a ha h
    clear hx
    induction ys with
    | nil => cases ha
    | cons b ys ih =>
      rcases List.mem_cons.1 ha with rfl | ha
      · exact h.left (Appends.forEach fun a ha => hy a (List.mem_cons_of_mem _ ha))
      · exact (ih (fun a ha => hy a (List.mem_cons_of_mem _ ha)) ha).right (hy b List.mem_cons_self)
  induction xs with
  | nil => exact .ok (Appends.forEach hy)
  | cons a xs ih =>
    obtain ⟨ha, h⟩ := hx a List.mem_cons_self
    exact (one _ a ha h).both fun _ => ih fun b hb => hx b (List.mem_cons_of_mem _ hb)

end

section
variable {E : Env} {P : CEnv}

/-- The text of another reason than the one for embedded messages. -/
def Rule (r : List Go.Piece) : Prop := r ≠ [.s "embedded message failed validation"]

/-- A text is not the one for embedded messages. -/
macro "told" : tactic => `(tactic| first | assumption | (intros; simp [Rule]; done))

theorem Exhibits.fail {c : Ctx} {r r' : List Go.Piece} (h : wording r = wording r') (hn : Rule r' := by told) :
    Exhibits (SameReport E P) (fail c r) (Go.Exec.report true (Go.err c r')) := by
  refine ⟨[Go.err c r'], fun _ => rfl, fun e he => ⟨_, List.mem_singleton.2 rfl, ?_⟩⟩
  cases he
  exact .rule h hn (.inl rfl) (.inl rfl)

theorem Exhibits.check {b b' : Bool} {c : Ctx} {r r' : List Go.Piece} (hb : b = true → b' = true)
    (h : wording r = wording r') (hn : Rule r' := by told) :
    Exhibits (SameReport E P) (Cpp.when b (Cpp.fail c r)) (Go.Exec.when b' (Go.Exec.report true (Go.err c r'))) :=
  (Exhibits.fail h hn).when hb

theorem Exhibits.checkLib {b : Bool} {c : Ctx} {r r' : List Go.Piece} {t : String}
    (h : wording r = wording r') (hn : Rule r' := by told) :
    Exhibits (SameReport E P) (Cpp.when b (Cpp.fail c r)) (Go.Exec.report true (Go.errCause c (.lib t) r')) := by
  refine ⟨[Go.errCause c (.lib t) r'], fun _ => rfl, fun e he => ⟨_, List.mem_singleton.2 rfl, ?_⟩⟩
  cases b
  · cases he
  · cases he
    exact .rule h hn (.inl rfl) (.inr ⟨t, rfl⟩)

/-! ### Numbers -/

theorem ltgt_finds (c : Ctx) (r : NumRules) (v : CNum) (n : Num)
    (h : ∀ b, r.lt = some b ∨ r.lte = some b ∨ r.gt = some b ∨ r.gte = some b →
      ∃ y, numVal b = some y ∧ Compares v (rangeLit P b) (numVal n) y) :
    Exhibits (SameReport E P) (ltgtTpl P c r v) (Go.ltgtTpl true c r n) := by
  have H : ∀ b, (r.lt = some b ∨ r.lte = some b ∨ r.gt = some b ∨ r.gte = some b) →
      v.le (rangeLit P b) = n.le b ∧ v.lt (rangeLit P b) = n.lt b ∧
      (rangeLit P b).le v = n.ge b ∧ (rangeLit P b).lt v = n.gt b := by
    intro b hb
    obtain ⟨y, hy, hc⟩ := h b hb
    rw [hc.le, hc.lt, hc.ge, hc.gt]
    refine ⟨Bool.eq_iff_iff.2 ?_, Bool.eq_iff_iff.2 ?_, Bool.eq_iff_iff.2 ?_, Bool.eq_iff_iff.2 ?_⟩ <;>
      simp only [Num.ge, Num.gt, Go.Num.le_iff, Go.Num.lt_iff, hy] <;> cases numVal n <;> simp
  unfold ltgtTpl Go.ltgtTpl
  cases hlt : r.lt with
  | some lt =>
    obtain ⟨a1, a2, a3, a4⟩ := H lt (by simp [hlt])
    cases hgt : r.gt with
    | some gt =>
      obtain ⟨b1, b2, b3, b4⟩ := H gt (by simp [hgt])
      simp only [a1, a2, a3, a4, b1, b2, b3, b4]
      exact Exhibits.ite (fun _ => Exhibits.check id rfl) (fun _ => Exhibits.check id rfl)
    | none =>
      cases hgte : r.gte with
      | some gt =>
        obtain ⟨b1, b2, b3, b4⟩ := H gt (by simp [hgte])
        simp only [a1, a2, a3, a4, b1, b2, b3, b4]
        exact Exhibits.ite (fun _ => Exhibits.check id rfl) (fun _ => Exhibits.check id rfl)
      | none =>
        simp only [a1, a2, a3, a4]
        exact Exhibits.check id rfl
  | none =>
    cases hlte : r.lte with
    | some lt =>
      obtain ⟨a1, a2, a3, a4⟩ := H lt (by simp [hlte])
      cases hgt : r.gt with
      | some gt =>
        obtain ⟨b1, b2, b3, b4⟩ := H gt (by simp [hgt])
        simp only [a1, a2, a3, a4, b1, b2, b3, b4]
        exact Exhibits.ite (fun _ => Exhibits.check id rfl) (fun _ => Exhibits.check id rfl)
      | none =>
        cases hgte : r.gte with
        | some gt =>
          obtain ⟨b1, b2, b3, b4⟩ := H gt (by simp [hgte])
          simp only [a1, a2, a3, a4, b1, b2, b3, b4]
          exact Exhibits.ite (fun _ => Exhibits.check id rfl) (fun _ => Exhibits.check id rfl)
        | none =>
          simp only [a1, a2, a3, a4]
          exact Exhibits.check id rfl
    | none =>
      cases hgt : r.gt with
      | some gt =>
        obtain ⟨b1, b2, b3, b4⟩ := H gt (by simp [hgt])
        simp only [b1, b2, b3, b4]
        exact Exhibits.check id rfl
      | none =>
        cases hgte : r.gte with
        | some gt =>
          obtain ⟨b1, b2, b3, b4⟩ := H gt (by simp [hgte])
          simp only [b1, b2, b3, b4]
          exact Exhibits.check id rfl
        | none => exact Exhibits.skip

theorem in_finds {α : Type} (c : Ctx) (ins notIns : List α) (found found' : List α → Bool)
    (what : List α → Go.Piece) (hi : ins ≠ [] → found ins = found' ins)
    (hn : notIns ≠ [] → found notIns = found' notIns) :
    Exhibits (SameReport E P) (inTpl c ins notIns found what)
      (if !ins.isEmpty then
        Go.Exec.when (!found' ins) (Go.Exec.report true (Go.err c [.s "value must be in list ", what ins]))
       else if !notIns.isEmpty then
        Go.Exec.when (found' notIns)
          (Go.Exec.report true (Go.err c [.s "value must not be in list ", what notIns]))
       else Go.Exec.skip) := by
  unfold inTpl
  refine Exhibits.ite (fun h => ?_) (fun _ => Exhibits.ite (fun h => ?_) (fun _ => Exhibits.skip))
  · rw [hi (by simpa using h)]; exact Exhibits.check id rfl
  · rw [hn (by simpa using h)]; exact Exhibits.check id rfl

theorem num_finds {S : Schema} (hL : LibsAgree E P S) (c : Ctx) (k : NumKind)
    (r : NumRules) (n : Num) (hr : PortNum P k r) (hn : NumOf k n)
    (hnan : r.ins ≠ [] ∨ r.notIns ≠ [] → numVal n ≠ none) :
    Exhibits (SameReport E P) (numTpl P c k r n) (Go.numTpl true c r n) := by
  obtain ⟨h1, h2, h3, h4⟩ := hr
  have hin : ∀ l : List Num, (∀ b ∈ l, ConstOk k b) → numVal n ≠ none →
      setFind CNum.lt (l.map (setKey P k)) (cnum k n) = l.any (fun b => n.eq b) := by
    intro l hl hv
    rw [Bool.eq_iff_iff, set_iff hL l hn hv hl, List.any_eq_true]
    simp only [Num.eq_iff]
  unfold numTpl Go.numTpl
  refine Exhibits.ignore ?_ (Exhibits.seq ?_ (Exhibits.seq ?_ ?_))
  · intro h
    rw [Bool.not_eq_true', ← Bool.not_eq_true, Num.isZero_iff, ← nonzero_iff k n hn, h]
    simp
  · unfold Go.numConstTpl withOpt
    cases hc : r.const with
    | none => exact Exhibits.skip
    | some b =>
      refine Exhibits.check ?_ rfl
      obtain ⟨y, hy, hc⟩ := compares_const hL hn (h1 b hc)
      rw [hc.eq]
      intro h
      rw [Bool.not_eq_true', ← Bool.not_eq_true, Num.eq_iff, numSame, hy]
      cases hx : numVal n with
      | none => simp
      | some x => rw [hx] at h; simp at h; simp; exact fun e => h e.symm
  · exact ltgt_finds c r _ n fun b hb => compares_range hL hn (h2 b hb)
  · exact in_finds c r.ins r.notIns _ (fun l => l.any fun b => n.eq b) .nums
      (fun h => hin _ h3 (hnan (.inl h))) (fun h => hin _ h4 (hnan (.inr h)))

theorem bool_finds (c : Ctx) (r : BoolRules) (b : Bool) :
    Exhibits (SameReport E P) (boolTpl c r b) (Go.boolTpl true c r b) := by
  unfold boolTpl Go.boolTpl withOpt
  cases r.const with
  | none => exact Exhibits.skip
  | some k => exact Exhibits.check id rfl

/-! ### Strings and bytes -/

theorem len_finds {T : LenText} {G : LenText} (c : Ctx) (len min max : Option Nat) (n : Nat)
    (h1 : ∀ k, wording (T.exactly k) = wording (G.exactly k))
    (h2 : ∀ a b, wording (T.between a b) = wording (G.between a b))
    (h3 : ∀ k, wording (T.atLeast k) = wording (G.atLeast k))
    (h4 : ∀ k, wording (T.atMost k) = wording (G.atMost k))
    (n1 : ∀ k, Rule (G.exactly k)) (n2 : ∀ a b, Rule (G.between a b)) (n3 : ∀ k, Rule (G.atLeast k))
    (n4 : ∀ k, Rule (G.atMost k)) :
    Exhibits (SameReport E P) (lenTpl T c len min max n)
      (if len.isSome || (min.isSome && max.isSome && optN min == optN max) then
        if len.isSome then
          Go.Exec.when (n != optN len) (Go.Exec.report true (Go.err c (G.exactly (optN len))))
        else Go.Exec.when (n != optN min) (Go.Exec.report true (Go.err c (G.exactly (optN min))))
      else if min.isSome then
        if max.isSome then
          Go.Exec.when (decide (n < optN min) || decide (n > optN max))
            (Go.Exec.report true (Go.err c (G.between (optN min) (optN max))))
        else Go.Exec.when (decide (n < optN min)) (Go.Exec.report true (Go.err c (G.atLeast (optN min))))
      else if max.isSome then
        Go.Exec.when (decide (n > optN max)) (Go.Exec.report true (Go.err c (G.atMost (optN max))))
      else Go.Exec.skip) := by
  unfold lenTpl
  exact Exhibits.ite
    (fun _ => Exhibits.ite (fun _ => Exhibits.check id (h1 _) (n1 _)) (fun _ => Exhibits.check id (h1 _) (n1 _)))
    (fun _ => Exhibits.ite
      (fun _ => Exhibits.ite (fun _ => Exhibits.check id (h2 _ _) (n2 _ _)) (fun _ => Exhibits.check id (h3 _) (n3 _)))
      (fun _ => Exhibits.ite (fun _ => Exhibits.check id (h4 _) (n4 _)) (fun _ => Exhibits.skip)))

/-- The texts of templates/goshared/string.go:13-46. -/
def runeText : LenText where
  exactly n := [.s "value length must be ", .nat n, .s " runes"]
  between a b := [.s "value length must be between ", .nat a, .s " and ", .nat b, .s " runes, inclusive"]
  atLeast n := [.s "value length must be at least ", .nat n, .s " runes"]
  atMost n := [.s "value length must be at most ", .nat n, .s " runes"]

theorem opt_finds {c : Ctx} {o : Option Bytes} {b b' : Bytes → Bool} {txt txt' : Bytes → List Go.Piece}
    (h : ∀ a, o = some a → b a = b' a) (ht : ∀ a, wording (txt a) = wording (txt' a))
    (hn : ∀ a, Rule (txt' a) := by told) :
    Exhibits (SameReport E P) (withOpt o fun a => when (b a) (fail c (txt a)))
      (Go.Exec.when (o.isSome && b' (optS o)) (Go.Exec.report true (Go.err c (txt' (optS o))))) := by
  cases o with
  | none => exact Exhibits.skip
  | some a => exact Exhibits.check (fun hb => by rw [← hb, h a rfl]; rfl) (ht a) (hn _)

theorem withBytes_finds {c : Ctx} {o : Option Bytes} {b b' : Bytes → Bool} {txt txt' : Bytes → List Go.Piece}
    (h : ∀ a, o = some a → a ≠ [] → b a = b' a) (ht : ∀ a, wording (txt a) = wording (txt' a))
    (hn : ∀ a, Rule (txt' a) := by told) :
    Exhibits (SameReport E P) (withBytes o fun a => when (b a) (fail c (txt a)))
      (Go.Exec.when (!(optS o).isEmpty && b' (optS o)) (Go.Exec.report true (Go.err c (txt' (optS o))))) := by
  unfold withBytes
  by_cases he : optS o = []
  · rw [if_pos he]
    exact Exhibits.ok (Appends.report _).when
  · rw [if_neg he]
    cases o with
    | none => exact absurd rfl he
    | some a =>
      refine Exhibits.check (fun hb => ?_) (ht _) (hn _)
      have he' : a ≠ [] := he
      have hb' : b a = true := hb
      show (!a.isEmpty && b' a) = true
      rw [← h a rfl he', hb']
      simpa using he'

theorem found_eq {α : Type} [BEq α] [LawfulBEq α] (g : α → α) (l : List α) (s : α)
    (h : ∀ a ∈ l, g a = a) : (l.map g).contains s = l.contains s := by
  rw [Bool.eq_iff_iff, found_iff g l s h, List.contains_iff_mem]
  simp

theorem wellKnown_finds (c : Ctx) (r : StringRules) (s : Bytes)
    (h : ∀ w, r.wellKnown = some w → FormatAgrees E P w s) :
    Exhibits (SameReport E P) (strWellKnownTpl P c r s) (Go.strWellKnownTpl E true c r s) := by
  have hip : isIp P s = true ↔ (P.pton4 (upToNul s) = true ∨ P.pton6 (upToNul s) = true) := by
    unfold isIp isIpv4 isIpv6; rw [Bool.or_eq_true]; exact Iff.rfl
  have h4 : isIpv4 P s = true ↔ P.pton4 (upToNul s) = true := Iff.rfl
  have h6 : isIpv6 P s = true ↔ P.pton6 (upToNul s) = true := Iff.rfl
  unfold strWellKnownTpl Go.strWellKnownTpl StringRules.getEmail StringRules.getAddress
    StringRules.getHostname StringRules.getIp StringRules.getIpv4 StringRules.getIpv6
    StringRules.getUri StringRules.getUriRef StringRules.getUuid
  cases hk : r.wellKnown with
  | none => exact Exhibits.skip
  | some w =>
    have ha := h w hk
    cases w with
    | regex k => exact Exhibits.skip
    | ip b =>
      cases b with
      | false => exact Exhibits.skip
      | true =>
        simp only [if_true, Bool.false_eq_true, if_false]
        refine Exhibits.check (fun hb => ?_) rfl
        have ha : (_ ∨ _) ↔ _ := ha
        rw [← hip] at ha
        cases hp : E.parseIP s with
        | none => rfl
        | some ip => rw [ha.2 ⟨ip, hp⟩] at hb; exact absurd hb (by decide)
    | ipv4 b =>
      cases b with
      | false => exact Exhibits.skip
      | true =>
        simp only [if_true, Bool.false_eq_true, if_false]
        refine Exhibits.check (fun hb => ?_) rfl
        have ha : _ ↔ _ := ha
        rw [← h4] at ha
        cases hp : E.parseIP s with
        | none => rfl
        | some ip =>
          simp only
          rw [← Bool.not_eq_false]
          intro hn
          have : PGV.Spec.IPv4Bytes ip := by
            rw [← ipTo4_iff]
            cases hi : Go.ipTo4 ip <;> simp [hi] at hn ⊢
          rw [ha.2 ⟨ip, hp, this⟩] at hb; exact absurd hb (by decide)
    | ipv6 b =>
      cases b with
      | false => exact Exhibits.skip
      | true =>
        simp only [if_true, Bool.false_eq_true, if_false]
        refine Exhibits.check (fun hb => ?_) rfl
        have ha : _ ↔ _ := ha
        rw [← h6] at ha
        cases hp : E.parseIP s with
        | none => rfl
        | some ip =>
          simp only
          rw [← Bool.not_eq_false]
          intro hn
          have : ¬ PGV.Spec.IPv4Bytes ip := by rw [← ipTo4_iff, hn]; simp
          rw [ha.2 ⟨ip, hp, this⟩] at hb; exact absurd hb (by decide)
    | hostname b =>
      cases b with
      | false => exact Exhibits.skip
      | true =>
        simp only [if_true, Bool.false_eq_true, if_false]
        cases hv : Go.validateHostname E s with
        | some t => exact Exhibits.checkLib rfl
        | none =>
          rw [(isHostname_iff s).2 ((Go.hostname_iff ha).1 ((validateHostname_iff E s).1 hv))]
          exact Exhibits.skip
    | address b =>
      cases b with
      | false => exact Exhibits.skip
      | true =>
        simp only [if_true, Bool.false_eq_true, if_false]
        obtain ⟨ha, hb⟩ := ha
        cases hv : Go.validateHostname E s with
        | some t =>
          refine Exhibits.check (fun hf => ?_) rfl
          cases hp : E.parseIP s with
          | none => rfl
          | some ip =>
            rw [hip.2 (hb.2 ⟨ip, hp⟩)] at hf
            simp at hf
        | none =>
          rw [(isHostname_iff s).2 ((Go.hostname_iff ha).1 ((validateHostname_iff E s).1 hv))]
          exact Exhibits.skip
    | uuid b =>
      cases b with
      | false => exact Exhibits.skip
      | true =>
        simp only [if_true, Bool.false_eq_true, if_false]
        cases hv : Go.validateUuid s with
        | some t => exact Exhibits.checkLib rfl
        | none =>
          rw [(PGV.matchFull_uuid s).2 ((validateUuid_iff s).1 hv)]
          exact Exhibits.skip
    | email b => cases b with
      | false => exact Exhibits.skip
      | true => exact False.elim ha
    | uri b => cases b with
      | false => exact Exhibits.skip
      | true => exact False.elim ha
    | uriRef b => cases b with
      | false => exact Exhibits.skip
      | true => exact False.elim ha

theorem string_finds {S : Schema} (hL : LibsAgree E P S) (c : Ctx)
    (r : StringRules) (s : Bytes) (hr : PortString r) (hs : FitsString E P r s) :
    Exhibits (SameReport E P) (strTpl P c r s) (Go.strTpl E true c r s) := by
  obtain ⟨h1, h2, h3, h4⟩ := hr
  obtain ⟨hu, hpat, hwk⟩ := hs
  have hl : ∀ k, CString k → strVal P.isPrint k = k := fun k hk => strVal_eq P.isPrint hL.isPrint hk
  unfold strTpl Go.strTpl
  refine Exhibits.ignore id (Exhibits.seq ?_ (Exhibits.seq ?_ (Exhibits.seq ?_ (Exhibits.seq ?_ ?_))))
  · unfold Go.strConstTpl withOpt
    cases hc : r.const with
    | none => exact Exhibits.skip
    | some k =>
      refine Exhibits.check ?_ rfl
      rw [hl k (h1 k (.inl hc))]
      exact id
  · exact in_finds c r.ins r.notIns _ (fun l => l.contains s) .bytess
      (fun _ => found_eq _ _ _ fun a ha => hl a (h2 a ha)) (fun _ => found_eq _ _ _ fun a ha => hl a (h3 a ha))
  · rw [utf8Len_eq hu]
    exact len_finds (G := runeText) c _ _ _ _ (fun _ => rfl) (fun _ _ => rfl) (fun _ => rfl) (fun _ => rfl)
      (by simp [Rule, runeText]) (by simp [Rule, runeText]) (by simp [Rule, runeText]) (by simp [Rule, runeText])
  · exact len_finds (G := byteText) c _ _ _ _ (fun _ => rfl) (fun _ _ => rfl) (fun _ => rfl) (fun _ => rfl)
      (by simp [Rule, byteText]) (by simp [Rule, byteText]) (by simp [Rule, byteText]) (by simp [Rule, byteText])
  · have hw := wellKnown_finds (E := E) (P := P) c r s hwk
    have hp : Exhibits (SameReport E P) (patternTpl P c r.pattern s) (Go.strPatternTpl E true c r s) := by
      refine opt_finds (b' := fun p => !E.matchRe p s) (fun a ha => ?_) (fun _ => rfl)
      rw [strChars_eq P.isPrint hL.isPrint (h4 a ha), hpat a ha]
    have ha : Appends (Go.strAffixTpl true c r s) := by unfold Go.strAffixTpl; appends
    have neg : ∀ a b : Bool, (a = true ↔ b = true) → (!a) = !b := by
      intro a b h; rw [Bool.eq_iff_iff.2 h]
    have hz := hw.appends.seq hp.appends
    refine Exhibits.both ?_ fun _ => Exhibits.both ?_ fun _ => Exhibits.both ?_ fun _ => Exhibits.both ?_ fun _ =>
      Exhibits.both (hp.right hw.appends |>.right ha) fun _ => hw.left hp.appends |>.right ha
    all_goals refine Exhibits.left ?_ hz
    all_goals unfold Go.strAffixTpl
    · refine Exhibits.left (opt_finds (b' := fun p => !hasPrefix s p) (fun a h => ?_) (fun _ => rfl)) (by appends)
      rw [hl a (h1 a (by simp [h]))]
      exact neg _ _ (by rw [isPrefix_iff, hasPrefix_iff])
    · refine Exhibits.right (by appends) (Exhibits.left
        (opt_finds (b' := fun p => !hasSuffix s p) (fun a h => ?_) (fun _ => rfl)) (by appends))
      rw [hl a (h1 a (by simp [h]))]
      exact neg _ _ (by rw [isSuffix_iff, hasSuffix_iff])
    · refine Exhibits.right (by appends) (Exhibits.right (by appends) (Exhibits.left
        (opt_finds (b' := fun p => !containsSub s p) (fun a h => ?_) (fun _ => rfl)) (by appends)))
      rw [hl a (h1 a (by simp [h]))]
      exact neg _ _ (by rw [contains_iff, containsSub_iff])
    · refine Exhibits.right (by appends) (Exhibits.right (by appends) (Exhibits.right (by appends)
        (opt_finds (b' := fun p => containsSub s p) (fun a h => ?_) (fun _ => rfl))))
      rw [hl a (h1 a (by simp [h])), Bool.eq_iff_iff, contains_iff, containsSub_iff]

theorem bytes_finds {S : Schema} (hL : LibsAgree E P S) (c : Ctx)
    (r : BytesRules) (s : Bytes) (hr : PortBytes r)
    (hpat : ∀ p, r.pattern = some p → P.fullMatch p s = E.matchRe p s) :
    Exhibits (SameReport E P) (bytesTpl P c r s) (Go.bytesTpl E true c r s) := by
  obtain ⟨h1, h2, h3, h4, h5⟩ := hr
  have neg : ∀ a b : Bool, (a = true ↔ b = true) → (!a) = !b := by
    intro a b h; rw [Bool.eq_iff_iff.2 h]
  have aLen : Appends (Go.bytesLenTpl true c r s) := by unfold Go.bytesLenTpl; appends
  have aAff : Appends (Go.bytesAffixTpl true c r s) := by unfold Go.bytesAffixTpl; appends
  have aIn : Appends (Go.bytesInTpl true c r s) := by unfold Go.bytesInTpl; appends
  have aConst : Appends (Go.bytesConstTpl true c r s) := by unfold Go.bytesConstTpl; appends
  have aIp : Appends (Go.bytesIpTpl true c r s) := by unfold Go.bytesIpTpl; appends
  have aPat : Appends (Go.bytesPatternTpl E true c r s) := by unfold Go.bytesPatternTpl; appends
  unfold bytesTpl Go.bytesTpl
  refine Exhibits.ignore id ?_
  refine Exhibits.both ?_ fun _ => Exhibits.both ?_ fun _ => Exhibits.both ?_ fun _ => Exhibits.both ?_ fun _ =>
    Exhibits.both ?_ fun _ => Exhibits.both ?_ fun _ => Exhibits.both ?_ fun _ => ?_
  · refine Exhibits.right aLen (Exhibits.right aAff (Exhibits.right aIn (Exhibits.left ?_ (aIp.seq aPat))))
    refine withBytes_finds (b' := fun k => s != k) (fun a h _ => ?_) (fun _ => rfl)
    rw [bytesVal_eq (h1 a (.inl h))]
  · refine Exhibits.right aLen (Exhibits.right aAff (Exhibits.left ?_ (aConst.seq (aIp.seq aPat))))
    exact in_finds c r.ins r.notIns _ (fun l => l.contains s) .bytess
      (fun _ => found_eq _ _ _ fun a ha => bytesKey_eq (h2 a ha))
      (fun _ => found_eq _ _ _ fun a ha => bytesKey_eq (h3 a ha))
  · refine Exhibits.left ?_ (aAff.seq (aIn.seq (aConst.seq (aIp.seq aPat))))
    exact len_finds (G := byteText) c _ _ _ _ (fun _ => rfl) (fun _ _ => rfl) (fun _ => rfl) (fun _ => rfl)
      (by simp [Rule, byteText]) (by simp [Rule, byteText]) (by simp [Rule, byteText]) (by simp [Rule, byteText])
  · refine Exhibits.right aLen (Exhibits.left ?_ (aIn.seq (aConst.seq (aIp.seq aPat))))
    refine Exhibits.left (withBytes_finds (b' := fun p => !hasPrefix s p) (fun a h _ => ?_) (fun _ => rfl))
      (by appends)
    rw [bytesVal_eq (h1 a (by simp [h]))]
    exact neg _ _ (by rw [isPrefix_iff, hasPrefix_iff])
  · refine Exhibits.right aLen (Exhibits.left ?_ (aIn.seq (aConst.seq (aIp.seq aPat))))
    refine Exhibits.right (by appends) (Exhibits.left
      (withBytes_finds (b' := fun p => !hasSuffix s p) (fun a h _ => ?_) (fun _ => rfl)) (by appends))
    rw [bytesVal_eq (h1 a (by simp [h]))]
    exact neg _ _ (by rw [isSuffix_iff, hasSuffix_iff])
  · refine Exhibits.right aLen (Exhibits.left ?_ (aIn.seq (aConst.seq (aIp.seq aPat))))
    refine Exhibits.right (by appends) (Exhibits.right (by appends)
      (withBytes_finds (b' := fun p => !containsSub s p)
        (txt' := fun p => [.s "value does not contain ", .bytes p]) (fun a h _ => ?_) (fun _ => rfl)))
    rw [bytesVal_eq (h1 a (by simp [h]))]
    exact neg _ _ (by rw [contains_iff, containsSub_iff])
  · refine Exhibits.right aLen (Exhibits.right aAff (Exhibits.right aIn (Exhibits.right aConst (Exhibits.right aIp ?_))))
    refine opt_finds (b' := fun p => !E.matchRe p s) (fun a ha => ?_) (fun _ => rfl)
    rw [strChars_eq P.isPrint hL.isPrint (h4 a ha), hpat a ha]
  · refine Exhibits.of (aLen.seq (aAff.seq (aIn.seq (aConst.seq (aIp.seq aPat))))) fun e => ?_
    unfold Cpp.when
    split <;> simp [Cpp.throw]

/-! ### Enums and well-known messages -/

theorem enum_finds (c : Ctx) (declared : List Int) (r : EnumRules) (n : Int) :
    Exhibits (SameReport E P) (enumTpl c declared r n) (Go.enumTpl true c declared r n) := by
  unfold enumTpl Go.enumTpl
  refine Exhibits.seq ?_ (Exhibits.seq ?_ ?_)
  · unfold withOpt
    cases r.const with
    | none => exact Exhibits.skip
    | some k => exact Exhibits.check id rfl
  · exact in_finds c r.ins r.notIns _ (fun l => l.contains n) .ints (fun _ => rfl) (fun _ => rfl)
  · exact Exhibits.check id rfl

theorem required_finds (c : Ctx) (b has isNil : Bool) (h : isNil = !has) :
    Exhibits (SameReport E P) (requiredTpl c b has) (Go.requiredTpl true c b isNil) := by
  subst h
  exact Exhibits.check id rfl

theorem any_finds {S : Schema} (hL : LibsAgree E P S) (c : Ctx) (r : AnyRules)
    (url : Option Bytes) (hr : PortAny r) :
    Exhibits (SameReport E P) (anyTpl P c r url) (Go.anyTpl true c r url) := by
  have hl : ∀ k, CString k → strVal P.isPrint k = k := fun k hk => strVal_eq P.isPrint hL.isPrint hk
  unfold anyTpl Go.anyTpl
  refine Exhibits.seq (required_finds c _ _ _ (by cases url <;> rfl)) ?_
  cases url with
  | none => exact Exhibits.skip
  | some u =>
    refine Exhibits.ite (fun _ => ?_) (fun _ => Exhibits.ite (fun _ => ?_) (fun _ => Exhibits.skip))
    · rw [found_eq _ _ _ fun a ha => hl a (hr.1 a ha)]; exact Exhibits.check id rfl
    · rw [found_eq _ _ _ fun a ha => hl a (hr.2 a ha)]; exact Exhibits.check id rfl

theorem durRange_finds (c : Ctx) (r : DurationRules) (d : PDur) (hd : PortDur d)
    (h : ∀ b, r.lt = some b ∨ r.lte = some b ∨ r.gt = some b ∨ r.gte = some b → PortDur b) :
    Exhibits (SameReport E P) (durRangeTpl c r d) (Go.durRangeTpl true c r d.exact) := by
  have le : ∀ b, PortDur b → durLe d (durLit b) = decide (d.exact ≤ b.lit) := by
    intro b hb; rw [durLit_eq hb, durLe_iff hd.1 hb.1]; rfl
  have ge : ∀ b, PortDur b → durLe (durLit b) d = decide (d.exact ≥ b.lit) := by
    intro b hb; rw [durLit_eq hb, durLe_iff hb.1 hd.1]; rfl
  have lt : ∀ b, PortDur b → durLess d (durLit b) = decide (d.exact < b.lit) := by
    intro b hb; rw [durLit_eq hb, durLess_iff hd.1 hb.1]; rfl
  have gt : ∀ b, PortDur b → durLess (durLit b) d = decide (d.exact > b.lit) := by
    intro b hb; rw [durLit_eq hb, durLess_iff hb.1 hd.1]; rfl
  unfold durRangeTpl Go.durRangeTpl
  cases hlt : r.lt with
  | some l =>
    have pl := h l (by simp [hlt])
    cases hgt : r.gt with
    | some g =>
      have pg := h g (by simp [hgt])
      simp only [le l pl, ge l pl, lt l pl, gt l pl, le g pg, ge g pg, lt g pg, gt g pg]
      exact Exhibits.ite (fun _ => Exhibits.check id rfl) (fun _ => Exhibits.check id rfl)
    | none =>
      cases hgte : r.gte with
      | some g =>
        have pg := h g (by simp [hgte])
        simp only [le l pl, ge l pl, lt l pl, gt l pl, le g pg, ge g pg, lt g pg, gt g pg]
        exact Exhibits.ite (fun _ => Exhibits.check id rfl) (fun _ => Exhibits.check id rfl)
      | none =>
        simp only [le l pl, ge l pl, lt l pl, gt l pl]
        exact Exhibits.check id rfl
  | none =>
    cases hlte : r.lte with
    | some l =>
      have pl := h l (by simp [hlte])
      cases hgt : r.gt with
      | some g =>
        have pg := h g (by simp [hgt])
        simp only [le l pl, ge l pl, lt l pl, gt l pl, le g pg, ge g pg, lt g pg, gt g pg]
        exact Exhibits.ite (fun _ => Exhibits.check id rfl) (fun _ => Exhibits.check id rfl)
      | none =>
        cases hgte : r.gte with
        | some g =>
          have pg := h g (by simp [hgte])
          simp only [le l pl, ge l pl, lt l pl, gt l pl, le g pg, ge g pg, lt g pg, gt g pg]
          exact Exhibits.ite (fun _ => Exhibits.check id rfl) (fun _ => Exhibits.check id rfl)
        | none =>
          simp only [le l pl, ge l pl, lt l pl, gt l pl]
          exact Exhibits.check id rfl
    | none =>
      cases hgt : r.gt with
      | some g =>
        have pg := h g (by simp [hgt])
        simp only [le g pg, ge g pg, lt g pg, gt g pg]
        exact Exhibits.check id rfl
      | none =>
        cases hgte : r.gte with
        | some g =>
          have pg := h g (by simp [hgte])
          simp only [le g pg, ge g pg, lt g pg, gt g pg]
          exact Exhibits.check id rfl
        | none => exact Exhibits.skip

theorem duration_finds (c : Ctx) (r : DurationRules) (d : Option PDur) (hr : PortDuration r)
    (hd : ∀ x, d = some x → FitsDuration x) :
    Exhibits (SameReport E P) (durationTpl c r d) (Go.durationTpl true c r d) := by
  obtain ⟨hb, hi, hn⟩ := hr
  unfold durationTpl Go.durationTpl
  refine Exhibits.seq (required_finds c _ _ _ (by cases d <;> rfl)) ?_
  refine Exhibits.ite (fun _ => ?_) (fun _ => Exhibits.skip)
  cases d with
  | none => exact Exhibits.skip
  | some d =>
    have fd := hd d rfl
    simp only
    cases hv : d.valid with
    | false =>
      have hi : durInvalid d = true := by
        rw [← Bool.not_eq_false, durInvalid_iff fd, hv]; simp
      rw [hi]
      refine ⟨[Go.errCause c (.lib "invalid duration") [.s "value is not a valid duration"]], fun _ => rfl,
        fun e he => ⟨_, List.mem_singleton.2 rfl, ?_⟩⟩
      cases he
      exact .rule rfl (by simp) (.inr rfl) (.inr ⟨_, rfl⟩)
    | true =>
      have pd : PortDur d := ⟨hv, fd.2.2 hv⟩
      have find : ∀ l : List PDur, (∀ k ∈ l, PortDur k) →
          setFind durLess (l.map durLit) d = l.any fun k => k.asDuration == d.asDuration := by
        intro l hl
        rw [Bool.eq_iff_iff, durFind_iff l d pd hl, List.any_eq_true]
        refine exists_congr fun k => and_congr_right fun _ => ?_
        rw [beq_iff_eq]
        exact eq_comm
      rw [(durInvalid_iff fd).2 hv]
      show Exhibits _ (_ ⊳ _) (Go.durationcmpTpl true c r d.asDuration)
      unfold Go.durationcmpTpl
      refine Exhibits.both (Exhibits.ok (by unfold Go.durRangeTpl; appends)) fun _ => Exhibits.seq ?_ (Exhibits.seq ?_ ?_)
      · unfold withOpt
        cases hc : r.const with
        | none => exact Exhibits.skip
        | some k =>
          have pk := hb k (.inl hc)
          refine Exhibits.check ?_ rfl
          rw [durLit_eq pk, durEq_iff pd.1 pk.1, Java.portDur_asDuration pd]
          intro h
          simpa [PDur.lit] using h
      · rw [Java.portDur_asDuration pd]
        exact durRange_finds c r d pd fun b h' => hb b (.inr h')
      · exact in_finds c r.ins r.notIns _ (fun l => l.any fun k => k.asDuration == d.asDuration) .durs
          (fun _ => find _ hi) (fun _ => find _ hn)

theorem timestamp_finds (now : Instant) (c : Ctx) (r : TimestampRules) (t : Option PTime)
    (hr : ¬ PGV.Spec.TsConstrained r) :
    Exhibits (SameReport E P) (timestampTpl c r t) (Go.timestampTpl now true c r t) := by
  have hc : (r.lt.isSome || r.lte.isSome || r.gt.isSome || r.gte.isSome || r.ltNow.isSome ||
      r.gtNow.isSome || r.within.isSome || r.const.isSome) = false := by
    rw [← Bool.not_eq_true]
    intro h
    apply hr
    unfold PGV.Spec.TsConstrained
    simpa only [Bool.or_eq_true, Option.isSome_iff_ne_none, or_assoc] using h
  unfold timestampTpl Go.timestampTpl
  rw [hc]
  exact Exhibits.seq (required_finds c _ _ _ (by cases t <;> rfl)) Exhibits.skip

/-! ### Elements -/

theorem scalar_finds {S : Schema} (hL : LibsAgree E P S) (c : Ctx) (e : ElemT)
    (t : TypeRules) (s : Scalar) (hp : PortType P t) (hf : FitsScalar E P t s) :
    Exhibits (SameReport E P) (scalarTpl P c e t s) (Go.scalarTpl E true c e t s) := by
  have triv : Exhibits (SameReport E P) (.ok ()) Go.Exec.skip := Exhibits.skip
  cases t with
  | num k r =>
    cases s with
    | num n => exact num_finds hL c k r n hp hf.1 hf.2
    | _ => exact triv
  | bool r =>
    cases s with
    | bool b => exact bool_finds c r b
    | _ => exact triv
  | string r =>
    cases s with
    | str s => exact string_finds hL c r s hp hf
    | _ => exact triv
  | bytes r =>
    cases s with
    | bytes s => exact bytes_finds hL c r s hp hf
    | _ => exact triv
  | enum r =>
    cases s with
    | enum i =>
      cases e with
      | enum declared => exact enum_finds c declared r i
      | _ => exact triv
    | _ => exact triv
  | _ => cases s <;> exact triv

/-- What is known of the calls of validators of embedded messages. -/
def Embeds (E : Env) (P : CEnv) (S : Schema) (rec : Val → Run) (rec' : Go.Rec) (v : Val) : Prop :=
  ∀ e, rec v = .error (.invalid e) →
    (Go.methods S v = .both ∧ ∃ y z, rec' true v = some y ∧ Reported z y ∧ SameReport E P e z) ∨
    (Go.methods S v = .validateOnly ∧ P.other v = .error (.invalid e) ∧ ∃ y, E.legacy v = some y)

theorem message_finds {S : Schema} {rec : Val → Run} {rec' : Go.Rec} (c : Ctx)
    (m : Option MessageRules) (v : Val) (hrec : v ≠ .null → Embeds E P S rec rec' v) :
    Exhibits (SameReport E P) (messageTpl rec c m v) (Go.messageTpl E S true rec' c m v) := by
  unfold messageTpl Go.messageTpl
  refine Exhibits.seq (required_finds c _ _ _ (by cases v <;> rfl)) (Exhibits.ite (fun _ => Exhibits.skip) fun _ => ?_)
  rw [if_pos rfl]
  have ha : Appends (match Go.methods S v with
    | .both =>
      match rec' true v with
      | some e => Go.Exec.append (Go.errCause c e [.s "embedded message failed validation"])
      | none => Go.Exec.skip
    | .validateOnly =>
      match E.legacy v with
      | some e => Go.Exec.append (Go.errCause c e [.s "embedded message failed validation"])
      | none => Go.Exec.skip
    | .none => Go.Exec.skip) := by appends
  by_cases hn : v = .null
  · subst hn
    exact Exhibits.ok ha
  · have hn' : isNull v = false := by rw [← Bool.not_eq_true, isNull_iff]; exact hn
    rw [hn']
    simp only [Bool.false_eq_true, if_false]
    cases hr : rec v with
    | ok u => exact Exhibits.ok ha
    | error x =>
      cases x with
      | unimplemented w => exact Exhibits.of ha (by simp)
      | invalid e =>
        rcases hrec hn e hr with ⟨hm, y, z, h1, h2, h3⟩ | ⟨hm, h1, y, h2⟩
        · simp only [hm, h1]
          refine ⟨[Go.errCause c y [.s "embedded message failed validation"]], fun _ => rfl,
            fun e he => ⟨_, List.mem_singleton.2 rfl, ?_⟩⟩
          cases he
          exact .embedded h2 h3
        · simp only [hm, h2]
          refine ⟨[Go.errCause c y [.s "embedded message failed validation"]], fun _ => rfl,
            fun e he => ⟨_, List.mem_singleton.2 rfl, ?_⟩⟩
          cases he
          exact .elsewhere h1 h2

theorem wrapper_finds {S : Schema} (hL : LibsAgree E P S) (c : Ctx) (e : ElemT)
    (t : TypeRules) (m : Option MessageRules) (v : Val) (hp : PortType P t) (hf : FitsVal E P t v) :
    Exhibits (SameReport E P) (wrapperTpl P c e t m v) (Go.wrapperTpl E true c e t m v) := by
  cases v with
  | wrapper s =>
    have : FitsScalar E P t s := by cases t <;> simpa [FitsVal] using hf
    exact scalar_finds hL _ e t s hp this
  | null => exact Exhibits.check id rfl
  | _ => exact Exhibits.skip

theorem elem_finds {S : Schema} (hL : LibsAgree E P S) {rec : Val → Run} {rec' : Go.Rec} (c : Ctx)
    (e : ElemT) (rules : FieldRules) (v : Val) (hrec : v ≠ .null → Embeds E P S rec rec' v)
    (hp : PortType P rules.type) (hf : FitsVal E P rules.type v) :
    Exhibits (SameReport E P) (elemTpl P rec c e rules v) (Go.elemTpl E S true rec' c e rules v) := by
  have triv : Exhibits (SameReport E P) (.ok ()) Go.Exec.skip := Exhibits.skip
  unfold elemTpl Go.elemTpl
  have hres : ∀ t m, (resolve e rules = .wrapper t m ∨ resolve e rules = .plain t) → t = rules.type := by
    intro t m h
    unfold resolve at h
    split at h <;> (try split at h) <;> (try split at h) <;> simp_all
  cases hr : resolve e rules with
  | none => exact triv
  | message m => exact message_finds c m v hrec
  | wrapper t m =>
    have := hres t m (.inl hr)
    subst this
    exact wrapper_finds hL c e _ m v hp hf
  | plain t =>
    have := hres t none (.inr hr)
    subst this
    have sc : ∀ s, v = .sc s → Exhibits (SameReport E P) (scalarTpl P c e rules.type s)
        (Go.scalarTpl E true c e rules.type s) := by
      rintro s rfl
      refine scalar_finds hL c e _ s hp ?_
      cases ht : rules.type <;> rw [ht] at hf <;> simpa [FitsVal] using hf
    cases ht : rules.type with
    | any r =>
      rw [ht] at hp
      cases v with
      | any url val => exact any_finds hL c r (some url) hp
      | null => exact any_finds hL c r none hp
      | sc s => cases s <;> exact triv
      | _ => exact triv
    | duration r =>
      rw [ht] at hp hf
      cases v with
      | dur d => exact duration_finds c r (some d) hp (by rintro _ ⟨⟩; exact hf)
      | null => exact duration_finds c r none hp (by simp)
      | sc s => cases s <;> exact triv
      | _ => exact triv
    | timestamp r =>
      rw [ht] at hp hf
      cases v with
      | ts d => exact timestamp_finds E.now c r (some d) hp
      | null => exact timestamp_finds E.now c r none hp
      | sc s => cases s <;> exact triv
      | _ => exact triv
    | _ =>
      rw [ht] at sc
      cases v with
      | sc s => exact sc s rfl
      | _ => exact triv

/-! ### Lists and maps -/

theorem repLen_finds (c : Ctx) (r : RepeatedRules) (n : Nat) :
    Exhibits (SameReport E P) (countTpl "item" c r.minItems r.maxItems n) (Go.repLenTpl true c r n) := by
  unfold countTpl Go.repLenTpl
  exact Exhibits.ite
    (fun _ => Exhibits.ite (fun _ => Exhibits.check id rfl) fun _ =>
      Exhibits.ite (fun _ => Exhibits.check id rfl) (fun _ => Exhibits.check id rfl))
    (fun _ => Exhibits.ite (fun _ => Exhibits.check id rfl) (fun _ => Exhibits.skip))

theorem mapLen_finds (c : Ctx) (r : MapRules) (n : Nat) :
    Exhibits (SameReport E P) (countTpl "pair" c r.minPairs r.maxPairs n) (Go.mapLenTpl true c r n) := by
  unfold countTpl Go.mapLenTpl
  exact Exhibits.ite
    (fun _ => Exhibits.ite (fun _ => Exhibits.check id rfl) fun _ =>
      Exhibits.ite (fun _ => Exhibits.check id rfl) (fun _ => Exhibits.check id rfl))
    (fun _ => Exhibits.ite (fun _ => Exhibits.check id rfl) (fun _ => Exhibits.skip))

theorem repLoop_appends (u : Bool) (c : Ctx) (item : Nat → Val → Exec) (vs : List Val) :
    ∀ (i : Nat) (seen : List Val), (∀ i, ∀ v ∈ vs, Appends (item i v)) →
    Appends (Go.repLoop true u c item i seen vs) := by
  induction vs with
  | nil => intro i seen _; exact Appends.skip
  | cons v vs ih =>
    intro i seen h
    exact (Appends.report _).when.seq ((h i v List.mem_cons_self).seq
      (ih _ _ fun i w hw => h i w (List.mem_cons_of_mem _ hw)))

theorem repLoop_finds (u : Bool) (e : ElemT) (c : Ctx) (item : Nat → Val → Run)
    (item' : Nat → Val → Exec) (vs : List Val) : ∀ (i : Nat) (seen : List Val),
    (∀ i, ∀ v ∈ vs, Exhibits (SameReport E P) (item i v) (item' i v)) →
    (u = true → (∀ v ∈ vs, FitsItem e v) ∧ ∀ v ∈ seen, FitsItem e v) →
    Exhibits (SameReport E P) (repLoop u (itemEq e) c item i seen vs)
      (Go.repLoop true u c item' i seen vs) := by
  induction vs with
  | nil => intro i seen _ _; exact Exhibits.skip
  | cons v vs ih =>
    intro i seen h hu
    have happ : ∀ i, ∀ v ∈ vs, Appends (item' i v) := fun i w hw =>
      (h i w (List.mem_cons_of_mem _ hw)).appends
    have hdup : (u && seen.any fun w => itemEq e w v) = (u && seen.any fun w => Go.keyEq w v) := by
      cases u with
      | false => rfl
      | true =>
        obtain ⟨h1, h2⟩ := hu rfl
        rw [Bool.true_and, Bool.true_and, Bool.eq_iff_iff, List.any_eq_true, List.any_eq_true]
        refine exists_congr fun w => and_congr_right fun hw => ?_
        rw [itemEq_iff (h2 w hw) (h1 v List.mem_cons_self), Go.keyEq_iff]
    unfold repLoop Go.repLoop
    rw [hdup]
    cases hd : (u && seen.any fun w => Go.keyEq w v) with
    | true =>
      have hrest := repLoop_appends u c item' vs (i + 1) (if u && !true then v :: seen else seen) happ
      have hfirst : Exhibits (SameReport E P)
          (failIdx c (some (.pos i)) none [.s "repeated value must contain unique items"])
          (Go.Exec.report true (Go.errIdx c (.pos i) [.s "repeated value must contain unique items"])) := by
        refine ⟨[Go.errIdx c (.pos i) [.s "repeated value must contain unique items"]], fun _ => rfl,
          fun e he => ⟨_, List.mem_singleton.2 rfl, ?_⟩⟩
        cases he
        exact .rule rfl (by simp) (.inl rfl) (.inl rfl)
      exact (hfirst.left ((h i v List.mem_cons_self).appends.seq hrest)).both fun h => by cases h
    | false =>
      have hrest := ih (i + 1) (if u then v :: seen else seen)
        (fun i w hw => h i w (List.mem_cons_of_mem _ hw)) (by
          intro hut
          obtain ⟨h1, h2⟩ := hu hut
          refine ⟨fun w hw => h1 w (List.mem_cons_of_mem _ hw), ?_⟩
          subst hut
          intro w hw
          rcases List.mem_cons.1 hw with rfl | hw
          · exact h1 w List.mem_cons_self
          · exact h2 w hw)
      have e1 : (if (u && !false) = true then v :: seen else seen) = if u then v :: seen else seen := by
        cases u <;> rfl
      simp only [e1]
      exact Exhibits.seq Exhibits.skip ((h i v List.mem_cons_self).seq hrest)

theorem rep_finds {S : Schema} {rec : Val → Run} {rec' : Go.Rec} (c : Ctx)
    (e : ElemT) (r : RepeatedRules) (items : FieldRules) (vs : List Val)
    (hel : ∀ c, ∀ v ∈ vs, Exhibits (SameReport E P) (elemTpl P rec c e items v)
      (Go.elemTpl E S true rec' c e items v))
    (hu : r.unique = some true → ∀ v ∈ vs, FitsItem e v) :
    Exhibits (SameReport E P) (repTpl P rec c e r items vs) (Go.repTpl E S true rec' c e r items vs) := by
  unfold repTpl Go.repTpl
  refine Exhibits.ignore id (Exhibits.seq (repLen_finds c r _) (Exhibits.ite (fun _ => ?_) fun _ => Exhibits.skip))
  exact repLoop_finds _ e c _ _ vs 0 [] (fun i v hv => hel _ v hv)
    fun h => ⟨hu ((optB_iff _).1 h), by simp⟩

theorem key_finds {S : Schema} (hL : LibsAgree E P S) (c : Ctx) (e : ElemT)
    (rules : FieldRules) (k : Scalar) (hp : PortType P rules.type) (hf : FitsScalar E P rules.type k) :
    Exhibits (SameReport E P) (keyTpl P c e rules k) (Go.keyTpl E true c e rules k) := by
  have h := scalar_finds hL c e rules.type k hp hf
  unfold keyTpl Go.keyTpl
  cases ht : rules.type <;> rw [ht] at h <;> first | exact Exhibits.skip | exact h

theorem map_finds {S : Schema} {rec : Val → Run} {rec' : Go.Rec} (c : Ctx)
    (kt vt : ElemT) (r : MapRules) (keys values : FieldRules) (kvs : List (Scalar × Val))
    (hkey : ∀ c, ∀ kv ∈ kvs, Exhibits (SameReport E P) (keyTpl P c kt keys kv.1)
      (Go.keyTpl E true c kt keys kv.1))
    (hval : ∀ c, ∀ kv ∈ kvs, Exhibits (SameReport E P) (elemTpl P rec c vt values kv.2)
      (Go.elemTpl E S true rec' c vt values kv.2))
    (hs : r.noSparse ≠ some true) :
    Exhibits (SameReport E P) (mapTpl P rec c kt vt r keys values kvs)
      (Go.mapTpl E S true rec' c kt vt r keys values kvs) := by
  have hs' : optB r.noSparse = false := by rw [optB_false_iff]; exact hs
  unfold mapTpl Go.mapTpl
  refine Exhibits.ignore id (Exhibits.seq (mapLen_finds c r _) (Exhibits.ite (fun _ => ?_) fun _ => Exhibits.skip))
  have one : ∀ kv ∈ kvs, Exhibits (SameReport E P) (mapEntry P rec c kt vt keys values kv)
      (Go.mapEntry E S true rec' c kt vt r keys values kv) := fun kv hkv =>
    Exhibits.right (Appends.report _).when ((hkey _ kv hkv).seq (hval _ kv hkv))
  refine Exhibits.both (Exhibits.forEach (fun kv hkv => ?_) fun kv hkv => ?_) fun _ => ?_
  · have hm := (P.order_perm kvs).mem_iff.1 hkv
    exact ⟨(E.order_perm kvs).mem_iff.2 hm, one kv hm⟩
  · exact (one kv ((E.order_perm kvs).mem_iff.1 hkv)).appends
  · rw [hs']
    exact Exhibits.ok (Appends.forEach fun kv hkv => (one kv ((E.order_perm kvs).mem_iff.1 hkv)).appends)

/-! ### Fields, oneofs and messages -/

open PGV.Go (Inside) in
theorem renderField_finds {S : Schema} (hL : LibsAgree E P S)
    {rec : Val → Run} {rec' : Go.Rec} (msg : String) (f : FieldDesc) (v : Val)
    (hrec : ∀ w, Inside w v → w ≠ .null → Embeds E P S rec rec' w) (hp : PortField E P f v) :
    Exhibits (SameReport E P) (renderField P rec msg f v) (Go.renderField E S true rec' msg f v) := by
  obtain ⟨name, typ, rules⟩ := f
  have triv : Exhibits (SameReport E P) (.ok ()) Go.Exec.skip := Exhibits.skip
  have hu : FieldRules.absent.type = .unset := rfl
  cases typ with
  | one e => exact elem_finds hL _ e rules v (fun h => hrec v (.self v) h) hp.1 hp.2
  | rep e =>
    cases v with
    | list vs =>
      unfold PortField at hp
      unfold renderField Go.renderField
      have hr : ∀ v ∈ vs, v ≠ .null → Embeds E P S rec rec' v := fun v hv h => hrec v (.list hv) h
      cases ht : rules.type with
      | repeated r items =>
        simp only [ht] at hp
        exact rep_finds _ e r items vs
          (fun c v hv => elem_finds hL c e items v (hr v hv) hp.1 (hp.2.1 v hv)) hp.2.2
      | unset =>
        exact rep_finds _ e {} .absent vs
          (fun c v hv => elem_finds hL c e .absent v (hr v hv) trivial (fits_unset E P v)) (by simp)
      | _ => exact triv
    | _ => exact triv
  | map kt vt =>
    cases v with
    | map kvs =>
      unfold PortField at hp
      unfold renderField Go.renderField
      have hr : ∀ kv ∈ kvs, kv.2 ≠ .null → Embeds E P S rec rec' kv.2 :=
        fun v hv h => hrec v.2 (.map hv) h
      cases ht : rules.type with
      | map r keys values =>
        simp only [ht] at hp
        obtain ⟨h1, h2, h3, h4⟩ := hp
        exact map_finds _ kt vt r keys values kvs
          (fun c kv hkv => key_finds hL c kt keys kv.1 h2 (h4 kv hkv).1)
          (fun c kv hkv => elem_finds hL c vt values kv.2 (hr kv hkv) h3 (h4 kv hkv).2) h1
      | unset =>
        simp only
        refine Exhibits.ite (fun _ => ?_) fun _ => triv
        exact map_finds _ kt vt {} .absent .absent kvs
          (fun c kv hkv => key_finds hL c kt .absent kv.1 trivial (by simp [FitsScalar, hu]))
          (fun c kv hkv => elem_finds hL c vt .absent kv.2 (hr kv hkv) trivial (fits_unset E P kv.2))
          (by simp)
      | _ => exact triv
    | _ => exact triv

/-- Calls of validators find what `ValidateAll` finds. -/
theorem fuel_finds {S : Schema} (hL : LibsAgree E P S) (n : Nat) :
    ∀ v, depth v ≤ n → Portable E P S v → Embeds E P S (checkFuel P S n) (Go.validate E S) v := by
  have nonmsg : ∀ n v, (∀ t fs os, v ≠ .msg t fs os) →
      Embeds E P S (checkFuel P S n) (Go.validate E S) v := by
    intro n v hm e he
    rw [fuel_nonmsg hL n v hm] at he
    cases he
  induction n with
  | zero => intro v hv; have := Go.depth_pos v; omega
  | succ n ih =>
    intro v hv hP
    by_cases hm : ∀ t fs os, v ≠ .msg t fs os
    · exact nonmsg (n + 1) v hm
    · obtain ⟨typ, fs, os, rfl⟩ : ∃ t fs os, v = .msg t fs os := by
        simp only [Classical.not_forall] at hm
        obtain ⟨t, fs, os, h⟩ := hm
        exact ⟨t, fs, os, Classical.not_not.1 h⟩
      have hout : Outside S (.msg typ fs os) → ∀ e, P.other (.msg typ fs os) = .error (.invalid e) →
          Go.methods S (.msg typ fs os) = .validateOnly ∧ ∃ y, E.legacy (.msg typ fs os) = some y := by
        intro hO e he
        have h1 := hL.other _ hO
        have h2 : ¬ PGV.Spec.EmbeddedOk E S (fun _ => True) (.msg typ fs os) := by
          rw [← h1, he]; simp
        unfold PGV.Spec.EmbeddedOk at h2
        unfold Go.methods
        cases hS : S typ with
        | generated d => simp [hS] at h2
        | foreign => simp [hS] at h2
        | legacy =>
          simp only [hS] at h2 ⊢
          refine ⟨trivial, ?_⟩
          cases hl : E.legacy (.msg typ fs os) with
          | none => exact absurd hl h2
          | some y => exact ⟨y, rfl⟩
      have hrec : ∀ u, (∀ x, PGV.Spec.Part x u → PGV.Spec.Part x (.msg typ fs os)) → depth u ≤ n →
          ∀ w, Go.Inside w u → w ≠ .null → Embeds E P S (checkFuel P S n) (Go.validate E S) w := by
        intro u hu hd w hw _
        refine ih w ?_ (part_inside hw hu hP)
        have := hw.depth_le
        omega
      intro e he
      unfold checkFuel checkStep at he
      cases hS : S typ with
      | generated d =>
        simp only [hS] at he
        by_cases hig : (d.ignored || d.disabled) = true
        · rw [if_pos hig] at he
          have hO : Outside S (.msg typ fs os) := by
            intro t fs' os' d' e hS'
            cases e
            rw [hS] at hS'
            cases hS'
            simpa using hig
          obtain ⟨a, b⟩ := hout hO e he
          exact .inr ⟨a, he, b⟩
        · rw [if_neg hig] at he
          simp only [Bool.or_eq_true, not_or, Bool.not_eq_true] at hig
          obtain ⟨hig, hdis⟩ := hig
          left
          refine ⟨by simp [Go.methods, hS, hig], ?_⟩
          obtain ⟨hF, hO⟩ := hP typ fs os d .self hS hdis
          have key : Exhibits (SameReport E P) (validateMsg P (checkFuel P S n) d fs os)
              (Go.bodyExec E S true (Go.validate E S) d fs os) := by
            unfold validateMsg Go.bodyExec
            simp only [hdis, Bool.false_eq_true, if_false]
            have one : ∀ f ∈ d.fields, Exhibits (SameReport E P)
                (renderField P (checkFuel P S n) d.name f (getField fs f))
                (Go.renderField E S true (Go.validate E S) d.name f (getField fs f)) := by
              intro f hf
              refine renderField_finds hL _ f _ ?_ (hF f hf)
              intro w hw hnn
              unfold getField at hw
              cases hl : fs.lookup f.name with
              | some u =>
                rw [hl] at hw
                refine hrec u (fun x hx => .field (Java.mem_of_lookup hl) hx) ?_ w hw hnn
                have := Go.depthFields_lookup hl
                simp only [depth] at hv
                omega
              | none =>
                rw [hl] at hw
                exact nonmsg n w (Go.zero_not_msg hw)
            have two : ∀ o ∈ d.oneofs, Exhibits (SameReport E P)
                (oneofTpl P (checkFuel P S n) d.name o (os.lookup o.name))
                (Go.oneofTpl E S true (Go.validate E S) d.name o (os.lookup o.name)) := by
              intro o ho
              unfold oneofTpl Go.oneofTpl
              cases hl : os.lookup o.name with
              | none =>
                refine Exhibits.when id ?_
                refine ⟨[_], fun _ => rfl, fun e he => ⟨_, List.mem_singleton.2 rfl, ?_⟩⟩
                cases he
                exact .oneof
              | some mu =>
                obtain ⟨m, u⟩ := mu
                simp only
                cases hfind : o.fields.find? (fun f => f.name == m) with
                | none => exact Exhibits.skip
                | some f =>
                  refine renderField_finds hL _ f u ?_ (hO o ho m u f hl hfind)
                  refine hrec u (fun x hx => .member (Java.mem_of_lookup hl) hx) ?_
                  have := Go.depthOneofs_lookup hl
                  simp only [depth] at hv
                  omega
            exact Exhibits.seq (Exhibits.forEach (fun f hf => ⟨hf, one f hf⟩) fun f hf => (one f hf).appends)
              (Exhibits.forEach (fun o ho => ⟨ho, two o ho⟩) fun o ho => (two o ho).appends)
          obtain ⟨l, hl, hfind⟩ := key
          obtain ⟨z, hz, hsame⟩ := hfind e he
          have hval : Go.validate E S true (.msg typ fs os) = some (.multi d.name l) := by
            rw [Go.validate_eq]
            unfold Go.validateStep
            simp only [hS, hdis, Bool.false_eq_true, if_false]
            rw [hl []]
            cases l with
            | nil => cases hz
            | cons a l => rfl
          exact ⟨_, z, hval, .among hz, hsame⟩
      | _ =>
        simp only [hS] at he
        have hO : Outside S (.msg typ fs os) := by
          intro t fs' os' d' e hS'
          cases e
          rw [hS] at hS'
          cases hS'
        obtain ⟨a, b⟩ := hout hO e he
        exact .inr ⟨a, he, b⟩

end

end PGV.Cpp
