import Verif.Lemmas.CppErr
import Verif.Lemmas.CppRegistry
import Verif.Props.Java
import Verif.Props.WellKnown

/-!
C52-C55: the C++ helpers, the registry of C++ validators, and the agreement of C++ with Go. Statements
are about generated code that compiles.
-/

set_option linter.unusedSimpArgs false

namespace PGV.Props
open PGV PGV.Cpp PGV.Spec.Cpp
open PGV.Spec hiding Accepts FormatAgrees TextLibs LibsAgree PortString PortBytes PortEnum PortAny
  PortDuration PortType PortElem FitsScalar FitsVal FitsItem PortField Portable Outside
open PGV.Go (Env accepts_iff)
open PGV.Java (mem_of_lookup)

/-! ### Fixtures -/

/-- C++ libraries in which nothing parses or matches; Go prints numbers exactly. -/
def cenv : CEnv where
  isPrint r := decide (0x20 ≤ r) && decide (r < 0x7F)
  dec32 b := ((f32Val b).getD 0, 2 ^ 149)
  dec64 b := ((f64Val b).getD 0, 2 ^ 1074)
  fullMatch := fun _ _ => false
  pton4 := fun _ => false
  pton6 := fun _ => false
  other := fun _ => .ok ()
  order := fun l => l
  order_perm := fun l => List.Perm.refl l

/-- Finite `double`s have at most 53 significant bits. -/
theorem f64_shape {b : BitVec 64} {x : Int} (hf : Finite64 b) (h : f64Val b = some x) :
    ∃ M j : Nat, x.natAbs = M * 2 ^ j ∧ M < 2 ^ 53 := by
  unfold Finite64 at hf
  unfold f64Val at h
  simp only [hf, false_and, if_false, Option.some.injEq] at h
  have hm : b.toNat % 4503599627370496 < 4503599627370496 := Nat.mod_lt _ (by decide)
  generalize b.toNat / 4503599627370496 % 2048 = e at *
  generalize b.toNat % 4503599627370496 = m at *
  have ha : ∀ (p : Prop) [Decidable p] (n : Nat), (if p then -(n : Int) else n).natAbs = n := by
    intro p _ n; split <;> simp
  rw [← h, ha]
  by_cases h0 : e = 0
  · exact ⟨m, 0, by simp [h0], by omega⟩
  · exact ⟨4503599627370496 + m, e - 1, by simp [h0], by omega⟩

/-- Decimals that are exact are read exactly. -/
theorem cenv_dec64 (b : BitVec 64) (x : Int) (hf : Finite64 b) (h : f64Val b = some x) :
    readDouble (cenv.dec64 b).1 (cenv.dec64 b).2 = x := by
  obtain ⟨M, j, hM, hl⟩ := f64_shape hf h
  show readDouble ((f64Val b).getD 0) (2 ^ 1074) = x
  rw [h]
  exact roundTo_exact (Int.pow_pos (by decide)) rfl hM hl (Nat.zero_le j)

theorem cFixtures_agree : LibsAgree Fixtures.env cenv Fixtures.schema where
  isPrint := by intro r h; simp [cenv] at h; exact h.1
  dec64 := cenv_dec64
  other := by
    intro v _
    simp only [cenv, EmbeddedOk, true_iff]
    split
    · split <;> simp [Fixtures.env]
    · trivial
  other_calm := by intro v w _ h; cases h

/-- The validator of a one-field type. -/
theorem cpp_iff {P : CEnv} {S : Schema} {typ : String} {f : FieldDesc} (h : OnlyField S typ f)
    (hi : NotIgnored S typ) (v : Val) :
    ∃ msg, checkMessage P S (.msg typ [(f.name, v)] []) = renderField P (checkMessage P S) msg f v := by
  obtain ⟨d, hS, hd, hf, ho⟩ := h
  exact ⟨d.name, check_single hS hd (hi d hS) hf ho v⟩

/-! ### C52 -/

/-- The hostname rule in C++. -/
theorem cpp_hostname {P : CEnv} {S : Schema} {typ : String} {f : FieldDesc} (h : OnlyField S typ f)
    (hi : NotIgnored S typ) (hT : f.typ = .one .string)
    (hr : f.rules = .mk none (.string { wellKnown := some (.hostname true) })) (s : Bytes) :
    Spec.Cpp.Accepts P S typ f (.sc (.str s)) ↔ Hostname s := by
  obtain ⟨msg, e⟩ := cpp_iff (P := P) h hi (.sc (.str s))
  unfold Spec.Cpp.Accepts
  rw [e, ← isHostname_iff]
  have : renderField P (checkMessage P S) msg f (.sc (.str s)) =
      when (!isHostname s) (fail { msg := msg, field := f.name } [.s "value must be a valid hostname"]) := by
    simp only [renderField, hT, hr]
    rfl
  rw [this]
  cases isHostname s <;> simp [when, fail, failIdx]

/-- **C52** Go and C++ accept the same ASCII strings as hostnames (Python: `C52_python_agrees`). -/
theorem C52_cpp_agrees (E : Env) (P : CEnv) (S : Schema) (typ : String) (f : FieldDesc)
    (h : OnlyField S typ f) (hi : NotIgnored S typ) (hT : f.typ = .one .string)
    (hr : f.rules = .mk none (.string { wellKnown := some (.hostname true) })) (s : Bytes)
    (hs : ∀ b ∈ s, b < 0x80) :
    Spec.Cpp.Accepts P S typ f (.sc (.str s)) ↔ Spec.Accepts E S typ f (.sc (.str s)) := by
  rw [cpp_hostname h hi hT hr, accepts_string h hT hr, ← Go.hostname_ascii (E := E) hs]
  simp [StringOk, ListOk, LenOk, WellKnownOk]

/-- C52: C++ accepts exactly the hostnames, whatever the bytes of the string. -/
theorem C52_cpp_hostname (P : CEnv) (S : Schema) (typ : String) (f : FieldDesc)
    (h : OnlyField S typ f) (hi : NotIgnored S typ) (hT : f.typ = .one .string)
    (hr : f.rules = .mk none (.string { wellKnown := some (.hostname true) })) (s : Bytes) :
    Spec.Cpp.Accepts P S typ f (.sc (.str s)) ↔ Hostname s := cpp_hostname h hi hT hr s

/-- The theorems apply to a one-field type, a hostname and a string that is none. -/
example : let f := Fixtures.fieldOf .string (.string { wellKnown := some (.hostname true) })
    OnlyField (Fixtures.only f) "M" f ∧ NotIgnored (Fixtures.only f) "M" ∧
    Spec.Cpp.Accepts cenv (Fixtures.only f) "M" f (.sc (.str (asc "Ex-1.org."))) ∧
    ¬ Spec.Cpp.Accepts cenv (Fixtures.only f) "M" f (.sc (.str (asc "a..b"))) := by
  intro f
  refine ⟨Fixtures.only_field _, only_notIgnored _, ?_, ?_⟩
  · rw [cpp_hostname (Fixtures.only_field f) (only_notIgnored f) rfl rfl, ← isHostname_iff]
    decide +kernel
  · rw [cpp_hostname (Fixtures.only_field f) (only_notIgnored f) rfl rfl, ← isHostname_iff]
    decide +kernel

/-! ### C53 -/

/-- **C53** `IsPrefix(p, s)`, `IsSuffix(p, s)` and `Contains(s, p)` hold exactly for prefixes,
suffixes and substrings. -/
theorem C53_substrings (p s : Bytes) :
    (isPrefix p s = true ↔ ∃ t, s = p ++ t) ∧ (isSuffix p s = true ↔ ∃ t, s = t ++ p) ∧
    (contains s p = true ↔ ∃ t u, s = t ++ p ++ u) := by
  refine ⟨?_, ?_, ?_⟩
  · rw [isPrefix_iff]; exact ⟨fun ⟨t, h⟩ => ⟨t, h.symm⟩, fun ⟨t, h⟩ => ⟨t, h.symm⟩⟩
  · rw [isSuffix_iff]; exact ⟨fun ⟨t, h⟩ => ⟨t, h.symm⟩, fun ⟨t, h⟩ => ⟨t, h.symm⟩⟩
  · rw [contains_iff]; exact ⟨fun ⟨t, u, h⟩ => ⟨t, u, h.symm⟩, fun ⟨t, u, h⟩ => ⟨t, u, h.symm⟩⟩

example : isPrefix (asc "ab") (asc "abc") = true ∧ isSuffix (asc "bc") (asc "abc") = true ∧
    contains (asc "xabcx") (asc "abc") = true ∧ contains (asc "abab") (asc "aab") = false ∧
    isSuffix (asc "abc") (asc "bc") = false := by decide +kernel

/-- **C53** On the UTF-8 encoding of any code points, `Utf8Len` is their number, and the same as Go's
`utf8.RuneCountInString`. -/
theorem C53_length (cs : List Nat) (h : ∀ c ∈ cs, ScalarValue c) :
    utf8Len (cs.flatMap encodeRune) = cs.length ∧
    utf8Len (cs.flatMap encodeRune) = runeCount (cs.flatMap encodeRune) := by
  have hu := utf8Len_eq (s := cs.flatMap encodeRune) ⟨cs, h, rfl⟩
  refine ⟨?_, hu⟩
  rw [hu, runeCount, runes_encode cs h]

/-- Code points of one, two, three and four bytes. -/
example : (∀ c ∈ [0x41, 0xE9, 0x20AC, 0x1F600], ScalarValue c) ∧
    utf8Len ([0x41, 0xE9, 0x20AC, 0x1F600].flatMap encodeRune) = 4 := by
  unfold ScalarValue; decide +kernel

/-- C53: outside UTF-8, which protobuf strings never leave, the two counts differ: C++ trusts the
first byte of a character. -/
theorem C53_invalid_differs : utf8Len [0xE4, 0x61, 0x62] = 1 ∧ runeCount [0xE4, 0x61, 0x62] = 3 := by
  decide +kernel

/-! ### C54 -/

variable {M : Type}

/-- **C54** For every history of constructing validators and checking messages, the next call of
`Validator<T>::CheckMessage` returns what the validator constructed last for `T` returns on the
message, and accepts if there is none. -/
theorem C54_latest_validator (es : List (Event M)) (t : String) (m : M) :
    Registry.run ([] : Registry M) (es ++ [.check t m]) =
      Registry.run ([] : Registry M) es ++
        [verdict (latest t es) m] := by
  have := Registry.run_check es [] t m
  simpa [Registry.find] using this

/-- A history in which a validator is replaced and another type is checked first. -/
example : let no : Nat → Run := fun _ => .error (.invalid .address)
    let es : List (Event Nat) := [.check "A" 1, .construct "A" no, .check "B" 2, .construct "A" fun n =>
      if n = 3 then .ok () else .error (.invalid .address)]
    (latest "B" es).isNone = true ∧ (latest "A" es).isSome = true ∧
    Registry.run [] (es ++ [.check "A" 3]) = [.ok (), .ok (), .ok ()] := by
  intro no es
  refine ⟨by rfl, by rfl, by rfl⟩

/-- C54: the type is the one named at the call. A message of type "A" that is checked as a message of
its base class is accepted, although the validator of "A" rejects it. -/
theorem C54_static_type (f : M → Run) (m : M) :
    Registry.run ([] : Registry M) [.construct "A" f, .check "Message" m] = [.ok ()] := by
  rfl

/-- The static initializers of generated files: one validator for each message type that is neither
`ignored` nor `disabled` (templates/cc/file.go:24-32). -/
def initializers (P : CEnv) (S : Schema) (types : List String) : List (Event Val) :=
  types.filterMap fun t =>
    match S t with
    | .generated d =>
      if d.ignored || d.disabled then none
      else some (.construct t fun v => match v with
        | .msg _ fs os => validateMsg P (checkMessage P S) d fs os
        | _ => .ok ())
    | _ => none

/-- C54: after the static initializers of all types have run, in any order, `CheckMessage` on a
message of a type gives what the model of the generated validators says. -/
theorem C54_initializers (P : CEnv) (S : Schema) (types : List String) (hn : types.Nodup) (typ : String)
    (ht : typ ∈ types) (fs : List (String × Val)) (os : List (String × String × Val))
    (hP : ∀ v, P.other v = .ok ()) :
    Registry.run [] (initializers P S types ++ [.check typ (.msg typ fs os)]) =
      [checkMessage P S (.msg typ fs os)] := by
  rw [C54_latest_validator]
  have hrun : ∀ (l : List String) (r : Registry Val), Registry.run r (initializers P S l) = [] := by
    intro l
    induction l with
    | nil => intro r; rfl
    | cons t l ih =>
      intro r
      unfold initializers
      rw [List.filterMap_cons]
      split
      · exact ih r
      · rename_i e he
        simp only [Registry.run]
        have hs : ∃ u f, e = .construct u f := by
          cases hS : S t with
          | generated d =>
            simp only [hS] at he
            split at he
            · cases he
            · cases he; exact ⟨_, _, rfl⟩
          | _ => simp [hS] at he
        obtain ⟨u, f, rfl⟩ := hs
        simp only [Registry.step, Option.toList, List.nil_append]
        exact ih _
  have hlat : ∀ l : List String, l.Nodup → latest typ (initializers P S l) =
      if typ ∈ l then latest typ (initializers P S [typ]) else none := by
    intro l
    induction l with
    | nil => intro _; rfl
    | cons t l ih =>
      intro hnd
      obtain ⟨hnot, hnd⟩ := List.nodup_cons.1 hnd
      have key : constructed typ (initializers P S (t :: l)) =
          constructed typ (initializers P S [t]) ++ constructed typ (initializers P S l) := by
        unfold initializers constructed
        rw [← List.filterMap_append, ← List.filterMap_append]
        rfl
      have skip : t ≠ typ → constructed typ (initializers P S [t]) = [] := by
        intro hne
        unfold initializers
        cases hS : S t with
        | generated d =>
          simp only [List.filterMap_cons, List.filterMap_nil, hS]
          split <;> rename_i h <;> split at h <;> cases h <;> simp [constructed, hne]
        | _ => simp [hS, constructed]
      by_cases htt : t = typ
      · subst htt
        rw [if_pos List.mem_cons_self]
        have hl : constructed t (initializers P S l) = [] := by
          have := ih hnd
          rw [if_neg hnot] at this
          exact List.getLast?_eq_none_iff.1 this
        unfold latest
        rw [key, hl, List.append_nil]
      · have e : (typ ∈ t :: l) ↔ typ ∈ l := by simp [Ne.symm htt]
        unfold latest at ih ⊢
        rw [key, skip htt, List.nil_append, ih hnd]
        simp only [e]
  rw [hrun, List.nil_append, hlat types hn, if_pos ht, checkMessage_eq]
  unfold checkStep latest
  cases hS : S typ with
  | generated d =>
    by_cases hd : (d.ignored || d.disabled) = true
    · have e : initializers P S [typ] = [] := by
        unfold initializers
        rw [List.filterMap_cons, List.filterMap_nil]
        simp only [hS, hd, if_true]
      rw [e]
      simp only [hS, hd, if_true, hP]
      rfl
    · have e : initializers P S [typ] = [.construct typ fun v => match v with
          | .msg _ fs os => validateMsg P (checkMessage P S) d fs os
          | _ => .ok ()] := by
        unfold initializers
        rw [List.filterMap_cons, List.filterMap_nil]
        simp only [hS, hd, if_false]
        rfl
      rw [e]
      simp only [hS, hd, if_false, constructed, List.filterMap_cons, if_true, List.filterMap_nil,
        List.getLast?_singleton, verdict]
      rfl
  | _ =>
    have e : initializers P S [typ] = [] := by
      unfold initializers
      rw [List.filterMap_cons, List.filterMap_nil]
      simp only [hS]
    rw [e]
    simp only [hS, hP]
    rfl

/-- All types of the example schema. -/
example : ["Age", "Person", "Nick"].Nodup ∧ "Person" ∈ ["Age", "Person", "Nick"] ∧
    (∀ v, cenv.other v = .ok ()) ∧ (initializers cenv Fixtures.schema ["Age", "Person", "Nick"]).length = 3 :=
  ⟨by decide, by decide, fun _ => rfl, by rfl⟩

/-! ### C55 -/

/-- **C55, partial** Whole messages, of any type and nesting: if rules and values are in the common
part of the languages (`Portable`) and the libraries agree, then the C++ validator returns `true`
exactly when Go's `Validate()` returns `nil`, and throws nothing. Missing: what `Portable` excludes;
the theorems below show that C++ and Go do differ there. -/
theorem C55_cpp_agrees_partial (E : Env) (P : CEnv) (S : Schema) (hL : LibsAgree E P S) (typ : String)
    (d : MsgDesc) (hS : S typ = .generated d) (hi : d.ignored = false) (fs : List (String × Val))
    (os : List (String × String × Val)) (hP : Portable E P S (.msg typ fs os)) :
    (checkMessage P S (.msg typ fs os) = .ok () ↔ Go.validate E S false (.msg typ fs os) = none) ∧
    ∀ w, checkMessage P S (.msg typ fs os) ≠ .error (.unimplemented w) := by
  obtain ⟨h1, h2⟩ := fuel_decides hL (Go.depth (.msg typ fs os)) (.msg typ fs os) (Nat.le_refl _) hP
  refine ⟨?_, h2⟩
  unfold checkMessage
  rw [h1]
  simp [EmbeddedOk, hS, hi]

/-- Messages inside a portable one are decided. -/
theorem inside_decides {E : Env} {P : CEnv} {S : Schema} (hL : LibsAgree E P S) {v : Val}
    (hP : Portable E P S v) {u : Val} (hu : ∀ x, Part x u → Part x v) {w : Val} (hw : Go.Inside w u) :
    Decides (checkMessage P S w) (EmbeddedOk E S (fun w => Go.validate E S false w = none) w) :=
  fuel_decides hL (Go.depth w) w (Nat.le_refl _) (part_inside hw hu hP)

/-- **C55, partial** A rejection by C++ stops at the first field, in declaration order, that violates
its rules, and names the message type and the field; if all fields are fine, at the first oneof that
fails, naming the oneof if it is required and unset and the member otherwise. -/
theorem C55_blames_first_partial (E : Env) (P : CEnv) (S : Schema) (hL : LibsAgree E P S) (typ : String)
    (d : MsgDesc) (hS : S typ = .generated d) (hi : d.ignored = false) (hd : d.disabled = false)
    (fs : List (String × Val)) (os : List (String × String × Val))
    (hP : Portable E P S (.msg typ fs os)) (e : CErr)
    (he : checkMessage P S (.msg typ fs os) = .error (.invalid e)) :
    let ok := fun w => Go.validate E S false w = none
    (∃ pre f post, d.fields = pre ++ f :: post ∧ (∀ g ∈ pre, FieldOk E S ok g (getField fs g)) ∧
      ¬ FieldOk E S ok f (getField fs f) ∧ ∃ i r c, e = .viol d.name f.name i false r c) ∨
    ((∀ f ∈ d.fields, FieldOk E S ok f (getField fs f)) ∧
      ∃ pre o post, d.oneofs = pre ++ o :: post ∧
        (∀ p ∈ pre, OneofOk E S ok p (os.lookup p.name)) ∧ ¬ OneofOk E S ok o (os.lookup o.name) ∧
        ((os.lookup o.name = none ∧ o.required = true ∧ e = .oneof o.name) ∨
          ∃ m u f i r c, os.lookup o.name = some (m, u) ∧ f ∈ o.fields ∧ f.name = m ∧
            e = .viol d.name f.name i false r c)) := by
  intro ok
  rw [checkMessage_eq] at he
  simp only [checkStep, hS, hi, hd, Bool.or_self, Bool.false_eq_true, if_false, validateMsg] at he
  obtain ⟨hF, hO⟩ := hP typ fs os d .self hS hd
  have nonmsg : ∀ w, (∀ t fs os, w ≠ .msg t fs os) → Decides (checkMessage P S w) (EmbeddedOk E S ok w) := by
    intro w hm
    unfold checkMessage
    rw [fuel_nonmsg hL _ w hm]
    exact Decides.ok.iff (by cases w <;> first | exact absurd rfl (hm _ _ _) | simp [EmbeddedOk])
  have hfield : ∀ f ∈ d.fields, Decides (renderField P (checkMessage P S) d.name f (getField fs f))
      (FieldOk E S ok f (getField fs f)) := by
    intro f hf
    refine renderField_decides hL _ _ _ f _ ?_ (hF f hf)
    intro w hw _
    unfold getField at hw
    cases hl : fs.lookup f.name with
    | some u =>
      rw [hl] at hw
      exact inside_decides hL hP (fun x hx => .field (mem_of_lookup hl) hx) hw
    | none =>
      rw [hl] at hw
      exact nonmsg w (Go.zero_not_msg hw)
  have hone : ∀ o ∈ d.oneofs, Decides (oneofTpl P (checkMessage P S) d.name o (os.lookup o.name))
      (OneofOk E S ok o (os.lookup o.name)) := by
    intro o ho
    unfold oneofTpl OneofOk
    cases hl : os.lookup o.name with
    | none =>
      refine Decides.when (p := False) (fun _ => ⟨by simp, by simp⟩) ?_
      cases o.required <;> simp
    | some mu =>
      obtain ⟨m, u⟩ := mu
      simp only
      cases hfind : o.fields.find? (fun f => f.name == m) with
      | none => exact Decides.ok.iff (by simp)
      | some f =>
        simp only [Option.some.injEq, forall_eq']
        exact renderField_decides hL _ _ _ f u
          (fun w hw _ => inside_decides hL hP (fun x hx => .member (mem_of_lookup hl) hx) hw)
          (hO o ho m u f hl hfind)
  unfold seq at he
  split at he
  · rename_i hpass
    have hall := forEach_passes hpass
    refine .inr ⟨fun f hf => (hfield f hf).1.1 (hall f hf), ?_⟩
    obtain ⟨pre, o, post, hsplit, hpre, ho⟩ := forEach_stops he
    have hmem : o ∈ d.oneofs := by rw [hsplit]; simp
    refine ⟨pre, o, post, hsplit, fun p hp => (hone p (by rw [hsplit]; simp [hp])).1.1 (hpre p hp), ?_, ?_⟩
    · intro h
      have := (hone o hmem).1.2 h
      rw [this] at ho
      cases ho
    · unfold oneofTpl at ho
      cases hl : os.lookup o.name with
      | none =>
        rw [hl] at ho
        simp only [when] at ho
        split at ho
        · rename_i hr
          cases ho
          exact .inl ⟨rfl, hr, rfl⟩
        · cases ho
      | some mu =>
        obtain ⟨m, u⟩ := mu
        rw [hl] at ho
        simp only at ho
        split at ho
        · rename_i f hf
          obtain ⟨i, r, c, he⟩ := blames_field P _ _ f u e ho
          have := List.find?_some hf
          exact .inr ⟨m, u, f, i, r, c, rfl, List.mem_of_find?_eq_some hf, by simpa using this, he⟩
        · cases ho
  · rename_i hstop
    cases he
    obtain ⟨pre, f, post, hsplit, hpre, hf⟩ := forEach_stops hstop
    have hmem : f ∈ d.fields := by rw [hsplit]; simp
    refine .inl ⟨pre, f, post, hsplit, fun g hg => (hfield g (by rw [hsplit]; simp [hg])).1.1 (hpre g hg), ?_,
      blames_field P _ _ f _ e hf⟩
    intro h
    have := (hfield f hmem).1.2 h
    rw [this] at hf
    cases hf

/-- A person with an age, a nickname and a phone. -/
def someone (n : Int) (nick phone : Bytes) : Val :=
  .msg "Person" [("Age", .sc (.num (.int n))), ("Nick", .sc (.str nick))]
    [("Contact", "Phone", .sc (.str phone))]

theorem someone_portable (n : Int) (nick phone : Bytes) (h1 : -2147483648 ≤ n) (h2 : n ≤ 2147483647)
    (hn : Utf8 nick) (hp : Utf8 phone) : Portable Fixtures.env cenv Fixtures.schema (someone n nick phone) := by
  intro typ fs os d hpart hd _
  have hself : (.msg typ fs os : Val) = someone n nick phone := by
    unfold someone at hpart ⊢
    cases hpart with
    | self => rfl
    | field hm hp =>
      simp only [List.mem_cons, List.not_mem_nil, or_false, Prod.mk.injEq] at hm
      rcases hm with ⟨-, rfl⟩ | ⟨-, rfl⟩ <;> cases part_scalar hp
    | member hm hp =>
      simp only [List.mem_cons, List.not_mem_nil, or_false, Prod.mk.injEq] at hm
      obtain ⟨-, -, rfl⟩ := hm
      cases part_scalar hp
  simp only [someone, Val.msg.injEq] at hself
  obtain ⟨rfl, rfl, rfl⟩ := hself
  have hd' : d = Fixtures.person := by
    simpa [Fixtures.schema, eq_comm] using hd
  subst hd'
  refine ⟨?_, ?_⟩
  · intro f hf
    simp only [Fixtures.person, List.mem_cons, List.not_mem_nil, or_false] at hf
    rcases hf with rfl | rfl | rfl
    · refine ⟨⟨by simp [Fixtures.age], ?_, by simp [Fixtures.age], by simp [Fixtures.age]⟩,
        ⟨by decide, by decide, h1, h2⟩, by simp [Fixtures.age]⟩
      intro b hb
      have : b = .int 0 := by simpa [Fixtures.age, eq_comm] using hb
      subst this
      exact ⟨⟨by decide, by decide, by decide, by decide⟩, by decide⟩
    · refine ⟨⟨by simp [Fixtures.nick], by simp [Fixtures.nick], by simp [Fixtures.nick], by simp [Fixtures.nick]⟩, ?_⟩
      exact ⟨hn, by simp [Fixtures.nick], by simp [Fixtures.nick]⟩
    · trivial
  · intro o ho m u f hl hf
    simp only [Fixtures.person, List.mem_cons, List.not_mem_nil, or_false] at ho
    subst ho
    have : m = "Phone" ∧ u = .sc (.str phone) := by
      simpa [Fixtures.contact, eq_comm] using hl
    obtain ⟨rfl, rfl⟩ := this
    have : f = { name := "Phone", typ := .one .string, rules := .mk none (.string { minLen := some 2 }) } := by
      simpa [Fixtures.contact, eq_comm] using hf
    subst this
    exact ⟨⟨by simp, by simp, by simp, by simp⟩, hp, by simp, by simp⟩

theorem utf8_asc3 (cs : List Nat) (h : ∀ c ∈ cs, c < 0x80) (s : Bytes) (e : s = cs.flatMap encodeRune) :
    Utf8 s := ⟨cs, fun c hc => ⟨by have := h c hc; omega, by have := h c hc; omega⟩, e⟩

/-- The theorems apply to a valid person and to one whose nickname is too long. -/
example : checkMessage cenv Fixtures.schema (someone 30 (asc "ann") (asc "555")) = .ok () :=
  (C55_cpp_agrees_partial Fixtures.env cenv Fixtures.schema cFixtures_agree "Person" Fixtures.person rfl rfl
    _ _ (someone_portable 30 (asc "ann") (asc "555") (by decide) (by decide)
      (utf8_asc3 [97, 110, 110] (by decide) _ (by decide +kernel))
      (utf8_asc3 [53, 53, 53] (by decide) _ (by decide +kernel)))).1.2 (by rfl)

example : Portable Fixtures.env cenv Fixtures.schema (someone 30 (asc "bobby") (asc "555")) ∧
    ∃ r, checkMessage cenv Fixtures.schema (someone 30 (asc "bobby") (asc "555")) =
      .error (.invalid (.viol "Person" "Nick" none false r none)) :=
  ⟨someone_portable 30 _ _ (by decide) (by decide)
      (utf8_asc3 [98, 111, 98, 98, 121] (by decide) _ (by decide +kernel))
      (utf8_asc3 [53, 53, 53] (by decide) _ (by decide +kernel)), _, by rfl⟩

/-! #### Where C++ and Go differ -/

/-- The place a one-field type reports. -/
def here : Go.Ctx := { msg := "M", field := "X" }

theorem cpp_only (P : CEnv) (f : FieldDesc) (v : Val) :
    checkMessage P (Fixtures.only f) (.msg "M" [(f.name, v)] []) =
      renderField P (checkMessage P (Fixtures.only f)) "M" f v :=
  check_single (d := { name := "M", fields := [f] }) rfl rfl rfl rfl rfl v

/-- Numeric rules on a one-field type. -/
theorem cpp_num (P : CEnv) (k : NumKind) (r : NumRules) (n : Num) :
    checkMessage P (Fixtures.only (Fixtures.fieldOf (.scalar k) (.num k r))) (.msg "M" [("X", .sc (.num n))] [])
      = numTpl P here k r n := by
  cases k <;> exact (cpp_only P (Fixtures.fieldOf (.scalar _) (.num _ r)) (.sc (.num n))).trans rfl

/-- String rules on a one-field type. -/
theorem cpp_str (P : CEnv) (r : StringRules) (s : Bytes) :
    checkMessage P (Fixtures.only (Fixtures.fieldOf .string (.string r))) (.msg "M" [("X", .sc (.str s))] [])
      = strTpl P here r s :=
  (cpp_only P (Fixtures.fieldOf .string (.string r)) (.sc (.str s))).trans rfl

/-- Bytes rules on a one-field type. -/
theorem cpp_bytes (P : CEnv) (r : BytesRules) (s : Bytes) :
    checkMessage P (Fixtures.only (Fixtures.fieldOf .bytes (.bytes r))) (.msg "M" [("X", .sc (.bytes s))] [])
      = bytesTpl P here r s :=
  (cpp_only P (Fixtures.fieldOf .bytes (.bytes r)) (.sc (.bytes s))).trans rfl

theorem rejects_of {P : CEnv} {S : Schema} {typ : String} {f : FieldDesc} {v : Val} {x : Run}
    (h : checkMessage P S (.msg typ [(f.name, v)] []) = x) (hx : ∃ e, x = .error (.invalid e)) :
    Rejects P S typ f v := by
  obtain ⟨e, rfl⟩ := hx
  exact ⟨e, h⟩

/-- **C55, exception** Limits on `float` fields are written without `F` and read as `double`s. If Go
prints the `float` nearest to 1.1 as "1.1", then under `lte: 1.1` C++ rejects that very number, which Go
accepts. -/
theorem C55_float_limit (E : Env) (P : CEnv) (hP : P.dec32 0x3F8CCCCD#32 = (11, 10)) :
    let f := Fixtures.fieldOf (.scalar .float) (.num .float { lte := some (.f32 0x3F8CCCCD#32) })
    Checked f ∧ Rejects P (Fixtures.only f) "M" f (.sc (.num (.f32 0x3F8CCCCD#32))) ∧
      Spec.Accepts E (Fixtures.only f) "M" f (.sc (.num (.f32 0x3F8CCCCD#32))) := by
  intro f
  refine ⟨by unfold Checked; decide, ?_, ?_⟩
  · have hlt : CNum.lt (.flt (some (readDouble 11 10))) (cnum .float (.f32 0x3F8CCCCD#32)) = true := by
      decide +kernel
    refine rejects_of (cpp_num P .float { lte := some (.f32 0x3F8CCCCD#32) } (.f32 0x3F8CCCCD#32)) ?_
    simp only [numTpl, ltgtTpl, rangeLit, hP, hlt, withOpt, optB, inTpl, when, seq, fail, failIdx]
    exact ⟨_, rfl⟩
  · rw [accepts_scalar (Fixtures.only_field f) rfl rfl _ trivial]
    refine .inr ⟨by simp, ?_, by simp [ListOk]⟩
    intro x hx
    have hx : f32Val 0x3F8CCCCD#32 = some x := hx
    simp only [f, Fixtures.fieldOf, FieldRules.type, numUpper, numLower, numVal, hx, Option.bind_some,
      Option.map_some, Option.bind_none, RangeOk, Bound.AsUpper]
    simp

/-- **C55, exception** Constants on `float` fields are written with six decimals: `const: 1e-7` is read
as zero, so C++ accepts zero and rejects the constant. -/
theorem C55_float_const (E : Env) (P : CEnv) :
    let f := Fixtures.fieldOf (.scalar .float) (.num .float { const := some (.f32 0x33D6BF95#32) })
    Checked f ∧ Rejects P (Fixtures.only f) "M" f (.sc (.num (.f32 0x33D6BF95#32))) ∧
      Spec.Cpp.Accepts P (Fixtures.only f) "M" f (.sc (.num (.f32 0))) ∧
      Spec.Accepts E (Fixtures.only f) "M" f (.sc (.num (.f32 0x33D6BF95#32))) ∧
      ¬ Spec.Accepts E (Fixtures.only f) "M" f (.sc (.num (.f32 0))) := by
  intro f
  have hne : CNum.eq (cnum .float (.f32 0x33D6BF95#32))
      (.flt ((val32 0x33D6BF95#32).map fun x => readFloat (millionths x) 1000000)) = false := by
    decide +kernel
  have heq : CNum.eq (cnum .float (.f32 0))
      (.flt ((val32 0x33D6BF95#32).map fun x => readFloat (millionths x) 1000000)) = true := by
    decide +kernel
  refine ⟨by unfold Checked; decide, ?_, ?_, ?_, ?_⟩
  · refine rejects_of (cpp_num P .float { const := some (.f32 0x33D6BF95#32) } (.f32 0x33D6BF95#32)) ?_
    simp only [numTpl, constLit, hne, withOpt, optB, when, seq, fail, failIdx]
    exact ⟨_, rfl⟩
  · refine (cpp_num P .float { const := some (.f32 0x33D6BF95#32) } (.f32 0)).trans ?_
    simp only [numTpl, constLit, heq, withOpt, optB, when, seq, fail, failIdx]
    rfl
  · rw [accepts_scalar (Fixtures.only_field f) rfl rfl _ trivial]
    refine .inr ⟨?_, by simp [RangeOk, numUpper, numLower], by simp [ListOk]⟩
    intro k hk
    cases hk
    exact ⟨_, rfl, rfl⟩
  · rw [accepts_scalar (Fixtures.only_field f) rfl rfl _ trivial]
    rintro (⟨h, -⟩ | ⟨h, -⟩)
    · cases h
    · obtain ⟨x, h1, h2⟩ := h _ rfl
      rw [← h2] at h1
      revert h1
      decide +kernel

/-- **C55, exception** C++ finds NaN in every set: under `in: [1]` it accepts NaN, which Go rejects;
under `not_in: [1]` it is the other way round. -/
theorem C55_nan_in (E : Env) (P : CEnv) :
    let one : Num := .f32 0x3F800000#32
    let nan : Num := .f32 0x7FC00000#32
    let f := Fixtures.fieldOf (.scalar .float) (.num .float { ins := [one] })
    let g := Fixtures.fieldOf (.scalar .float) (.num .float { notIns := [one] })
    Checked f ∧ Spec.Cpp.Accepts P (Fixtures.only f) "M" f (.sc (.num nan)) ∧
      ¬ Spec.Accepts E (Fixtures.only f) "M" f (.sc (.num nan)) ∧
    Checked g ∧ Rejects P (Fixtures.only g) "M" g (.sc (.num nan)) ∧
      Spec.Accepts E (Fixtures.only g) "M" g (.sc (.num nan)) := by
  intro one nan f g
  have hfind : ∀ x, setFind CNum.lt [.flt x] (cnum .float nan) = true := by
    intro x
    have : cnum .float nan = .flt none := by
      have : val32 0x7FC00000#32 = none := by decide +kernel
      simp [cnum, nan, this]
    rw [this]
    cases x <;> rfl
  have hkey : setKey P .float one = .flt ((val32 0x3F800000#32).map fun x => readFloat (millionths x) 1000000) := rfl
  have hnan : numVal nan = none := by decide +kernel
  refine ⟨by unfold Checked; decide, ?_, ?_, by unfold Checked; decide, ?_, ?_⟩
  · refine (cpp_num P .float { ins := [one] } nan).trans ?_
    simp only [numTpl, inTpl, List.map_cons, List.map_nil, hkey, hfind, withOpt, optB, when, seq]
    rfl
  · rw [accepts_scalar (Fixtures.only_field f) rfl rfl _ trivial]
    rintro (⟨h, -⟩ | ⟨-, -, h⟩)
    · cases h
    · simp [ListOk, numSame, hnan] at h
  · refine rejects_of (cpp_num P .float { notIns := [one] } nan) ?_
    simp only [numTpl, inTpl, List.map_cons, List.map_nil, hkey, hfind, withOpt, optB, when, seq, fail, failIdx]
    exact ⟨_, rfl⟩
  · rw [accepts_scalar (Fixtures.only_field g) rfl rfl _ trivial]
    refine .inr ⟨by simp, by simp [RangeOk, numUpper, numLower], ?_⟩
    simp [ListOk, numSame, hnan]

/-- **C55, exception** A character written as `\xhh` swallows hexadecimal digits that follow it: the
constant of the two characters U+0001 and "a" is read as the one character U+001A. -/
theorem C55_const_escape (E : Env) (P : CEnv) (hP : P.isPrint 1 = false ∧ P.isPrint 0x61 = true) :
    let f := Fixtures.fieldOf .string (.string { const := some [0x01, 0x61] })
    Checked f ∧ Rejects P (Fixtures.only f) "M" f (.sc (.str [0x01, 0x61])) ∧
      Spec.Cpp.Accepts P (Fixtures.only f) "M" f (.sc (.str [0x1A])) ∧
      Spec.Accepts E (Fixtures.only f) "M" f (.sc (.str [0x01, 0x61])) ∧
      ¬ Spec.Accepts E (Fixtures.only f) "M" f (.sc (.str [0x1A])) := by
  intro f
  have hq : Go.litString P.isPrint [0x01, 0x61] = [0x22, 0x5C, 0x78, 0x30, 0x31, 0x61, 0x22] := by
    simp [Go.litString, Go.quoteBody, decodeRune, Go.simpleEscape, Go.escapedRune, Go.hexDigits, runeError, hP.1,
      hP.2, Go.lowerDigit]
    decide
  have hv : strVal P.isPrint [0x01, 0x61] = [0x1A] := by
    unfold strVal strChars
    rw [hq]
    decide +kernel
  refine ⟨by unfold Checked; decide, ?_, ?_, ?_, ?_⟩
  · refine rejects_of (cpp_str P { const := some [0x01, 0x61] } [0x01, 0x61]) ?_
    simp only [strTpl, withOpt, hv, optB]
    exact ⟨_, rfl⟩
  · refine (cpp_str P { const := some [0x01, 0x61] } [0x1A]).trans ?_
    simp only [strTpl, withOpt, hv, optB]
    rfl
  · rw [accepts_string (Fixtures.only_field f) rfl rfl]
    simp [StringOk, ListOk, LenOk, WellKnownOk]
  · rw [accepts_string (Fixtures.only_field f) rfl rfl]
    simp [StringOk]

/-- **C55, exception** Constants for `bytes` fields are cut at a zero byte. -/
theorem C55_bytes_nul (E : Env) (P : CEnv) (a b : Bytes) (h0 : NoNul a) :
    let f := Fixtures.fieldOf .bytes (.bytes { const := some (a ++ 0 :: b) })
    Rejects P (Fixtures.only f) "M" f (.sc (.bytes (a ++ 0 :: b))) ∧
      Spec.Cpp.Accepts P (Fixtures.only f) "M" f (.sc (.bytes a)) ∧
      Spec.Accepts E (Fixtures.only f) "M" f (.sc (.bytes (a ++ 0 :: b))) ∧
      ¬ Spec.Accepts E (Fixtures.only f) "M" f (.sc (.bytes a)) := by
  intro f
  have hv : bytesVal (a ++ 0 :: b) = a := by
    rw [bytesVal_cut, List.takeWhile_append_of_pos]
    · simp
    · intro x hx
      have : x ≠ 0 := fun e => h0 (e ▸ hx)
      simpa using this
  have hne : (a ++ 0 :: b : Bytes) ≠ a := by
    intro h
    have := congrArg List.length h
    simp at this
  have hz : (a ++ 0 :: b : Bytes) ≠ [] := by simp
  refine ⟨?_, ?_, ?_, ?_⟩
  · refine rejects_of (cpp_bytes P { const := some (a ++ 0 :: b) } (a ++ 0 :: b)) ?_
    simp only [bytesTpl, withBytes, optS, Option.getD, hz, if_false, hv, optB]
    simp only [bne_iff_ne.2 hne, when, if_true, seq, fail, failIdx]
    exact ⟨_, rfl⟩
  · refine (cpp_bytes P { const := some (a ++ 0 :: b) } a).trans ?_
    simp only [bytesTpl, withBytes, optS, Option.getD, hz, if_false, hv, optB]
    simp only [bne_self_eq_false, when, seq]
    rfl
  · rw [accepts_bytes (Fixtures.only_field f) rfl rfl]
    simp [BytesOk, ListOk, LenOk]
  · rw [accepts_bytes (Fixtures.only_field f) rfl rfl]
    simp [BytesOk]

example : NoNul (asc "ab") := by unfold NoNul; decide +kernel

/-- **C55, exception** `pattern` must match the whole string in C++, and only some part of it in Go. -/
theorem C55_pattern_full (E : Env) (P : CEnv) (hp : ∀ r, P.isPrint r = true → 0x20 ≤ r) (p s : Bytes)
    (hT : CText p) (h1 : P.fullMatch p s = false) (h2 : E.matchRe p s = true) :
    let f := Fixtures.fieldOf .string (.string { pattern := some p })
    Rejects P (Fixtures.only f) "M" f (.sc (.str s)) ∧
      Spec.Accepts E (Fixtures.only f) "M" f (.sc (.str s)) := by
  intro f
  refine ⟨?_, ?_⟩
  · refine rejects_of (cpp_str P { pattern := some p } s) ?_
    simp only [strTpl, patternTpl, withOpt, strChars_eq P.isPrint hp hT, h1, optB, inTpl, lenTpl, seq, when]
    exact ⟨_, rfl⟩
  · rw [accepts_string (Fixtures.only_field f) rfl rfl]
    simp [StringOk, ListOk, LenOk, WellKnownOk, h2]

/-- The pattern "b" and the string "abc". -/
example : CText (asc "b") ∧ cenv.fullMatch (asc "b") (asc "abc") = false ∧
    ({ Fixtures.env with matchRe := fun _ _ => true } : Env).matchRe (asc "b") (asc "abc") = true :=
  ⟨⟨utf8_asc3 [98] (by decide) _ (by decide +kernel), by
    intro a c d t h
    have := congrArg List.length h
    simp at this
    have : (asc "b").length = 1 := by decide +kernel
    omega⟩, rfl, rfl⟩

/-- **C55, exception** `inet_pton` stops at a NUL: an IPv4 address followed by NUL and any text is an
IPv4 address in C++. -/
theorem C55_ip_nul (E : Env) (P : CEnv) (s t : Bytes) (h0 : NoNul s) (h1 : P.pton4 s = true)
    (h2 : E.parseIP (s ++ 0 :: t) = none) :
    let f := Fixtures.fieldOf .string (.string { wellKnown := some (.ipv4 true) })
    Spec.Cpp.Accepts P (Fixtures.only f) "M" f (.sc (.str (s ++ 0 :: t))) ∧
      ¬ Spec.Accepts E (Fixtures.only f) "M" f (.sc (.str (s ++ 0 :: t))) := by
  intro f
  have hc : cStr (s ++ 0 :: t) = s := by
    unfold cStr
    rw [List.takeWhile_append_of_pos]
    · simp
    · intro x hx
      have : x ≠ 0 := fun e => h0 (e ▸ hx)
      simpa using this
  refine ⟨?_, ?_⟩
  · refine (cpp_str P { wellKnown := some (.ipv4 true) } (s ++ 0 :: t)).trans ?_
    have e : strTpl P here { wellKnown := some (.ipv4 true) } (s ++ 0 :: t) =
        when (!isIpv4 P (s ++ 0 :: t)) (fail here [.s "value must be a valid IPv4 Address"]) := rfl
    rw [e, isIpv4, hc, h1]
    rfl
  · rw [accepts_string (Fixtures.only_field f) rfl rfl]
    simp [StringOk, ListOk, LenOk, WellKnownOk, h2]

example : NoNul (asc "1.2.3.4") ∧ ({ cenv with pton4 := fun _ => true } : CEnv).pton4 (asc "1.2.3.4") = true ∧
    Fixtures.env.parseIP (asc "1.2.3.4" ++ 0 :: asc "x") = none := ⟨by unfold NoNul; decide +kernel, rfl, rfl⟩

/-- **C55, exception** C++ takes durations whose seconds and nanos have different signs as they are: a
second less 5 ns, which is no valid duration, is accepted under `gt: 0s`. -/
theorem C55_mixed_duration (E : Env) (P : CEnv) :
    let f := Fixtures.fieldOf (.embed "google.protobuf.Duration" none) (.duration { gt := some ⟨0, 0⟩ })
    Spec.Cpp.Accepts P (Fixtures.only f) "M" f (.dur ⟨1, -5⟩) ∧
      ¬ Spec.Accepts E (Fixtures.only f) "M" f (.dur ⟨1, -5⟩) := by
  intro f
  refine ⟨?_, ?_⟩
  · exact (cpp_only P f (.dur ⟨1, -5⟩)).trans (by rfl)
  · rw [accepts_iff (Fixtures.only_field f)]
    simp [FieldOk, ValueOk, f, Fixtures.fieldOf, FieldRules.type, DurationOk, DurConstrained, PDur.valid]

/-- **C55, unimplemented** E-mail and URI rules throw for every string that is checked. -/
theorem C55_formats_throw (P : CEnv) (w : StrWellKnown) (hw : w = .email true ∨ w = .uri true ∨ w = .uriRef true)
    (s : Bytes) :
    let f := Fixtures.fieldOf .string (.string { wellKnown := some w })
    Throws P (Fixtures.only f) "M" f (.sc (.str s)) := by
  intro f
  rcases hw with rfl | rfl | rfl
  all_goals exact ⟨_, (cpp_str P _ s).trans (by rfl)⟩

/-- **C55, unimplemented** IP rules on `bytes` throw. -/
theorem C55_bytes_ip_throws (P : CEnv) (w : BytesWellKnown) (hw : w = .ip true ∨ w = .ipv4 true ∨ w = .ipv6 true)
    (s : Bytes) :
    let f := Fixtures.fieldOf .bytes (.bytes { wellKnown := some w })
    Throws P (Fixtures.only f) "M" f (.sc (.bytes s)) := by
  intro f
  rcases hw with rfl | rfl | rfl
  all_goals exact ⟨_, (cpp_bytes P _ s).trans (by rfl)⟩

/-- **C55, unimplemented** Timestamp rules throw, even when the field is not set. -/
theorem C55_timestamp_throws (P : CEnv) (r : TimestampRules) (hr : TsConstrained r) (hq : r.required ≠ some true)
    (v : Val) (hv : v = .null ∨ ∃ t, v = .ts t) :
    let f := Fixtures.fieldOf (.embed "google.protobuf.Timestamp" none) (.timestamp r)
    Throws P (Fixtures.only f) "M" f v := by
  intro f
  have hc : (r.lt.isSome || r.lte.isSome || r.gt.isSome || r.gte.isSome || r.ltNow.isSome ||
      r.gtNow.isSome || r.within.isSome || r.const.isSome) = true := by
    unfold TsConstrained at hr
    simpa only [Bool.or_eq_true, Option.isSome_iff_ne_none, or_assoc] using hr
  have hb : optB r.required = false := by
    cases h : r.required with
    | none => rfl
    | some b => cases b <;> simp [h, optB] at hq ⊢
  have ht : ∀ t, timestampTpl here r t = .error (.unimplemented
      "C++ timestamp comparison validations are not implemented") := by
    intro t
    unfold timestampTpl
    rw [hc, hb]
    rfl
  rcases hv with rfl | ⟨t, rfl⟩
  · exact ⟨_, (cpp_only P f .null).trans (ht none)⟩
  · exact ⟨_, (cpp_only P f (.ts t)).trans (ht (some t))⟩

/-- `gt_now` on a field that is not set. -/
example : TsConstrained { gtNow := some true } ∧
    ({ gtNow := some true } : TimestampRules).required ≠ some true := by
  unfold TsConstrained; decide

/-- **C55, unimplemented** With `no_sparse` no map is accepted, and the empty one throws. -/
theorem C55_no_sparse_throws (P : CEnv) (n : String) :
    let f : FieldDesc := { name := "X", typ := .map .string (.embed n none),
                           rules := .mk none (.map { noSparse := some true } .absent .absent) }
    (∀ kvs, ¬ Spec.Cpp.Accepts P (Fixtures.only f) "M" f (.map kvs)) ∧
      Throws P (Fixtures.only f) "M" f (.map []) := by
  intro f
  have ho : P.order [] = [] := List.perm_nil.1 (P.order_perm [])
  have e : ∀ kvs, checkMessage P (Fixtures.only f) (.msg "M" [(f.name, .map kvs)] []) =
      forEach (P.order kvs) (mapEntry P (checkMessage P (Fixtures.only f)) here .string (.embed n none)
        .absent .absent) ⊳ throw "no_sparse validation is not implemented for C++ because protobuf maps cannot be sparse in C++" :=
    fun kvs => (cpp_only P f (.map kvs)).trans rfl
  refine ⟨fun kvs h => ?_, ?_⟩
  · unfold Spec.Cpp.Accepts at h
    rw [e] at h
    unfold seq Cpp.throw at h
    split at h <;> cases h
  · have := e []
    rw [ho] at this
    exact ⟨_, this⟩

end PGV.Props
