import Verif.Spec.Across
import Verif.Lemmas.Across
import Verif.Lemmas.PyOne
import Verif.Props.Core
import Verif.Props.Java
import Verif.Props.Python
import Verif.Props.CppStrict
import Verif.Props.Cpp
import Verif.Props.JavaBlame
import Verif.Props.PyReason

/-!
C94: no validator accepts a message in which it would reject an embedded message, whichever files the
types are declared in. (For Go and C++ see `C28_nested_invalid` and `C70_nested_accepted`.)
-/

set_option linter.unusedSimpArgs false

namespace PGV.Props
open PGV PGV.Spec PGV.Spec.Python

/-- Did it end with an exception? -/
def fails {ε : Type} : Except ε Unit → Bool
  | .ok _ => false
  | .error _ => true

theorem fails_ne {ε : Type} {x : Except ε Unit} (h : fails x = true) : x ≠ .ok () := by
  rintro rfl
  simp [fails] at h

/-- **C94** Java: a message is accepted only if all messages inside are, at any depth, as long as the
types on the way down are declared in files that import validate.proto. Missing: the other files, see
`C94_java_not_imported`. -/
theorem C94_java_partial (J : Java.JEnv) (S : Schema) (fileOf : String → Module.Target) (v u : Val)
    (hv : Validated (javaSchema fileOf S) v) (hn : Nested (javaSchema fileOf S) v u)
    (h : Java.assertValid J (javaSchema fileOf S) v = .ok ()) :
    Java.assertValid J (javaSchema fileOf S) u = .ok () := by
  induction hn with
  | self v => exact h
  | inner he _ ih =>
    refine ih ?_ (Across.Java.embeds_ok hv h he)
    cases he with
    | mk _ _ _ _ _ _ hw => exact hw

/-- A type's file that imports `validate/validate.proto`. -/
def importing : Module.Target := ⟨[], [], ["validate/validate.proto"], false, ['a'], ['a'], ['A'], fun _ => []⟩

/-- A file without that import. -/
def plainFile : Module.Target := ⟨[], [], ["a.proto"], false, ['b'], ['b'], ['B'], fun _ => []⟩

/-- `Person` is declared in a file with the import, `Pair` in one without, and `Club`, again, in one with it. -/
def clubFiles : String → Module.Target := fun typ => if typ = "Pair" then plainFile else importing

/-- A pair of people: no rules of its own. -/
def pair : MsgDesc :=
  { name := "Pair", fields := [{ name := "First", typ := .one (.embed "Person" none), rules := .absent }] }

/-- A club has pairs. -/
def club : MsgDesc :=
  { name := "Club", fields := [{ name := "Pairs", typ := .rep (.embed "Pair" none), rules := .absent }] }

/-- The types of the three files. -/
def clubs : Schema := fun n =>
  if n = "Person" then .generated Fixtures.person else if n = "Pair" then .generated pair
  else if n = "Club" then .generated club else .foreign

/-- Someone whose nickname is too long. -/
def longNick : Val :=
  .msg "Person" [("Age", .sc (.num (.int 7))), ("Nick", .sc (.str (asc "friend")))]
    [("Contact", "Phone", .sc (.str (asc "555")))]

/-- A club with a pair with them. -/
def aClub : Val := .msg "Club" [("Pairs", .list [.msg "Pair" [("First", longNick)] []])] []

theorem long_validated {S : Schema} (h : S "Person" = .generated Fixtures.person) : Validated S longNick :=
  ⟨_, _, _, _, rfl, h, rfl⟩

theorem club_nested : NestedVia (PyFollows penv) clubs aClub longNick :=
  .inner (f := { name := "Pairs", typ := .rep (.embed "Pair" none), rules := .absent }) (d := club) rfl rfl
    (.field (by simp [club])) (.item (n := 0) rfl rfl rfl) rfl rfl ⟨_, _, _, pair, rfl, rfl, rfl⟩ (.rep rfl rfl (fun _ => rfl) (fun _ _ _ h => by cases h))
    (.inner (f := { name := "First", typ := .one (.embed "Person" none), rules := .absent }) (d := pair) rfl rfl
      (.field (by simp [pair])) (.field rfl) rfl rfl (long_validated rfl) (.one rfl fun _ => rfl) (.self _))

theorem nested_of_via {ok : FieldDesc → Prop} {S : Schema} {v u : Val} (h : NestedVia ok S v u) : Nested S v u := by
  induction h with
  | self v => exact .self v
  | inner hS hd ha hh hr hk hw _ _ ih => exact .inner (.mk hS hd ha hh hr hk hw) ih

/-- Both steps lead through files with the import. -/
example : Java.assertValid jenv (javaSchema (fun _ => importing) clubs) aClub ≠ .ok () := by
  have hS : javaSchema (fun _ => importing) clubs = clubs := by
    funext t
    exact if_pos (rfl : (["validate/validate.proto"].any fun d => "validate.proto".toList.isSuffixOf d.toList) = true)
  intro h
  have hv : Validated (javaSchema (fun _ => importing) clubs) aClub := ⟨_, _, _, club, rfl, by rw [hS]; rfl, rfl⟩
  have := C94_java_partial jenv clubs (fun _ => importing) aClub longNick hv
    (by rw [hS]; exact nested_of_via club_nested) h
  rw [hS] at this
  exact fails_ne rfl this

/-- **C94** (divergence) Java, where the validator index falls back to a validator that accepts
everything: a message of a type from a file that does not import validate.proto is accepted, whatever it
holds. -/
theorem C94_java_not_imported (J : Java.JEnv) (hJ : ∀ v, J.other v = .ok ()) (S : Schema)
    (fileOf : String → Module.Target) (typ : String) (fs : List (String × Val))
    (os : List (String × String × Val)) (hi : ∀ d ∈ (fileOf typ).deps, ¬ "validate.proto".toList <:+ d.toList) :
    Java.assertValid J (javaSchema fileOf S) (.msg typ fs os) = .ok () := by
  have : javaSchema fileOf S typ = .foreign := by
    unfold javaSchema
    rw [if_neg]
    simpa using hi
  rw [Java.assertValid_eq]
  simp only [Java.assertStep, this, hJ]

/-- **C94** (divergence) This club is accepted by Java although someone in it is rejected by Java, and
the club by Go, C++ and Python. -/
theorem C94_java_accepts_what_others_reject :
    Nested clubs aClub longNick ∧
    Java.assertValid jenv (javaSchema clubFiles clubs) longNick ≠ .ok () ∧
    Java.assertValid jenv (javaSchema clubFiles clubs) aClub = .ok () ∧
    Go.validate Fixtures.env clubs false aClub ≠ none ∧
    Cpp.checkMessage cenv clubs aClub ≠ .ok () ∧
    Py.validate penv clubs aClub ≠ .ok () := by
  exact ⟨nested_of_via club_nested, fails_ne rfl, rfl, by rw [← Option.isSome_iff_ne_none]; rfl, fails_ne rfl,
    fails_ne rfl⟩

/-- **C94** Python: a message is accepted only if all messages inside are, at any depth, as long as the
fields on the way down are followed. Missing: maps with rules for the keys, or rules for the values that
are not message rules, see `C94_python_map_keys`; fields without rules of types called
`google.protobuf…`, and lists without rules of messages with the fields `key` and `value`, see
`C94_python_google`, `C94_python_pairs` and `C94_python_pairs_crash`. -/
theorem C94_python_partial (P : Py.PEnv) (S : Schema) (v u : Val) (hv : Validated S v)
    (hn : NestedVia (PyFollows P) S v u) (h : Py.validate P S v = .ok ()) : Py.validate P S u = .ok () := by
  induction hn with
  | self v => exact h
  | inner hS hd ha hh hr hk hw hf _ ih =>
    obtain ⟨typ', fs', os', d', e, hS', hi⟩ := hv
    cases e
    rw [hS] at hS'
    cases hS'
    exact ih hw (Across.Py.embeds_run hS hd hi ha hh hr hk hw hf h)

example : Py.validate penv clubs aClub ≠ .ok () := fun h =>
  absurd (C94_python_partial penv clubs aClub longNick ⟨_, _, _, club, rfl, rfl, rfl⟩ club_nested h)
    (fails_ne rfl)

theorem map_keys_only {P : Py.PEnv} {rec rec' : Val → Py.Run} {nm : String} {vt : ElemT} {r : MapRules}
    {keys : FieldRules} (htext : Py.rulesText keys = true) {kvs kvs' : List (Scalar × Val)}
    (hs : kvs.map Prod.fst = kvs'.map Prod.fst)
    (h : (Py.mapCode P rec nm vt r keys .absent).run kvs = .ok ()) :
    (Py.mapCode P rec' nm vt r keys .absent).run kvs' = .ok () := by
  have hc : Py.mapCode P rec' nm vt r keys .absent = Py.mapCode P rec nm vt r keys .absent := by
    simp only [Py.mapCode, htext, Bool.true_or, if_true, Py.switcher]
  rw [hc]
  have hl : kvs.length = kvs'.length := by simpa using congrArg List.length hs
  have he : kvs.isEmpty = kvs'.isEmpty := by cases kvs <;> cases kvs' <;> simp_all
  have hsome := Py.Code.some_of_run h
  have key : ∀ c : Py.Code (List (Scalar × Val)), (c.run kvs = .ok () → c.run kvs' = .ok ()) →
      (Py.ignoreBlock r.ignoreEmpty (·.isEmpty) c).isSome = true →
      (Py.ignoreBlock r.ignoreEmpty (·.isEmpty) c).run kvs = .ok () →
      (Py.ignoreBlock r.ignoreEmpty (·.isEmpty) c).run kvs' = .ok () := by
    intro c hc hs h
    unfold Py.ignoreBlock at *
    split at h
    · rename_i ho
      simp only [ho, if_true] at hs h ⊢
      rw [Py.Code.run_block hs] at h ⊢
      rw [← he]
      exact fun hx => hc (h hx)
    · rename_i ho
      simp only [ho, if_false] at h ⊢
      exact hc h
  refine key _ ?_ hsome h
  simp only [Py.Code.run_seq, htext, Bool.true_or, if_true, Py.genPos, Py.Code.run_gen, Py.Code.run_raiseIf, hl,
    Py.Code.run_on, Py.Code.run_loop, Py.switcher, Py.Code.run_nothing, and_true]
  rintro ⟨h1, h2, h3, h4⟩
  refine ⟨h1, h2, h3, fun kv hkv => ?_⟩
  have hm := (P.order_perm kvs').mem_iff.1 hkv
  have : kv.1 ∈ kvs.map Prod.fst := by rw [hs]; exact List.mem_map_of_mem hm
  obtain ⟨kv', hkv', e⟩ := List.mem_map.1 this
  rw [← e]
  exact h4 kv' ((P.order_perm kvs).mem_iff.2 hkv')

/-- **C94** (divergence) Python does not look into the values of a map with rules for its keys and none for
its values: of two maps with the same keys it accepts both or neither. -/
theorem C94_python_map_keys (P : Py.PEnv) (S : Schema) (typ : String) (f : FieldDesc) (h : OnlyField S typ f)
    (hi : NotIgnored S typ) (kt : ElemT) (t : String)
    (k : Option WKT) (r : MapRules) (keys : FieldRules) (ht : f.typ = .map kt (.embed t k))
    (hr : f.rules = .mk none (.map r keys .absent)) (hk : ∃ m tr, keys = .mk m tr ∧ (m ≠ none ∨ tr ≠ .unset))
    (kvs kvs' : List (Scalar × Val)) (hs : kvs.map Prod.fst = kvs'.map Prod.fst) :
    PyAccepts P S typ f (.map kvs) ↔ PyAccepts P S typ f (.map kvs') := by
  rw [Py.pyAccepts_iff h hi, Py.pyAccepts_iff h hi]
  obtain ⟨m, tr, rfl, hk⟩ := hk
  have htext : Py.rulesText (.mk m tr) = true := by
    unfold Py.rulesText
    rcases hk with h | h
    · cases m <;> simp_all
    · cases tr <;> simp_all
  have ht' : Py.typeText (.map r (.mk m tr) .absent) = true := by simp [Py.typeText]
  simp only [Py.fieldCode, ht, Py.mapField, hr, Py.messageText, Bool.false_eq_true, if_false, ht', if_true,
    Py.Code.run_on, Py.entriesOf]
  exact ⟨map_keys_only htext hs, map_keys_only htext hs.symm⟩

/-- People by name; the names have at least one character. -/
def byName : FieldDesc :=
  { name := "ByName", typ := .map .string (.embed "Person" none),
    rules := .mk none (.map {} (.mk none (.string { minLen := some 1 })) .absent) }

/-- A type with this field. -/
def books : Schema := fun n =>
  if n = "Book" then .generated { name := "Book", fields := [byName] } else clubs n

/-- **C94** (divergence) This book holds someone Python rejects; Go rejects the book, Python accepts it. -/
theorem C94_python_accepts_book :
    Nested books (.msg "Book" [("ByName", .map [(.str (asc "al"), longNick)])] []) longNick ∧
    Py.validate penv books longNick ≠ .ok () ∧
    Py.validate penv books (.msg "Book" [("ByName", .map [(.str (asc "al"), longNick)])] []) = .ok () ∧
    Go.validate Fixtures.env books false (.msg "Book" [("ByName", .map [(.str (asc "al"), longNick)])] []) ≠ none := by
  refine ⟨?_, fails_ne rfl, rfl, by rw [← Option.isSome_iff_ne_none]; rfl⟩
  exact .inner (.mk (f := byName) (d := { name := "Book", fields := [byName] }) rfl rfl (.field (by simp))
    (.value (key := .str (asc "al")) (kvs := [(.str (asc "al"), longNick)]) rfl rfl (by simp)) rfl rfl (long_validated rfl)) (.self _)

/-- With the same key, an empty person will do for Python. -/
example : PyAccepts penv books "Book" byName (.map [(.str (asc "al"), .msg "Person" [] [])]) :=
  (C94_python_map_keys penv books "Book" byName ⟨_, rfl, rfl, rfl, rfl⟩ (by rintro d h; cases h; rfl) _ _ _ _ _ rfl
    rfl ⟨_, _, rfl, .inr (by simp)⟩ [(.str (asc "al"), longNick)] _ rfl).1 C94_python_accepts_book.2.2.1

/-! ### Fields without rules -/

/-- **C94** (divergence) Python takes a list without rules for a map if the fields of its message type are
called `key` and `value`. If `value` is not a message, it looks at no item: every list is accepted. -/
theorem C94_python_pairs (P : Py.PEnv) (S : Schema) (typ : String) (f : FieldDesc) (h : OnlyField S typ f)
    (hi : NotIgnored S typ) (t : String) (k : Bool) (ht : f.typ = .rep (.embed t none)) (hr : f.rules = .absent)
    (hp : P.fieldsOf t = [("key", k), ("value", false)]) (v : Val) : PyAccepts P S typ f v := by
  rw [Py.pyAccepts_iff h hi]
  simp only [Py.fieldCode, ht, Py.unruled, hr, Bool.true_and, Option.isNone_none, Py.isMap, hp, Py.pairList]
  split <;> rfl

/-- **C94** (divergence) …and if `value` is a message, it uses the items of the list as keys: no list with
items can be validated. -/
theorem C94_python_pairs_crash (P : Py.PEnv) (S : Schema) (typ : String) (f : FieldDesc) (h : OnlyField S typ f)
    (hi : NotIgnored S typ) (t : String) (k : Bool) (ht : f.typ = .rep (.embed t none)) (hr : f.rules = .absent)
    (hg : P.google t = false) (hp : P.fieldsOf t = [("key", k), ("value", true)]) (u : Val) (us : List Val) :
    Py.validate P S (.msg typ [(f.name, .list (u :: us))] []) = .error .crash := by
  obtain ⟨d, hS, hd, hf, ho⟩ := h
  rw [Py.validate_eq]
  simp only [Py.validateStep, hS, Py.msgCode, hd, hi d hS, hf, ho, Py.seqAll, Py.fieldCode, ht, Py.unruled, hr, hg,
    Bool.and_false, Option.isNone_none, Py.isMap, hp, Py.pairList]
  simp [Py.Code.gen, Py.Code.on, Py.Code.loop, Py.Code.stmt, Py.Code.seq, Py.Code.nothing, Py.Code.run, Py.runAll, Py.forEach,
    getField,
    Py.itemsOf, List.lookup]

/-- **C94** (divergence) Python does not look at fields without rules whose type is called
`google.protobuf…`. -/
theorem C94_python_google (P : Py.PEnv) (S : Schema) (typ : String) (f : FieldDesc) (h : OnlyField S typ f)
    (hi : NotIgnored S typ) (t : String) (k : Option WKT)
    (ht : f.typ = .one (.embed t k) ∨ f.typ = .rep (.embed t k)) (hr : f.rules = .absent)
    (hg : P.google t = true) (v : Val) : PyAccepts P S typ f v := by
  rw [Py.pyAccepts_iff h hi]
  rcases ht with ht | ht <;> simp [Py.fieldCode, ht, Py.unruled, hr, hg]

/-- A setting: a name of at most three characters, and a number. -/
def setting : MsgDesc :=
  { name := "Setting",
    fields := [{ name := "key", typ := .one .string, rules := .mk none (.string { maxLen := some 3 }) },
      { name := "value", typ := .one (.scalar .int32), rules := .absent }] }

/-- A list of settings, in a field without rules. -/
def settings : FieldDesc := { name := "Settings", typ := .rep (.embed "Setting" none), rules := .absent }

/-- A type with this field. -/
def configs : Schema := fun n =>
  if n = "Config" then .generated { name := "Config", fields := [settings] }
  else if n = "Setting" then .generated setting else .foreign

/-- Python with the descriptors of these types. -/
def configPenv : Py.PEnv :=
  { penv with fieldsOf := fun n => if n = "Setting" then [("key", false), ("value", false)] else [] }

/-- A setting whose name is too long. -/
def longKey : Val := .msg "Setting" [("key", .sc (.str (asc "level")))] []

/-- **C94** (divergence) This configuration holds a setting Python rejects; Go rejects the configuration,
Python accepts it. -/
theorem C94_python_accepts_config :
    Nested configs (.msg "Config" [("Settings", .list [longKey])] []) longKey ∧
    Py.validate configPenv configs longKey ≠ .ok () ∧
    Py.validate configPenv configs (.msg "Config" [("Settings", .list [longKey])] []) = .ok () ∧
    Go.validate Fixtures.env configs false (.msg "Config" [("Settings", .list [longKey])] []) ≠ none := by
  refine ⟨?_, fails_ne rfl, ?_, by rw [← Option.isSome_iff_ne_none]; rfl⟩
  · exact .inner (.mk (f := settings) (d := { name := "Config", fields := [settings] }) rfl rfl (.field (by simp))
      (.item (n := 0) rfl rfl rfl) rfl rfl ⟨_, _, _, setting, rfl, rfl, rfl⟩) (.self _)
  · exact C94_python_pairs configPenv configs "Config" settings ⟨_, rfl, rfl, rfl, rfl⟩
      (by rintro d h; cases h; rfl) "Setting" false rfl rfl rfl _

/-- With messages as values, one item is enough. -/
example : Py.validate { penv with fieldsOf := fun _ => [("key", false), ("value", true)] } configs
    (.msg "Config" [("Settings", .list [.msg "Setting" [] []])] []) = .error .crash :=
  C94_python_pairs_crash _ configs "Config" settings ⟨_, rfl, rfl, rfl, rfl⟩ (by rintro d h; cases h; rfl) "Setting"
    false rfl rfl rfl rfl _ []

/-- A type someone put into `google.protobuf`. -/
example : PyAccepts { penv with google := fun n => n == "Setting" } configs "Config" settings (.list [longKey]) :=
  C94_python_google _ configs "Config" settings ⟨_, rfl, rfl, rfl, rfl⟩ (by rintro d h; cases h; rfl) "Setting" none
    (.inr rfl) rfl rfl _

end PGV.Props
