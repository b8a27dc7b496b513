import Verif.Cpp.Render
import Verif.Lemmas.CppLit
import Verif.Lemmas.CppErr
import Verif.Props.Cpp

/-!
C86: what the text of a C++ violation says.
-/

set_option linter.unusedSimpArgs false

namespace PGV.Props
open PGV PGV.Cpp PGV.Spec.Cpp
open PGV.Spec hiding Accepts FormatAgrees TextLibs LibsAgree PortString PortBytes PortEnum PortAny
  PortDuration PortType PortElem FitsScalar FitsVal FitsItem PortField Portable Outside
open PGV.Go (Env Err)

/-- The stream was opened with `pre`, and `t` has been written since. -/
def Written (pre t : Bytes) (o : OStream) : Prop := o.buf = t ++ pre.drop t.length ∧ o.pos = t.length

theorem Written.put {pre t : Bytes} {o : OStream} (h : Written pre t o) (u : Bytes) :
    Written pre (t ++ u) (o.put u) := by
  obtain ⟨hb, hp⟩ := h
  constructor
  · simp only [OStream.put, hb, hp]
    rw [List.take_left, List.drop_append, List.drop_eq_nil_of_le (by omega)]
    simp only [List.nil_append, List.drop_drop, List.length_append]
    rw [show t.length + (t.length + u.length - t.length) = t.length + u.length by omega]
  · simp [OStream.put, hp]

theorem written_new (pre : Bytes) : Written pre [] (.new pre) := ⟨by simp [OStream.new], rfl⟩

/-- What has been written is what is there, once it is as long as what was there before. -/
theorem Written.buf {pre t : Bytes} {o : OStream} (h : Written pre t o) (hl : pre.length ≤ t.length) :
    o.buf = t := by rw [h.1, List.drop_eq_nil_of_le hl]; simp

/-- The text up to the cause. -/
def headText (P : CPrinter) (msg field : String) (index : Option Go.Idx) (onKey : Bool)
    (reason : List Go.Piece) : Bytes :=
  (if onKey then asc "key for " else []) ++ P.message msg ++ asc "ValidationError" ++ asc "." ++ P.field field ++
  (match index with | some i => asc "[" ++ P.idx i ++ asc "]" | none => []) ++ asc ": " ++
  strVal P.isPrint (P.reason reason)

theorem errHead_written (P : CPrinter) (m f : String) (i : Option Go.Idx) (k : Bool) (r : List Go.Piece) :
    Written (asc "invalid ") (headText P m f i k r) (errHead P m f i k r) := by
  have h0 := written_new (asc "invalid ")
  have h1 : Written (asc "invalid ") (if k then asc "key for " else [])
      (if k then (OStream.new (asc "invalid ")).put (asc "key for ") else OStream.new (asc "invalid ")) := by
    cases k
    · exact h0
    · exact h0.put _
  have h2 := ((h1.put (P.message m ++ asc "ValidationError")).put (asc ".")).put (P.field f)
  cases i with
  | none =>
    have := (h2.put (asc ": ")).put (strVal P.isPrint (P.reason r))
    simpa only [headText, errHead, List.append_assoc, List.nil_append] using this
  | some i =>
    have := ((((h2.put (asc "[")).put (P.idx i)).put (asc "]")).put (asc ": ")).put (strVal P.isPrint (P.reason r))
    simpa only [headText, errHead, List.append_assoc, List.nil_append] using this

theorem headText_long (P : CPrinter) (m f : String) (i : Option Go.Idx) (k : Bool) (r : List Go.Piece) :
    (asc "invalid ").length ≤ (headText P m f i k r).length := by
  have h1 : (asc "invalid ").length = 8 := by decide
  have h2 : (asc "ValidationError").length = 15 := by decide
  simp only [headText, List.length_append, h1, h2]
  omega

/-- **C86, partial** The text of a C++ violation is the name of the message type followed by
"ValidationError.", the field, the index or key in brackets, ": ", the reason and, if there is a cause,
" | caused by " and the text of the cause. (The reason is text that a C++ literal can hold; `strconv.IsPrint`
is false of control characters.) Missing: the "invalid " that the generated code asks for, which is
overwritten; see `C86_invalid_lost`, `C86_address` and `C86_oneof_type`. -/
theorem C86_violation_partial (P : CPrinter) (hp : ∀ r, P.isPrint r = true → 0x20 ≤ r) (m f : String)
    (i : Option Go.Idx) (r : List Go.Piece) (cause : Option CErr) (hr : CString (P.reason r)) :
    errText P (.viol m f i false r cause) =
      P.message m ++ asc "ValidationError." ++ P.field f ++
      (match i with | some i => asc "[" ++ P.idx i ++ asc "]" | none => []) ++ asc ": " ++ P.reason r ++
      (match cause with | some c => asc " | caused by " ++ errText P c | none => []) := by
  have hh := errHead_written P m f i false r
  have hl := headText_long P m f i false r
  have e : asc "ValidationError." = asc "ValidationError" ++ asc "." := by decide
  have hs := strVal_eq P.isPrint hp hr
  cases cause with
  | none =>
    rw [errText, hh.buf hl, headText.eq_def, hs, e]
    simp
  | some c =>
    have h2 := (hh.put (asc " | caused by ")).put (errText P c)
    rw [errText, h2.buf (by simp only [List.length_append]; omega), headText.eq_def, hs, e]
    simp

/-- The text with nothing said about the reason. -/
theorem errText_prefix (P : CPrinter) (m f : String) (i : Option Go.Idx) (r : List Go.Piece)
    (cause : Option CErr) :
    ∃ t, errText P (.viol m f i false r cause) = P.message m ++ asc "ValidationError." ++ P.field f ++ t := by
  have hh := errHead_written P m f i false r
  have hl := headText_long P m f i false r
  have e : asc "ValidationError." = asc "ValidationError" ++ asc "." := by decide
  cases cause with
  | none => exact ⟨_, by rw [errText, hh.buf hl, headText.eq_def, e]; simp only [Bool.false_eq_true, if_false, List.nil_append, List.append_assoc]; rfl⟩
  | some c =>
    have h2 := (hh.put (asc " | caused by ")).put (errText P c)
    exact ⟨_, by rw [errText, h2.buf (by simp only [List.length_append]; omega), headText.eq_def, e]; simp only [Bool.false_eq_true, if_false, List.nil_append, List.append_assoc]; rfl⟩

/-- The name holds no space (identifiers hold none). -/
def NoSpace (s : Bytes) : Prop := (0x20 : UInt8) ∉ s

/-- **C86** Whatever the rules, and whatever the C++ library does: when the validator of a message type
returns `false`, the text names the type and a field of it, as `Type` "ValidationError." `Field`, at its
very beginning, or it is the text for a required oneof that is not set. -/
theorem C86_names (L : CPrinter) (P : CEnv) (S : Schema) (typ : String) (d : MsgDesc)
    (hS : S typ = .generated d) (hi : d.ignored = false) (hd : d.disabled = false)
    (fs : List (String × Val)) (os : List (String × String × Val)) (e : CErr)
    (he : checkMessage P S (.msg typ fs os) = .error (.invalid e)) :
    (∃ f t, (f ∈ d.fields ∨ ∃ o ∈ d.oneofs, f ∈ o.fields ∧ ∃ v, os.lookup o.name = some (f.name, v)) ∧
      errText L e = L.message d.name ++ asc "ValidationError." ++ L.field f.name ++ t) ∨
    (∃ o ∈ d.oneofs, o.required = true ∧ os.lookup o.name = none ∧
      errText L e = asc "field: \"" ++ L.oneof o.name ++ asc "\", reason: is required") := by
  rw [checkMessage_eq] at he
  simp only [checkStep, hS, hi, hd, Bool.or_self, Bool.false_eq_true, if_false, validateMsg] at he
  unfold seq at he
  split at he
  · obtain ⟨pre, o, post, hsplit, -, ho⟩ := forEach_stops he
    have hmem : o ∈ d.oneofs := by rw [hsplit]; simp
    unfold oneofTpl at ho
    cases hl : os.lookup o.name with
    | none =>
      rw [hl] at ho
      simp only [when] at ho
      split at ho
      · rename_i hr
        cases ho
        refine .inr ⟨o, hmem, hr, hl, ?_⟩
        have e1 : asc "field: \"" = asc "field: " ++ asc "\"" := by decide
        have e2 : asc "\", reason: is required" = asc "\"" ++ asc ", reason: is required" := by decide
        rw [errText, e1, e2]
        simp only [List.append_assoc]
      · cases ho
    | some mu =>
      obtain ⟨m, u⟩ := mu
      rw [hl] at ho
      simp only at ho
      split at ho
      · rename_i f hf
        obtain ⟨i, r, c, rfl⟩ := blames_field P _ _ f u e ho
        have hn : f.name = m := by simpa using List.find?_some hf
        obtain ⟨t, ht⟩ := errText_prefix L d.name f.name i r c
        exact .inl ⟨f, t, .inr ⟨o, hmem, List.mem_of_find?_eq_some hf, u, by rw [hl, hn]⟩, ht⟩
      · cases ho
  · rename_i hstop
    cases he
    obtain ⟨pre, f, post, hsplit, -, hf⟩ := forEach_stops hstop
    obtain ⟨i, r, c, rfl⟩ := blames_field P _ _ f _ e hf
    obtain ⟨t, ht⟩ := errText_prefix L d.name f.name i r c
    exact .inl ⟨f, t, .inl (by rw [hsplit]; simp), ht⟩

/-- **C86** fails: the text of a violation never begins with "invalid ", which the generated code puts
into the stream first (no name holds a space): the stream is written over from its start. -/
theorem C86_invalid_lost (L : CPrinter) (hN : ∀ m, NoSpace (L.message m)) (m f : String) (i : Option Go.Idx)
    (r : List Go.Piece) (c : Option CErr) (t : Bytes) :
    errText L (.viol m f i false r c) ≠ asc "invalid " ++ t := by
  obtain ⟨u, hu⟩ := errText_prefix L m f i r c
  rw [hu]
  intro h
  have e : asc "ValidationError." = 0x56 :: 0x61 :: 0x6C :: 0x69 :: 0x64 :: 0x61 :: 0x74 :: 0x69 ::
    asc "onError." := by decide
  have e2 : asc "invalid " = [0x69, 0x6E, 0x76, 0x61, 0x6C, 0x69, 0x64, 0x20] := by decide
  have hm := hN m
  generalize L.message m = n at *
  rw [e, e2] at h
  unfold NoSpace at hm
  match n, h, hm with
  | [], h, _ => simp at h
  | [_], h, _ => simp at h
  | [_, _], h, _ => simp at h
  | [_, _, _], h, _ => simp at h
  | [_, _, _, _], h, _ => simp at h
  | [_, _, _, _, _], h, _ => simp at h
  | [_, _, _, _, _, _], h, _ => simp at h
  | [_, _, _, _, _, _, _], h, _ => simp at h
  | _ :: _ :: _ :: _ :: _ :: _ :: _ :: _ :: _, h, hm => simp at h; simp_all

/-- **C86** fails for oneofs: the text for a required oneof that is not set is the same whatever the
message type, unlike that of any other violation. -/
theorem C86_oneof_type (P : CEnv) (S : Schema) (o : String) (typ typ' : String) (d d' : MsgDesc)
    (hS : S typ = .generated d) (hS' : S typ' = .generated d') (n n' : String)
    (hd : d = { name := n, oneofs := [⟨o, true, []⟩] }) (hd' : d' = { name := n', oneofs := [⟨o, true, []⟩] }) :
    ∃ e e', checkMessage P S (.msg typ [] []) = .error (.invalid e) ∧
      checkMessage P S (.msg typ' [] []) = .error (.invalid e') ∧ ∀ L, errText L e = errText L e' := by
  subst hd hd'
  refine ⟨.oneof o, .oneof o, ?_, ?_, fun _ => rfl⟩ <;>
    simp [checkMessage_eq, checkStep, hS, hS', validateMsg, forEach, seq, oneofTpl, when, List.lookup]

/-- **C86** fails for durations: the text for a duration out of range names as its cause the address of the
string that the text is written to, so that it is not the same from call to call. -/
theorem C86_address (P : CEnv) (r : DurationRules) (hr : r.const.isSome = true) (d : PDur)
    (hd : 999999999 < d.nanos) :
    ∃ e, checkMessage P (Fixtures.only (Fixtures.fieldOf (.embed "google.protobuf.Duration" none) (.duration r)))
        (.msg "M" [("X", .dur d)] []) = .error (.invalid e) ∧
      ∀ L : CPrinter, ∃ t, ∀ a, errText { L with address := a } e = t ++ asc " | caused by " ++ a := by
  refine ⟨.viol "M" "X" none false [.s "value is not a valid duration"] (some .address), ?_, ?_⟩
  · refine (cpp_only P _ _).trans (Eq.trans (b := durationTpl here r (some d)) rfl ?_)
    have h1 : durInvalid d = true := by simp [durInvalid, hd]
    simp [durationTpl, hr, requiredTpl, when, h1, seq, failIdx, optB, here]
  · intro L
    refine ⟨headText L "M" "X" none false [.s "value is not a valid duration"], fun a => ?_⟩
    have hh := errHead_written { L with address := a } "M" "X" none false [.s "value is not a valid duration"]
    have hl := headText_long { L with address := a } "M" "X" none false [.s "value is not a valid duration"]
    have h2 := (hh.put (asc " | caused by ")).put a
    rw [errText, errText, h2.buf (by simp only [List.length_append]; omega)]
    rfl

/-- A way to print that leaves reasons alone. -/
def cprinter : CPrinter :=
  { message := asc, oneof := asc, field := asc, reason := fun _ => asc "too long", idx := fun _ => asc "0",
    address := asc "0x1", isPrint := fun c => 0x20 ≤ c && c < 0x7F }

/-- The theorems apply to a person whose nickname is too long. -/
example : ∃ e, checkMessage cenv Fixtures.schema (someone 30 (asc "bobby") (asc "555")) = .error (.invalid e) ∧
    errText cprinter e = asc "PersonValidationError.Nick: too long" := by
  refine ⟨.viol "Person" "Nick" none false _ none, by rfl, ?_⟩
  rw [C86_violation_partial cprinter (by simp [cprinter]; omega)]
  · decide +kernel
  · refine ⟨⟨utf8_asc3 [116, 111, 111, 32, 108, 111, 110, 103] (by decide) _ (by decide +kernel), ?_⟩,
      by decide +kernel⟩
    intro a c d t h hc
    have h' : asc "too long" = a ++ c :: d :: t := h
    have hin : c ∈ asc "too long" := by rw [h']; simp
    have hall : ∀ c ∈ asc "too long", 0x20 ≤ c.toNat ∧ c.toNat < 0x7F := by decide +kernel
    have := hall c hin
    unfold HexEscaped at hc
    omega

/-- The other exceptions are not vacuous: two types with a oneof of the same name, and a duration whose
nanos are out of range. -/
example : ∃ e e', checkMessage cenv (fun n => .generated { name := n, oneofs := [⟨"Contact", true, []⟩] })
      (.msg "Person" [] []) = .error (.invalid e) ∧
    checkMessage cenv (fun n => .generated { name := n, oneofs := [⟨"Contact", true, []⟩] })
      (.msg "Company" [] []) = .error (.invalid e') ∧ ∀ L, errText L e = errText L e' :=
  C86_oneof_type cenv _ "Contact" "Person" "Company" _ _ rfl rfl "Person" "Company" rfl rfl

example : ∃ e, checkMessage cenv (Fixtures.only (Fixtures.fieldOf (.embed "google.protobuf.Duration" none)
        (.duration { const := some ⟨1, 0⟩ }))) (.msg "M" [("X", .dur ⟨0, 1000000000⟩)] []) = .error (.invalid e) ∧
      ∀ L : CPrinter, ∃ t, ∀ a, errText { L with address := a } e = t ++ asc " | caused by " ++ a :=
  C86_address cenv { const := some ⟨1, 0⟩ } rfl ⟨0, 1000000000⟩ (by decide)

end PGV.Props
