import Verif.Spec.Reason
import Verif.Spec.CppPortable

/-!
When an error text of a C++ validator reports the same violation as an error of a Go validator.
-/

namespace PGV.Spec.Cpp
open PGV PGV.Go
open PGV.Cpp (CEnv CErr)

/-- One wording for the reasons that Go and C++, or Go in two places, word differently. -/
def wording : List Piece → List Piece
  | [.s "value must be ", .nat n, .s " characters"] => [.s "value length must be ", .nat n, .s " runes"]
  | [.s "value must have between ", .nat a, .s " and ", .nat b, .s " characters inclusive"] =>
    [.s "value length must be between ", .nat a, .s " and ", .nat b, .s " runes, inclusive"]
  | [.s "value length must be at least ", .nat n, .s " characters"] =>
    [.s "value length must be at least ", .nat n, .s " runes"]
  | [.s "value length must be at most ", .nat n, .s " characters"] =>
    [.s "value length must be at most ", .nat n, .s " runes"]
  | [.s "value must be a valid IP Address"] => [.s "value must be a valid IP address"]
  | [.s "value must be a valid IPv4 Address"] => [.s "value must be a valid IPv4 address"]
  | [.s "value must be a valid IPv6 Address"] => [.s "value must be a valid IPv6 address"]
  | [.s "value must be an ip address, or a hostname."] =>
    [.s "value must be a valid hostname, or ip address"]
  | [.s "value does not contain ", k] => [.s "value does not contain substring ", k]
  | r => r

/-- The C++ text and the Go error report one violation: the same message type, field, index and
reason, up to wording. For embedded messages the causes report one violation in turn; the validators of
messages from elsewhere are not compared. Texts of helper functions are in Go causes only, and the
address of a pointer in C++ causes only. A missing oneof is named in both. -/
inductive SameReport (E : Env) (P : CEnv) : CErr → Err → Prop
  | rule {m f i k r r' c c'} : wording r = wording r' → r' ≠ [.s "embedded message failed validation"] →
      c = none ∨ c = some .address → c' = none ∨ (∃ t, c' = some (.lib t)) →
      SameReport E P (.viol m f i k r c) (.viol m ⟨f, i⟩ r' c' k)
  | embedded {m f i k e y z} : Reported z y → SameReport E P e z →
      SameReport E P (.viol m f i k [.s "embedded message failed validation"] (some e))
        (.viol m ⟨f, i⟩ [.s "embedded message failed validation"] (some y) k)
  | elsewhere {m f i k e y w} : P.other w = .error (.invalid e) → E.legacy w = some y →
      SameReport E P (.viol m f i k [.s "embedded message failed validation"] (some e))
        (.viol m ⟨f, i⟩ [.s "embedded message failed validation"] (some y) k)
  | oneof {m o} : SameReport E P (.oneof o) (.viol m ⟨o, none⟩ [.s "value is required"] none false)

end PGV.Spec.Cpp
