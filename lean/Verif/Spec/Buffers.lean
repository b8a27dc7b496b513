import Verif.Harness.Buffers

/-!
What a run of a test program gives when nothing else runs.
-/

namespace PGV.Spec.Buffers
open PGV PGV.Harness

/-- What the program writes to its standard error (`true`) or output (`false`), altogether. -/
def written (p : Program) (err : Bool) : Bytes := ((p.pieces.filter fun x => x.1 == err).map Prod.snd).flatten

/-- The answer to the program's own output, and the text of its own standard error. -/
def alone (p : Program) : Seen :=
  ⟨answer (if p.succeeds then .exit (written p false) else .died), written p true⟩

/-- The buffers a run uses. -/
def uses : Point → List Buf
  | .begin => []
  | .second out => [out]
  | .command out errs _ => [out, errs]
  | .resetErrs _ out errs => [out, errs]
  | .putErrs _ out errs => [out, errs]
  | .resetOut _ out => [out]
  | .putOut _ out => [out]
  | .done _ => []

end PGV.Spec.Buffers
