import Verif.Java.Grpc

/-!
A gRPC call between a client and a server that both validate.
-/

namespace PGV.Spec.Between
open PGV PGV.Java

/-- What a call of the client's causes at the server: gRPC passes messages, the end of the messages and cancellations on,
in order and unchanged. -/
def arrives {M : Type} : ClientOut M → Option (Inbound M)
  | .forward (.message m) => some (.message m)
  | .forward .halfClose => some .halfClose
  | .forward .cancel => some .cancel
  | _ => none

/-- The callbacks at the server when the client's application makes these calls through its interceptor. -/
def received {M : Type} (assertValid : M → Run) (calls : List (Outbound M)) : List (Inbound M) :=
  (calls.map (clientStep assertValid)).filterMap arrives

end PGV.Spec.Between
