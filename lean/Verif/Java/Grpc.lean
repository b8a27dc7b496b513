import Verif.Java.Lib

/-!
The gRPC interceptors of java/pgv-java-grpc, as state machines over the events of one call. gRPC
delivers the events of a call one at a time, so a call is a list of events. The service and the
transport behind the interceptor are not modelled: what they receive is the output.
-/

namespace PGV.Java
open PGV

/-- What a gRPC status carries after a failed validation (ValidationExceptions.java:27-36). -/
structure GrpcStatus where
  code : String
  field : String
  reason : Reason
  deriving DecidableEq

/-- ValidationExceptions.asStatusRuntimeException (ValidationExceptions.java:27-36). The message text
is not kept. -/
def asStatus (field : String) (reason : Reason) : GrpcStatus := ⟨"INVALID_ARGUMENT", field, reason⟩

/-- The exceptions caught by `catch (ValidationException ex)`; `UnimplementedException` is one
(java/pgv-java-grpc/src/main/java/io/envoyproxy/pgv/grpc/ValidatingServerInterceptor.java:31; UnimplementedException.java). -/
def asValidation : JErr → Option (String × Reason)
  | .validation f r => some (f, r)
  | .unimplemented f => some (f, [.s "UNIMPLEMENTED"])
  | .runtime _ => none

/-! ### Server -/

/-- The callbacks of `ServerCall.Listener`
(extended in java/pgv-java-grpc/src/main/java/io/envoyproxy/pgv/grpc/ValidatingServerInterceptor.java:20-44). -/
inductive Inbound (M : Type)
  | message (m : M)
  | halfClose
  | cancel
  | complete
  | ready
  deriving DecidableEq

/-- What the interceptor does
(java/pgv-java-grpc/src/main/java/io/envoyproxy/pgv/grpc/ValidatingServerInterceptor.java:27-43). -/
inductive ServerOut (M : Type)
  /-- The callback is passed on to the service's listener. -/
  | deliver (e : Inbound M)
  /-- `call.close(status, trailers)`. -/
  | close (s : GrpcStatus)
  /-- An unchecked exception is thrown to gRPC. -/
  | raise (what : String)
  deriving DecidableEq

/-- One callback (ValidatingServerInterceptor.java:19-45). The state is `aborted`. -/
def serverStep {M : Type} (assertValid : M → Run) (aborted : Bool) : Inbound M → Bool × List (ServerOut M)
  | .message m =>
    match assertValid m with
    | .ok _ => (aborted, [.deliver (.message m)])
    | .error e =>
      match asValidation e with
      | some (f, r) => (true, [.close (asStatus f r)])
      | none => (aborted, [.raise "unchecked exception"])
  | .halfClose => if !aborted then (aborted, [.deliver .halfClose]) else (aborted, [])
  | e => (aborted, [.deliver e])

/-- A call: what the interceptor does on a sequence of callbacks
(java/pgv-java-grpc/src/main/java/io/envoyproxy/pgv/grpc/ValidatingServerInterceptor.java:20-44). -/
def serverRun {M : Type} (assertValid : M → Run) : Bool → List (Inbound M) → List (ServerOut M)
  | _, [] => []
  | aborted, e :: es =>
    (serverStep assertValid aborted e).2 ++ serverRun assertValid (serverStep assertValid aborted e).1 es

/-! ### Client -/

/-- The methods of `ClientCall`
(extended in java/pgv-java-grpc/src/main/java/io/envoyproxy/pgv/grpc/ValidatingClientInterceptor.java:20-30). -/
inductive Outbound (M : Type)
  | start
  | request (n : Nat)
  | message (m : M)
  | halfClose
  | cancel
  deriving DecidableEq

/-- What a call of a method does
(java/pgv-java-grpc/src/main/java/io/envoyproxy/pgv/grpc/ValidatingClientInterceptor.java:22-29). -/
inductive ClientOut (M : Type)
  /-- The method of the underlying call is called. -/
  | forward (o : Outbound M)
  /-- A StatusRuntimeException is thrown to the application. -/
  | status (s : GrpcStatus)
  /-- An unchecked exception is thrown to the application. -/
  | raise (what : String)
  deriving DecidableEq

/-- One method call (ValidatingClientInterceptor.java:19-31). -/
def clientStep {M : Type} (assertValid : M → Run) : Outbound M → ClientOut M
  | .message m =>
    match assertValid m with
    | .ok _ => .forward (.message m)
    | .error e =>
      match asValidation e with
      | some (f, r) => .status (asStatus f r)
      | none => .raise "unchecked exception"
  | o => .forward o

end PGV.Java
