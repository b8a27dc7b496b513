import Verif.Java.Templates

/-!
The interface `Validator` of the Java runtime.
-/

namespace PGV.Java

/-- `isValid`: it catches the exceptions that are a `ValidationException` (`UnimplementedException` is one), and lets
the others through (java/pgv-java-stub/src/main/java/io/envoyproxy/pgv/Validator.java:23-30). -/
def isValid (assertion : Run) : Except JErr Bool :=
  match assertion with
  | .ok _ => .ok true
  | .error (.validation _ _) => .ok false
  | .error (.unimplemented _) => .ok false
  | .error (.runtime w) => .error (.runtime w)

/-- `Validator.ALWAYS_VALID` (java/pgv-java-stub/src/main/java/io/envoyproxy/pgv/Validator.java:32-34). -/
def alwaysValid (_ : Val) : Run := .ok ()

/-- `Validator.ALWAYS_INVALID` (java/pgv-java-stub/src/main/java/io/envoyproxy/pgv/Validator.java:36-38). -/
def alwaysInvalid (_ : Val) : Run := .error (.validation "UNKNOWN" [.s "Explicitly invalid"])

/-- Validators whose index has another one to fall back to
(java/pgv-java-stub/src/main/java/io/envoyproxy/pgv/ReflectiveValidatorIndex.java:20-26). -/
def JEnv.fallingBack (J : JEnv) (o : Val → Run) : JEnv := { J with other := o }

end PGV.Java
