import Verif.Base.Bytes
import Verif.Model.Errors
/-! Model of `/repo/src/auth.rs` `SimpleAuth`. The `HashMap` is an association list in which
`insert` replaces the entry of an equal key. -/
namespace S3

/-- `/repo/src/auth.rs:17-22` `SimpleAuth` -/
structure SimpleAuth where
  map : List (Bytes × Bytes)
  deriving DecidableEq, Repr

/-- `/repo/src/auth.rs:26-31` `SimpleAuth::new` -/
def SimpleAuth.new : SimpleAuth := ⟨[]⟩

/-- `/repo/src/auth.rs:34-36` `SimpleAuth::register` (`HashMap::insert`) -/
def SimpleAuth.register (a : SimpleAuth) (key secret : Bytes) : SimpleAuth :=
  ⟨(key, secret) :: a.map.filter fun p => p.1 != key⟩

/-- `/repo/src/auth.rs:39-42` `SimpleAuth::lookup` -/
def SimpleAuth.lookup (a : SimpleAuth) (key : Bytes) : Option Bytes :=
  (a.map.find? fun p => p.1 == key).map (·.2)

/-- `/repo/src/errors.rs:198-203` `S3AuthError`; of an `S3Error` only the code is kept -/
inductive AuthError where
  | notSignedUp
  | other (code : S3ErrorCode)
  deriving DecidableEq, Repr

/-- `/repo/src/auth.rs:46-52` `get_secret_access_key` -/
def SimpleAuth.getSecret (a : SimpleAuth) (key : Bytes) : Except AuthError Bytes :=
  match a.lookup key with
  | none => .error .notSignedUp
  | some s => .ok s

end S3
