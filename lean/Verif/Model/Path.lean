import Verif.Base.Bytes
import Verif.Model.Num
/-! Model of `/repo/src/path.rs`. -/
namespace S3

/-- `/repo/src/path.rs:11-26` `enum S3Path` -/
inductive S3Path where
  | root
  | bucket (bucket : Bytes)
  | object (bucket key : Bytes)
  deriving DecidableEq, Repr

/-- `/repo/src/path.rs:52-59` `enum S3PathErrorKind` -/
inductive S3PathErrorKind where
  | invalidPath
  | invalidBucketName
  | keyTooLong
  deriving DecidableEq, Repr

/-- One octet of `core::net::Ipv4Addr::from_str`: 1 to 3 digits, no leading zero, value at most 255.
Standard library behaviour behind `/repo/src/path.rs:95`. -/
def ipv4Octet (s : Bytes) : Bool :=
  s != [] && s.length ≤ 3 && s.all isDigit && !(s.length > 1 && s.head? == some 48)
    && (accDigits 255 0 s).isSome

/-- `name.parse::<IpAddr>().is_ok()`, `/repo/src/path.rs:95`.
Simplification: only the IPv4 branch is modelled.  An IPv6 literal contains `:`, and the test is
reached only for names over `[a-z0-9.-]` (`/repo/src/path.rs:69-75`). -/
def parsesAsIp (s : Bytes) : Bool :=
  match splitAll 46 s with
  | [a, b, c, d] => ipv4Octet a && ipv4Octet b && ipv4Octet c && ipv4Octet d
  | _ => false

/-- `/repo/src/path.rs:64-104` `S3Path::check_bucket_name` -/
def checkBucketName (name : Bytes) : Bool :=
  if !(3 ≤ name.length && name.length < 64) then false
  else if !(name.all fun b => isLower b || isDigit b || b == 46 || b == 45) then false
  else if (name.head?.map fun b => isLower b || isDigit b) != some true then false
  else if (name.getLast?.map fun b => isLower b || isDigit b) != some true then false
  else if parsesAsIp name then false
  else if startsWith name b!"xn--" then false
  else true

/-- `/repo/src/path.rs:109-111` `S3Path::check_key` -/
def checkKey (key : Bytes) : Bool := key.length ≤ 1024

/-- `/repo/src/path.rs:116-153` `S3Path::try_from_path` -/
def tryFromPath (path : Bytes) : Except S3PathErrorKind S3Path :=
  match splitOnce 47 path with
  | some ([], path) =>
    if path = [] then .ok .root
    else
      let (bucket, key) : Bytes × Option Bytes :=
        match splitOnce 47 path with
        | none => (path, none)
        | some (x, []) => (x, none)
        | some (bucket, key) => (bucket, some key)
      if !checkBucketName bucket then .error .invalidBucketName
      else match key with
        | none => .ok (.bucket bucket)
        | some k => if !checkKey k then .error .keyTooLong else .ok (.object bucket k)
  | _ => .error .invalidPath

/-- `/repo/src/path.rs:157-159` -/
def S3Path.isRoot : S3Path → Bool
  | .root => true
  | _ => false
/-- `/repo/src/path.rs:163-165` -/
def S3Path.isBucket : S3Path → Bool
  | .bucket _ => true
  | _ => false
/-- `/repo/src/path.rs:169-171` -/
def S3Path.isObject : S3Path → Bool
  | .object _ _ => true
  | _ => false

end S3
