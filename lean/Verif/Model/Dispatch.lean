import Verif.Model.Service
/-! Model of the handlers: `/repo/src/ops.rs`, `/repo/src/ops/*.rs`, and of `/repo/src/service.rs:145-179` `handle`. -/
namespace S3

/-- the handlers in the order of `/repo/src/ops.rs:41-58` -/
inductive Handler where
  | completeMultipartUpload
  | copyObject
  | createBucket
  | createMultipartUpload
  | deleteBucket
  | deleteObject
  | deleteObjects
  | getBucketLocation
  | getObject
  | headBucket
  | headObject
  | listBuckets
  | listObjects
  | listObjectsV2
  | putObject
  | uploadPart
  deriving DecidableEq, Repr

/-- `/repo/src/ops.rs:35-59` `setup_handlers` -/
def handlers : List Handler :=
  [.completeMultipartUpload, .copyObject, .createBucket, .createMultipartUpload, .deleteBucket, .deleteObject,
   .deleteObjects, .getBucketLocation, .getObject, .headBucket, .headObject, .listBuckets, .listObjects,
   .listObjectsV2, .putObject, .uploadPart]

/-- the `is_match` methods: `/repo/src/ops/complete_multipart_upload.rs:27-32`, `copy_object.rs:34-38`,
`create_bucket.rs:24-27`, `create_multipart_upload.rs:30-35`, `delete_bucket.rs:18-21`, `delete_object.rs:21-24`,
`delete_objects.rs:23-28`, `get_bucket_location.rs:18-23`, `get_object.rs:28-31`, `head_bucket.rs:18-21`,
`head_object.rs:28-31`, `list_buckets.rs:17-20`, `list_objects.rs:18-25`, `list_objects_v2.rs:18-24`,
`put_object.rs:34-47`, `upload_part.rs:23-27` -/
def isMatch (c : Ctx) : Handler → Bool
  | .completeMultipartUpload => c.method == b!"POST" && c.path.isObject && (c.query b!"uploadId").isSome
  | .copyObject => c.method == b!"PUT" && c.path.isObject && (c.header b!"x-amz-copy-source").isSome
  | .createBucket => c.method == b!"PUT" && c.path.isBucket
  | .createMultipartUpload => c.method == b!"POST" && c.path.isObject && (c.query b!"uploads").isSome
  | .deleteBucket => c.method == b!"DELETE" && c.path.isBucket
  | .deleteObject => c.method == b!"DELETE" && c.path.isObject
  | .deleteObjects => c.method == b!"POST" && c.path.isBucket && (c.query b!"delete").isSome
  | .getBucketLocation => c.method == b!"GET" && c.path.isBucket && (c.query b!"location").isSome
  | .getObject => c.method == b!"GET" && c.path.isObject
  | .headBucket => c.method == b!"HEAD" && c.path.isBucket
  | .headObject => c.method == b!"HEAD" && c.path.isObject
  | .listBuckets => c.method == b!"GET" && c.path.isRoot
  | .listObjects => c.method == b!"GET" && c.path.isBucket && (c.query b!"list-type").isNone
  | .listObjectsV2 => c.method == b!"GET" && c.path.isBucket && c.query b!"list-type" == some b!"2"
  | .putObject =>
    if c.method == b!"POST" then c.path.isBucket && c.multipart.isSome
    else if c.method == b!"PUT" then c.path.isObject && (c.query b!"uploadId").isNone
    else false
  | .uploadPart => c.method == b!"PUT" && (c.query b!"partNumber").isSome && (c.query b!"uploadId").isSome

/-- `/repo/src/ops.rs:101-108` `unwrap_object_path`: panics on another path -/
def unwrapObjectPath (c : Ctx) : Prog (Bytes × Bytes) :=
  match c.path with
  | .object b k => .ret (b, k)
  | _ => .panic

/-- `/repo/src/ops.rs:111-118` `unwrap_bucket_path`: panics on another path -/
def unwrapBucketPath (c : Ctx) : Prog Bytes :=
  match c.path with
  | .bucket b => .ret b
  | _ => .panic

/-- `Option::unwrap` / `unwrap_qs` / `unwrap_header`, `/repo/src/ops.rs:121-137`: panics on `None` -/
def unwrap {α : Type} : Option α → Prog α
  | some a => .ret a
  | none => .panic

/-- an error answer unless there is a value, `ok_or` / `map_err` with `?`, e.g. `/repo/src/ops/upload_part.rs:52-56`. -/
def orFail {α : Type} (e : S3ErrorCode) : Option α → Prog α
  | some a => .ret a
  | none => .fail e

/-- `assign` of a header or query value of a type `T: FromStr`,
`/repo/src/data_structures/ordered_headers.rs:69-79`, `/repo/src/data_structures/ordered_qs.rs:43-49` -/
def assign {α : Type} (parse : Bytes → Option α) : Option Bytes → Prog (Option α)
  | none => .ret none
  | some v => match parse v with
    | none => .fail .InvalidRequest
    | some a => .ret (some a)

/-- `bool::from_str`, behind `assign`, `/repo/src/data_structures/ordered_headers.rs:69-79`. -/
def parseBool (s : Bytes) : Option Bool :=
  if s = b!"true" then some true else if s = b!"false" then some false else none

/-- `i64::from_str`, behind `assign`, `/repo/src/data_structures/ordered_headers.rs:69-79`, and at
`/repo/src/ops/upload_part.rs:54`. -/
def parseI64 (s : Bytes) : Option Int := parseSigned (2 ^ 63) s

/-- `deserialize_xml_body`, `/repo/src/utils/body.rs:14-18` -/
def xmlBody {α : Type} (parse : Bytes → Option α) (body : Body) : Prog α :=
  match wholeBody body with
  | none => .fail .InvalidRequest
  | some s => orFail .InvalidRequest (parse s)

/-- `HashMap::insert` on the sorted association list that stands for a `HashMap`.
`/repo/src/ops/put_object.rs:71-80,184-190`. -/
def metaInsert (m : Meta) (name value : Bytes) : Meta :=
  match m with
  | [] => [(name, value)]
  | (n, v) :: r =>
    match bytesCmp name n with
    | .lt => (name, value) :: (n, v) :: r
    | .eq => (name, value) :: r
    | .gt => (n, v) :: metaInsert r name value

/-- the prefix of metadata names, `/repo/src/ops/put_object.rs:71,184` -/
def metaPrefix : Bytes := b!"x-amz-meta-"

/-- one round of the loops `/repo/src/ops/put_object.rs:69-78,183-191` -/
def metaStep (m : Meta) (p : Bytes × Bytes) : Meta :=
  if startsWith p.1 metaPrefix && p.1.drop metaPrefix.length != [] then metaInsert m (p.1.drop metaPrefix.length) p.2 else m

/-- `/repo/src/ops/put_object.rs:68-81,182-194`: the metadata among headers or fields -/
def collectMeta (l : List (Bytes × Bytes)) : Option Meta :=
  let m := l.foldl metaStep []
  if m = [] then none else some m

/-- `multipart.assign_str`, `/repo/src/streams/multipart.rs:62-66`: a field replaces the value -/
def assignField (f : Form) (name : Bytes) (old : Option Bytes) : Option Bytes :=
  match findField f.fields name with
  | some v => some v
  | none => old

/-- metadata among the fields of the form (names in lower case) replaces the metadata of the headers,
`/repo/src/ops/put_object.rs:68-81` -/
def formMeta (f : Form) (old : Option Meta) : Option Meta :=
  match collectMeta (f.fields.map fun p => (p.1.map toLower, p.2)) with
  | some m => some m
  | none => old

/-- `/repo/src/ops/put_object.rs:61-89` `extract_from_multipart` -/
def fromMultipart (i : PutInput) (f : Form) : PutInput :=
  { i with
    storageClass := assignField f b!"x-amz-storage-class" i.storageClass
    metadata := formMeta f i.metadata
    body := some f.file.toBody }

/-- the key of a form upload, `/repo/src/ops/put_object.rs:99-108` -/
def formKey (f : Form) : Prog Bytes :=
  match findField f.fields b!"key" with
  | none => .fail .UserKeyMustBeSpecified
  | some k => if checkKey k then .ret k else .fail .KeyTooLongError

/-- bucket and key of a PutObject, `/repo/src/ops/put_object.rs:93-114` -/
def putAddress (c : Ctx) : Prog (Bytes × Bytes) :=
  if c.method = b!"POST" then do
    let b ← unwrapBucketPath c
    let f ← unwrap c.multipart
    let k ← formKey f
    return (b, k)
  else if c.method = b!"PUT" then unwrapObjectPath c
  else .panic

/-- the body and what a form changes, `/repo/src/ops/put_object.rs:196-199` -/
def putBody (c : Ctx) (i : PutInput) : PutInput :=
  match c.multipart with
  | none => { i with body := some c.body }
  | some f => fromMultipart i f

/-- `/repo/src/ops/put_object.rs:92-202` `extract` -/
def extractPut (c : Ctx) : Prog PutInput := do
  let bk ← putAddress c
  let contentLength ← assign parseI64 (c.header b!"content-length")
  return putBody c
    { bucket := bk.1
      key := bk.2
      body := none
      contentLength
      metadata := collectMeta c.headers
      storageClass := c.header b!"x-amz-storage-class" }

/-- choices of the environment that reach the storage: read sizes of a response body, the bound on the directory
walk, the random upload id (`/repo/src/storages/fs.rs:718`) -/
structure Env where
  wants : Nat → Nat
  fuel : Nat
  uuid : Bytes

/-- the functions `extract` of the handlers: `/repo/src/ops/complete_multipart_upload.rs:46-67`, `copy_object.rs:52-147`,
`create_bucket.rs:41-69`, `create_multipart_upload.rs:99-162`, `delete_bucket.rs:35-49`, `delete_object.rs:38-63`,
`delete_objects.rs:42-64`, `get_bucket_location.rs:37-52`, `get_object.rs:45-75`, `head_bucket.rs:35-50`,
`head_object.rs:45-75`, `list_buckets.rs:34-36`, `list_objects.rs:39-60`, `list_objects_v2.rs:38-68`,
`put_object.rs:92-202`, `upload_part.rs:41-88`. Values the file-system storage does not read are dropped
(their conversion is kept when it can fail). -/
def extract (lib : Lib) (env : Env) (c : Ctx) : Handler → Prog Op
  | .completeMultipartUpload => do
    let parts ← xmlBody lib.xmlComplete c.body
    let bk ← unwrapObjectPath c
    let id ← unwrap (c.query b!"uploadId")
    return .completeMultipartUpload bk.1 bk.2 id parts
  | .copyObject => do
    let bk ← unwrapObjectPath c
    let source ← unwrap (c.header b!"x-amz-copy-source")
    if copySourceTryMatch source then return .copyObject bk.1 bk.2 source else .fail .InvalidRequest
  | .createBucket => do
    let b ← unwrapBucketPath c
    xmlBody (fun s => if lib.xmlCreateBucket s then some () else none) c.body
    let _ ← assign parseBool (c.header b!"x-amz-bucket-object-lock-enabled")
    return .createBucket b
  | .createMultipartUpload => do
    let _ ← unwrapObjectPath c
    return .createMultipartUpload env.uuid
  | .deleteBucket => do
    let b ← unwrapBucketPath c
    return .deleteBucket b
  | .deleteObject => do
    let bk ← unwrapObjectPath c
    let _ ← assign parseBool (c.header b!"x-amz-bypass-governance-retention")
    return .deleteObject bk.1 bk.2
  | .deleteObjects => do
    let b ← unwrapBucketPath c
    let keys ← xmlBody lib.xmlDelete c.body
    let _ ← assign parseBool (c.header b!"x-amz-bypass-governance-retention")
    return .deleteObjects b keys
  | .getBucketLocation => do
    let b ← unwrapBucketPath c
    return .getBucketLocation b
  | .getObject => do
    let bk ← unwrapObjectPath c
    return .getObject bk.1 bk.2 (c.header b!"range") env.wants
  | .headBucket => do
    let b ← unwrapBucketPath c
    return .headBucket b
  | .headObject => do
    let bk ← unwrapObjectPath c
    return .headObject bk.1 bk.2
  | .listBuckets => .ret .listBuckets
  | .listObjects => do
    let b ← unwrapBucketPath c
    let _ ← assign parseI64 (c.query b!"max-keys")
    return .listObjects b (c.query b!"prefix") env.fuel
  | .listObjectsV2 => do
    let b ← unwrapBucketPath c
    let _ ← assign parseBool (c.query b!"fetch-owner")
    let _ ← assign parseI64 (c.query b!"max-keys")
    return .listObjectsV2 b (c.query b!"prefix") env.fuel
  | .putObject => do
    let i ← extractPut c
    return .putObject i
  | .uploadPart => do
    let _ ← unwrapObjectPath c
    let ns ← unwrap (c.query b!"partNumber")
    let n ← orFail .InvalidRequest (parseI64 ns)
    let id ← unwrap (c.query b!"uploadId")
    let _ ← assign parseI64 (c.header b!"content-length")
    return .uploadPart id n (some c.body)

/-- `HeaderName::from_bytes` accepts, `/repo/src/utils/response.rs:97`: 1 to 65535 token characters -/
def headerNameOk (s : Bytes) : Bool := s != [] && s.length ≤ 65535 && s.all isTchar

/-- `HeaderValue::from_bytes` accepts, `/repo/src/utils/response.rs:98` -/
def headerValueOk (s : Bytes) : Bool := s.all fun b => (32 ≤ b && b != 127) || b == 9

/-- `/repo/src/utils/response.rs:91-102` `set_metadata_headers`: the headers in the order of the names; `none` is an
error. Names are put in lower case by `HeaderName`. Simplification: two names that differ only in case do not occur
(both ways in, `/repo/src/ops/put_object.rs:70,183`, give lower case). -/
def metadataHeaders : Meta → Option (List (Bytes × Bytes))
  | [] => some []
  | (n, v) :: r =>
    if headerNameOk (metaPrefix ++ n) && headerValueOk v then
      (metadataHeaders r).map fun hs => ((metaPrefix ++ n).map toLower, v) :: hs
    else none

/-- A response: status, the metadata headers, and what the rest of the response is made from. The other headers and
the XML texts are added by `makeResponse` (`Model/Response.lean`).
`/repo/src/output.rs:16-29`. -/
structure Reply where
  status : Nat
  metadata : List (Bytes × Bytes)
  answer : Answer
  deriving DecidableEq, Repr

/-- the metadata of an answer, `/repo/src/ops/get_object.rs:149-151`, `/repo/src/ops/head_object.rs:147-149` -/
def Answer.meta : Answer → Meta
  | .object _ m _ _ => m.getD []
  | .head _ m => m.getD []
  | _ => []

/-- the status of a success, `/repo/src/ops/delete_bucket.rs:53`, `/repo/src/ops/delete_object.rs:68`, otherwise 200 -/
def Handler.status : Handler → Nat
  | .deleteBucket => 204
  | .deleteObject => 204
  | _ => 200

/-- `try_into_response` of the outputs (`/repo/src/ops/*.rs`, `/repo/src/output.rs:16-29`), failures wrapped by
`/repo/src/ops.rs:140-148` -/
def respond (h : Handler) (a : Answer) : Prog Reply :=
  match metadataHeaders a.meta with
  | some m => .ret { status := h.status, metadata := m, answer := a }
  | none => .fail .InternalError

/-- `/repo/src/service.rs:172-176`: the first handler that matches -/
def findHandler (c : Ctx) : Option Handler := handlers.find? (isMatch c)

/-- a handler's `handle`: extract the input, call the storage, make the response.
`/repo/src/ops.rs:94-116,140-148`, called at `/repo/src/service.rs:172-176`. -/
def runHandler (cfg : Cfg) (ext : Ext) (lib : Lib) (env : Env) (c : Ctx) (h : Handler) : Prog Reply :=
  (extract lib env c h).bind fun o => (opProg cfg ext o).bind (respond h)

/-- `/repo/src/service.rs:165-178`: what follows the check of the signature -/
def dispatch (cfg : Cfg) (ext : Ext) (lib : Lib) (env : Env) (c : Ctx) : Prog Reply :=
  if c.method = b!"POST" ∧ c.path.isObject = true ∧ c.multipart.isSome = true then .fail .MethodNotAllowed
  else match findHandler c with
    | some h => runHandler cfg ext lib env c h
    | none => .fail .NotSupported

/-- the request after `makeCtx` and `check_signature`, `/repo/src/service.rs:145-163` -/
def admit (lib : Lib) (auth : Option Provider) (r : Req) : Except S3ErrorCode Ctx := do
  let c ← makeCtx lib r
  checkSignature lib auth c

/-- an error answer, or go on. `?` at `/repo/src/service.rs:145-163`. -/
def orElseFail {α : Type} (r : Except S3ErrorCode α) (k : α → Prog Reply) : Prog Reply :=
  match r with
  | .error e => .fail e
  | .ok a => k a

/-- `/repo/src/service.rs:145-179` `handle` -/
def handle (cfg : Cfg) (ext : Ext) (lib : Lib) (auth : Option Provider) (env : Env) (r : Req) : Prog Reply :=
  orElseFail (admit lib auth r) (dispatch cfg ext lib env)

end S3
