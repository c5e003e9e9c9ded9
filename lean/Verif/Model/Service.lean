import Verif.Model.Path
import Verif.Model.Signature
import Verif.Model.Chunked
import Verif.Model.Form
import Verif.Model.Auth
import Verif.Model.Storage
import Verif.Model.Deserialize
/-! Model of `/repo/src/service.rs` up to and including `check_signature`. -/
namespace S3

/-- A request as `hyper` hands it over, `/repo/src/service.rs:145`: method, raw path and raw query of the URI,
header list (names in lower case), body as delivered by the connection -/
structure Req where
  method : Bytes
  path : Bytes
  query : Option Bytes
  headers : List (Bytes × Bytes)
  body : Body
  deriving DecidableEq, Repr

/-- what `/repo/src/service.rs:270-274,330-333` asks of a `Mime`: is it `multipart/form-data`, and the parameter `boundary` -/
structure Mime where
  isFormData : Bool
  boundary : Option Bytes
  deriving DecidableEq, Repr

/-- Library functions that are not modelled: the hashes; `str::parse::<Mime>` (`/repo/src/service.rs:221`); the XML reader `quick_xml` (`/repo/src/utils/body.rs:16`), which gives an error, or the root element,
or nothing for a document without one; what follows the root is not looked at -/
structure Lib where
  crypto : Crypto
  mime : Bytes → Option Mime
  xml : Bytes → Option (Option XmlNode)

/-- the body of DeleteObjects, `/repo/src/ops/delete_objects.rs:44`: the keys -/
def Lib.xmlDelete (lib : Lib) (s : Bytes) : Option (List Bytes) := (lib.xml s).bind readDelete

/-- the body of CompleteMultipartUpload, `/repo/src/ops/complete_multipart_upload.rs:47`: the part numbers, if there is an upload element -/
def Lib.xmlComplete (lib : Lib) (s : Bytes) : Option (Option (List (Option Int))) := (lib.xml s).bind readComplete

/-- the body of CreateBucket, `/repo/src/ops/create_bucket.rs:44`: accepted or not -/
def Lib.xmlCreateBucket (lib : Lib) (s : Bytes) : Bool := match lib.xml s with
  | none => false
  | some x => readCreateBucket x

/-- an authentication provider, `/repo/src/auth.rs:9-14` `S3Auth::get_secret_access_key` -/
abbrev Provider := Bytes → Except AuthError Bytes

/-- `/repo/src/ops.rs:77-92` `ReqContext` -/
structure Ctx where
  method : Bytes
  uriPath : Bytes
  headers : List (Bytes × Bytes)
  qs : Option (List (Bytes × Bytes))
  path : S3Path
  body : Body
  mime : Option Mime
  multipart : Option Form
  deriving DecidableEq, Repr

/-- `Option::ok_or`, e.g. `/repo/src/service.rs:464` -/
def orErr {α : Type} (e : S3ErrorCode) : Option α → Except S3ErrorCode α
  | some a => .ok a
  | none => .error e

/-- `if condition { return Err(code) }` turned around: go on if the condition holds, e.g. `/repo/src/service.rs:436-440` -/
def ensure (e : S3ErrorCode) (b : Bool) : Except S3ErrorCode Unit := if b then .ok () else .error e

/-- `/repo/src/service.rs:193-201`: the error code of a malformed path -/
def pathErrorCode : S3PathErrorKind → S3ErrorCode
  | .invalidPath => .InvalidURI
  | .invalidBucketName => .InvalidBucketName
  | .keyTooLong => .KeyTooLongError

/-- `/repo/src/service.rs:189-203` `extract_s3_path` -/
def extractS3Path (uriPath : Bytes) : Except S3ErrorCode S3Path :=
  match tryFromPath uriPath with
  | .ok p => .ok p
  | .error k => .error (pathErrorCode k)

/-- an optional value that has to be well formed if present: the pattern `try_some!` .. `try_err!` of
`/repo/src/service.rs:213-255` -/
def extractOpt {α : Type} (e : S3ErrorCode) (parse : Bytes → Option α) : Option Bytes → Except S3ErrorCode (Option α)
  | none => .ok none
  | some v => match parse v with
    | none => .error e
    | some a => .ok (some a)

/-- `/repo/src/service.rs:145-163`: the context of a request. `OrderedQs::from_query` never fails on a string
(`serde_urlencoded` on a list of string pairs). -/
def makeCtx (lib : Lib) (r : Req) : Except S3ErrorCode Ctx := do
  let uriPath ← orErr .InvalidURI (urlDecode r.path)
  let path ← extractS3Path uriPath
  let headers ← orErr .InvalidRequest (orderedHeaders r.headers)
  let qs := r.query.map orderedQs
  let mime ← extractOpt .InvalidRequest lib.mime (orderedGet headers b!"content-type")
  pure { method := r.method, uriPath := r.path, headers, qs, path, body := r.body, mime, multipart := none }

/-- `qs.get(name)` on the optional query, e.g. `/repo/src/service.rs:278-279`, `/repo/src/ops.rs:118-123` -/
def Ctx.query (c : Ctx) (name : Bytes) : Option Bytes :=
  match c.qs with
  | none => none
  | some qs => orderedGet qs name

/-- `ctx.headers.get(name)`, `/repo/src/data_structures/ordered_headers.rs:58-66` -/
def Ctx.header (c : Ctx) (name : Bytes) : Option Bytes := orderedGet c.headers name

/-- `hyper::body::to_bytes`: the whole body, if it does not break off; `/repo/src/service.rs:494-497`,
`/repo/src/utils/body.rs:15` -/
def wholeBody : Body → Option Bytes
  | [] => some []
  | none :: _ => none
  | some b :: r => (wholeBody r).map (b ++ ·)

/-- `Body::from(bytes)`: one fragment, none if there are no bytes; `/repo/src/service.rs:516` -/
def bodyFrom (bytes : Bytes) : Body := if bytes = [] then [] else [some bytes]

/-- `/repo/src/service.rs:289-294` `fetch_secret_key` -/
def fetchSecretKey (auth : Provider) (accessKey : Bytes) : Except S3ErrorCode Bytes :=
  match auth accessKey with
  | .ok s => .ok s
  | .error .notSignedUp => .error .NotSignedUp
  | .error (.other e) => .error e

/-- the five fields of `/repo/src/service.rs:302-315` `find_info` -/
structure PostInfo where
  policy : Bytes
  algorithm : Bytes
  credential : Bytes
  date : Bytes
  signature : Bytes
  deriving DecidableEq, Repr

/-- `/repo/src/service.rs:302-315` `find_info` -/
def findInfo (fields : List (Bytes × Bytes)) : Option PostInfo := do
  let policy ← findField fields b!"policy"
  let algorithm ← findField fields b!"x-amz-algorithm"
  let credential ← findField fields b!"x-amz-credential"
  let date ← findField fields b!"x-amz-date"
  let signature ← findField fields b!"x-amz-signature"
  pure { policy, algorithm, credential, date, signature }

/-- the error of a form that cannot be parsed, `/repo/src/service.rs:335-337` -/
def formOr (r : Except FormError Form) : Except S3ErrorCode Form :=
  match r with
  | .ok f => .ok f
  | .error _ => .error .InvalidRequest

/-- `/repo/src/service.rs:338-381`: the checks on the fields of a form -/
def checkPostForm (lib : Lib) (auth : Provider) (f : Form) : Except S3ErrorCode Unit := do
  let info ← orErr .InvalidRequest (findInfo f.fields)
  ensure .InvalidRequest (isBase64 info.policy)
  ensure .NotSupported (info.algorithm == b!"AWS4-HMAC-SHA256")
  let cred ← orErr .InvalidRequest (Credential.parse info.credential)
  let date ← orErr .InvalidRequest (AmzDate.fromHeaderStr info.date)
  let secret ← fetchSecretKey auth cred.1.accessKeyId
  ensure .SignatureDoesNotMatch (calculateSignature lib.crypto info.policy secret date cred.1.region == info.signature)

/-- `/repo/src/service.rs:297-387` `check_post_signature`; the caller has checked that `mime` is there -/
def checkPostSignature (lib : Lib) (auth : Option Provider) (mime : Mime) (c : Ctx) : Except S3ErrorCode Ctx := do
  let auth ← orErr .NotSupported auth
  let boundary ← orErr .InvalidRequest mime.boundary
  let f ← formOr (transformMultipart boundary c.body)
  checkPostForm lib auth f
  pure { c with body := [], multipart := some f }

/-- `/repo/src/service.rs:226-237` `extract_amz_content_sha256` -/
def extractSha (headers : List (Bytes × Bytes)) : Except S3ErrorCode (Option AmzContentSha256) :=
  extractOpt .XAmzContentSHA256Mismatch AmzContentSha256.fromHeaderStr (orderedGet headers b!"x-amz-content-sha256")

/-- `/repo/src/service.rs:240-246` `extract_authorization_v4` -/
def extractAuthorization (headers : List (Bytes × Bytes)) : Except S3ErrorCode (Option Authorization) :=
  extractOpt .InvalidRequest Authorization.fromHeaderStr (orderedGet headers b!"authorization")

/-- `/repo/src/service.rs:249-253` `extract_amz_date` -/
def extractDate (headers : List (Bytes × Bytes)) : Except S3ErrorCode (Option AmzDate) :=
  extractOpt .InvalidRequest AmzDate.fromHeaderStr (orderedGet headers b!"x-amz-date")

/-- the signature computed at `/repo/src/service.rs:417-435` -/
def presignedSignature (cr : Crypto) (c : Ctx) (qs : List (Bytes × Bytes)) (p : PresignedUrl) (secret : Bytes) : Bytes :=
  let headers := mapSignedHeaders c.headers p.signedHeaders
  let canonical := presignedCanonicalRequest c.method c.uriPath qs headers
  calculateSignature cr (stringToSign cr canonical p.amzDate p.credential.region) secret p.amzDate p.credential.region

/-- `/repo/src/service.rs:390-442` `check_presigned_url`; the caller has checked that there is a query -/
def checkPresignedUrl (lib : Lib) (auth : Option Provider) (qs : List (Bytes × Bytes)) (c : Ctx) : Except S3ErrorCode Ctx := do
  let p ← orErr .InvalidRequest (PresignedUrl.fromQuery qs)
  let _ ← extractSha c.headers
  let auth ← orErr .NotSupported auth
  let secret ← fetchSecretKey auth p.credential.accessKeyId
  ensure .SignatureDoesNotMatch (presignedSignature lib.crypto c qs p secret == p.signature)
  pure c

/-- the payload of `/repo/src/service.rs:499-505` -/
def wholePayload (sha : AmzContentSha256) (bytes : Bytes) : Payload :=
  if sha = .unsignedPayload then .unsigned else if bytes = [] then .empty else .singleChunk bytes

/-- `/repo/src/service.rs:471-522`: the payload that is signed and the body that is left; unless the body comes in
signed chunks, it is read to its end -/
def headerPayload (sha : AmzContentSha256) (body : Body) : Except S3ErrorCode (Payload × Body) :=
  if sha = .multipleChunks then .ok (.multipleChunks, body)
  else match wholeBody body with
    | none => .error .InvalidRequest
    | some bytes => .ok (wholePayload sha bytes, bodyFrom bytes)

/-- the signature computed at `/repo/src/service.rs:473-528` -/
def headerSignature (cr : Crypto) (c : Ctx) (a : Authorization) (date : AmzDate) (payload : Payload) (secret : Bytes) : Bytes :=
  let headers := mapSignedHeaders c.headers (isort bytesLe a.signedHeaders)
  let canonical := canonicalRequest cr c.method c.uriPath (c.qs.getD []) headers payload
  calculateSignature cr (stringToSign cr canonical date a.credential.region) secret date a.credential.region

/-- the body after the check, `/repo/src/service.rs:534-545` -/
def checkedBody (cr : Crypto) (sha : AmzContentSha256) (seed secret : Bytes) (date : AmzDate) (region : Bytes) (body : Body) : Body :=
  if sha = .multipleChunks then (decodeChunked (chunkSignature cr secret date region) seed body).toBody else body

/-- `/repo/src/service.rs:460-547`: the rest of `check_header_auth` once there is an `Authorization` header -/
def checkAuthorization (lib : Lib) (auth : Option Provider) (a : Authorization) (c : Ctx) : Except S3ErrorCode Ctx := do
  let auth ← orErr .NotSupported auth
  let sha? ← extractSha c.headers
  let sha ← orErr .InvalidRequest sha?
  let secret ← fetchSecretKey auth a.credential.accessKeyId
  let date? ← extractDate c.headers
  let date ← orErr .InvalidRequest date?
  let pb ← headerPayload sha c.body
  let signature := headerSignature lib.crypto c a date pb.1 secret
  ensure .SignatureDoesNotMatch (signature == a.signature)
  pure { c with body := checkedBody lib.crypto sha signature secret date a.credential.region pb.2 }

/-- `/repo/src/service.rs:454-457`: a request without `Authorization` header -/
def checkAnonymous (auth : Option Provider) (c : Ctx) : Except S3ErrorCode Ctx :=
  match auth with
  | some _ => .error .AccessDenied
  | none => .ok c

/-- `/repo/src/service.rs:445-547` `check_header_auth` -/
def checkHeaderAuth (lib : Lib) (auth : Option Provider) (c : Ctx) : Except S3ErrorCode Ctx :=
  match extractAuthorization c.headers with
  | .error e => .error e
  | .ok none => checkAnonymous auth c
  | .ok (some a) => checkAuthorization lib auth a c

/-- is the request a form upload, `/repo/src/service.rs:269-271` -/
def Ctx.formMime (c : Ctx) : Option Mime :=
  if c.method = b!"POST" then c.mime.filter Mime.isFormData else none

/-- the query of a presigned URL, `/repo/src/service.rs:278-279` -/
def Ctx.presignedQuery (c : Ctx) : Option (List (Bytes × Bytes)) :=
  c.qs.filter fun qs => (orderedGet qs b!"X-Amz-Signature").isSome

/-- `/repo/src/service.rs:264-286` `check_signature` -/
def checkSignature (lib : Lib) (auth : Option Provider) (c : Ctx) : Except S3ErrorCode Ctx :=
  match c.formMime with
  | some mime => checkPostSignature lib auth mime c
  | none => match c.presignedQuery with
    | some qs => checkPresignedUrl lib auth qs c
    | none => checkHeaderAuth lib auth c

end S3
