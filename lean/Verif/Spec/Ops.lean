import Verif.Spec.SigV4
import Verif.Spec.Path
import Verif.Model.Dispatch
/-! The S3 operation table, from the S3 API reference: which request asks for which operation, with which arguments.
Independent of the handlers of the model. -/
namespace S3.Spec

/-- the decoded path of the request spells the address -/
def At (r : Req) (a : Address) : Prop := ∃ p, urlDecode r.path = some p ∧ Addresses p a

def HasParam (r : Req) (name : Bytes) : Prop := ∃ v, (name, v) ∈ queryOf r

/-- the value of a query parameter, if there is one (no value is defined if it is given twice with different values) -/
def QueryValue (r : Req) (name : Bytes) : Option Bytes → Prop
  | none => ¬ HasParam r name
  | some v => OnlyQuery r name v

/-- the value of a header, if there is one -/
def HeaderValue (r : Req) (name : Bytes) : Option Bytes → Prop
  | none => ∀ v, (name, v) ∉ r.headers
  | some v => OnlyHeader r name v

/-- no query parameter and no header is given twice with different values -/
structure NoRepeats (r : Req) : Prop where
  query : ∀ n v w, (n, v) ∈ queryOf r → (n, w) ∈ queryOf r → v = w
  headers : ∀ n v w, (n, v) ∈ r.headers → (n, w) ∈ r.headers → v = w

/-- the query parameters that make a request a request for another operation (S3 API reference) -/
def subresources : List Bytes :=
  [b!"accelerate", b!"acl", b!"analytics", b!"attributes", b!"cors", b!"delete", b!"encryption", b!"intelligent-tiering",
   b!"inventory", b!"legal-hold", b!"lifecycle", b!"list-type", b!"location", b!"logging", b!"metrics", b!"notification",
   b!"object-lock", b!"ownershipControls", b!"partNumber", b!"policy", b!"policyStatus", b!"publicAccessBlock", b!"replication",
   b!"requestPayment", b!"restore", b!"retention", b!"select", b!"tagging", b!"torrent", b!"uploadId", b!"uploads",
   b!"versioning", b!"versions", b!"website"]

/-- exactly these sub-resources are named in the query -/
def Selects (r : Req) (names : List Bytes) : Prop := ∀ n ∈ subresources, HasParam r n ↔ n ∈ names

/-- a decimal integer, with a sign or without -/
inductive IsInteger : Bytes → Int → Prop where
  | plain {s n} : IsNumeral s n → IsInteger s n
  | plus {s n} : IsNumeral s n → IsInteger (b!"+" ++ s) n
  | minus {s n} : IsNumeral s n → IsInteger (b!"-" ++ s) (-n)

/-- a decimal integer of 64 bits -/
def IsI64 (s : Bytes) (i : Int) : Prop := IsInteger s i ∧ -2 ^ 63 ≤ i ∧ i < 2 ^ 63

/-- an optional integer -/
def MaybeI64 : Option Bytes → Option Int → Prop
  | none, none => True
  | some s, some i => IsI64 s i
  | _, _ => False

/-- an optional truth value -/
def MaybeBool (s : Option Bytes) : Prop := s = none ∨ s = some b!"true" ∨ s = some b!"false"

/-- the integer in an optional header -/
def HeaderI64 (r : Req) (name : Bytes) (i : Option Int) : Prop := ∃ s, HeaderValue r name s ∧ MaybeI64 s i
/-- an optional header is a truth value -/
def HeaderBool (r : Req) (name : Bytes) : Prop := ∃ s, HeaderValue r name s ∧ MaybeBool s
/-- an optional query parameter is an integer -/
def QueryI64 (r : Req) (name : Bytes) : Prop := ∃ s i, QueryValue r name s ∧ MaybeI64 s i
/-- an optional query parameter is a truth value -/
def QueryBool (r : Req) (name : Bytes) : Prop := ∃ s, QueryValue r name s ∧ MaybeBool s

/-- Metadata, ordered by name: `has n v` says that the request gives the user metadata `n` the value `v`. -/
def MetaOf (has : Bytes → Bytes → Prop) : Option Meta → Prop
  | none => ∀ n v, n ≠ [] → ¬ has n v
  | some m => m ≠ [] ∧ (m.map (·.1)).Pairwise (fun a b => bytesCmp a b = .lt) ∧ ∀ n v, (n, v) ∈ m ↔ n ≠ [] ∧ has n v

/-- metadata in headers: `x-amz-meta-NAME` -/
def headerMeta (r : Req) (n v : Bytes) : Prop := (b!"x-amz-meta-" ++ n, v) ∈ r.headers

/-- metadata in a form: fields `x-amz-meta-NAME` (in any case; the metadata are named in lower case) -/
def fieldMeta (f : Form) (n v : Bytes) : Prop := n.map toLower = n ∧ LastField f.fields (b!"x-amz-meta-" ++ n) v

/-- the field of a form, if there is one -/
def FieldValue (f : Form) (name : Bytes) : Option Bytes → Prop
  | none => ∀ p ∈ f.fields, ¬ SameName p.1 name
  | some v => LastField f.fields name v

/-- the first value that is there -/
def Either {α : Type} (first second result : Option α) : Prop := (first = none ∧ result = second) ∨ (first ≠ none ∧ result = first)

/-- a whole body and its text -/
def Text (body : Body) (s : Bytes) : Prop := unbroken body ∧ received body = s

/-- **The operation table.** `Requests lib env r body o`: the request `r` asks for the operation `o`. `body` is the body left
after the check of the signature (decoded, if it comes in signed chunks). -/
inductive Requests (lib : Lib) (env : Env) (r : Req) (body : Body) : Op → Prop where
  | listBuckets : r.method = b!"GET" → At r .root → Selects r [] → Requests lib env r body .listBuckets
  | createBucket {b s} : r.method = b!"PUT" → At r (.bucket b) → Selects r [] → Text body s → lib.xmlCreateBucket s = true →
      HeaderBool r b!"x-amz-bucket-object-lock-enabled" → Requests lib env r body (.createBucket b)
  | headBucket {b} : r.method = b!"HEAD" → At r (.bucket b) → Selects r [] → Requests lib env r body (.headBucket b)
  | deleteBucket {b} : r.method = b!"DELETE" → At r (.bucket b) → Selects r [] → Requests lib env r body (.deleteBucket b)
  | getBucketLocation {b} : r.method = b!"GET" → At r (.bucket b) → Selects r [b!"location"] →
      Requests lib env r body (.getBucketLocation b)
  | listObjects {b pfx} : r.method = b!"GET" → At r (.bucket b) → Selects r [] → QueryValue r b!"prefix" pfx → QueryI64 r b!"max-keys" →
      Requests lib env r body (.listObjects b pfx env.fuel)
  | listObjectsV2 {b pfx} : r.method = b!"GET" → At r (.bucket b) → Selects r [b!"list-type"] → OnlyQuery r b!"list-type" b!"2" →
      QueryValue r b!"prefix" pfx → QueryI64 r b!"max-keys" → QueryBool r b!"fetch-owner" →
      Requests lib env r body (.listObjectsV2 b pfx env.fuel)
  | deleteObjects {b s keys} : r.method = b!"POST" → At r (.bucket b) → Selects r [b!"delete"] → (∀ x, ¬ IsForm lib r x) → Text body s →
      lib.xmlDelete s = some keys → HeaderBool r b!"x-amz-bypass-governance-retention" → Requests lib env r body (.deleteObjects b keys)
  | postObject {b k f ct n fm hm m fs hs s} : r.method = b!"POST" → At r (.bucket b) → Selects r [] → UploadsForm lib r f →
      HeaderValue r b!"content-type" ct →
      LastField f.fields b!"key" k → k.length ≤ 1024 → HeaderI64 r b!"content-length" n →
      MetaOf (fieldMeta f) fm → MetaOf (headerMeta r) hm → Either fm hm m →
      FieldValue f b!"x-amz-storage-class" fs → HeaderValue r b!"x-amz-storage-class" hs → Either fs hs s →
      Requests lib env r body (.putObject ⟨b, k, some f.file.toBody, n, m, s⟩)
  | getObject {b k range} : r.method = b!"GET" → At r (.object b k) → Selects r [] → HeaderValue r b!"range" range →
      Requests lib env r body (.getObject b k range env.wants)
  | headObject {b k} : r.method = b!"HEAD" → At r (.object b k) → Selects r [] → Requests lib env r body (.headObject b k)
  | putObject {b k n m s} : r.method = b!"PUT" → At r (.object b k) → Selects r [] → HeaderValue r b!"x-amz-copy-source" none →
      HeaderI64 r b!"content-length" n → MetaOf (headerMeta r) m → HeaderValue r b!"x-amz-storage-class" s →
      Requests lib env r body (.putObject ⟨b, k, some body, n, m, s⟩)
  | copyObject {b k sb sk} : r.method = b!"PUT" → At r (.object b k) → Selects r [] → HeaderValue r b!"x-amz-copy-source" (some (sb ++ b!"/" ++ sk)) →
      LegalBucket sb → sk ≠ [] → sk.length ≤ 1024 → (10 : UInt8) ∉ sk → Requests lib env r body (.copyObject b k (sb ++ b!"/" ++ sk))
  | deleteObject {b k} : r.method = b!"DELETE" → At r (.object b k) → Selects r [] → HeaderBool r b!"x-amz-bypass-governance-retention" →
      Requests lib env r body (.deleteObject b k)
  | createMultipartUpload {b k} : r.method = b!"POST" → At r (.object b k) → Selects r [b!"uploads"] → (∀ x, ¬ IsForm lib r x) →
      Requests lib env r body (.createMultipartUpload env.uuid)
  | uploadPart {b k id ns n l} : r.method = b!"PUT" → At r (.object b k) → Selects r [b!"partNumber", b!"uploadId"] →
      HeaderValue r b!"x-amz-copy-source" none → OnlyQuery r b!"partNumber" ns → IsI64 ns n → OnlyQuery r b!"uploadId" id →
      HeaderI64 r b!"content-length" l → Requests lib env r body (.uploadPart id n (some body))
  | completeMultipartUpload {b k id s parts} : r.method = b!"POST" → At r (.object b k) → Selects r [b!"uploadId"] →
      (∀ x, ¬ IsForm lib r x) → Text body s → lib.xmlComplete s = some parts → OnlyQuery r b!"uploadId" id →
      Requests lib env r body (.completeMultipartUpload b k id parts)

/-- The request asks for none of the operations the server does not have: it names no sub-resource, or the ones of an
operation the server has. -/
inductive Supported (lib : Lib) (r : Req) : Prop where
  | plain : Selects r [] → Supported lib r
  | location {b} : r.method = b!"GET" → At r (.bucket b) → Selects r [b!"location"] → Supported lib r
  | listType {b} : r.method = b!"GET" → At r (.bucket b) → Selects r [b!"list-type"] → Supported lib r
  | delete {b} : r.method = b!"POST" → At r (.bucket b) → Selects r [b!"delete"] → (∀ x, ¬ IsForm lib r x) → Supported lib r
  | uploads {b k} : r.method = b!"POST" → At r (.object b k) → Selects r [b!"uploads"] → Supported lib r
  | complete {b k} : r.method = b!"POST" → At r (.object b k) → Selects r [b!"uploadId"] → Supported lib r
  | part {b k} : r.method = b!"PUT" → At r (.object b k) → Selects r [b!"partNumber", b!"uploadId"] →
      (∀ v, (b!"x-amz-copy-source", v) ∉ r.headers) → Supported lib r

/-- the status of a successful answer -/
def successStatus : Op → Nat
  | .deleteBucket _ => 204
  | .deleteObject _ _ => 204
  | _ => 200

/-- the errors an operation can end with -/
def operationErrors : Op → List S3ErrorCode
  | .createBucket _ => [.BucketAlreadyExists, .InternalError]
  | .copyObject _ _ _ => [.InvalidRequest, .InternalError]
  | .deleteBucket _ => [.InternalError]
  | .deleteObject _ _ => [.InternalError]
  | .deleteObjects _ _ => [.InternalError]
  | .getBucketLocation _ => [.NoSuchBucket, .InternalError]
  | .getObject _ _ _ _ => [.InvalidRequest, .NoSuchKey, .InvalidRange, .InternalError]
  | .headBucket _ => [.NoSuchBucket, .InternalError]
  | .headObject _ _ => [.NoSuchKey, .InternalError]
  | .listBuckets => [.InternalError]
  | .listObjects _ _ _ => [.InternalError]
  | .listObjectsV2 _ _ _ => [.InternalError]
  | .putObject _ => [.InvalidStorageClass, .IncompleteBody, .UnexpectedContent, .InternalError]
  | .createMultipartUpload _ => []
  | .uploadPart _ _ _ => [.IncompleteBody, .InternalError]
  | .completeMultipartUpload _ _ _ _ => [.InvalidPart, .InternalError]

/-- the response to an HTTP request -/
def served (cfg : Cfg) (ext : Ext) (lib : Lib) (auth : Option Provider) (env : Env) (r : Req) (fs : FS) : Outcome Reply :=
  (run cfg (handle cfg ext lib auth env r) fs).1

/-- the file tree after an HTTP request -/
def afterServed (cfg : Cfg) (ext : Ext) (lib : Lib) (auth : Option Provider) (env : Env) (r : Req) (fs : FS) : FS :=
  (run cfg (handle cfg ext lib auth env r) fs).2

/-- the metadata headers of a response -/
def metaHeaders (m : Option Meta) : List (Bytes × Bytes) := (m.getD []).map fun p => (b!"x-amz-meta-" ++ p.1, p.2)

/-- what may stand in an HTTP header: a name of token characters in lower case (at most 65535 bytes), a value without
control characters (but tabs) -/
def Sendable (name value : Bytes) : Prop :=
  name ≠ [] ∧ name.length ≤ 65535 ∧ (∀ b ∈ name, isTchar b = true ∧ toLower b = b) ∧ ∀ b ∈ value, b = 9 ∨ (32 ≤ b ∧ b ≠ 127)

end S3.Spec
