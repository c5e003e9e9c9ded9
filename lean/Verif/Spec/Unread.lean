import Verif.Spec.Ops
/-! The headers and query parameters that matter. -/
namespace S3.Spec
open S3

/-- the headers that can change what is done with a request, besides `x-amz-meta-*` -/
def operationHeaders : List Bytes :=
  [b!"content-type", b!"content-length", b!"range", b!"x-amz-copy-source", b!"x-amz-storage-class",
   b!"x-amz-bucket-object-lock-enabled", b!"x-amz-bypass-governance-retention"]

/-- the headers that can change whether a request is admitted, besides the signed ones -/
def signatureHeaders : List Bytes := [b!"authorization", b!"x-amz-content-sha256", b!"x-amz-date"]

/-- the query parameters that can change what is done with a request -/
def operationParams : List Bytes :=
  [b!"delete", b!"location", b!"list-type", b!"uploads", b!"uploadId", b!"partNumber", b!"prefix", b!"max-keys", b!"fetch-owner",
   b!"delimiter", b!"encoding-type"]

/-- a header of user metadata -/
def MetaName (n : Bytes) : Prop := b!"x-amz-meta-" <+: n

/-- The two requests agree on the method, on the path, on the form they upload (if any), and on all headers and query parameters that can
change what is done with them, each of which is given with one value at most. -/
structure SameEssentials (lib : Lib) (r r' : Req) : Prop where
  method : r.method = r'.method
  path : r.path = r'.path
  form : ∀ f, UploadsForm lib r f ↔ UploadsForm lib r' f
  headers : ∀ n v, n ∈ operationHeaders ∨ MetaName n → ((n, v) ∈ r.headers ↔ (n, v) ∈ r'.headers)
  params : ∀ n ∈ operationParams, ∀ v, (n, v) ∈ queryOf r ↔ (n, v) ∈ queryOf r'
  header_once : ∀ n v w, n ∈ operationHeaders ∨ MetaName n → (n, v) ∈ r.headers → (n, w) ∈ r.headers → v = w
  param_once : ∀ n ∈ operationParams, ∀ v w, (n, v) ∈ queryOf r → (n, w) ∈ queryOf r → v = w

/-- the names of the headers that the signature of the request covers -/
inductive SignedName (r : Req) : Bytes → Prop where
  | header {v a n} : (b!"authorization", v) ∈ r.headers → Authorization.fromHeaderStr v = some a → n ∈ a.signedHeaders → SignedName r n
  | query {v n} : (b!"X-Amz-SignedHeaders", v) ∈ queryOf r → n ∈ splitAll 59 v → SignedName r n

/-- The two requests are the same but for the header `n`, which each may give or not, with whatever values of visible ASCII characters. -/
structure SameButHeader (n : Bytes) (r r' : Req) : Prop where
  method : r.method = r'.method
  path : r.path = r'.path
  query : r.query = r'.query
  body : r.body = r'.body
  headers : (r.headers.filter fun p => p.1 != n) = r'.headers.filter fun p => p.1 != n
  visible : ∀ v, (n, v) ∈ r.headers ∨ (n, v) ∈ r'.headers → ∀ c ∈ v, c = 9 ∨ (32 ≤ c ∧ c ≤ 126)

end S3.Spec
