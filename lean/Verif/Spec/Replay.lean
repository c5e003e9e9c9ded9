import Verif.Spec.Unread
/-! What a signature stands for. -/
namespace S3.Spec
open S3

/-- All that the request asks for is signed: the headers that the server acts upon (but `content-length`) have names among `signed` and values
without blanks at their ends. Each of them, and each query parameter that the server acts upon, is given with one value at most. -/
structure AllSigned (r : Req) (signed : List Bytes) : Prop where
  headers : ∀ n v, (n, v) ∈ r.headers → n ∈ operationHeaders ∨ MetaName n → n ≠ b!"content-length" → n ∈ signed ∧ Trimmed v
  header_once : ∀ n v w, n ∈ operationHeaders ∨ MetaName n → (n, v) ∈ r.headers → (n, w) ∈ r.headers → v = w
  param_once : ∀ n ∈ operationParams, ∀ v w, (n, v) ∈ queryOf r → (n, w) ∈ queryOf r → v = w

/-- the two requests announce the same length of their bodies, or none -/
def SameLength (r r' : Req) : Prop := ∀ v, (b!"content-length", v) ∈ r.headers ↔ (b!"content-length", v) ∈ r'.headers

/-- the digest of the payload is signed -/
def DigestDeclared (r : Req) : Prop :=
  ∀ d, (b!"x-amz-content-sha256", d) ∈ r.headers → d ≠ b!"UNSIGNED-PAYLOAD" ∧ d ≠ b!"STREAMING-AWS4-HMAC-SHA256-PAYLOAD"

end S3.Spec
