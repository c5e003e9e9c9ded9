import Verif.Spec.SigV4
import Verif.Spec.Chunked
/-! Uploads in signed chunks, after the AWS documentation, from memory ("Transferring Payload in Multiple Chunks"). -/
namespace S3.Spec
open S3

/-- the string to sign of a chunk: `prev` is the signature before it -/
def chunkText (cr : Crypto) (timestamp region prev data : Bytes) : Bytes :=
  joinWith 10 [b!"AWS4-HMAC-SHA256-PAYLOAD", timestamp, joinWith 47 (scopeParts timestamp region), prev, hexText (cr.sha256 []),
    hexText (cr.sha256 data)]

/-- the signature of a chunk -/
def awsChunkSignature (cr : Crypto) (secret timestamp region prev data : Bytes) : Bytes :=
  sigv4 cr secret timestamp region (chunkText cr timestamp region prev data)

/-- the signatures of chunks with the given data, one after the other from the signature `seed` -/
def signatureChain (sign : Bytes → Bytes → Bytes) : Bytes → List Bytes → List Bytes
  | _, [] => []
  | seed, d :: r => sign seed d :: signatureChain sign (sign seed d) r

/-- the texts signed for them -/
def chainTexts (cr : Crypto) (timestamp region : Bytes) (sign : Bytes → Bytes → Bytes) : Bytes → List Bytes → List Bytes
  | _, [] => []
  | seed, d :: r => chunkText cr timestamp region seed d :: chainTexts cr timestamp region sign (sign seed d) r

/-- The request is signed in its header, with the given `Authorization` header and time stamp and with its body in signed chunks. -/
structure Streaming (lib : Lib) (r : Req) (a : Authorization) (timestamp : Bytes) : Prop where
  noForm : ∀ b, ¬ IsForm lib r b
  noQuery : ∀ v, (b!"X-Amz-Signature", v) ∉ queryOf r
  authorization : ∃ v, OnlyHeader r b!"authorization" v ∧ Authorization.fromHeaderStr v = some a
  date : OnlyHeader r b!"x-amz-date" timestamp
  declared : OnlyHeader r b!"x-amz-content-sha256" b!"STREAMING-AWS4-HMAC-SHA256-PAYLOAD"

/-- the body is not sent in signed chunks: it is not declared so, or the request is not signed in its header -/
def Direct (r : Req) : Prop :=
  (∀ v, (b!"authorization", v) ∉ r.headers) ∨ (∃ v, (b!"X-Amz-Signature", v) ∈ queryOf r) ∨
  (b!"x-amz-content-sha256", b!"STREAMING-AWS4-HMAC-SHA256-PAYLOAD") ∉ r.headers

end S3.Spec
