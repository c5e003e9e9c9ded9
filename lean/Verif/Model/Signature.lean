import Verif.Model.Ordered
import Verif.Model.AmzDate
import Verif.Model.Authorization
import Verif.Model.CopySource
/-! Model of `/repo/src/signature_v4.rs`. -/
namespace S3

/-- The library functions of `/repo/src/utils/crypto.rs:21-49` that are not modelled: SHA-256
(`Sha256::digest`) and HMAC-SHA256 (`hmac_sha256`) -/
structure Crypto where
  sha256 : Bytes → Bytes
  hmac : Bytes → Bytes → Bytes

/-- a lower-case hex digit, `/repo/src/utils/crypto.rs:10-12` -/
def hexLower (n : UInt8) : UInt8 := if n < 10 then 48 + n else 87 + n

/-- `/repo/src/utils/crypto.rs:10-12` `to_hex_string` -/
def toHex (s : Bytes) : Bytes := s.flatMap fun (b : UInt8) => [hexLower (b >>> 4), hexLower (b &&& 15)]

/-- `/repo/src/utils/crypto.rs:21-40` `hex_sha256`, and `hex_sha256_chunk` on the pieces joined -/
def Crypto.sha256hex (cr : Crypto) (data : Bytes) : Bytes := toHex (cr.sha256 data)

/-- `/repo/src/signature_v4.rs:36-50` `PresignedUrl` -/
structure PresignedUrl where
  algorithm : Bytes
  credential : Credential
  amzDate : AmzDate
  expires : Nat
  signedHeaders : List Bytes
  signature : Bytes
  deriving DecidableEq, Repr

/-- `str::is_ascii`, `/repo/src/signature_v4.rs:92` -/
def isAsciiStr (s : Bytes) : Bool := s.all fun c => c < 128

/-- `/repo/src/signature_v4.rs:63-111` `PresignedUrl::from_query` on the sorted query -/
def PresignedUrl.fromQuery (qs : List (Bytes × Bytes)) : Option PresignedUrl := do
  let algorithm ← orderedGet qs b!"X-Amz-Algorithm"
  let credentialStr ← orderedGet qs b!"X-Amz-Credential"
  let dateStr ← orderedGet qs b!"X-Amz-Date"
  let expiresStr ← orderedGet qs b!"X-Amz-Expires"
  let signedStr ← orderedGet qs b!"X-Amz-SignedHeaders"
  let signature ← orderedGet qs b!"X-Amz-Signature"
  let (credential, rest) ← Credential.parse credentialStr
  if rest ≠ [] then none
  else
    let amzDate ← AmzDate.fromHeaderStr dateStr
    let expires ← parseUnsigned u32Max expiresStr
    if !isAsciiStr signedStr then none
    else if !isSha256Checksum signature then none
    else pure { algorithm, credential, amzDate, expires, signedHeaders := splitAll 59 signedStr, signature }

/-- `/repo/src/signature_v4.rs:155-157` `is_skipped_header` -/
def isSkippedHeader (name : Bytes) : Bool := name == b!"authorization" || name == b!"user-agent"

/-- `/repo/src/signature_v4.rs:160-162` `is_skipped_query_string` -/
def isSkippedQuery (name : Bytes) : Bool := name == b!"X-Amz-Signature"

/-- `/repo/src/signature_v4.rs:165-166` `EMPTY_STRING_SHA256_HASH` -/
def emptySha256 : Bytes := b!"e3b0c44298fc1c149afbf4c8996fb92427ae41e4649b934ca495991b7852b855"

/-- `/repo/src/signature_v4.rs:169-178` `enum Payload` -/
inductive Payload where
  | unsigned
  | empty
  | singleChunk (data : Bytes)
  | multipleChunks
  deriving DecidableEq, Repr

/-- `/repo/src/signature_v4.rs:266-271`: the last line of the canonical request -/
def Payload.line (cr : Crypto) : Payload → Bytes
  | .unsigned => b!"UNSIGNED-PAYLOAD"
  | .empty => emptySha256
  | .singleChunk data => cr.sha256hex data
  | .multipleChunks => b!"STREAMING-AWS4-HMAC-SHA256-PAYLOAD"

/-- `str::trim` on a header value, `/repo/src/signature_v4.rs:243,434`. Header values are visible
ASCII, space and tab (`toStrOk`), so the white space characters are space and tab. -/
def isTrimmed (c : UInt8) : Bool := c == 32 || c == 9
/-- `str::trim`, `/repo/src/signature_v4.rs:243,434` -/
def trim (s : Bytes) : Bytes := ((s.dropWhile isTrimmed).reverse.dropWhile isTrimmed).reverse

/-- `name=value` of one encoded parameter, `/repo/src/signature_v4.rs:217-227,399-411` -/
def queryItem (p : Bytes × Bytes) : Bytes := p.1 ++ 61 :: p.2

/-- name and value encoded, `/repo/src/signature_v4.rs:203-210,389-394` -/
def encodePair (p : Bytes × Bytes) : Bytes × Bytes := (uriEncode true p.1, uriEncode true p.2)

/-- the canonical query string, `/repo/src/signature_v4.rs:201-229,380-411` -/
def canonicalQuery (qs : List (Bytes × Bytes)) : Bytes :=
  joinWith 38 ((sortPairs (qs.map encodePair)).map queryItem)

/-- one line `name:value\n` of the canonical headers, `/repo/src/signature_v4.rs:237-246,428-437` -/
def headerLine (p : Bytes × Bytes) : Bytes := p.1 ++ 58 :: trim p.2 ++ [10]

/-- the headers that are not skipped, `/repo/src/signature_v4.rs:238-240,252-255,429-431,443-446` -/
def signedPart (headers : List (Bytes × Bytes)) : List (Bytes × Bytes) :=
  headers.filter fun p => !isSkippedHeader p.1

/-- `/repo/src/signature_v4.rs:182-273` `create_canonical_request` -/
def canonicalRequest (cr : Crypto) (method uriPath : Bytes) (qs headers : List (Bytes × Bytes)) (payload : Payload) : Bytes :=
  method ++ [10] ++ (uriEncode false uriPath ++ [10]) ++ (canonicalQuery qs ++ [10]) ++
    ((signedPart headers).flatMap headerLine ++ [10]) ++
    (joinWith 59 ((signedPart headers).map (·.1)) ++ [10]) ++ payload.line cr

/-- `/repo/src/signature_v4.rs:369-457` `create_presigned_canonical_request` -/
def presignedCanonicalRequest (method uriPath : Bytes) (qs headers : List (Bytes × Bytes)) : Bytes :=
  method ++ [10] ++ (uriEncode false uriPath ++ [10]) ++
    (canonicalQuery (qs.filter fun p => !isSkippedQuery p.1) ++ [10]) ++
    ((signedPart headers).flatMap headerLine ++ [10]) ++
    (joinWith 59 ((signedPart headers).map (·.1)) ++ [10]) ++ b!"UNSIGNED-PAYLOAD"

/-- the credential scope line `date/region/s3/aws4_request\n`, `/repo/src/signature_v4.rs:287-292,315-320` -/
def scopeLine (date : AmzDate) (region : Bytes) : Bytes :=
  date.toDate ++ 47 :: region ++ b!"/s3/aws4_request\n"

/-- `/repo/src/signature_v4.rs:276-298` `create_string_to_sign` -/
def stringToSign (cr : Crypto) (canonical : Bytes) (date : AmzDate) (region : Bytes) : Bytes :=
  b!"AWS4-HMAC-SHA256\n" ++ (date.toIso8601 ++ [10]) ++ scopeLine date region ++ cr.sha256hex canonical

/-- `/repo/src/signature_v4.rs:329-335`: the hash of the chunk data. The list of pieces is empty exactly when
the chunk has no bytes (`read_data` pushes nothing when the size is 0). -/
def chunkHash (cr : Crypto) (data : Bytes) : Bytes := if data = [] then emptySha256 else cr.sha256hex data

/-- `/repo/src/signature_v4.rs:301-336` `create_chunk_string_to_sign`; the pieces of the chunk joined -/
def chunkStringToSign (cr : Crypto) (date : AmzDate) (region prevSignature data : Bytes) : Bytes :=
  b!"AWS4-HMAC-SHA256-PAYLOAD\n" ++ (date.toIso8601 ++ [10]) ++ scopeLine date region ++
    (prevSignature ++ [10]) ++ (emptySha256 ++ [10]) ++ chunkHash cr data

/-- the signing key, `/repo/src/signature_v4.rs:345-362` -/
def signingKey (cr : Crypto) (secret : Bytes) (date : AmzDate) (region : Bytes) : Bytes :=
  cr.hmac (cr.hmac (cr.hmac (cr.hmac (b!"AWS4" ++ secret) date.toDate) region) b!"s3") b!"aws4_request"

/-- `/repo/src/signature_v4.rs:339-366` `calculate_signature` -/
def calculateSignature (cr : Crypto) (toSign secret : Bytes) (date : AmzDate) (region : Bytes) : Bytes :=
  toHex (cr.hmac (signingKey cr secret date region) toSign)

end S3
