import Verif.Model.Service
import Verif.Spec.Form
/-! AWS Signature Version 4, after the AWS documentation, from memory ("Signature Calculations for the Authorization
Header", "Authenticating Requests: Using Query Parameters", "POST policy"), and what it means for a request to carry
such a signature. -/
namespace S3.Spec
open S3

/-- upper-case hex digit -/
def upperHex (n : Nat) : Bytes := ((b!"0123456789ABCDEF").drop n).take 1
/-- lower-case hex digit -/
def lowerHex (n : Nat) : Bytes := ((b!"0123456789abcdef").drop n).take 1
/-- lower-case hex text -/
def hexText (s : Bytes) : Bytes := s.flatMap fun b => lowerHex (b.toNat / 16) ++ lowerHex (b.toNat % 16)

/-- `A-Z a-z 0-9 - . _ ~` -/
def Unreserved (c : UInt8) : Prop :=
  (65 ≤ c ∧ c ≤ 90) ∨ (97 ≤ c ∧ c ≤ 122) ∨ (48 ≤ c ∧ c ≤ 57) ∨ c = 45 ∨ c = 46 ∨ c = 95 ∨ c = 126
instance (c) : Decidable (Unreserved c) := by unfold Unreserved; infer_instance

/-- `UriEncode`: every byte but the unreserved characters (and `/`, if it is kept) as `%XY` -/
def awsEncode (keepSlash : Bool) (s : Bytes) : Bytes :=
  s.flatMap fun b =>
    if Unreserved b ∨ (keepSlash = true ∧ b = 47) then [b] else b!"%" ++ upperHex (b.toNat / 16) ++ upperHex (b.toNat % 16)

/-- order by name, then by value -/
def NameValueLe (a b : Bytes × Bytes) : Prop := bytesCmp a.1 b.1 = .lt ∨ (a.1 = b.1 ∧ bytesLe a.2 b.2 = true)

/-- `l` is `l'` sorted -/
def SortedFrom (l l' : List (Bytes × Bytes)) : Prop := l.Perm l' ∧ l.Pairwise NameValueLe

/-- `t` is the canonical request for a method, canonical URI, query parameters (decoded), signed headers (sorted, with
their trimmed values) and payload line -/
def CanonicalText (method uri : Bytes) (query headers : List (Bytes × Bytes)) (payload t : Bytes) : Prop :=
  ∃ q, SortedFrom q (query.map fun p => (awsEncode false p.1, awsEncode false p.2)) ∧
    t = joinWith 10 ([method, uri, joinWith 38 (q.map fun p => p.1 ++ b!"=" ++ p.2)] ++
      headers.map (fun p => p.1 ++ b!":" ++ p.2) ++ [[], joinWith 59 (headers.map (·.1)), payload])

/-- the parts of the credential scope -/
def scopeParts (timestamp region : Bytes) : List Bytes := [timestamp.take 8, region, b!"s3", b!"aws4_request"]

/-- the string to sign -/
def textToSign (cr : Crypto) (timestamp region canonical : Bytes) : Bytes :=
  joinWith 10 [b!"AWS4-HMAC-SHA256", timestamp, joinWith 47 (scopeParts timestamp region), hexText (cr.sha256 canonical)]

/-- the signature of a text -/
def sigv4 (cr : Crypto) (secret timestamp region text : Bytes) : Bytes :=
  hexText (cr.hmac ((scopeParts timestamp region).foldl cr.hmac (b!"AWS4" ++ secret)) text)

/-- `t` is `v` without the blanks (spaces and tabs) at its ends -/
def Stripped (v t : Bytes) : Prop :=
  ∃ a b, v = a ++ t ++ b ∧ (∀ c ∈ a, c = 32 ∨ c = 9) ∧ (∀ c ∈ b, c = 32 ∨ c = 9) ∧ Trimmed t

/-- the same names, the values stripped -/
def StrippedAll : List (Bytes × Bytes) → List (Bytes × Bytes) → Prop
  | [], [] => True
  | (n, v) :: l, (m, t) :: hs => n = m ∧ Stripped v t ∧ StrippedAll l hs
  | _, _ => False

/-- the headers with a name among `signed` (but never `authorization` and `user-agent`), sorted, values stripped -/
def SignedHeaders (headers : List (Bytes × Bytes)) (signed : List Bytes) (hs : List (Bytes × Bytes)) : Prop :=
  ∃ l, SortedFrom l (headers.filter fun p => decide (p.1 ∈ signed ∧ p.1 ≠ b!"authorization" ∧ p.1 ≠ b!"user-agent")) ∧
    StrippedAll l hs

/-- the payload line of a request signed with the `Authorization` header: `declared` is its header
`x-amz-content-sha256` -/
def PayloadLine (cr : Crypto) (declared : Bytes) (body : Body) (line : Bytes) : Prop :=
  (declared = b!"UNSIGNED-PAYLOAD" ∧ line = b!"UNSIGNED-PAYLOAD") ∨
  (declared = b!"STREAMING-AWS4-HMAC-SHA256-PAYLOAD" ∧ line = b!"STREAMING-AWS4-HMAC-SHA256-PAYLOAD") ∨
  (declared ≠ b!"UNSIGNED-PAYLOAD" ∧ declared ≠ b!"STREAMING-AWS4-HMAC-SHA256-PAYLOAD" ∧
    unbroken body ∧ line = hexText (cr.sha256 (received body)))

/-- the decoded query parameters of a request -/
def queryOf (r : Req) : List (Bytes × Bytes) :=
  match r.query with
  | none => []
  | some q => parseQuery q

/-- the laws of SHA-256 and HMAC-SHA256 that are used: 32 bytes; the published digest of the empty string -/
structure CryptoLaw (cr : Crypto) : Prop where
  sha_length : ∀ s, (cr.sha256 s).length = 32
  hmac_length : ∀ k s, (cr.hmac k s).length = 32
  sha_empty : hexText (cr.sha256 []) = b!"e3b0c44298fc1c149afbf4c8996fb92427ae41e4649b934ca495991b7852b855"

/-- The request is signed in its `Authorization` header, read as `a`, under `secret` with canonical URI `uri`; the other
arguments are the texts that are signed. -/
structure HeaderSigning (cr : Crypto) (r : Req) (uri secret : Bytes) (a : Authorization) (timestamp declared : Bytes)
    (hs : List (Bytes × Bytes)) (payload canonical : Bytes) : Prop where
  hasDate : (b!"x-amz-date", timestamp) ∈ r.headers
  hasSha : (b!"x-amz-content-sha256", declared) ∈ r.headers
  headers : SignedHeaders r.headers a.signedHeaders hs
  line : PayloadLine cr declared r.body payload
  text : CanonicalText r.method uri (queryOf r) hs payload canonical
  correct : a.signature = sigv4 cr secret timestamp a.credential.region (textToSign cr timestamp a.credential.region canonical)

/-- The request carries an `Authorization` header for the access key `key` whose signature is the SigV4 signature of
the request under `secret`, with canonical URI `uri`. -/
def HeaderSigned (cr : Crypto) (r : Req) (uri key secret : Bytes) : Prop :=
  ∃ value a timestamp declared hs payload canonical,
    (b!"authorization", value) ∈ r.headers ∧ Authorization.fromHeaderStr value = some a ∧ a.credential.accessKeyId = key ∧
    HeaderSigning cr r uri secret a timestamp declared hs payload canonical

/-- the query parameters that a presigned URL signs -/
def presignedParams (r : Req) : List (Bytes × Bytes) := (queryOf r).filter fun p => decide (p.1 ≠ b!"X-Amz-Signature")

/-- The request is a presigned URL with the given parameters, signed under `secret` with canonical URI `uri`. `covered` are
the names of the headers that are signed: the names listed in `X-Amz-SignedHeaders`, if the list is sorted (as AWS demands),
else some of them. -/
structure PresignedSigning (cr : Crypto) (r : Req) (uri secret cred : Bytes) (credential : Credential) (timestamp signature names : Bytes)
    (covered : List Bytes) (hs : List (Bytes × Bytes)) (canonical : Bytes) : Prop where
  hasNames : (b!"X-Amz-SignedHeaders", names) ∈ queryOf r
  listed : ∀ n ∈ covered, n ∈ splitAll 59 names
  complete : (splitAll 59 names).Pairwise (fun a b => bytesLe a b = true) → ∀ n ∈ splitAll 59 names, n ∈ covered
  hasCred : (b!"X-Amz-Credential", cred) ∈ queryOf r
  parsed : Credential.parse cred = some (credential, [])
  hasDate : (b!"X-Amz-Date", timestamp) ∈ queryOf r
  hasSignature : (b!"X-Amz-Signature", signature) ∈ queryOf r
  headers : SignedHeaders r.headers covered hs
  text : CanonicalText r.method uri (presignedParams r) hs b!"UNSIGNED-PAYLOAD" canonical
  correct : signature = sigv4 cr secret timestamp credential.region (textToSign cr timestamp credential.region canonical)

/-- The request is a presigned URL for the access key `key` whose signature is the SigV4 query signature of the request
under `secret`, with canonical URI `uri`. -/
def PresignedBy (cr : Crypto) (r : Req) (uri key secret : Bytes) : Prop :=
  ∃ cred credential timestamp signature names covered hs canonical,
    PresignedSigning cr r uri secret cred credential timestamp signature names covered hs canonical ∧ credential.accessKeyId = key

/-- a field of a form: the last one of that name counts, names compare without case -/
def LastField (fields : List (Bytes × Bytes)) (name value : Bytes) : Prop :=
  ∃ a n b, fields = a ++ (n, value) :: b ∧ SameName n name ∧ ∀ p ∈ b, ¬ SameName p.1 name

/-- The form carries the SigV4 signature of its policy under `secret`, for the access key `key`. -/
def FormSigned (cr : Crypto) (f : Form) (key secret : Bytes) : Prop :=
  ∃ policy cred credential rest timestamp signature,
    LastField f.fields b!"policy" policy ∧ LastField f.fields b!"x-amz-credential" cred ∧
    Credential.parse cred = some (credential, rest) ∧ credential.accessKeyId = key ∧
    LastField f.fields b!"x-amz-date" timestamp ∧ LastField f.fields b!"x-amz-signature" signature ∧
    signature = sigv4 cr secret timestamp credential.region policy

/-- the request is a form upload: POST with content type `multipart/form-data` and this boundary -/
def IsForm (lib : Lib) (r : Req) (boundary : Option Bytes) : Prop :=
  r.method = b!"POST" ∧ ∃ v m, (b!"content-type", v) ∈ r.headers ∧ lib.mime v = some m ∧ m.isFormData = true ∧ m.boundary = boundary

/-- A request that gets as far as the check of its signature: its path decodes to an S3 path, its header values are
visible ASCII (with blanks), its content type can be read. -/
structure WellFormed (lib : Lib) (r : Req) : Prop where
  path : ∃ p s, urlDecode r.path = some p ∧ tryFromPath p = .ok s
  headers : ∀ h ∈ r.headers, ∀ c ∈ h.2, c = 9 ∨ (32 ≤ c ∧ c ≤ 126)
  mime : ∀ v, (b!"content-type", v) ∈ r.headers → lib.mime v ≠ none

/-- the form the request uploads, if it is one -/
def UploadsForm (lib : Lib) (r : Req) (f : Form) : Prop :=
  ∃ boundary, IsForm lib r (some boundary) ∧ transformMultipart boundary r.body = .ok f

/-- no signature anywhere: no `Authorization` header, no `X-Amz-Signature` in the query, no such field in a form -/
structure Unsigned (lib : Lib) (r : Req) : Prop where
  header : ∀ v, (b!"authorization", v) ∉ r.headers
  query : ∀ v, (b!"X-Amz-Signature", v) ∉ queryOf r
  form : ∀ f, UploadsForm lib r f → ∀ p ∈ f.fields, ¬ SameName p.1 b!"x-amz-signature"

/-- the header occurs, always with the same value -/
def OnlyHeader (r : Req) (name value : Bytes) : Prop :=
  (name, value) ∈ r.headers ∧ ∀ v, (name, v) ∈ r.headers → v = value

/-- the query parameter occurs, always with the same value -/
def OnlyQuery (r : Req) (name value : Bytes) : Prop :=
  (name, value) ∈ queryOf r ∧ ∀ v, (name, v) ∈ queryOf r → v = value

/-- two different texts with the same image -/
def Collides (f : Bytes → Bytes) (x y : Bytes) : Prop := x ≠ y ∧ f x = f y

/-- the key that signs: derived from the secret, the day, the region and the service -/
def signKey (cr : Crypto) (secret timestamp region : Bytes) : Bytes :=
  (scopeParts timestamp region).foldl cr.hmac (b!"AWS4" ++ secret)

/-- the same payload, as far as it is signed: both not signed, both in signed chunks, or the same bytes -/
def SamePayload (d d' : Bytes) (b b' : Body) : Prop :=
  (d = b!"UNSIGNED-PAYLOAD" ∧ d' = b!"UNSIGNED-PAYLOAD") ∨
  (d = b!"STREAMING-AWS4-HMAC-SHA256-PAYLOAD" ∧ d' = b!"STREAMING-AWS4-HMAC-SHA256-PAYLOAD") ∨
  (d ≠ b!"UNSIGNED-PAYLOAD" ∧ d ≠ b!"STREAMING-AWS4-HMAC-SHA256-PAYLOAD" ∧
   d' ≠ b!"UNSIGNED-PAYLOAD" ∧ d' ≠ b!"STREAMING-AWS4-HMAC-SHA256-PAYLOAD" ∧
   unbroken b ∧ unbroken b' ∧ received b = received b')

/-- what `hyper` guarantees of a request: no line feed in the method, neither line feed nor colon in a header name -/
structure HttpPlain (r : Req) : Prop where
  method : (10 : UInt8) ∉ r.method
  names : ∀ h ∈ r.headers, (10 : UInt8) ∉ h.1 ∧ (58 : UInt8) ∉ h.1

/-- the access key the request names: in an `Authorization` header, in the query, or in its form -/
def NamesKey (lib : Lib) (r : Req) (key : Bytes) : Prop :=
  (∃ v a, (b!"authorization", v) ∈ r.headers ∧ Authorization.fromHeaderStr v = some a ∧ a.credential.accessKeyId = key) ∨
  (∃ v c, (b!"X-Amz-Credential", v) ∈ queryOf r ∧ Credential.parse v = some (c, []) ∧ c.accessKeyId = key) ∨
  (∃ f v c rest, UploadsForm lib r f ∧ LastField f.fields b!"x-amz-credential" v ∧ Credential.parse v = some (c, rest) ∧
    c.accessKeyId = key)

/-- the headers of the canonical request by the AWS rules: the signed names in order, each with its stripped values, joined by commas -/
def AwsHeaders (headers : List (Bytes × Bytes)) (signed : List Bytes) (hs : List (Bytes × Bytes)) : Prop :=
  (∀ n, n ∈ hs.map (·.1) ↔ n ∈ signed) ∧ (hs.map (·.1)).Pairwise (fun a b => bytesCmp a b = .lt) ∧
  ∀ p ∈ hs, ∃ vs, StrippedAll (headers.filter fun h => decide (h.1 = p.1)) vs ∧ p.2 = joinWith 44 (vs.map (·.2))

/-- The request is signed in its header by the AWS rules: the canonical URI is the decoded path, encoded once; the payload
line is the header `x-amz-content-sha256`, which tells the truth about the body. -/
structure AwsSigned (cr : Crypto) (r : Req) (secret path value : Bytes) (a : Authorization) (timestamp declared : Bytes)
    (hs : List (Bytes × Bytes)) (canonical : Bytes) : Prop where
  decoded : urlDecode r.path = some path
  hasAuthorization : OnlyHeader r b!"authorization" value
  parsed : Authorization.fromHeaderStr value = some a
  hasDate : OnlyHeader r b!"x-amz-date" timestamp
  validDate : AmzDate.fromHeaderStr timestamp ≠ none
  hasSha : OnlyHeader r b!"x-amz-content-sha256" declared
  truth : declared = b!"UNSIGNED-PAYLOAD" ∨ declared = b!"STREAMING-AWS4-HMAC-SHA256-PAYLOAD" ∨
    declared = hexText (cr.sha256 (received r.body))
  whole : unbroken r.body
  headers : AwsHeaders r.headers a.signedHeaders hs
  text : CanonicalText r.method (awsEncode true path) (queryOf r) hs declared canonical
  correct : a.signature = sigv4 cr secret timestamp a.credential.region (textToSign cr timestamp a.credential.region canonical)

end S3.Spec
