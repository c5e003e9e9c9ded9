import Verif.Spec.SigV4
import Verif.Spec.Num
import Verif.Spec.Base64
/-! What a signer hands to others by the AWS rules: a presigned URL, a form to fill in. -/
namespace S3.Spec
open S3

/-- The request is a URL presigned by the AWS rules for one week at most: the canonical URI is the decoded path, encoded once; the
signed headers are listed in order, joined by semicolons; the payload is not signed; every parameter of the signature occurs with one
value. -/
structure AwsPresigned (cr : Crypto) (r : Req) (secret path cred : Bytes) (credential : Credential) (timestamp : Bytes) (names : List Bytes)
    (hs : List (Bytes × Bytes)) (canonical signature : Bytes) : Prop where
  decoded : urlDecode r.path = some path
  algorithm : OnlyQuery r b!"X-Amz-Algorithm" b!"AWS4-HMAC-SHA256"
  hasCred : OnlyQuery r b!"X-Amz-Credential" cred
  parsed : Credential.parse cred = some (credential, [])
  hasDate : OnlyQuery r b!"X-Amz-Date" timestamp
  validDate : AmzDate.fromHeaderStr timestamp ≠ none
  hasExpiry : ∃ text n, OnlyQuery r b!"X-Amz-Expires" text ∧ IsNumeral text n ∧ n ≤ 604800
  hasNames : OnlyQuery r b!"X-Amz-SignedHeaders" (joinWith 59 names)
  someName : names ≠ []
  tokens : ∀ n ∈ names, (59 : UInt8) ∉ n ∧ ∀ c ∈ n, c < 128
  order : names.Pairwise fun a b => bytesCmp a b = .lt
  headers : AwsHeaders r.headers names hs
  text : CanonicalText r.method (awsEncode true path) (presignedParams r) hs b!"UNSIGNED-PAYLOAD" canonical
  hasSignature : OnlyQuery r b!"X-Amz-Signature" signature
  correct : signature = sigv4 cr secret timestamp credential.region (textToSign cr timestamp credential.region canonical)

/-- The fields of a form carry, by the AWS rules, the signature of a policy. -/
def AwsForm (cr : Crypto) (fields : List (Bytes × Bytes)) (secret : Bytes) (credential : Credential) : Prop :=
  ∃ data cred timestamp, LastField fields b!"policy" (base64Text data) ∧
    LastField fields b!"x-amz-algorithm" b!"AWS4-HMAC-SHA256" ∧ LastField fields b!"x-amz-credential" cred ∧
    Credential.parse cred = some (credential, []) ∧ LastField fields b!"x-amz-date" timestamp ∧ AmzDate.fromHeaderStr timestamp ≠ none ∧
    LastField fields b!"x-amz-signature" (sigv4 cr secret timestamp credential.region (base64Text data))

/-- The body is a form as browsers write it, with these fields, name and content of the file. -/
structure BrowserForm (boundary : Bytes) (fields : List (Bytes × Bytes)) (fileName content : Bytes) (body : Body) : Prop where
  noCr : (13 : UInt8) ∉ boundary
  fieldsOk : ∀ f ∈ fields, FieldText boundary f.1 f.2
  nameOk : QuotedText fileName
  contentOk : ¬ Occurs (fileDelimiter boundary) content
  text : ∃ field contentType closing, QuotedText field ∧ Printable contentType ∧ Trimmed contentType ∧ utf8Valid contentType = true ∧
    received body = formText boundary fields field fileName contentType content closing

/-- the request is a POST with one content type, `multipart/form-data` with this boundary -/
def PostsForm (lib : Lib) (r : Req) (boundary : Bytes) : Prop :=
  r.method = b!"POST" ∧ ∃ v m, OnlyHeader r b!"content-type" v ∧ lib.mime v = some m ∧ m.isFormData = true ∧ m.boundary = some boundary

end S3.Spec
