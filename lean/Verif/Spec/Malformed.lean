import Verif.Spec.Ops
import Verif.Spec.Form
/-! Malformed requests and why they are refused. -/
namespace S3.Spec

/-- `PathFault path e`: the path of a request, as it stands in the request line, addresses nothing, for the reason `e` -/
inductive PathFault (path : Bytes) : S3ErrorCode → Prop where
  /-- percent escapes of bytes that are not UTF-8 -/
  | undecodable : urlDecode path = none → PathFault path .InvalidURI
  /-- not absolute -/
  | relative (p : Bytes) : urlDecode path = some p → (∀ t, p ≠ b!"/" ++ t) → PathFault path .InvalidURI
  /-- the text up to the second slash is not a bucket name -/
  | bucket (b t : Bytes) : urlDecode path = some (b!"/" ++ b ++ t) → (t = [] ∧ b ≠ [] ∨ ∃ k, t = b!"/" ++ k) → (47 : UInt8) ∉ b →
      ¬ LegalBucket b → PathFault path .InvalidBucketName
  /-- a key of more than 1024 bytes -/
  | key (b k : Bytes) : urlDecode path = some (b!"/" ++ b ++ b!"/" ++ k) → LegalBucket b → 1024 < k.length →
      PathFault path .KeyTooLongError

/-- a header value that is plain text: visible ASCII, space, tab -/
def PlainValue (v : Bytes) : Prop := ∀ c ∈ v, (32 ≤ c ∧ c < 127) ∨ c = 9

/-- the value of `Content-Disposition` in a part of a form: the field name, and the file name if there is one -/
inductive PartHeader : Bytes → Bytes → Option Bytes → Prop where
  | field (n : Bytes) : n ≠ [] → (34 : UInt8) ∉ n → utf8Valid n = true → PartHeader (b!"form-data; name=\"" ++ n ++ b!"\"") n none
  | file (n f : Bytes) : n ≠ [] → (34 : UInt8) ∉ n → utf8Valid n = true → f ≠ [] → (34 : UInt8) ∉ f → utf8Valid f = true →
      PartHeader (b!"form-data; name=\"" ++ n ++ b!"\"; filename=\"" ++ f ++ b!"\"") n (some f)

end S3.Spec
