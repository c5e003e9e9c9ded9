import Verif.Spec.SigV4
import Verif.Spec.Base64
/-! What the signature of a request stands for, and which computations go into it. -/
namespace S3.Spec
open S3

/-- what a signature stands for: one request (its date, method, path, query parameters, signed headers and payload line), or
the policy of a form -/
inductive SignedThing where
  | request (stamp method path : Bytes) (query headers : List (Bytes × Bytes)) (payload : Bytes)
  | policy (text : Bytes)

/-- the same thing; the order of the query parameters does not count -/
def SignedThing.same : SignedThing → SignedThing → Prop
  | .request t m p q h l, .request t' m' p' q' h' l' => t = t' ∧ m = m' ∧ p = p' ∧ q.Perm q' ∧ h = h' ∧ l = l'
  | .policy t, .policy t' => t = t'
  | _, _ => False

/-- a signature with what it is computed from: the secret, the day, the region, the text that is signed and, for a request,
the canonical text whose digest is in it -/
structure Seal where
  signature : Bytes
  secret : Bytes
  day : Bytes
  region : Bytes
  text : Bytes
  canonical : Bytes

/-- the five applications of HMAC-SHA256 behind a signature: key and message -/
def Seal.macs (cr : Crypto) (s : Seal) : List (Bytes × Bytes) :=
  let k0 := b!"AWS4" ++ s.secret
  let k1 := cr.hmac k0 s.day
  let k2 := cr.hmac k1 s.region
  let k3 := cr.hmac k2 b!"s3"
  let k4 := cr.hmac k3 b!"aws4_request"
  [(k0, s.day), (k1, s.region), (k2, b!"s3"), (k3, b!"aws4_request"), (k4, s.text)]

/-- at the same place of the two computations, HMAC-SHA256 is applied to different things with the same result -/
def MacClash (cr : Crypto) (s s' : Seal) : Prop :=
  ∃ x ∈ (s.macs cr).zip (s'.macs cr), x.1 ≠ x.2 ∧ cr.hmac x.1.1 x.1.2 = cr.hmac x.2.1 x.2.2

/-- The request carries the signature `s`, made with a secret of the provider, and it stands for `w`. -/
inductive Signs (lib : Lib) (p : Provider) (r : Req) : SignedThing → Seal → Prop
  | header {value secret timestamp declared payload canonical : Bytes} {a : Authorization} {hs : List (Bytes × Bytes)}
      (carried : (b!"authorization", value) ∈ r.headers) (parsed : Authorization.fromHeaderStr value = some a)
      (known : p a.credential.accessKeyId = .ok secret)
      (signed : HeaderSigning lib.crypto r (awsEncode true r.path) secret a timestamp declared hs payload canonical) :
      Signs lib p r (.request timestamp r.method r.path (queryOf r) hs payload)
        ⟨a.signature, secret, timestamp.take 8, a.credential.region,
          textToSign lib.crypto timestamp a.credential.region canonical, canonical⟩
  | presigned {secret cred timestamp signature names canonical : Bytes} {credential : Credential} {covered : List Bytes}
      {hs : List (Bytes × Bytes)} (known : p credential.accessKeyId = .ok secret)
      (signed : PresignedSigning lib.crypto r (awsEncode true r.path) secret cred credential timestamp signature names covered hs canonical) :
      Signs lib p r (.request timestamp r.method r.path (presignedParams r) hs b!"UNSIGNED-PAYLOAD")
        ⟨signature, secret, timestamp.take 8, credential.region,
          textToSign lib.crypto timestamp credential.region canonical, canonical⟩
  | form {secret cred timestamp signature data rest : Bytes} {credential : Credential} {f : Form}
      (uploads : UploadsForm lib r f) (known : p credential.accessKeyId = .ok secret)
      (hasPolicy : LastField f.fields b!"policy" (base64Text data))
      (hasCred : LastField f.fields b!"x-amz-credential" cred) (parsed : Credential.parse cred = some (credential, rest))
      (hasDate : LastField f.fields b!"x-amz-date" timestamp) (hasSignature : LastField f.fields b!"x-amz-signature" signature)
      (signed : signature = sigv4 lib.crypto secret timestamp credential.region (base64Text data)) :
      Signs lib p r (.policy (base64Text data))
        ⟨signature, secret, timestamp.take 8, credential.region, base64Text data, []⟩

end S3.Spec
