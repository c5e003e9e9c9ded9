import Verif.Spec.SigV4
import Verif.Spec.Form
/-! What the behaviour of the server may tell about the secrets of its users. -/
namespace S3.Spec
open S3

/-- The texts in a request that the client may offer as signatures: the one in the `Authorization` header, the one in the query, the
fields of a form, and every piece of the body (for bodies in signed chunks). -/
inductive Offers (lib : Lib) (r : Req) : Bytes → Prop where
  | header {v a} : (b!"authorization", v) ∈ r.headers → Authorization.fromHeaderStr v = some a → Offers lib r a.signature
  | query {v} : (b!"X-Amz-Signature", v) ∈ queryOf r → Offers lib r v
  | field {f v} : UploadsForm lib r f → LastField f.fields b!"x-amz-signature" v → Offers lib r v
  | chunk {s} : Occurs s (received r.body) → Offers lib r s

/-- The two providers know the same of the users the request names, except for the secrets; and no text the client offers as a signature
is a signature (of whatever) under one secret and not under the other. -/
structure SameVerdicts (lib : Lib) (r : Req) (p p' : Provider) : Prop where
  unknown : ∀ key, NamesKey lib r key → ∀ e, p key = .error e ↔ p' key = .error e
  verdict : ∀ key, NamesKey lib r key → ∀ s s', p key = .ok s → p' key = .ok s' → ∀ sig, Offers lib r sig →
    ∀ timestamp region text, sigv4 lib.crypto s timestamp region text = sig ↔ sigv4 lib.crypto s' timestamp region text = sig

end S3.Spec
