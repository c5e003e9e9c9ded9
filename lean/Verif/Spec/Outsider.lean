import Verif.Spec.WebLife
import Verif.Spec.SigV4
/-! Who has no key. -/
namespace S3.Spec

/-- The request names an access key that the server knows and carries a signature made with the secret of this key: in its headers, in its
address (presigned), or in the form it uploads. -/
def Insider (lib : Lib) (p : Provider) (r : Req) : Prop :=
  ∃ key secret, p key = .ok secret ∧ NamesKey lib r key ∧
    (HeaderSigned lib.crypto r (awsEncode true r.path) key secret ∨
     PresignedBy lib.crypto r (awsEncode true r.path) key secret ∨
     ∃ f, UploadsForm lib r f ∧ FormSigned lib.crypto f key secret)

/-- anybody else: without signature, with an unknown key, with a wrong signature, malformed -/
def Outsider (lib : Lib) (p : Provider) (r : Req) : Prop := ¬ Insider lib p r

/-- Two runs of the server that differ only in what outsiders send: under each number both got the same request, or what they got, if
anything, came from an outsider. -/
structure SameInsiders (lib : Lib) (p : Provider) (w w' : WebEpoch) : Prop where
  steps : w'.steps = w.steps
  requests : ∀ n : Nat, w'.requests[n]? = w.requests[n]? ∨
    (∀ x, w.requests[n]? = some x → Outsider lib p x.req) ∧ (∀ x, w'.requests[n]? = some x → Outsider lib p x.req)

end S3.Spec
