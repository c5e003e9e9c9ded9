import Verif.Spec.Response
/-! How a client lists a bucket page by page (S3 API reference). -/
namespace S3.Spec
open S3

/-- A client asks for page after page: `page i es` says that it reads `es` in the answer to its request for page `i`. It goes on as long as an
answer says that it is truncated. `Pages page i keys`: from page `i` on, it sees the keys `keys`. -/
inductive Pages (page : Nat → List XmlEntry → Prop) : Nat → List Bytes → Prop where
  | last {i es} : page i es → b!"true" ∉ textsAt [b!"ListBucketResult", b!"IsTruncated"] es →
      Pages page i (textsAt [b!"ListBucketResult", b!"Contents", b!"Key"] es)
  | more {i es rest} : page i es → b!"true" ∈ textsAt [b!"ListBucketResult", b!"IsTruncated"] es → Pages page (i + 1) rest →
      Pages page i (textsAt [b!"ListBucketResult", b!"Contents", b!"Key"] es ++ rest)

/-- what a client reads in the answer to request number `i` for a page, which finds the file tree `fs i` -/
def pageOf (cfg : Cfg) (ext : Ext) (lib : Lib) (auth : Option Provider) (env : Env) (r : Nat → Req) (x : Nat → Texts) (fs : Nat → FS)
    (i : Nat) (es : List XmlEntry) : Prop :=
  ∃ res, responded cfg ext lib auth env (x i) (r i) (fs i) = .ok res ∧ Shows res 200 es

end S3.Spec
