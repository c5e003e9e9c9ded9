import Verif.Spec.Root
import Verif.Spec.Place
/-! Requests that happen at one moment. -/
namespace S3.Spec

/-- operations that make at most one change: creation of a bucket, deletion of an object, a list of the buckets and the two questions
whether a bucket is there -/
inductive OneChange : Op → Prop
  | createBucket {b} : OneChange (.createBucket b)
  | deleteObject {b k} : OneChange (.deleteObject b k)
  | headBucket {b} : OneChange (.headBucket b)
  | location {b} : OneChange (.getBucketLocation b)
  | buckets : OneChange .listBuckets

/-- Of the system calls made for the `n`-th request, only call number `t` of the run changes the file tree, and it leaves it as if the whole
request had been served there and then with nobody else about. A response of success is the response it would have got there and then.
(`none`: there is no such moment; then there is no change and no success.) -/
structure TakesEffectAt (cfg : Cfg) (ext : Ext) (lib : Lib) (auth : Option Provider) (w : WebEpoch) (fs : FS) (n : Nat) (x : Exchange) (t : Option Nat) :
    Prop where
  still : ∀ (s : Nat) f, t ≠ some s → w.steps[s]? = some (n, f) → (w.cut (s + 1)).leaves cfg ext lib auth fs = (w.cut s).leaves cfg ext lib auth fs
  change : ∀ s, t = some s → w.steps[s]? = some (n, .none) ∧
    (w.cut (s + 1)).leaves cfg ext lib auth fs = afterResponded cfg ext lib auth x.env x.texts x.req ((w.cut s).leaves cfg ext lib auth fs)
  success : ∀ res, w.response cfg ext lib auth fs n = some (.ok res) → res.status / 100 = 2 →
    ∃ s, t = some s ∧ responded cfg ext lib auth x.env x.texts x.req ((w.cut s).leaves cfg ext lib auth fs) = .ok res

/-- some of the requests, served one after the other -/
def oneByOne (cfg : Cfg) (ext : Ext) (lib : Lib) (auth : Option Provider) (requests : List Exchange) : List Nat → FS → FS
  | [], fs => fs
  | n :: ns, fs => oneByOne cfg ext lib auth requests ns (match requests[n]? with
      | some x => afterResponded cfg ext lib auth x.env x.texts x.req fs
      | none => fs)

end S3.Spec
