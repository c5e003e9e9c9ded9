import Verif.Model.Sweep
import Verif.Spec.Root
import Verif.Spec.Concerns
import Verif.Spec.Moment
/-! Servers on which buckets are deleted entry by entry. -/
namespace S3.Spec

/-- One run of the server, as `WebEpoch`, with deletions of buckets that take any number of strides, between which the others go on. -/
structure SlowEpoch where
  requests : List Exchange
  strides : List (Nat × Stride)

/-- the file tree when a run of the server has come to its end -/
def SlowEpoch.leaves (cfg : Cfg) (ext : Ext) (lib : Lib) (auth : Option Provider) (w : SlowEpoch) (fs : FS) : FS :=
  (runParS cfg w.strides (w.requests.map fun x => hyperCall cfg ext lib auth x.env x.texts x.req) fs).2

/-- the response to the `n`-th request of a run of the server, if it has been given -/
def SlowEpoch.response (cfg : Cfg) (ext : Ext) (lib : Lib) (auth : Option Provider) (w : SlowEpoch) (fs : FS) (n : Nat) : Option (Outcome Response) :=
  (runParS cfg w.strides (w.requests.map fun x => hyperCall cfg ext lib auth x.env x.texts x.req) fs).1[n]?.bind Prog.outcome

/-- the file tree after several runs of the server -/
def slowLife (cfg : Cfg) (ext : Ext) (lib : Lib) (auth : Option Provider) : List SlowEpoch → FS → FS
  | [], fs => fs
  | w :: ws, fs => slowLife cfg ext lib auth ws (w.leaves cfg ext lib auth fs)

/-- the run of the server, cut off after `n` strides -/
def SlowEpoch.cut (w : SlowEpoch) (n : Nat) : SlowEpoch := { w with strides := w.strides.take n }

/-- As `TakesEffectAt`, while buckets are deleted entry by entry: of the system calls made for the `n`-th request, only stride number `t` of
the run changes the file tree, and it leaves it as if the whole request had been served there and then with nobody else about. A response
of success is the response it would have got there and then. -/
structure TakesEffectAmid (cfg : Cfg) (ext : Ext) (lib : Lib) (auth : Option Provider) (w : SlowEpoch) (fs : FS) (n : Nat) (x : Exchange) (t : Option Nat) :
    Prop where
  still : ∀ (s : Nat) f, t ≠ some s → w.strides[s]? = some (n, f) → (w.cut (s + 1)).leaves cfg ext lib auth fs = (w.cut s).leaves cfg ext lib auth fs
  change : ∀ s, t = some s → w.strides[s]? = some (n, .call .none) ∧
    (w.cut (s + 1)).leaves cfg ext lib auth fs = afterResponded cfg ext lib auth x.env x.texts x.req ((w.cut s).leaves cfg ext lib auth fs)
  success : ∀ res, w.response cfg ext lib auth fs n = some (.ok res) → res.status / 100 = 2 →
    ∃ s, t = some s ∧ responded cfg ext lib auth x.env x.texts x.req ((w.cut s).leaves cfg ext lib auth fs) = .ok res

/-- the requests of `w'` are those of `w` and some of its DELETE requests to buckets once more -/
def Again (w : SlowEpoch) (w' : WebEpoch) : Prop :=
  ∃ again, w'.requests = w.requests ++ again ∧ ∀ x ∈ again, x ∈ w.requests ∧ x.req.method = b!"DELETE" ∧ ∃ b, At x.req (.bucket b)

end S3.Spec
