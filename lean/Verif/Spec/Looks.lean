import Verif.Model.Looks
import Verif.Spec.Pieces
/-! Servers on which directories are read while they change. -/
namespace S3.Spec

/-- One run of the server, as `PieceEpoch`. Request number `n` comes in before stride number `came n` and its response goes out after stride
number `gone n - 1`. -/
structure LookEpoch where
  requests : List Exchange
  threads : List (Prog Response)
  glances : List (Nat × Glance)
  came : Nat → Nat
  gone : Nat → Nat

/-- every request is served as the server does, in some pieces -/
def LookEpoch.Serves (cfg : Cfg) (ext : Ext) (lib : Lib) (auth : Option Provider) (w : LookEpoch) : Prop :=
  w.threads.length = w.requests.length ∧
  ∀ (n : Nat) x q, w.requests[n]? = some x → w.threads[n]? = some q → InPieces (hyperCall cfg ext lib auth x.env x.texts x.req) q

/-- the file tree after the first `m` strides -/
def LookEpoch.tree (cfg : Cfg) (w : LookEpoch) (fs : FS) (m : Nat) : FS := (runParL cfg (w.glances.take m) w.threads fs).2

/-- the file tree when a run of the server has come to its end -/
def LookEpoch.leaves (cfg : Cfg) (w : LookEpoch) (fs : FS) : FS := (runParL cfg w.glances w.threads fs).2

/-- the response to the `n`-th request of a run of the server, if it has been given -/
def LookEpoch.response (cfg : Cfg) (w : LookEpoch) (fs : FS) (n : Nat) : Option (Outcome Response) :=
  (runParL cfg w.glances w.threads fs).1[n]?.bind Prog.outcome

/-- the file tree was like this at some moment between the coming in of the `n`-th request and its response -/
def LookEpoch.During (cfg : Cfg) (w : LookEpoch) (fs : FS) (n : Nat) (fs' : FS) : Prop := ∃ i, w.came n ≤ i ∧ i ≤ w.gone n ∧ fs' = w.tree cfg fs i

/-- in the directory `d` there is an entry with the name `n`, a directory or not -/
def EntryAt (fs : FS) (d : Path) (n : Bytes) (isDir : Bool) : Prop := ∃ nd, fs.lookup (d ++ [n]) = some nd ∧ isDir = (nd == .dir)

/-- What POSIX says about the entries that are found in a directory while it changes; `during fs`: the file tree was like this at some
moment meanwhile. There was the directory at some moment; each entry that is found was there at some moment; a name that is there all the
time is found exactly once. A name that comes or goes meanwhile may be found or not, even more than once. -/
structure Glimpse (during : FS → Prop) (d : Path) (es : List (Bytes × Bool)) : Prop where
  there : ∃ fs, during fs ∧ fs.lookup d = some .dir
  entry : ∀ e ∈ es, ∃ fs, during fs ∧ EntryAt fs d e.1 e.2
  once : ∀ n, (∀ fs, during fs → ∃ t, EntryAt fs d n t) → ∃ t, es.filter (fun e => e.1 == n) = [(n, t)]

/-- The strides of a request lie between its coming in and its response, and it finds in a directory what POSIX says, looking at it during
some time that lies between the request and the response. This time may go on after the stride in question: the code takes the entries one
by one and looks up the size of one before it takes the next (`/repo/src/storages/fs.rs:516-540`), while the run hands it all the entries that it is
going to find with the first. An error between two entries is an error of `read_dir` here (both are answered 500). The deletion of a folder
(`/repo/src/storages/fs.rs:272-277`) takes the first entry only, in one step; so only listings look (`C130_others`). -/
structure LookEpoch.Faithful (cfg : Cfg) (w : LookEpoch) (fs : FS) : Prop where
  span : ∀ (t n : Nat) g, w.glances[t]? = some (n, g) → w.came n ≤ t ∧ t < w.gone n
  looks : ∀ (t n : Nat) es p k, w.glances[t]? = some (n, .look es) →
    (runParL cfg (w.glances.take t) w.threads fs).1[n]? = some (.sys (.readDir p) k) →
    ∃ s u, w.came n ≤ s ∧ s ≤ t ∧ t ≤ u ∧ u ≤ w.gone n ∧ Glimpse (fun fs' => ∃ i, s ≤ i ∧ i ≤ u ∧ fs' = w.tree cfg fs i) p.comps es

/-- the request lists objects or buckets -/
def Listing : Op → Prop
  | .listBuckets | .listObjects .. | .listObjectsV2 .. => True
  | _ => False

end S3.Spec
