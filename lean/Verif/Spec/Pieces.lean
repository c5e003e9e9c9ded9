import Verif.Model.Pieces
import Verif.Spec.Sweep
/-! Servers on which long reads, writes, copies and removals happen in pieces. -/
namespace S3.Spec

/-- One run of the server, as `SlowEpoch`, with the requests and, for each of them, the short calls it is served with. -/
structure PieceEpoch where
  requests : List Exchange
  threads : List (Prog Response)
  strides : List (Nat × Stride)

/-- every request is served as the server does, in some pieces -/
def PieceEpoch.Serves (cfg : Cfg) (ext : Ext) (lib : Lib) (auth : Option Provider) (w : PieceEpoch) : Prop :=
  w.threads.length = w.requests.length ∧
  ∀ (n : Nat) x q, w.requests[n]? = some x → w.threads[n]? = some q → InPieces (hyperCall cfg ext lib auth x.env x.texts x.req) q

/-- the file tree when a run of the server has come to its end -/
def PieceEpoch.leaves (cfg : Cfg) (w : PieceEpoch) (fs : FS) : FS := (runParS cfg w.strides w.threads fs).2

/-- the response to the `n`-th request of a run of the server, if it has been given -/
def PieceEpoch.response (cfg : Cfg) (w : PieceEpoch) (fs : FS) (n : Nat) : Option (Outcome Response) :=
  (runParS cfg w.strides w.threads fs).1[n]?.bind Prog.outcome

/-- the run of the server, cut off after `n` strides -/
def PieceEpoch.cut (w : PieceEpoch) (n : Nat) : PieceEpoch := { w with strides := w.strides.take n }

/-- the file tree after several runs of the server -/
def pieceLife (cfg : Cfg) : List PieceEpoch → FS → FS
  | [], fs => fs
  | w :: ws, fs => pieceLife cfg ws (w.leaves cfg fs)

end S3.Spec
