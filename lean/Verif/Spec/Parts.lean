import Verif.Spec.WebLife
import Verif.Spec.Isolated
import Verif.Spec.Session
/-! Parts of an upload that the client believes to be there. -/
namespace S3.Spec

/-- In one of the runs `ws` of the server, begun on the file tree `fs`, part `m` of the upload `u` was sent and answered 200; since the
beginning of this run no other request about this part was sent, and no request with addresses that are not plain. -/
def Acknowledged (cfg : Cfg) (ext : Ext) (lib : Lib) (auth : Option Provider) (ws : List WebEpoch) (fs : FS) (u : Bytes) (m : Int) (body : Body) : Prop :=
  ∃ (before : List WebEpoch) (w : WebEpoch) (later : List WebEpoch) (n : Nat) (x : Exchange) (res : Response),
    ws = before ++ w :: later ∧ w.requests[n]? = some x ∧ Asks lib auth x (.uploadPart u m (some body)) ∧
    w.response cfg ext lib auth (webLife cfg ext lib auth before fs) n = some (.ok res) ∧ res.status = 200 ∧
    (∀ (j : Nat) y, j ≠ n → w.requests[j]? = some y → AsksIn cfg ext lib auth (fun o => Tidy o ∧ ¬ UsesPart o u m) y) ∧
    ∀ w' ∈ later, ∀ y ∈ w'.requests, AsksIn cfg ext lib auth (fun o => Tidy o ∧ ¬ UsesPart o u m) y

end S3.Spec
