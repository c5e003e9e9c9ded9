import Verif.Spec.Ops
import Verif.Spec.XmlDoc
import Verif.Spec.Num
import Verif.Model.Response
import Verif.Model.Par
import Verif.Spec.Time
/-! What a client sees of the server: HTTP responses. -/
namespace S3.Spec

/-- the HTTP response to a request that is served alone -/
def responded (cfg : Cfg) (ext : Ext) (lib : Lib) (auth : Option Provider) (env : Env) (x : Texts) (r : Req) (fs : FS) : Outcome Response :=
  (run cfg (hyperCall cfg ext lib auth env x r) fs).1

/-- the file tree after it -/
def afterResponded (cfg : Cfg) (ext : Ext) (lib : Lib) (auth : Option Provider) (env : Env) (x : Texts) (r : Req) (fs : FS) : FS :=
  (run cfg (hyperCall cfg ext lib auth env x r) fs).2

/-- the response to request number `i` when requests are served concurrently under a schedule (`none`: not finished) -/
def responseAt (cfg : Cfg) (ext : Ext) (lib : Lib) (auth : Option Provider) (env : Env) (js : List (Texts × Req)) (sched : List Nat) (fs : FS)
    (i : Nat) : Option (Outcome Response) :=
  (runPar cfg sched (js.map fun j => hyperCall cfg ext lib auth env j.1 j.2) fs).1[i]?.bind Prog.outcome

/-- a response with an XML document in which a client reads `es` -/
structure Shows (res : Response) (status : Nat) (es : List XmlEntry) : Prop where
  status : res.status = status
  type : (b!"content-type", b!"text/xml") ∈ res.headers
  body : ∃ doc, res.body = some doc ∧ readXml doc = some es

/-- decimal numerals, one for each number -/
def Numerals (ss : List Bytes) (ns : List Nat) : Prop :=
  ss.length = ns.length ∧ ∀ (i : Nat) (s : Bytes) (n : Nat), ss[i]? = some s → ns[i]? = some n → IsNumeral s n

/-- times in the notation of RFC 3339, one for each time -/
def Times (ss : List Bytes) (ts : List Time) : Prop :=
  ss.length = ts.length ∧ ∀ (i : Nat) (s : Bytes) (t : Time), ss[i]? = some s → ts[i]? = some t → Rfc3339 s t.secs t.nanos

end S3.Spec
