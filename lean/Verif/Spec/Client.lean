import Verif.Spec.Store
import Verif.Spec.Response
/-! What a client sees that sends HTTP requests one after the other to a store that is a map from addresses to contents. -/
namespace S3.Spec

/-- one exchange: the request, and what the response depends on apart from it (`Env`, `Texts`) -/
structure Exchange where
  env : Env
  texts : Texts
  req : Req

/-- the file tree after some exchanges -/
def afterExchanges (cfg : Cfg) (ext : Ext) (lib : Lib) (auth : Option Provider) (hist : List Exchange) (fs : FS) : FS :=
  hist.foldl (fun fs e => afterResponded cfg ext lib auth e.env e.texts e.req fs) fs

/-- the request is admitted and asks for the operation -/
def Asks (lib : Lib) (auth : Option Provider) (e : Exchange) (o : Op) : Prop :=
  ∃ c, admit lib auth e.req = .ok c ∧ Requests lib e.env e.req c.body o

/-- the operations that a list of requests asks for; requests that are refused at once ask for none -/
inductive Meaning (cfg : Cfg) (ext : Ext) (lib : Lib) (auth : Option Provider) : List Exchange → List Op → Prop where
  | nil : Meaning cfg ext lib auth [] []
  | asks {e o hist os} : Asks lib auth e o → Meaning cfg ext lib auth hist os → Meaning cfg ext lib auth (e :: hist) (o :: os)
  | refused {e err hist os} : handle cfg ext lib auth e.env e.req = .fail err → Meaning cfg ext lib auth hist os →
      Meaning cfg ext lib auth (e :: hist) os

/-- a response that reports an error -/
def Reports (res : Response) (status : Nat) (code : Bytes) : Prop :=
  ∃ es, Shows res status es ∧ textsAt [b!"Error", b!"Code"] es = [code]

/-- the response has this ETag and no other one -/
def HasETag (res : Response) (e : Bytes) : Prop := ∀ v, (b!"etag", v) ∈ res.headers ↔ v = e

/-- the metadata headers of the response -/
def HasMeta (res : Response) (m : Option Meta) : Prop := ∀ n v, (b!"x-amz-meta-" ++ n, v) ∈ res.headers ↔ (n, v) ∈ m.getD []

/-- the response announces this length -/
def HasLength (res : Response) (n : Nat) : Prop := ∃ v, IsNumeral v n ∧ ∀ w, (b!"content-length", w) ∈ res.headers ↔ w = v

/-- what the client of a map sees as the response to an operation -/
def Sees (ext : Ext) (s : Store) (res : Response) : Op → Prop
  | .putObject i => ∃ body, i.body = some body ∧ res.status = 200 ∧ HasETag res (quoted (ext.md5hex (received body)))
  | .getObject b k _ _ => match s.obj b k with
    | none => Reports res 404 b!"NoSuchKey"
    | some c => res.status = 200 ∧ res.body = some c ∧ HasETag res (quoted (ext.md5hex c)) ∧ HasLength res c.length ∧ HasMeta res (s.md b k)
  | .headObject b k => match s.obj b k with
    | none => Reports res 404 b!"NoSuchKey"
    | some c => res.status = 200 ∧ res.body = some [] ∧ HasLength res c.length ∧ HasMeta res (s.md b k)
  | .deleteObject b k => match s.obj b k with
    | none => Reports res 500 b!"InternalError"
    | some _ => res.status = 204 ∧ res.body = some []
  | .copyObject _ _ src => ∃ sb sk, src = sb ++ b!"/" ++ sk ∧ LegalBucket sb ∧ match s.obj sb sk with
    | none => Reports res 500 b!"InternalError"
    | some c => ∃ es, Shows res 200 es ∧ textsAt [b!"CopyObjectResult", b!"ETag"] es = [quoted (ext.md5hex c)]
  | _ => True

/-- metadata that can be sent in headers -/
def SendableMeta (m : Option Meta) : Prop := ∀ l, m = some l → ∀ p ∈ l, Sendable (b!"x-amz-meta-" ++ p.1) p.2

/-- an upload whose metadata can be sent back; other operations -/
def Sends : Op → Prop
  | .putObject i => SendableMeta i.metadata
  | _ => True

/-- the messages of errors are clean texts -/
def CleanMessage (x : Texts) : Prop := ∀ m, x.message = some m → CleanText m

end S3.Spec
