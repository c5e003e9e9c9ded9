import Verif.Spec.MachineClient
import Verif.Spec.Pieces
import Verif.Spec.Isolated
/-!
Clients that are served at the same time, and the abstract machine of `Spec/Machine`, which does one thing after the other.
-/
namespace S3.Spec

/-- the addresses in `A` are written in the plain way, and lead where they say -/
def PlainPlaces (A : Bytes → Bytes → Prop) (place : Bytes → Bytes → List Bytes) : Prop :=
  ∀ b k, A b k → LegalBucket b ∧ ∃ cs, PlainKey k cs ∧ place b k = b :: cs

/-- Neither request writes or deletes anything the other one is about - except that a request that only reads may read what
the other one writes. -/
def Independent (o o' : Op) : Prop := (Watching o ∨ Elsewhere o o') ∧ (Watching o' ∨ Elsewhere o' o)

/-- the request stores the object `(b, k)` and makes no folder for it -/
def NeedsFolder : Op → Bytes → Bytes → Prop
  | .copyObject b' k' _, b, k => (b, k) = (b', k')
  | .completeMultipartUpload b' k' _ _, b, k => (b, k) = (b', k')
  | _, _, _ => False

/-- The requests of one run of the server, which are served at the same time and in pieces, mean the operations `os`. Each of
them only reads, or is about objects with addresses in `A` or about parts, and is independent of all the others. Copies and
completions of uploads in parts, which make no folders, store their objects into folders the machine has; uploads may store
theirs wherever they like. -/
structure Together (cfg : Cfg) (ext : Ext) (lib : Lib) (auth : Option Provider) (A : Bytes → Bytes → Prop)
    (place : Bytes → Bytes → List Bytes) (s : Machine) (w : PieceEpoch) (os : List Op) : Prop where
  serves : w.Serves cfg ext lib auth
  count : os.length = w.requests.length
  asks : ∀ (n : Nat) x o, w.requests[n]? = some x → os[n]? = some o → Asks lib auth x o
  known : ∀ o ∈ os, Watching o ∨ Served A o ∧ AboutObjects o
  folders : ∀ o ∈ os, ∀ b k, NeedsFolder o b k → s.folder (place b k).dropLast = true
  apart : os.Pairwise Independent

/-- nothing failed, and every request that does more than read has been answered -/
def Finished (cfg : Cfg) (w : PieceEpoch) (os : List Op) (fs : FS) : Prop :=
  (∀ st ∈ w.strides, ∀ f, st.2 = .call f → f = .none) ∧
  ∀ (n : Nat) o, os[n]? = some o → ¬ Watching o → ∃ r, w.response cfg fs n = some r

/-- the request is about objects with addresses in `A` or about parts, and the others write nothing it is about -/
def Undisturbed (A : Bytes → Bytes → Prop) (os : List Op) (n : Nat) (o : Op) : Prop :=
  Served A o ∧ AboutObjects o ∧ ∀ (j : Nat) o', j ≠ n → os[j]? = some o' → Elsewhere o o'

/-- one step of a longer history: a request that is served alone, or many at the same time -/
inductive Round
  | alone (x : Exchange) (o : Op)
  | together (w : PieceEpoch) (os : List Op)

/-- the operations of a round -/
def Round.ops : Round → List Op
  | .alone _ o => [o]
  | .together _ os => os

/-- the file tree after a round -/
def Round.leaves (cfg : Cfg) (ext : Ext) (lib : Lib) (auth : Option Provider) : Round → FS → FS
  | .alone x _, fs => afterResponded cfg ext lib auth x.env x.texts x.req fs
  | .together w _, fs => w.leaves cfg fs

/-- the file tree after several rounds -/
def afterRounds (cfg : Cfg) (ext : Ext) (lib : Lib) (auth : Option Provider) (rs : List Round) (fs : FS) : FS :=
  rs.foldl (fun fs r => r.leaves cfg ext lib auth fs) fs

/-- the machine after several rounds -/
def Machine.afterRounds (place : Bytes → Bytes → List Bytes) (rs : List Round) (s : Machine) : Machine :=
  rs.foldl (fun s r => s.afterAll place r.ops) s

/-- A round is one the machine knows: a single request of any kind it knows, or requests at the same time that are independent
and have all been answered. -/
def Round.Sound (cfg : Cfg) (ext : Ext) (lib : Lib) (auth : Option Provider) (A : Bytes → Bytes → Prop)
    (place : Bytes → Bytes → List Bytes) (s : Machine) (fs : FS) : Round → Prop
  | .alone x o => Asks lib auth x o ∧ (Served A o ∨ Watching o)
  | .together w os => Together cfg ext lib auth A place s w os ∧ Finished cfg w os fs

/-- a history of such rounds, each beginning where the one before it has ended -/
def SoundRounds (cfg : Cfg) (ext : Ext) (lib : Lib) (auth : Option Provider) (A : Bytes → Bytes → Prop)
    (place : Bytes → Bytes → List Bytes) : List Round → Machine → FS → Prop
  | [], _, _ => True
  | r :: rs, s, fs => r.Sound cfg ext lib auth A place s fs ∧
      SoundRounds cfg ext lib auth A place rs (s.afterAll place r.ops) (r.leaves cfg ext lib auth fs)

end S3.Spec
