import Verif.Spec.MachineRounds
import Verif.Spec.NewFolder
/-!
What is certain about the storage when requests have broken off: because the server was stopped while it served them, or
because calls to the disk failed. The abstract machine of `Spec/Machine` goes on as if all of them had been done; what may be
different is in doubt until a later request settles it.
-/
namespace S3.Spec
open S3

/-- the request stores or deletes the object `(b, k)` -/
def Changes (o : Op) (b k : Bytes) : Prop :=
  Writes o b k ∨ (∃ ks, o = .deleteObjects b ks ∧ k ∈ ks) ∨ o = .deleteObject b k

/-- the request records metadata for `(b, k)`, or may do so -/
def Records : Op → Bytes → Bytes → Prop
  | .putObject i, b, k => (b, k) = (i.bucket, i.key) ∧ i.metadata ≠ none
  | .copyObject b' k' _, b, k => (b, k) = (b', k')
  | _, _, _ => False

/-- the request with number `n` has been answered, and none of its calls failed -/
def Settled (cfg : Cfg) (w : PieceEpoch) (fs : FS) (n : Nat) : Prop :=
  (∀ f, (n, .call f) ∈ w.strides → f = .none) ∧ ∃ r, w.response cfg fs n = some r

/-- a request of the round that does more than read, and that was not answered or not spared by the disk -/
def BrokenOff (cfg : Cfg) (w : PieceEpoch) (os : List Op) (fs : FS) (o : Op) : Prop :=
  ∃ n : Nat, os[n]? = some o ∧ ¬ Watching o ∧ ¬ Settled cfg w fs n

/-- what is not certain about the state of the machine -/
structure Doubt where
  bytes : List Bytes → Prop
  record : Bytes → Bytes → Prop
  parts : Bytes → Int → Prop
  folder : List Bytes → Prop

/-- nothing is in doubt -/
def Doubt.none : Doubt := ⟨fun _ => False, fun _ _ => False, fun _ _ => False, fun _ => False⟩

def Doubt.or (d e : Doubt) : Doubt :=
  ⟨fun p => d.bytes p ∨ e.bytes p, fun b k => d.record b k ∨ e.record b k, fun u n => d.parts u n ∨ e.parts u n, fun q => d.folder q ∨ e.folder q⟩

/-- two states of the machine that are the same except for what is in doubt -/
structure Doubt.Agrees (d : Doubt) (s t : Machine) : Prop where
  bytes : ∀ p, ¬ d.bytes p → t.bytes p = s.bytes p
  record : ∀ b k, ¬ d.record b k → t.record b k = s.record b k
  parts : ∀ u n, ¬ d.parts u n → t.parts u n = s.parts u n
  folder : ∀ q, ¬ d.folder q → t.folder q = s.folder q

/-- something about the bucket `b` or the objects in it is in doubt -/
def Doubt.Touches (d : Doubt) (b : Bytes) : Prop := d.folder [b] ∨ ∃ cs, d.bytes (b :: cs)

section
variable (place : Bytes → Bytes → List Bytes)

/-- Requests that broke off leave in doubt: the objects they were to store or to delete, the metadata they were to record, the parts they
were to store or to use, and the folders that uploads were to make. -/
def Doubt.left (broken : Op → Prop) : Doubt where
  bytes p := ∃ o b k, broken o ∧ Changes o b k ∧ p = place b k
  record b k := ∃ o, broken o ∧ Records o b k
  parts u n := ∃ o, broken o ∧ UsesPart o u n
  folder q := ∃ i, broken (.putObject i) ∧ onTheWay q (place i.bucket i.key) = true

/-- What a request makes of the doubt. An upload settles the bytes it stores, the folders it makes and, if it brings metadata, the
metadata; an uploaded part and a deletion settle what they are about, and so does the creation or deletion of a bucket. Copies,
completions and deletions of several objects spread the doubt about what they depend on. -/
def Doubt.after (d : Doubt) : Op → Doubt
  | .putObject i =>
    match i.body with
    | .none => d
    | some body =>
      if classKnown i = false then d
      else
        { d with
          bytes := fun p => d.bytes p ∧ p ≠ place i.bucket i.key
          folder := fun q => d.folder q ∧ onTheWay q (place i.bucket i.key) = false
          record := fun b k => d.record b k ∧ ¬ ((b, k) = (i.bucket, i.key) ∧ i.metadata ≠ .none ∧ .none ∉ body) }
  | .deleteObject b k => { d with bytes := fun p => d.bytes p ∧ p ≠ place b k }
  | .deleteObjects b ks =>
    { d with bytes := fun p => d.bytes p ∨ (∃ k ∈ ks, d.bytes (place b k)) ∧ ∃ k ∈ ks, p = place b k }
  | .uploadPart _ _ .none => d
  | .uploadPart u n (some _) => { d with parts := fun u' n' => d.parts u' n' ∧ (u', n') ≠ (u, n) }
  | .completeMultipartUpload _ _ _ .none => d
  | .completeMultipartUpload b k u (some l) =>
    let unsure := d.folder (place b k).dropLast ∨ ∃ n, some n ∈ l ∧ d.parts u n
    { d with
      bytes := fun p => d.bytes p ∨ unsure ∧ p = place b k
      parts := fun u' n => d.parts u' n ∨ unsure ∧ u' = u ∧ some n ∈ l }
  | .copyObject b k src =>
    match copySourceFromHeader src with
    | .error _ => d
    | .ok (sb, sk) =>
      let unsure := d.folder (place b k).dropLast ∨ d.bytes (place sb sk)
      { d with
        bytes := fun p => d.bytes p ∨ unsure ∧ p = place b k
        record := fun b' k' => d.record b' k' ∨ (unsure ∨ d.record sb sk) ∧ (b', k') = (b, k) }
  | .createBucket b => { d with folder := fun q => d.folder q ∧ q ≠ [b] }
  | .deleteBucket b =>
    { d with
      bytes := fun p => d.bytes p ∧ p.head? ≠ some b
      folder := fun q => d.folder q ∧ q.head? ≠ some b }
  | _ => d

/-- what a history makes of the doubt -/
def Doubt.afterAll (d : Doubt) (os : List Op) : Doubt := os.foldl (Doubt.after place) d

/-- nothing the answer to the request depends on is in doubt -/
def Doubt.Spares (d : Doubt) : Op → Prop
  | .putObject _ | .uploadPart _ _ _ | .createMultipartUpload _ => True
  | .getObject b k _ _ | .headObject b k => ¬ d.bytes (place b k) ∧ ¬ d.record b k
  | .deleteObject b k => ¬ d.bytes (place b k)
  | .deleteObjects b ks => ∀ k ∈ ks, ¬ d.bytes (place b k)
  | .completeMultipartUpload b k u l => ¬ d.folder (place b k).dropLast ∧ ∀ l' n, l = some l' → some n ∈ l' → ¬ d.parts u n
  | .copyObject b k src =>
    ¬ d.folder (place b k).dropLast ∧ ∀ sb sk, copySourceFromHeader src = .ok (sb, sk) → ¬ d.bytes (place sb sk)
  | .createBucket b | .deleteBucket b | .headBucket b | .getBucketLocation b => ¬ d.folder [b]
  | _ => False

end

/-- the doubt a round leaves: what its requests make of the doubt there was, and what those that broke off were about -/
def Round.doubt (cfg : Cfg) (place : Bytes → Bytes → List Bytes) (d : Doubt) (fs : FS) : Round → Doubt
  | .alone _ o => d.after place o
  | .together w os => (d.afterAll place os).or (.left place (BrokenOff cfg w os fs))

/-- the doubt after several rounds -/
def doubtAfter (cfg : Cfg) (ext : Ext) (lib : Lib) (auth : Option Provider) (place : Bytes → Bytes → List Bytes) :
    List Round → Doubt → FS → Doubt
  | [], d, _ => d
  | r :: rs, d, fs => doubtAfter cfg ext lib auth place rs (r.doubt cfg place d fs) (r.leaves cfg ext lib auth fs)

/-- A round that may break off: a single request of any kind the machine knows, or independent requests at the same time, stopped
at any moment and with any failures of the disk. That there are folders for copies and completions is not in doubt. -/
def Round.Fair (cfg : Cfg) (ext : Ext) (lib : Lib) (auth : Option Provider) (A : Bytes → Bytes → Prop)
    (place : Bytes → Bytes → List Bytes) (s : Machine) (d : Doubt) : Round → Prop
  | .alone x o => Asks lib auth x o ∧ (Served A o ∨ Watching o)
  | .together w os => Together cfg ext lib auth A place s w os ∧ ∀ o ∈ os, ∀ b k, NeedsFolder o b k → ¬ d.folder (place b k).dropLast

/-- a history of such rounds, each beginning where the one before it has ended -/
def FairRounds (cfg : Cfg) (ext : Ext) (lib : Lib) (auth : Option Provider) (A : Bytes → Bytes → Prop)
    (place : Bytes → Bytes → List Bytes) : List Round → Machine → Doubt → FS → Prop
  | [], _, _, _ => True
  | r :: rs, s, d, fs => r.Fair cfg ext lib auth A place s d ∧
      FairRounds cfg ext lib auth A place rs (s.afterAll place r.ops) (r.doubt cfg place d fs) (r.leaves cfg ext lib auth fs)

end S3.Spec
