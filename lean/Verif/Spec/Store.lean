import Verif.Spec.Elsewhere
/-!
# The abstract store

An object store as a map from addresses to bytes, and a second map from addresses to metadata. This is what C14 and C19
compare the server with. Two facts of the server that differ from Amazon S3 are part of this machine: deleting an object
that does not exist is answered with an error, and metadata survives the object it belongs to.
-/
namespace S3.Spec

structure Store where
  obj : Bytes → Bytes → Option Bytes
  md : Bytes → Bytes → Option Meta

/-- one entry of a map replaced -/
def upd {α : Type} (f : Bytes → Bytes → α) (b k : Bytes) (v : α) : Bytes → Bytes → α :=
  fun b' k' => if b' = b ∧ k' = k then v else f b' k'

/-- what the store answers -/
def Store.answer (ext : Ext) (s : Store) : Op → Option (Outcome Answer)
  | .putObject i => i.body.map fun body => .ok (.etag (some (quoted (ext.md5hex (received body)))))
  | .getObject b k none _ =>
    match s.obj b k with
    | none => some (.err .NoSuchKey)
    | some c => some (.ok (.object c.length (s.md b k) (quoted (ext.md5hex c)) (some c)))
  | .headObject b k =>
    match s.obj b k with
    | none => some (.err .NoSuchKey)
    | some c => some (.ok (.head c.length (s.md b k)))
  | .deleteObject b k =>
    match s.obj b k with
    | none => some (.err .InternalError)
    | some _ => some (.ok .done)
  | .copyObject _ _ src =>
    match copySourceFromHeader src with
    | .error _ => none
    | .ok (sb, sk) =>
      match s.obj sb sk with
      | none => some (.err .InternalError)
      | some c => some (.ok (.etag (some (quoted (ext.md5hex c)))))
  | _ => none

/-- what the store becomes; requests it does not know leave it as it is -/
def Store.after (s : Store) : Op → Store
  | .putObject i =>
    { obj := upd s.obj i.bucket i.key (i.body.map received)
      md := match i.metadata with
        | some m => upd s.md i.bucket i.key (some m)
        | none => s.md }
  | .deleteObject b k => { s with obj := upd s.obj b k none }
  | .copyObject b k src =>
    match copySourceFromHeader src with
    | .error _ => s
    | .ok (sb, sk) =>
      match s.obj sb sk with
      | none => s
      | some c =>
        { obj := upd s.obj b k (some c)
          md := match s.md sb sk with
            | some m => upd s.md b k (some m)
            | none => s.md }
  | _ => s

/-- what a history makes of the store -/
def Store.afterAll (s : Store) (os : List Op) : Store := os.foldl Store.after s

/-- A set of legal addresses with plain keys, none of which is a folder of another one. -/
structure PrefixFree (A : Bytes → Bytes → Prop) : Prop where
  bucket : ∀ b k, A b k → LegalBucket b
  key : ∀ b k, A b k → ∃ cs, PlainKey k cs
  apart : ∀ b k b' k', A b k → A b' k' → (b', k') ≠ (b, k) → Apart b k b' k'

/-- the requests about objects that the abstract store knows: addresses in `A`, bodies that arrive unbroken and are not
longer than a content length can say, metadata of texts, copies to `D` from another address -/
def Known (A D : Bytes → Bytes → Prop) : Op → Prop
  | .putObject i => A i.bucket i.key ∧ (∃ body, i.body = some body ∧ unbroken body ∧ (received body).length ≤ i64Max) ∧
      (i.storageClass = none ∨ i.storageClass = some b!"STANDARD" ∨ i.storageClass = some b!"REDUCED_REDUNDANCY") ∧
      (∀ m, i.metadata = some m → ValidMeta m)
  | .getObject b k r _ => A b k ∧ r = none
  | .headObject b k => A b k
  | .deleteObject b k => A b k
  | .copyObject b k s => A b k ∧ D b k ∧ ∃ sb sk, copySourceFromHeader s = .ok (sb, sk) ∧ A sb sk ∧ (sb, sk) ≠ (b, k)
  | _ => False

/-- the same without the restrictions on copies -/
def About (A : Bytes → Bytes → Prop) : Op → Prop
  | .copyObject b k s => A b k ∧ ∃ sb sk, copySourceFromHeader s = .ok (sb, sk) ∧ A sb sk
  | o => Known A (fun _ _ => False) o

/-- requests that have nothing to do with the addresses in `A`, as far as writing is concerned -/
def Unrelated (A : Bytes → Bytes → Prop) (o : Op) : Prop := ∀ b k, A b k → OnOthers b (Apart b k) o

end S3.Spec
