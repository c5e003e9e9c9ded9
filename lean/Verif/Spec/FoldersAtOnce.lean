import Verif.Spec.MachineFolders
import Verif.Spec.Life
/-!
# Folder keys put at the same time, broken off, on a failing disk
-/
namespace S3.Spec
open S3

variable (A : Bytes → Bytes → Prop) (place : Bytes → Bytes → List Bytes)

/-- a PUT of the folder `q` -/
def FolderPut (q : List Bytes) (o : Op) : Prop :=
  ∃ i cs, o = .putObject i ∧ FolderKey A place i.bucket i.key cs ∧ q = i.bucket :: cs

/-- a PUT as a folder needs it: a known storage class, a body, and the announcement that it is empty -/
def ProperPut (o : Op) : Prop := ∃ i, o = .putObject i ∧ classKnown i = true ∧ i.body ≠ none ∧ i.contentLength = some 0

/-- `r` is one of the folders the requests ask for, or is on the way to one -/
def AskedFor (os : List Op) (r : List Bytes) : Prop := ∃ o ∈ os, ∃ q, FolderPut A place q o ∧ r <+: q

/-- `t` is the state `s` with further folders. All of them are asked for or on the way, and each one stands in its parent. -/
structure Further (os : List Op) (s t : Machine) : Prop where
  bytes : t.bytes = s.bytes
  record : t.record = s.record
  parts : t.parts = s.parts
  keeps : ∀ r, s.folder r = true → t.folder r = true
  asked : ∀ r, t.folder r = true → s.folder r = true ∨ AskedFor A place os r
  above : ∀ r r', t.folder r = true → s.folder r = false → r' <+: r → t.folder r' = true

end S3.Spec
