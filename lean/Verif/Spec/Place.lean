import Verif.Spec.Ops
import Verif.Spec.Path
import Verif.Spec.Address
/-! The place an address leads to, for every spelling of the key. -/
namespace S3.Spec
open S3

/-- Following the segments of a key from a directory: an empty segment and `.` stay, `..` leads to the parent (and
stays at the top), every other segment leads into the entry of that name. -/
inductive Walk : List Bytes → List Bytes → List Bytes → Prop
  | arrived {p : List Bytes} : Walk p [] p
  | empty {p segs q : List Bytes} : Walk p segs q → Walk p ([] :: segs) q
  | dot {p segs q : List Bytes} : Walk p segs q → Walk p (b!"." :: segs) q
  | top {segs q : List Bytes} : Walk [] segs q → Walk [] (b!".." :: segs) q
  | parent {p segs q : List Bytes} {d : Bytes} : Walk p segs q → Walk (p ++ [d]) (b!".." :: segs) q
  | enter {p segs q : List Bytes} {n : Bytes} : n ≠ [] → n ≠ b!"." → n ≠ b!".." → Walk (p ++ [n]) segs q →
      Walk p (n :: segs) q

/-- the text `k` cut at its slashes -/
structure Segments (k : Bytes) (segs : List Bytes) : Prop where
  text : k = joinWith 47 segs
  nonempty : segs ≠ []
  noSlash : ∀ s ∈ segs, (47 : UInt8) ∉ s

/-- The address (b, k) leads to the place `p` below the storage directory `root`: a key is followed from the bucket,
unless it starts with a slash; then it is the full path of a file, which must lie below the storage directory. -/
inductive Place (root : List Bytes) (b k : Bytes) (p : List Bytes) : Prop
  | relative {segs : List Bytes} : Segments k segs → (∀ t, k ≠ b!"/" ++ t) → Walk [b] segs p → Place root b k p
  | absolute {segs : List Bytes} : Segments k segs → (∃ t, k = b!"/" ++ t) → Walk [] segs (root ++ p) → Place root b k p

/-- the key has the form of a file name: it is not empty and its last segment is neither empty nor `.` -/
structure NamesFile (k : Bytes) : Prop where
  nonempty : k ≠ []
  notDot : k ≠ b!"."
  noSlash : ∀ t, k ≠ t ++ b!"/"
  noSlashDot : ∀ t, k ≠ t ++ b!"/."

/-- the place lies inside a bucket -/
def InBucket (p : List Bytes) : Prop := ∃ c d r, p = c :: d :: r ∧ LegalBucket c

/-- the address (b, k) of an object leads to the place `p` inside some bucket -/
structure Names (root : List Bytes) (b k : Bytes) (p : List Bytes) : Prop where
  bucket : LegalBucket b
  key : NamesFile k
  place : Place root b k p
  inside : InBucket p

end S3.Spec
