import Verif.Spec.Machine
import Verif.Spec.MachineClient
import Verif.Props.Response
/-! Listings by the abstract machine of `Spec/Machine`. -/
namespace S3.Spec

/-- the listing of the bucket `b` by the machine: every place in the bucket that holds bytes, under the name that spells the
place plainly - whatever the spelling it was written under - once, with the number of its bytes, in ascending order -/
structure Machine.Lists (s : Machine) (b : Bytes) (pfx : Option Bytes) (l : List (Bytes × Nat)) : Prop where
  ascending : l.Pairwise fun x y => x.1 < y.1
  exactly : ∀ k n, (k, n) ∈ l ↔ ∃ cs c, PlainKey k cs ∧ s.bytes (b :: cs) = some c ∧ n = c.length ∧ matchesPrefix pfx k

/-- the names of the places are text, and the objects are not too large for the answer -/
structure Listed (A : Bytes → Bytes → Prop) (place : Bytes → Bytes → List Bytes) (s : Machine) : Prop where
  text : ∀ b k c cs, A b k → place b k = c :: cs → utf8Valid (joinWith 47 cs) = true
  size : ∀ p c, s.bytes p = some c → c.length ≤ i64Max

/-- no bucket contains a file but those of the addresses in `A` -/
def Closed (cfg : Cfg) (A : Bytes → Bytes → Prop) (place : Bytes → Bytes → List Bytes) (s : Machine) (fs : FS) : Prop :=
  (∀ b cs, LegalBucket b → cs ≠ [] → contentAt fs (cfg.root ++ b :: cs) ≠ none → ∃ b' k, A b' k ∧ place b' k = b :: cs) ∧
  ∀ p, s.bytes p ≠ none → ∃ b k, A b k ∧ place b k = p

/-- what a client reads in a listing: the objects the machine lists, with their sizes and the times of their
modification; and not that there are more of them -/
def MachineShows (s : Machine) (modified : Bytes → Bytes → Time) (b : Bytes) (pfx : Option Bytes) (es : List XmlEntry) : Prop :=
  ∃ l, s.Lists b pfx l ∧
    textsAt [b!"ListBucketResult", b!"Contents", b!"Key"] es = l.map (·.1) ∧
    Numerals (textsAt [b!"ListBucketResult", b!"Contents", b!"Size"] es) (l.map (·.2)) ∧
    Times (textsAt [b!"ListBucketResult", b!"Contents", b!"LastModified"] es) (l.map fun o => modified b o.1) ∧
    textsAt [b!"ListBucketResult", b!"Name"] es = [b] ∧
    b!"true" ∉ textsAt [b!"ListBucketResult", b!"IsTruncated"] es

end S3.Spec
