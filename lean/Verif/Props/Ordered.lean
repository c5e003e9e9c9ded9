import Verif.Lemmas.Ordered
/-! C54: header and query lookup. -/
namespace S3

/-- **C54** (headers) looking up a header of a request with header list `hs` finds a value iff the
request carries a header of that name, and the value found is one of its values. -/
theorem C54_header_lookup (hs ordered : List (Bytes × Bytes)) (h : orderedHeaders hs = some ordered)
    (name : Bytes) :
    (∀ v, orderedGet ordered name = some v → (name, v) ∈ hs) ∧
    (orderedGet ordered name = none ↔ ∀ v, (name, v) ∉ hs) := by
  simp only [orderedHeaders] at h
  split at h
  · cases h
    refine ⟨fun v hv => (sortPairs_perm hs).mem_iff.mp (orderedGet_some_mem hv), ?_⟩
    rw [orderedGet_none_iff (sortPairs_sorted hs)]
    exact ⟨fun h v hm => h v ((sortPairs_perm hs).mem_iff.mpr hm),
      fun h v hm => h v ((sortPairs_perm hs).mem_iff.mp hm)⟩
  · cases h

/-- **C54** (query) the same for query parameters, with `parseQuery q` the decoded parameters. -/
theorem C54_query_lookup (q name : Bytes) :
    (∀ v, orderedGet (orderedQs q) name = some v → (name, v) ∈ parseQuery q) ∧
    (orderedGet (orderedQs q) name = none ↔ ∀ v, (name, v) ∉ parseQuery q) := by
  refine ⟨fun v hv => (sortPairs_perm _).mem_iff.mp (orderedGet_some_mem hv), ?_⟩
  rw [orderedQs, orderedGet_none_iff (sortPairs_sorted _)]
  exact ⟨fun h v hm => h v ((sortPairs_perm _).mem_iff.mpr hm),
    fun h v hm => h v ((sortPairs_perm _).mem_iff.mp hm)⟩

/-- **C54** (signed headers) when the signed header names are sorted, the selected headers are
exactly the request's headers with a signed name. -/
theorem C54_signed_headers (hs : List (Bytes × Bytes)) (signed : List Bytes)
    (hsorted : signed.Pairwise fun a b => bytesLe a b = true) (p : Bytes × Bytes) :
    p ∈ mapSignedHeaders hs signed ↔ p ∈ hs ∧ p.1 ∈ signed := by
  simp only [mapSignedHeaders, List.mem_filter]
  have := binSearch_isSome (mono_of_sorted (key := fun b => b) (name := p.1) hsorted)
  rw [this]
  simp only [bytesCmp_eq, exists_eq_right]

/-! Non-vacuity -/
example : (orderedHeaders [(b!"x-amz-date", b!"d"), (b!"host", b!"h"), (b!"range", b!"r")]).map
    (fun o => (orderedGet o b!"range", orderedGet o b!"rang")) = some (some b!"r", none) := by
  decide +kernel
example : orderedGet (orderedQs b!"uploadId=u&partNumber=7&x=1") b!"partNumber" = some b!"7" := by
  decide +kernel
example : mapSignedHeaders [(b!"a", b!"1"), (b!"b", b!"2"), (b!"c", b!"3")] [b!"a", b!"c"]
    = [(b!"a", b!"1"), (b!"c", b!"3")] := by decide +kernel

end S3
