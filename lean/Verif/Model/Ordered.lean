import Verif.Model.Encoding
import Verif.Base.Sort
/-! Models of `/repo/src/data_structures/ordered_headers.rs`, `/repo/src/data_structures/ordered_qs.rs`. -/
namespace S3

/-- `Ord` on `(&str, &str)` / `(String, String)`: lexicographic on pairs; used by the sorts at
`/repo/src/data_structures/ordered_headers.rs:38`, `/repo/src/data_structures/ordered_qs.rs:29` -/
def pairLe (a b : Bytes × Bytes) : Bool :=
  match bytesCmp a.1 b.1 with
  | .lt => true
  | .gt => false
  | .eq => bytesLe a.2 b.2

/-- `[T]::binary_search_by` of the Rust standard library (`size`/`left`/`right` loop), used at
`/repo/src/data_structures/ordered_headers.rs:48,60` and `/repo/src/data_structures/ordered_qs.rs:36`.
`f` compares an element with the target. `fuel` bounds the number of rounds (`size` halves). -/
def binSearchLoop {α : Type} (l : List α) (f : α → Ordering) : Nat → Nat → Nat → Option Nat
  | 0, _, _ => none
  | fuel + 1, left, right =>
    if left < right then
      let mid := left + (right - left) / 2
      match l[mid]? with
      | none => none
      | some x =>
        match f x with
        | .lt => binSearchLoop l f fuel (mid + 1) right
        | .gt => binSearchLoop l f fuel left mid
        | .eq => some mid
    else none

/-- `binary_search_by(f).ok()`. `/repo/src/data_structures/ordered_headers.rs:48,60`,
`/repo/src/data_structures/ordered_qs.rs:36`. -/
def binSearch {α : Type} (l : List α) (f : α → Ordering) : Option Nat :=
  binSearchLoop l f (l.length + 1) 0 l.length

/-- `/repo/src/data_structures/ordered_headers.rs:58-66` and
`/repo/src/data_structures/ordered_qs.rs:34-40` `get`: the value at the index found by
`binary_search_by_key` -/
def orderedGet (l : List (Bytes × Bytes)) (name : Bytes) : Option Bytes :=
  match binSearch l (fun p => bytesCmp p.1 name) with
  | none => none
  | some i => (l[i]?).map (·.2)

/-- `sort` / `sort_unstable` on pairs: equal pairs are identical, so stability does not matter.
`/repo/src/data_structures/ordered_headers.rs:38`, `/repo/src/data_structures/ordered_qs.rs:29` -/
def sortPairs (l : List (Bytes × Bytes)) : List (Bytes × Bytes) := isort pairLe l

/-- `HeaderValue::to_str` succeeds: visible ASCII or tab or space; other bytes are an error.
Behind `/repo/src/data_structures/ordered_headers.rs:36`. -/
def toStrOk (v : Bytes) : Bool := v.all fun c => (32 ≤ c && c < 127) || c == 9

/-- `/repo/src/data_structures/ordered_headers.rs:31-41` `OrderedHeaders::from_req` -/
def orderedHeaders (hs : List (Bytes × Bytes)) : Option (List (Bytes × Bytes)) :=
  if hs.all (fun p => toStrOk p.2) then some (sortPairs hs) else none

/-- `/repo/src/data_structures/ordered_headers.rs:44-55` `map_signed_headers` -/
def mapSignedHeaders (headers : List (Bytes × Bytes)) (signed : List Bytes) : List (Bytes × Bytes) :=
  headers.filter fun p => (binSearch signed (fun probe => bytesCmp probe p.1)).isSome

/-- `/repo/src/data_structures/ordered_qs.rs:27-31` `OrderedQs::from_query` -/
def orderedQs (query : Bytes) : List (Bytes × Bytes) := sortPairs (parseQuery query)

end S3
