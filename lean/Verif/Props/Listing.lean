import Verif.Lemmas.Listing
import Verif.Props.DelCopy
/-! C16, C20, C21: listings. -/
namespace S3
open Spec

variable {cfg : Cfg} {ext : Ext}

/-- A bucket that can be listed: it exists, the keys of its objects are text (as every key of a request is), no
object has 2^63 bytes or more, and the file tree has less than 2^63 entries. -/
structure Spec.Listable (cfg : Cfg) (fs : FS) (b : Bytes) : Prop where
  legal : checkBucketName b = true
  dir : IsDir fs (bucketDir cfg b)
  text : ∀ k cs, PlainKey k cs → stored cfg fs b k ≠ none → utf8Valid k = true
  size : ∀ k cs c, PlainKey k cs → stored cfg fs b k = some c → c.length ≤ i64Max
  count : fs.nodes.length ≤ i64Max

/-- the key starts with the requested prefix, if one was requested -/
def Spec.matchesPrefix (pfx : Option Bytes) (k : Bytes) : Prop := ∀ p, pfx = some p → p <+: k

theorem bytesCmp_lt_iff {a b : Bytes} : bytesCmp a b = .lt ↔ a < b := by
  induction a generalizing b with
  | nil => cases b <;> simp [bytesCmp]
  | cons x a ih =>
    cases b with
    | nil => simp [bytesCmp]
    | cons y b =>
      rw [List.cons_lt_cons_iff, ← ih]
      simp only [bytesCmp]
      by_cases h1 : x < y
      · simp [h1]
      · by_cases h2 : y < x
        · simp only [h1, if_false, h2, if_true, false_or, reduceCtorEq, false_iff, not_and]
          rintro rfl; exact absurd h2 (UInt8.lt_irrefl _)
        · have : x = y := UInt8.le_antisymm (UInt8.not_lt.mp h2) (UInt8.not_lt.mp h1)
          simp [this]

theorem utf8Lossy_valid {s : Bytes} (h : utf8Valid s = true) : utf8Lossy s = s := by
  induction hn : s.length using Nat.strongRecOn generalizing s with
  | _ n ih =>
    cases s with
    | nil => simp [utf8Lossy]
    | cons a r =>
      rw [utf8Valid] at h
      rw [utf8Lossy]
      cases hs : utf8Step (a :: r) with
      | inr m => rw [hs] at h; cases h
      | inl m =>
        rw [hs] at h
        simp only at h ⊢
        by_cases h0 : m = 0
        · simp [h0] at h
        · simp only [h0, if_false] at h ⊢
          rw [ih ((a :: r).drop m).length (by simp at hn ⊢; omega) h rfl, List.take_append_drop]

theorem nameOk_plain {c : Bytes} (h : nameOk c = true) : PlainComp c := by
  simp only [nameOk, Bool.and_eq_true, ne_eq, decide_eq_true_eq, bne_iff_ne, Bool.not_eq_true',
    List.contains_eq_mem, decide_eq_false_iff_not] at h
  obtain ⟨⟨⟨⟨⟨h1, h2⟩, h3⟩, h4⟩, h5⟩, h6⟩ := h
  exact ⟨h1, h4, h5, h6⟩

theorem stored_plain {fs : FS} {b k : Bytes} {cs : List Bytes} (hb : checkBucketName b = true) (hk : PlainKey k cs) :
    stored cfg fs b k = contentAt fs (cfg.root ++ b :: cs) := by
  simp [stored, objectPath_plain cfg hb hk]

/-- a file below the bucket is an object with a plain key -/
theorem file_plain {fs : FS} (hw : WF fs) {b : Bytes} {e : Path × Node} (he : e ∈ fs.sub (bucketDir cfg b)) :
    ∃ cs, e.1 = cfg.root ++ b :: cs ∧ PlainKey (joinWith 47 cs) cs ∧ fs.lookup e.1 = some e.2 := by
  obtain ⟨h1, ⟨cs, hcs⟩, hne⟩ := mem_sub.mp he
  refine ⟨cs, by rw [← hcs]; simp [bucketDir], ⟨rfl, ?_, ?_⟩, (lookup_iff_mem hw.nodup (hw.names e h1).1 _).mpr h1⟩
  · rintro rfl; simp at hcs; exact hne hcs.symm
  · intro c hc
    exact nameOk_plain ((hw.names e h1).2 c (by rw [← hcs]; simp [hc]))

theorem relKey_eq {base cs : Path} : relKey base (base ++ cs) = utf8Lossy (joinWith 47 cs) := by
  simp [relKey]

theorem filteredOut_iff {pfx : Option Bytes} {k : Bytes} : filteredOut pfx k = false ↔ matchesPrefix pfx k := by
  cases pfx with
  | none => simp [filteredOut, matchesPrefix]
  | some p => simp [filteredOut, matchesPrefix, startsWith]

theorem entry_mem {fs : FS} (hw : WF fs) {b : Bytes} (hl : Listable cfg fs b) {pfx : Option Bytes} {k : Bytes} {n : Nat} :
    (k, n) ∈ (fs.sub (bucketDir cfg b)).filterMap (entryOf fs (bucketDir cfg b) pfx) ↔
      ∃ cs c, PlainKey k cs ∧ stored cfg fs b k = some c ∧ n = c.length ∧ matchesPrefix pfx k := by
  rw [List.mem_filterMap]
  constructor
  · rintro ⟨e, he, hx⟩
    obtain ⟨cs, h1, h2, h3⟩ := file_plain hw he
    obtain ⟨p, nd⟩ := e
    simp only at h1 h3
    subst h1
    cases nd with
    | dir => simp [entryOf] at hx
    | file i =>
      have hst : stored cfg fs b (joinWith 47 cs) = some (fs.data i) := by
        rw [stored_plain hl.legal h2, contentAt, h3]
      have hkey : relKey (bucketDir cfg b) (cfg.root ++ b :: cs) = joinWith 47 cs := by
        rw [show cfg.root ++ b :: cs = bucketDir cfg b ++ cs by simp [bucketDir], relKey_eq]
        exact utf8Lossy_valid (hl.text _ _ h2 (by rw [hst]; simp))
      simp only [entryOf, hkey] at hx
      split at hx
      · cases hx
      · rename_i hf
        simp only [Option.some.injEq, Prod.mk.injEq] at hx
        obtain ⟨rfl, rfl⟩ := hx
        exact ⟨cs, _, h2, hst, rfl, filteredOut_iff.mp (by simpa using hf)⟩
  · rintro ⟨cs, c, hk, hs, rfl, hp⟩
    have hst := hs
    rw [stored_plain hl.legal hk, contentAt] at hs
    split at hs
    · rename_i i hi
      cases hs
      refine ⟨(cfg.root ++ b :: cs, .file i), mem_sub.mpr ⟨mem_of_lookup (by simp) hi, ⟨cs, by simp [bucketDir]⟩, ?_⟩, ?_⟩
      · simp only [bucketDir]
        intro e
        simp only [List.append_cancel_left_eq, List.cons.injEq, true_and] at e
        exact hk.nonempty e
      · have hkey : relKey (bucketDir cfg b) (cfg.root ++ b :: cs) = k := by
          rw [show cfg.root ++ b :: cs = bucketDir cfg b ++ cs by simp [bucketDir], relKey_eq, ← hk.text]
          exact utf8Lossy_valid (hl.text _ _ hk (by rw [hst]; simp))
        simp only [entryOf, hkey, filteredOut_iff.mpr hp]
        rfl
    · cases hs

theorem entries_keys_nodup {fs : FS} (hw : WF fs) {b : Bytes} (hl : Listable cfg fs b) {pfx : Option Bytes} :
    (((fs.sub (bucketDir cfg b)).filterMap (entryOf fs (bucketDir cfg b) pfx)).map (·.1)).Nodup := by
  have key : ∀ e ∈ fs.sub (bucketDir cfg b), ∀ k n, entryOf fs (bucketDir cfg b) pfx e = some (k, n) →
      ∃ cs, e.1 = cfg.root ++ b :: cs ∧ PlainKey k cs := by
    intro e he k n hx
    obtain ⟨cs, h1, h2, h3⟩ := file_plain hw he
    refine ⟨cs, h1, ?_⟩
    obtain ⟨p, nd⟩ := e
    simp only at h1 h3
    subst h1
    cases nd with
    | dir => simp [entryOf] at hx
    | file i =>
      have hst : stored cfg fs b (joinWith 47 cs) = some (fs.data i) := by
        rw [stored_plain hl.legal h2, contentAt, h3]
      have hkey : relKey (bucketDir cfg b) (cfg.root ++ b :: cs) = joinWith 47 cs := by
        rw [show cfg.root ++ b :: cs = bucketDir cfg b ++ cs by simp [bucketDir], relKey_eq]
        exact utf8Lossy_valid (hl.text _ _ h2 (by rw [hst]; simp))
      simp only [entryOf, hkey] at hx
      split at hx
      · cases hx
      · simp only [Option.some.injEq, Prod.mk.injEq] at hx
        rw [← hx.1]; exact h2
  have hn : ((fs.sub (bucketDir cfg b)).map (·.1)).Nodup :=
    hw.nodup.sublist (List.Sublist.map _ List.filter_sublist)
  generalize fs.sub (bucketDir cfg b) = l at key hn
  induction l with
  | nil => exact List.nodup_nil
  | cons e l ih =>
    rw [List.map_cons, List.nodup_cons] at hn
    have ih := ih (fun e he => key e (by simp [he])) hn.2
    rw [List.filterMap_cons]
    cases hx : entryOf fs (bucketDir cfg b) pfx e with
    | none => exact ih
    | some x =>
      rw [List.map_cons, List.nodup_cons]
      refine ⟨?_, ih⟩
      intro hm
      obtain ⟨y, hy, hxy⟩ := List.mem_map.mp hm
      obtain ⟨e', he', hy⟩ := List.mem_filterMap.mp hy
      obtain ⟨cs, h1, h2⟩ := key e (by simp) x.1 x.2 hx
      obtain ⟨cs', h1', h2'⟩ := key e' (by simp [he']) y.1 y.2 hy
      rw [hxy] at h2'
      have := plainKey_unique h2 h2'
      subst this
      exact hn.1 (List.mem_map.mpr ⟨e', he', by rw [h1, h1']⟩)

/-- **C20** (partial) The two listing operations, given enough steps, return precisely the stored objects of the
bucket whose key starts with the prefix, each once, with its size, in strictly ascending byte order (`<` on
lists of bytes is the lexicographic order); both return the same and KeyCount is the number of entries.
The keys are those that are plain paths. Missing from the full property: an object put under a key that is
not a plain path (`d//x`) is listed under the plain path it is stored at, see `C20_listing_fails`. -/
theorem C20_listing_partial {b : Bytes} {fs : FS} (hw : WF fs) (hl : Listable cfg fs b) (pfx : Option Bytes)
    {fuel : Nat} (hf : fs.nodes.length < fuel) :
    ∃ l : List (Bytes × Nat),
      answer cfg ext (.listObjects b pfx fuel) fs = .ok (.objects l) ∧
      answer cfg ext (.listObjectsV2 b pfx fuel) fs = .ok (.objectsV2 l.length l) ∧
      l.Pairwise (fun x y => x.1 < y.1) ∧
      ∀ k n, (k, n) ∈ l ↔
        ∃ cs c, PlainKey k cs ∧ stored cfg fs b k = some c ∧ n = c.length ∧ matchesPrefix pfx k := by
  have hlen : ∀ q i, bucketDir cfg b <+: q → fs.lookup q = some (.file i) → (fs.data i).length ≤ i64Max := by
    intro q i hq hi
    have hne : q ≠ [] := by rintro rfl; rw [lookup_nil] at hi; cases hi
    have hm : (q, Node.file i) ∈ fs.sub (bucketDir cfg b) := by
      refine mem_sub.mpr ⟨mem_of_lookup hne hi, hq, ?_⟩
      rintro rfl; rw [hl.dir] at hi; cases hi
    obtain ⟨cs, h1, h2, h3⟩ := file_plain hw hm
    refine hl.size _ _ _ h2 ?_
    rw [stored_plain hl.legal h2, contentAt, ← h1, h3]
  obtain ⟨l0, hrun, hperm⟩ := listLoop_run (cfg := cfg) hw (pfx := pfx) hlen fuel [bucketDir cfg b]
    (by intro d hd; simp at hd; rw [hd]; exact ⟨List.prefix_refl _, hl.dir⟩)
    (by
      have : (([bucketDir cfg b].flatMap fs.sub).filter isDirNode).length ≤ fs.nodes.length := by
        simp only [List.flatMap_cons, List.flatMap_nil, List.append_nil]
        exact Nat.le_trans (List.length_filter_le _ _) (List.length_filter_le _ _)
      simp only [List.length_cons, List.length_nil]; omega)
  simp only [List.flatMap_cons, List.flatMap_nil, List.append_nil] at hperm
  have hsp := isort_perm objLe l0
  have hcount : l0.length ≤ i64Max := by
    rw [hperm.length_eq]
    refine Nat.le_trans (List.length_filterMap_le _ _) (Nat.le_trans (List.length_filter_le _ _) hl.count)
  have hbp : bucketPath cfg b = some ⟨bucketDir cfg b, false⟩ := bucketPath_legal cfg hl.legal
  refine ⟨isort objLe l0, ?_, ?_, ?_, ?_⟩
  · refine run_map_fst.mpr ⟨_, ?_, rfl⟩
    simp only [listObjects, bind_eq, pure_eq, hbp, run_orInternal_some]
    rw [run_bind, hrun]; rfl
  · refine run_map_fst.mpr ⟨(l0.length, isort objLe l0), ?_, ?_⟩
    · simp only [listObjectsV2, bind_eq, pure_eq, hbp, run_orInternal_some]
      rw [run_bind, hrun]
      simp [Outcome.andThen, hcount]
    · simp only [hsp.length_eq]
  · have hs := isort_sorted (le := objLe) (fun a b c => bytesLe_trans a.1 b.1 c.1) (fun a b => bytesLe_total a.1 b.1) l0
    have hn : ((isort objLe l0).map (·.1)).Nodup :=
      ((hsp.trans hperm).map (·.1)).nodup_iff.mpr (entries_keys_nodup hw hl)
    have hn' : (isort objLe l0).Pairwise fun a b => a.1 ≠ b.1 := List.pairwise_map.mp hn
    refine List.Pairwise.imp₂ ?_ hs hn'
    intro x y h1 h2
    rcases bytesLe_iff.mp h1 with h | h
    · exact bytesCmp_lt_iff.mp h
    · exact absurd h h2
  · intro k n
    rw [(hsp.trans hperm).mem_iff]
    exact entry_mem hw hl

/-- a bucket all of whose files pass the (computable) check is listable -/
def listableCheck (cfg : Cfg) (fs : FS) (b : Bytes) : Bool :=
  checkBucketName b && (fs.lookup (bucketDir cfg b) == some .dir) && decide (fs.nodes.length ≤ i64Max) &&
    fs.nodes.all fun e =>
      !((bucketDir cfg b).isPrefixOf e.1) || match e.2 with
        | .dir => true
        | .file i => utf8Valid (joinWith 47 (e.1.drop (bucketDir cfg b).length)) && decide ((fs.data i).length ≤ i64Max)

theorem listable_of {fs : FS} {b : Bytes} (h : listableCheck cfg fs b = true) : Listable cfg fs b := by
  simp only [listableCheck, Bool.and_eq_true, List.all_eq_true, decide_eq_true_eq, beq_iff_eq] at h
  obtain ⟨⟨⟨h1, h2⟩, h3⟩, h4⟩ := h
  have key : ∀ k cs i, PlainKey k cs → fs.lookup (cfg.root ++ b :: cs) = some (.file i) →
      utf8Valid k = true ∧ (fs.data i).length ≤ i64Max := by
    intro k cs i hk hi
    have := h4 _ (mem_of_lookup (by simp) hi)
    have hp : (bucketDir cfg b).isPrefixOf (cfg.root ++ b :: cs) = true := isPrefixOf_iff.mpr ⟨cs, by simp [bucketDir]⟩
    have hd : (cfg.root ++ b :: cs).drop (bucketDir cfg b).length = cs := by
      rw [show cfg.root ++ b :: cs = bucketDir cfg b ++ cs by simp [bucketDir]]; simp
    simp only [hp, Bool.not_true, Bool.false_or, Bool.and_eq_true, decide_eq_true_eq, hd] at this
    exact ⟨by rw [hk.text]; exact this.1, this.2⟩
  refine ⟨h1, h2, ?_, ?_, h3⟩
  · intro k cs hk hs
    rw [stored_plain h1 hk, contentAt] at hs
    split at hs
    · rename_i i hi; exact (key k cs i hk hi).1
    · exact absurd rfl hs
  · intro k cs c hk hs
    rw [stored_plain h1 hk, contentAt] at hs
    split at hs
    · rename_i i hi; cases hs; exact (key k cs i hk hi).2
    · cases hs

/-- the sample installation with a nested object -/
def Sample.fs3 : FS := after Sample.cfg Sample.ext (.putObject Sample.put3) Sample.fs

example : Listable Sample.cfg Sample.fs3 b!"aaa" ∧
    answer Sample.cfg Sample.ext (.listObjects b!"aaa" none 20) Sample.fs3
      = .ok (.objects [(b!"d/e", 7), (b!"x", 5)]) ∧
    answer Sample.cfg Sample.ext (.listObjectsV2 b!"aaa" (some b!"d/") 20) Sample.fs3
      = .ok (.objectsV2 1 [(b!"d/e", 7)]) :=
  ⟨listable_of (by decide +kernel), by decide +kernel, by decide +kernel⟩

/-- C20 fails: an object put under the key `d//x` is not listed under this key, and the objects stored below
the prefix it was put under are not found. -/
theorem C20_listing_fails :
    ∃ (cfg : Cfg) (ext : Ext) (fs : FS) (i : PutInput) (a : Answer), WF fs ∧ ObjectPut i ∧
      answer cfg ext (.putObject i) fs = .ok a ∧
      answer cfg ext (.headObject i.bucket i.key) (after cfg ext (.putObject i) fs) = .ok (.head 3 none) ∧
      (∃ l, answer cfg ext (.listObjects i.bucket none 20) (after cfg ext (.putObject i) fs) = .ok (.objects l) ∧
        ∀ n, (i.key, n) ∉ l) ∧
      answer cfg ext (.listObjects i.bucket (some i.key) 20) (after cfg ext (.putObject i) fs) = .ok (.objects []) :=
  ⟨Sample.cfg, Sample.ext, Sample.fs, samplePut b!"aaa" b!"d//x" b!"one", .etag (some b!"\"md5:3\""), Sample.fs_wf,
    ⟨by decide +kernel, by decide +kernel⟩, by decide +kernel, by decide +kernel,
    ⟨[(b!"d/x", 3), (b!"x", 5)], by decide +kernel, by simp [samplePut]⟩, by decide +kernel⟩

/-! ### C16 -/

theorem contentAt_erase {fs : FS} {p q : Path} : contentAt (fs.erase p) q = if q = p then none else contentAt fs q := by
  simp only [contentAt, lookup_erase, data_erase]
  by_cases hq : q = []
  · subst hq
    simp [lookup_nil]
  · by_cases h : q = p
    · simp [h]
    · simp [hq, h]

/-- the file tree after a successful DELETE -/
theorem delete_erases {b k : Bytes} (hk : endsWithByte k 47 = false) {fs : FS} {a : Answer}
    (h : answer cfg ext (.deleteObject b k) fs = .ok a) :
    ∃ p i, objectPath cfg b k = some p ∧ fs.at p = some (.file i) ∧
      after cfg ext (.deleteObject b k) fs = fs.erase p.comps := by
  rw [after_del]
  have h1 := (answer_del.mp h).1
  rw [deleteObject_run hk] at h1 ⊢
  cases hp : objectPath cfg b k with
  | none => rw [hp] at h1; cases h1
  | some p =>
    rw [hp] at h1
    simp only [unlinked] at h1 ⊢
    cases ha : fs.at p with
    | none => rw [ha] at h1; cases h1
    | some n =>
      cases n with
      | dir => rw [ha] at h1; cases h1
      | file i => exact ⟨p, i, rfl, ha, rfl⟩

theorem Spec.Listable.erase {fs : FS} (hw : WF fs) {b : Bytes} (h : Listable cfg fs b) {p : Path} {i : Ino}
    (hp : fs.lookup p = some (.file i)) : Listable cfg (fs.erase p) b := by
  refine ⟨h.legal, ?_, ?_, ?_, ?_⟩
  · have hd := h.dir
    simp only [IsDir, lookup_erase] at hd ⊢
    rw [if_neg (by simp [bucketDir]), if_neg]
    · exact hd
    · rintro rfl; rw [hd] at hp; cases hp
  · intro k cs hk hs
    refine h.text k cs hk ?_
    rw [stored_plain h.legal hk] at hs ⊢
    rw [contentAt_erase] at hs
    split at hs
    · exact absurd rfl hs
    · exact hs
  · intro k cs c hk hs
    refine h.size k cs c hk ?_
    rw [stored_plain h.legal hk] at hs ⊢
    rw [contentAt_erase] at hs
    split at hs
    · cases hs
    · exact hs
  · exact Nat.le_trans (List.length_filter_le _ _) h.count

/-- **C16** (partial) After a successful DeleteObject GET and HEAD answer NoSuchKey, and no listing shows the key,
while every other listed object is still listed.
Missing from the full property: keys that end in `/`, for which it is false, see
`C16_deleted_gone_fails`. -/
theorem C16_deleted_gone_partial {b k : Bytes} (hk : endsWithByte k 47 = false) {fs : FS} (hw : WF fs) {a : Answer}
    (h : answer cfg ext (.deleteObject b k) fs = .ok a) :
    (∀ r w, (∀ s, r = some s → Range.fromHeaderStr s ≠ none) →
      answer cfg ext (.getObject b k r w) (after cfg ext (.deleteObject b k) fs) = .err .NoSuchKey) ∧
    answer cfg ext (.headObject b k) (after cfg ext (.deleteObject b k) fs) = .err .NoSuchKey ∧
    ∀ b', Listable cfg fs b' → ∀ pfx fuel, fs.nodes.length < fuel →
      ∃ l l', answer cfg ext (.listObjects b' pfx fuel) fs = .ok (.objects l) ∧
        answer cfg ext (.listObjects b' pfx fuel) (after cfg ext (.deleteObject b k) fs) = .ok (.objects l') ∧
        answer cfg ext (.listObjectsV2 b' pfx fuel) (after cfg ext (.deleteObject b k) fs)
          = .ok (.objectsV2 l'.length l') ∧
        (b' = b → ∀ n, (k, n) ∉ l') ∧
        (∀ x, x ∈ l' → x ∈ l) ∧
        (∀ cs, checkBucketName b = true → PlainKey k cs → ∀ k' n, (b', k') ≠ (b, k) → (k', n) ∈ l → (k', n) ∈ l') := by
  obtain ⟨p, i, hp, ha, he⟩ := delete_erases hk h
  have hg : ∀ r w, _ := fun r w => get_absent (ext := ext) hp (at_none (erase_gone ha)) r w
  rw [he]
  refine ⟨?_, (hg none fun _ => 0).2, ?_⟩
  · intro r w hr
    rw [(hg r w).1, if_neg]
    cases r with
    | none => simp [rangeOf]
    | some s => simpa [rangeOf] using hr s rfl
  · intro b' hl pfx fuel hf
    have hlk := (at_file ha).1
    have hl' := hl.erase hw hlk
    have hw' : WF (fs.erase p.comps) := he ▸ wf_after hw
    have hf' : (fs.erase p.comps).nodes.length < fuel := Nat.lt_of_le_of_lt (List.length_filter_le _ _) hf
    obtain ⟨l, h1, _, _, h2⟩ := C20_listing_partial (ext := ext) hw hl pfx hf
    obtain ⟨l', h1', h3', _, h2'⟩ := C20_listing_partial (ext := ext) hw' hl' pfx hf'
    refine ⟨l, l', h1, h1', h3', ?_, ?_, ?_⟩
    · rintro rfl n hm
      obtain ⟨cs, c, hkk, hs, _, _⟩ := (h2' k n).mp hm
      rw [stored_plain hl.legal hkk, contentAt_erase] at hs
      rw [objectPath_plain cfg hl.legal hkk] at hp
      cases hp
      simp at hs
    · rintro ⟨k', n⟩ hm
      obtain ⟨cs, c, hkk, hs, hn, hpf⟩ := (h2' k' n).mp hm
      refine (h2 k' n).mpr ⟨cs, c, hkk, ?_, hn, hpf⟩
      rw [stored_plain hl.legal hkk] at hs ⊢
      rw [contentAt_erase] at hs
      split at hs
      · cases hs
      · exact hs
    · intro cs hb hkp k' n hne hm
      obtain ⟨cs', c, hkk, hs, hn, hpf⟩ := (h2 k' n).mp hm
      refine (h2' k' n).mpr ⟨cs', c, hkk, ?_, hn, hpf⟩
      rw [stored_plain hl.legal hkk] at hs ⊢
      rw [objectPath_plain cfg hb hkp] at hp
      cases hp
      rw [contentAt_erase, if_neg]
      · exact hs
      · intro e
        have := plain_path_inj hkk hkp e
        exact hne (by rw [this.1, this.2])

example : answer Sample.cfg Sample.ext (.deleteObject b!"aaa" b!"d/e") Sample.fs3 = .ok .done ∧
    Listable Sample.cfg Sample.fs3 b!"aaa" ∧
    answer Sample.cfg Sample.ext (.listObjects b!"aaa" none 20)
      (after Sample.cfg Sample.ext (.deleteObject b!"aaa" b!"d/e") Sample.fs3) = .ok (.objects [(b!"x", 5)]) :=
  ⟨by decide +kernel, listable_of (by decide +kernel), by decide +kernel⟩

/-- C16 fails: deleting the key `d/` of a folder that is not empty is answered with success, and HEAD still finds
it. -/
theorem C16_deleted_gone_fails :
    ∃ (cfg : Cfg) (ext : Ext) (fs : FS) (b k : Bytes), WF fs ∧ checkBucketName b = true ∧
      answer cfg ext (.deleteObject b k) fs = .ok .done ∧
      answer cfg ext (.headObject b k) (after cfg ext (.deleteObject b k) fs) = .ok (.head 4096 none) :=
  ⟨Sample.cfg, Sample.ext, Sample.fs3, b!"aaa", b!"d/", wf_after Sample.fs_wf, by decide +kernel,
    by decide +kernel, by decide +kernel⟩

/-! ### C21 -/

theorem utf8Step_pos {a : UInt8} {r : Bytes} : utf8Step (a :: r) ≠ .inl 0 ∧ utf8Step (a :: r) ≠ .inr 0 := by
  simp only [utf8Step]
  split
  · constructor <;> simp
  · generalize (@ite (Option (UInt8 × UInt8 × Nat)) _ (_) _ _) = info
    rcases info with _ | ⟨lo, hi, n⟩
    · constructor <;> simp
    · cases r with
      | nil => constructor <;> simp
      | cons c r =>
        dsimp only
        repeat' split
        all_goals constructor <;> simp only [ne_eq, Sum.inl.injEq, Sum.inr.injEq, reduceCtorEq, not_false_eq_true] <;> omega

theorem utf8Valid_ascii {s : Bytes} (h : ∀ b ∈ s, b < 128) : utf8Valid s = true := by
  induction s with
  | nil => simp [utf8Valid]
  | cons a r ih =>
    rw [utf8Valid]
    have : utf8Step (a :: r) = .inl 1 := by
      simp [utf8Step, h a (by simp)]
    simp [this, ih fun b hb => h b (by simp [hb])]

theorem utf8Lossy_ascii {s : Bytes} (h : ∀ b ∈ utf8Lossy s, b < 128) : utf8Lossy s = s := by
  induction hn : s.length using Nat.strongRecOn generalizing s with
  | _ n ih =>
    cases s with
    | nil => simp [utf8Lossy]
    | cons a r =>
      rw [utf8Lossy] at h ⊢
      cases hs : utf8Step (a :: r) with
      | inr m =>
        rw [hs] at h
        have h0 : m ≠ 0 := by rintro rfl; exact utf8Step_pos.2 hs
        simp only [h0, if_false] at h
        have := h 239 (by simp)
        exact absurd this (by decide)
      | inl m =>
        rw [hs] at h
        have h0 : m ≠ 0 := by rintro rfl; exact utf8Step_pos.1 hs
        simp only [h0, if_false] at h ⊢
        rw [ih ((a :: r).drop m).length (by simp at hn ⊢; omega)
          (fun b hb => h b (List.mem_append_right _ hb)) rfl, List.take_append_drop]

theorem legal_ascii {n : Bytes} (h : checkBucketName (utf8Lossy n) = true) : utf8Lossy n = n := by
  refine utf8Lossy_ascii fun b hb => ?_
  rcases ((C02_bucket_name_rule _).mp h).chars b hb with (⟨_, h⟩ | ⟨_, h⟩) | h | h
  · exact UInt8.lt_of_le_of_lt h (by decide)
  · exact UInt8.lt_of_le_of_lt h (by decide)
  · rw [h]; decide
  · rw [h]; decide

/-- the bucket name a directory entry stands for -/
def bucketOf (e : Path × Node) : Option Bytes :=
  if e.2 == .dir && checkBucketName (e.1.getLastD []) then some (e.1.getLastD []) else none

theorem listBucketsLoop_run {fs : FS} (ks : List (Path × Node))
    (hk : ∀ e ∈ ks, (∃ c, e.1 = cfg.root ++ [c]) ∧ fs.lookup e.1 = some e.2) :
    run cfg (listBucketsLoop cfg (dirEntries ks)) fs = (.ok (ks.filterMap bucketOf), fs) := by
  induction ks with
  | nil => rfl
  | cons e ks ih =>
    have ih := ih (fun e he => hk e (by simp [he]))
    obtain ⟨⟨c, hc⟩, hl⟩ := hk e (by simp)
    obtain ⟨p, n⟩ := e
    simp only at hc hl
    subst hc
    have hg : (cfg.root ++ [c]).getLastD [] = c := by simp
    have hd : dirEntries ((cfg.root ++ [c], n) :: ks) = (c, n == .dir) :: dirEntries ks := by simp [dirEntries]
    rw [hd]
    simp only [listBucketsLoop, bind_eq, pure_eq]
    by_cases hx : n = .dir ∧ checkBucketName (utf8Lossy c) = true
    · obtain ⟨rfl, h2⟩ := hx
      have hlc := legal_ascii h2
      rw [hlc] at h2 ⊢
      simp only [h2, beq_self_eq_true, and_self, if_true]
      rw [run_stat_bind, at_false, hl]
      simp only [Option.map_some, run_orInternal_some]
      rw [run_bind, ih]
      simp [Outcome.andThen, bucketOf, h2]
    · have hb : bucketOf (cfg.root ++ [c], n) = none := by
        simp only [bucketOf, hg]
        split
        · rename_i h
          simp only [Bool.and_eq_true, beq_iff_eq] at h
          refine absurd ⟨h.1, ?_⟩ hx
          have : utf8Lossy c = c := by
            refine utf8Lossy_valid ?_
            exact utf8Valid_ascii fun b hb => by
              rcases ((C02_bucket_name_rule _).mp h.2).chars b hb with (⟨_, h⟩ | ⟨_, h⟩) | h | h
              · exact UInt8.lt_of_le_of_lt h (by decide)
              · exact UInt8.lt_of_le_of_lt h (by decide)
              · rw [h]; decide
              · rw [h]; decide
          rw [this]; exact h.2
        · rfl
      rw [if_neg (by simpa using hx), ih, List.filterMap_cons, hb]

/-- **C21** ListBuckets returns exactly the directories of the root that have a legal bucket name, each once. -/
theorem C21_list_buckets {fs : FS} (hw : WF fs) (hr : IsDir fs cfg.root) :
    ∃ l, answer cfg ext .listBuckets fs = .ok (.buckets l) ∧ l.Nodup ∧
      ∀ b, b ∈ l ↔ LegalBucket b ∧ IsDir fs (bucketDir cfg b) := by
  have hkid : ∀ e ∈ fs.kids cfg.root, (∃ c, e.1 = cfg.root ++ [c]) ∧ fs.lookup e.1 = some e.2 := by
    intro e he
    obtain ⟨h1, h2⟩ := mem_kids.mp he
    exact ⟨h2, (lookup_iff_mem hw.nodup (hw.names e h1).1 e.2).mpr h1⟩
  refine ⟨(fs.kids cfg.root).filterMap bucketOf, ?_, ?_, ?_⟩
  · refine run_map_fst.mpr ⟨_, ?_, rfl⟩
    simp only [listBuckets, bind_eq, pure_eq]
    rw [run_call_bind, exec_readDir hr]
    simp only [run_orInternal_some, listBucketsLoop_run _ hkid]
  · have hn : ((fs.kids cfg.root).map (·.1)).Nodup := hw.nodup.sublist (List.Sublist.map _ List.filter_sublist)
    generalize fs.kids cfg.root = l at hkid hn
    induction l with
    | nil => exact List.nodup_nil
    | cons e l ih =>
      rw [List.map_cons, List.nodup_cons] at hn
      have ih := ih (fun e he => hkid e (by simp [he])) hn.2
      rw [List.filterMap_cons]
      cases hx : bucketOf e with
      | none => exact ih
      | some x =>
        rw [List.nodup_cons]
        refine ⟨?_, ih⟩
        intro hm
        obtain ⟨e', he', hy⟩ := List.mem_filterMap.mp hm
        obtain ⟨⟨c, hc⟩, _⟩ := hkid e (by simp)
        obtain ⟨⟨c', hc'⟩, _⟩ := hkid e' (by simp [he'])
        simp only [bucketOf, hc, hc'] at hx hy
        split at hx
        · split at hy
          · simp at hx hy
            refine hn.1 (List.mem_map.mpr ⟨e', he', ?_⟩)
            rw [hc, hc', hx, hy]
          · cases hy
        · cases hx
  · intro b
    rw [List.mem_filterMap, ← C02_bucket_name_rule]
    constructor
    · rintro ⟨e, he, hx⟩
      obtain ⟨⟨c, hc⟩, hl⟩ := hkid e he
      simp only [bucketOf, hc] at hx
      split at hx
      · rename_i h
        simp at hx h
        subst hx
        refine ⟨h.2, ?_⟩
        rw [IsDir, bucketDir, ← hc, hl, h.1]
      · cases hx
    · rintro ⟨h1, h2⟩
      refine ⟨(bucketDir cfg b, .dir), mem_kids.mpr ⟨mem_of_lookup (by simp [bucketDir]) h2, b, rfl⟩, ?_⟩
      simp [bucketOf, bucketDir, h1]

example : IsDir Sample.fs Sample.cfg.root ∧
    answer Sample.cfg Sample.ext .listBuckets Sample.fs = .ok (.buckets [b!"bbb", b!"aaa"]) :=
  ⟨by unfold IsDir; decide +kernel, by decide +kernel⟩

end S3
