import Verif.Props.Confine
import Verif.Spec.Address
/-! C04, C05, C06: which files belong to an address. -/
namespace S3
open Spec

theorem objP_inside {cfg : Cfg} {b k : Bytes} (hb : checkBucketName b = true) (hk : StaysInside k)
    {q : Path} (h : objP cfg b k q) : bucketDir cfg b <+: q := by
  obtain ⟨p, hp, rfl⟩ := h
  obtain ⟨s, hs⟩ := objectPath_relative cfg hb hk.relative hk.noUp
  rw [hs] at hp
  cases hp
  exact ⟨keyComps k, by simp [bucketDir]⟩

theorem bucketP_eq {cfg : Cfg} {b : Bytes} (hb : checkBucketName b = true) {q : Path}
    (h : bucketP cfg b q) : q = bucketDir cfg b := by
  obtain ⟨p, hp, rfl⟩ := h
  rw [bucketPath_legal cfg hb] at hp
  cases hp; rfl

theorem partP_eq {cfg : Cfg} {u : Bytes} (hu : (47 : UInt8) ∉ u) {n : Int} {q : Path}
    (h : partP cfg u n q) : q = cfg.root ++ [partName u n] := by
  obtain ⟨p, hp, rfl⟩ := h
  rw [partPath_eq cfg hu] at hp
  cases hp; rfl

theorem rooted_of {cfg : Cfg} {Z : Path → Bool} {fs : FS} (hw : WF fs) (hr : IsDir fs cfg.root)
    (h : ∀ z, Z z = true → ∃ x t, z = cfg.root ++ x :: t ∧ ∀ t', t' <+: t → Z (cfg.root ++ x :: t') = true) :
    RegionRooted Z fs := by
  intro q hq ⟨z, hz, hqz⟩
  obtain ⟨x, t, rfl, ht⟩ := h z hz
  rcases List.prefix_or_prefix_of_prefix hqz (List.prefix_append cfg.root (x :: t)) with h1 | h1
  · by_cases he : q = cfg.root
    · rw [he]; exact hr
    · exact hw.above hr h1 he
  · obtain ⟨u, rfl⟩ := h1
    rw [List.prefix_append_right_inj] at hqz
    cases u with
    | nil => rw [List.append_nil]; exact hr
    | cons y u =>
      obtain ⟨rfl, hu⟩ := List.cons_prefix_cons.mp hqz
      rw [ht u hu] at hq; cases hq

theorem confined_of {α : Type} {cfg : Cfg} {p : Prog α} {Z : Path → Bool} {fs : FS} (hw : WF fs)
    (hs : Safe (regionOk Z) (fun _ => True) p)
    (hz : ∀ fs, WF fs → IsDir fs cfg.root → RegionRooted Z fs) (hr : IsDir fs cfg.root) :
    Confined cfg p Z fs := by
  have := hs.region cfg hw (hz fs hw hr)
  refine ⟨?_, ?_⟩
  · intro q hq
    have hz : (!Z q) = true := by simp [hq]
    exact ⟨(this.1.lookup (Z := fun q => !Z q) hz).symm, content_of_agree hw this.1 hz⟩
  · intro fs2 hw2 hr2 hab
    have h2 := this.2 fs2 hw2 (hz fs2 hw2 hr2) hab
    exact ⟨h2.1.symm, h2.2⟩

theorem entitled_rooted (cfg : Cfg) {o : Op} (hd : Decent o) :
    ∀ z, entitled cfg o z = true → ∃ x t, z = cfg.root ++ x :: t ∧
      ∀ t', t' <+: t → entitled cfg o (cfg.root ++ x :: t') = true := by
  have hb : ∀ {b z}, below (bucketDir cfg b) z = true →
      ∃ x t, z = cfg.root ++ x :: t ∧ ∀ t', t' <+: t → below (bucketDir cfg b) (cfg.root ++ x :: t') = true := by
    intro b z h
    obtain ⟨t, rfl⟩ := isPrefixOf_iff.mp h
    refine ⟨b, t, by simp [bucketDir], ?_⟩
    intro t' _
    exact isPrefixOf_iff.mpr ⟨t', by simp [bucketDir]⟩
  have h1 : ∀ {z : Path} {m : Bytes}, (z == cfg.root ++ [m]) = true →
      ∃ x t, z = cfg.root ++ x :: t ∧ ∀ t', t' <+: t → (cfg.root ++ x :: t' == cfg.root ++ [m]) = true := by
    intro z m h
    refine ⟨m, [], by simpa using h, ?_⟩
    intro t' ht
    simp at ht; subst ht; simp
  intro z hz
  cases o with
  | createBucket b => exact hb hz
  | deleteBucket b => exact hb hz
  | getBucketLocation b => exact hb hz
  | headBucket b => exact hb hz
  | listObjects b => exact hb hz
  | listObjectsV2 b => exact hb hz
  | deleteObject b => exact hb hz
  | deleteObjects b => exact hb hz
  | uploadPart u n b => exact h1 hz
  | createMultipartUpload u => cases hz
  | listBuckets => exact hd.elim
  | getObject b k =>
    simp only [entitled, Bool.or_eq_true] at hz ⊢
    rcases hz with h | h
    · obtain ⟨x, t, e, h⟩ := hb h; exact ⟨x, t, e, fun t' ht => Or.inl (h t' ht)⟩
    · obtain ⟨x, t, e, h⟩ := h1 h; exact ⟨x, t, e, fun t' ht => Or.inr (h t' ht)⟩
  | headObject b k =>
    simp only [entitled, Bool.or_eq_true] at hz ⊢
    rcases hz with h | h
    · obtain ⟨x, t, e, h⟩ := hb h; exact ⟨x, t, e, fun t' ht => Or.inl (h t' ht)⟩
    · obtain ⟨x, t, e, h⟩ := h1 h; exact ⟨x, t, e, fun t' ht => Or.inr (h t' ht)⟩
  | putObject i =>
    simp only [entitled, Bool.or_eq_true] at hz ⊢
    rcases hz with h | h
    · obtain ⟨x, t, e, h⟩ := hb h; exact ⟨x, t, e, fun t' ht => Or.inl (h t' ht)⟩
    · obtain ⟨x, t, e, h⟩ := h1 h; exact ⟨x, t, e, fun t' ht => Or.inr (h t' ht)⟩
  | copyObject b k s =>
    simp only [entitled, Bool.or_eq_true] at hz ⊢
    rcases hz with (h | h) | h
    · obtain ⟨x, t, e, h⟩ := hb h; exact ⟨x, t, e, fun t' ht => Or.inl (Or.inl (h t' ht))⟩
    · obtain ⟨x, t, e, h⟩ := h1 h; exact ⟨x, t, e, fun t' ht => Or.inl (Or.inr (h t' ht))⟩
    · cases hs : copySourceFromHeader s with
      | error e => rw [hs] at h; cases h
      | ok r =>
        rw [hs] at h
        simp only [Bool.or_eq_true] at h ⊢
        rcases h with h | h
        · obtain ⟨x, t, e, h⟩ := hb h; exact ⟨x, t, e, fun t' ht => Or.inr (Or.inl (h t' ht))⟩
        · obtain ⟨x, t, e, h⟩ := h1 h; exact ⟨x, t, e, fun t' ht => Or.inr (Or.inr (h t' ht))⟩
  | completeMultipartUpload b k u parts =>
    simp only [entitled, Bool.or_eq_true, List.any_eq_true] at hz ⊢
    rcases hz with h | ⟨n, hn, h⟩
    · obtain ⟨x, t, e, h⟩ := hb h; exact ⟨x, t, e, fun t' ht => Or.inl (h t' ht)⟩
    · cases n with
      | none => cases h
      | some n =>
        obtain ⟨x, t, e, h⟩ := h1 h
        exact ⟨x, t, e, fun t' ht => Or.inr ⟨some n, hn, h t' ht⟩⟩

theorem entitled_ok (cfg : Cfg) {o : Op} (hd : Decent o) (c : Call) (h : (opPerm cfg o).ok c) :
    regionOk (entitled cfg o) c := by
  have Z : ∀ {b q}, bucketDir cfg b <+: q → below (bucketDir cfg b) q = true := fun h => isPrefixOf_iff.mpr h
  have snoc : ∀ {b q} (c : Bytes), bucketDir cfg b <+: q → below (bucketDir cfg b) (q ++ [c]) = true :=
    fun c h => isPrefixOf_iff.mpr (h.trans (List.prefix_append _ _))
  have hm : ∀ {b k q}, metaP cfg b k q → (q == metaFile cfg b k) = true := by
    intro b k q h; rw [metaP] at h; simp [h, metaFile]
  refine perm_region (π := opPerm cfg o) ?_ ?_ ?_ ?_ ?_ ?_ ?_ ?_ c h <;> intro q hq <;>
    cases o <;> simp only [opPerm] at hq <;> simp only [entitled, Decent] at hd ⊢
  case refine_1.putObject i =>
    obtain ⟨q', h', hp⟩ := hq
    refine Or.inr ⟨q', by simp [Z (objP_inside hd.1 hd.2 h')], hp.trans ?_⟩
    split
    · exact List.prefix_refl _
    · exact List.dropLast_prefix _
  case refine_3.putObject i =>
    obtain ⟨q', h', hp⟩ := hq
    refine Or.inr ⟨q', by simp [Z (objP_inside hd.1 hd.2 h')], hp.trans ?_⟩
    split
    · exact List.prefix_refl _
    · exact List.dropLast_prefix _
  case refine_2.copyObject b k s =>
    obtain ⟨sb, sk, hs, h'⟩ := hq
    have := hd.2.2 sb sk hs
    rw [hs]
    rcases h' with h' | h'
    · simp [Z (objP_inside this.1 this.2 h')]
    · simp [hm h']
  case refine_4.copyObject b k s =>
    rcases hq with h' | h'
    · simp [Z (objP_inside hd.1 hd.2.1 h')]
    · simp [hm h']
  case refine_2.completeMultipartUpload b k u parts =>
    rcases hq with h' | ⟨l, n, rfl, hn, h'⟩
    · simp [Z (objP_inside hd.1 hd.2.1 h')]
    · have := partP_eq hd.2.2 h'
      simp only [Bool.or_eq_true, List.any_eq_true]
      exact Or.inr ⟨some n, hn, by simp [this]⟩
  case refine_5.completeMultipartUpload b k u parts =>
    obtain ⟨l, n, rfl, hn, h'⟩ := hq
    have := partP_eq hd.2.2 h'
    simp only [Bool.or_eq_true, List.any_eq_true]
    exact Or.inr ⟨some n, hn, by simp [this]⟩
  all_goals first
    | exact hq.elim
    | exact hd.elim
    | (rw [bucketP_eq hd hq]; exact Z (List.prefix_refl _))
    | (rw [bucketP_eq hd hq]; exact Or.inl (Z (List.prefix_refl _)))
    | (rw [bucketP_eq hd hq]; exact fun r hr => Z hr)
    | (rcases hq with h' | h' <;> simp [Z (objP_inside hd.1 hd.2 ‹_›), hm ‹_›]; done)
    | (rcases hq with h' | h'
       · simp [Z (objP_inside hd.1 hd.2 h')]
       · simp [hm h'])
    | (obtain ⟨k, hk, h'⟩ := hq; exact Z (objP_inside hd.1 (hd.2 k hk) h'))
    | (obtain ⟨q', h', hp⟩ := hq; rw [bucketP_eq hd h'] at hp; exact Z hp)
    | (obtain ⟨q', h', hp⟩ := hq; rw [bucketP_eq hd h'] at hp; exact ⟨Z hp, fun c => snoc c hp⟩)
    | exact Z (objP_inside hd.1 hd.2 hq.2)
    | exact ⟨Z (objP_inside hd.1 hd.2 hq.2), fun c => snoc c (objP_inside hd.1 hd.2 hq.2)⟩
    | (rw [partP_eq hd hq]; simp)
    | (rcases hq.2 with h' | h'
       · simp [Z (objP_inside hd.1 hd.2 h')]
       · simp [hm h'.2])
    | simp [Z (objP_inside hd.1 hd.2.1 hq)]

/-- **C04** (partial) A request whose keys are relative and have no `..` component, and whose upload id
has no `/`, reads and changes only files below the bucket directories it names, the metadata files of
the objects it names and the part files of the upload it names.
Missing from the full property: keys with `..` components or a leading `/`, for which it is false,
see `C04_bucket_isolation_fails`. -/
theorem C04_bucket_isolation_partial (cfg : Cfg) (ext : Ext) (o : Op) (hd : Decent o) (fs : FS) (hw : WF fs)
    (hr : IsDir fs cfg.root) : Confined cfg (opProg cfg ext o) (entitled cfg o) fs :=
  confined_of hw ((op_safe cfg ext o).mono (entitled_ok cfg hd) (fun _ h => h))
    (fun _ hw hr => rooted_of hw hr (entitled_rooted cfg hd)) hr

theorem sample_root : IsDir Sample.fs Sample.cfg.root := by unfold IsDir; decide +kernel

def samplePut (b k c : Bytes) : PutInput :=
  { bucket := b, key := k, body := some [some c], contentLength := none, metadata := none, storageClass := none }

example : Decent (.putObject (samplePut b!"aaa" b!"d/./e//f" b!"new")) ∧ WF Sample.fs ∧
    IsDir Sample.fs Sample.cfg.root :=
  ⟨⟨by decide +kernel, by decide +kernel, by decide +kernel⟩, Sample.fs_wf, sample_root⟩

/-- C04 fails for keys with `..`: a PUT that names bucket `aaa` replaces an object of bucket `bbb`, and
a GET that names bucket `aaa` reads it. -/
theorem C04_bucket_isolation_fails :
    ∃ (cfg : Cfg) (ext : Ext) (fs : FS) (i : PutInput) (q : Path), WF fs ∧ IsDir fs cfg.root ∧
      checkBucketName i.bucket = true ∧ checkKey i.key = true ∧
      (run cfg (putObject cfg ext i) fs).1 = .ok (some (quoted (ext.md5hex b!"evil"))) ∧
      ¬ Above (bucketDir cfg i.bucket) q ∧ q ≠ metaFile cfg i.bucket i.key ∧
      contentAt fs q = some b!"world!" ∧
      contentAt (run cfg (putObject cfg ext i) fs).2 q = some b!"evil" ∧
      (run cfg (opProg cfg ext (.getObject i.bucket i.key none (fun _ => 100))) fs).1
        = .ok (.object 6 none (quoted (ext.md5hex b!"world!")) (some b!"world!")) := by
  refine ⟨Sample.cfg, Sample.ext, Sample.fs, samplePut b!"aaa" b!"../bbb/y" b!"evil",
    [b!"srv", b!"bbb", b!"y"], Sample.fs_wf, sample_root, by decide +kernel, by decide +kernel,
    by decide +kernel, ?_, by decide +kernel, by decide +kernel, by decide +kernel, by decide +kernel⟩
  rintro ⟨r, hr⟩
  simp [bucketDir, Sample.cfg, samplePut] at hr

/-- **C05** (partial) Different plain addresses (legal bucket names, keys whose text is a path of plain
components) are stored at different paths, and none of these is the storage of user metadata.
Missing from the full property: other keys, for which it is false, see
`C05_distinct_storage_fails`. -/
theorem C05_distinct_storage_partial (cfg : Cfg) {b b' k k' : Bytes} {cs cs' : List Bytes}
    (hb : checkBucketName b = true) (hb' : checkBucketName b' = true) (hk : PlainKey k cs)
    (hk' : PlainKey k' cs') :
    ∃ p p', objectPath cfg b k = some p ∧ objectPath cfg b' k' = some p' ∧
      (p.comps = p'.comps → b = b' ∧ k = k') ∧
      (∀ b'' k'', p.comps ≠ metaFile cfg b'' k'') := by
  refine ⟨_, _, objectPath_plain cfg hb hk, objectPath_plain cfg hb' hk', ?_, ?_⟩
  · intro h
    simp only [List.append_cancel_left_eq, List.cons.injEq] at h
    exact ⟨h.1, by rw [hk.text, hk'.text, h.2]⟩
  · intro b'' k'' h
    simp only [metaFile, List.append_cancel_left_eq, List.cons.injEq] at h
    exact hk.nonempty h.2

example : PlainKey b!"dir/x y" [b!"dir", b!"x y"] ∧ PlainKey b!"..." [b!"..."] := by
  refine ⟨⟨by decide, by decide, ?_⟩, ⟨by decide, by decide, ?_⟩⟩ <;> intro c hc <;> simp at hc
  · rcases hc with rfl | rfl <;> exact ⟨by decide, by decide, by decide, by decide⟩
  · subst hc; exact ⟨by decide, by decide, by decide, by decide⟩

/-- C05 fails: the different keys `d/x` and `d//x` share their storage, so that a PUT to one is seen by a
GET of the other. -/
theorem C05_distinct_storage_fails :
    ∃ (cfg : Cfg) (ext : Ext) (fs : FS) (b k k' : Bytes), WF fs ∧ IsDir fs cfg.root ∧ k ≠ k' ∧
      checkBucketName b = true ∧ checkKey k = true ∧ checkKey k' = true ∧
      objectPath cfg b k = objectPath cfg b k' ∧
      (run cfg (opProg cfg ext (.headObject b k')) fs).1 = .err .NoSuchKey ∧
      (run cfg (opProg cfg ext (.headObject b k'))
        (run cfg (putObject cfg ext (samplePut b k b!"one")) fs).2).1 = .ok (.head 3 none) :=
  ⟨Sample.cfg, Sample.ext, Sample.fs, b!"aaa", b!"d/x", b!"d//x", Sample.fs_wf, sample_root,
    by decide, by decide +kernel, by decide +kernel, by decide +kernel, by decide +kernel,
    by decide +kernel, by decide +kernel⟩

/-- **C06** The metadata of different addresses (any buckets and keys) are kept in different files; none
of these is a bucket directory or the file of an uploaded part, whatever the upload id. -/
theorem C06_metadata_storage (cfg : Cfg) (b k : Bytes) :
    ∃ p, metadataPath cfg b k = some p ∧
      (∀ b' k' p', metadataPath cfg b' k' = some p' → p.comps = p'.comps → b = b' ∧ k = k') ∧
      (∀ b' p', checkBucketName b' = true → bucketPath cfg b' = some p' → p.comps ≠ p'.comps) ∧
      (∀ u n p', partPath cfg u n = some p' → p.comps ≠ p'.comps) := by
  refine ⟨_, metadataPath_eq cfg b k, ?_, ?_, ?_⟩
  · intro b' k' p' h' e
    rw [metadataPath_eq] at h'; cases h'
    simp only [List.append_cancel_left_eq, List.cons.injEq, and_true] at e
    exact metadataName_inj e
  · intro b' p' hb h' e
    rw [bucketPath_legal cfg hb] at h'; cases h'
    simp only [List.append_cancel_left_eq, List.cons.injEq, and_true] at e
    have hl := (C02_bucket_name_rule b').mp hb
    have h0 := hl.first
    rw [← e] at h0
    revert h0
    clear e
    simp [metadataName, LowerOrDigit]
  · intro u n p' h' e
    obtain ⟨q, l, d, hq, hd⟩ := partPath_last h'
    obtain ⟨t, ht⟩ := metadataName_last b k
    rw [hq, ht] at e
    have e2 := congrArg List.getLast? e
    simp only [List.getLast?_append, List.getLast?_singleton, Option.some_or, Option.some.injEq] at e2
    have e3 := congrArg List.getLast? e2
    simp only [List.getLast?_append, List.getLast?_singleton, Option.some_or, Option.some.injEq] at e3
    subst e3
    revert hd; decide

example : metadataPath Sample.cfg b!"aaa" b!"x" = some
    ⟨[b!"srv", b!".bucket-YWFh.object-eA.metadata.json"], false⟩ := by decide +kernel

end S3
