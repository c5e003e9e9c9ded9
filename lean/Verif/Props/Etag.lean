import Verif.Props.Multipart
/-!
# C13 (ETag) and C26 (DeleteObjects)
-/
namespace S3
open Spec

variable {cfg : Cfg} {ext : Ext}

/-! ### C13 -/

theorem complete_etag {b k u : Bytes} {parts : Option (List (Option Int))} {fs fs' : FS} {e : Bytes}
    (h : run cfg (completeMultipartUpload cfg ext b k u parts) fs = (.ok e, fs')) :
    ∃ c, stored cfg fs' b k = some c ∧ e = quoted (ext.md5hex c) := by
  simp only [completeMultipartUpload, bind_eq, pure_eq] at h
  cases parts with
  | none => cases h
  | some l =>
    obtain ⟨p, fs1, h1, h⟩ := run_bind_ok h
    obtain ⟨r, fs2, h2, h⟩ := run_bind_ok h
    obtain ⟨i, fs3, h3, h⟩ := run_bind_ok h
    obtain ⟨_, fs4, h4, h⟩ := run_bind_ok h
    obtain ⟨st, fs5, h5, h⟩ := run_bind_ok h
    obtain ⟨_, fs6, h6, h⟩ := run_bind_ok h
    obtain ⟨m, fs7, h7, h⟩ := run_bind_ok h
    cases h
    rw [getMd5Sum_run] at h7
    split at h7
    · rename_i j hj
      cases h7
      cases ho : objectPath cfg b k with
      | none => rw [ho] at hj; cases hj
      | some p => rw [ho] at hj; exact ⟨_, stored_some.mpr ⟨p, j, ho, hj, rfl⟩, rfl⟩
    · cases h7

theorem get_etag {b k : Bytes} {r : Option Bytes} {w : Nat → Nat} {fs : FS} {o : GetOutput × Option Bytes} {c : Bytes}
    (hs : stored cfg fs b k = some c) (h : (run cfg (getObjectFull cfg ext b k r w) fs).1 = .ok o) :
    o.1.etag = quoted (ext.md5hex c) := by
  obtain ⟨p, i, hp, ha, hc⟩ := stored_some.mp hs
  cases hr : rangeOf r with
  | none =>
    have : (run cfg (getObjectFull cfg ext b k r w) fs).1 = .err .InvalidRequest := by
      have h1 : run cfg (getObject cfg ext b k r) fs = (.err .InvalidRequest, fs) := by
        simp only [getObject, bind_eq, hp]
        rw [run_orInternal_some, parseRange_bind, hr]
      rw [getObjectFull, bind_eq, run_bind, h1]; rfl
    rw [this] at h; cases h
  | some x =>
    rw [get_run_file hp ha hr] at h
    split at h
    · cases h
    · split at h
      · cases h
      · split at h
        · cases h
          rw [← hc]
        · cases h

/-- **C13** (partial) The ETag answered by PutObject, UploadPart, CompleteMultipartUpload and CopyObject, and the ETag
answered by GetObject for any range, is the quoted MD5 of the bytes stored at that address.
Missing from the full property: keys with a trailing slash for PutObject, which answers without ETag, and sources of
CopyObject that are not plain keys, see `C13_etag_fails`. -/
theorem C13_etag_partial {fs : FS} (hw : WF fs) (a : Answer) :
    (∀ i, ObjectPut i → answer cfg ext (.putObject i) fs = .ok a →
      ∃ c, stored cfg (after cfg ext (.putObject i) fs) i.bucket i.key = some c ∧
        a = .etag (some (quoted (ext.md5hex c)))) ∧
    (∀ u n body, (47 : UInt8) ∉ u → answer cfg ext (.uploadPart u n body) fs = .ok a →
      ∃ c, contentAt (after cfg ext (.uploadPart u n body) fs) (partFile cfg u n) = some c ∧
        a = .etag (some (quoted (ext.md5hex c)))) ∧
    (∀ b k u parts, answer cfg ext (.completeMultipartUpload b k u parts) fs = .ok a →
      ∃ c, stored cfg (after cfg ext (.completeMultipartUpload b k u parts) fs) b k = some c ∧
        a = .etag (some (quoted (ext.md5hex c)))) ∧
    (∀ b k r w, answer cfg ext (.getObject b k r w) fs = .ok a → ∀ c, stored cfg fs b k = some c →
      ∃ n md body, a = .object n md (quoted (ext.md5hex c)) body) ∧
    (∀ b k s sb sk scs, LegalBucket b → copySourceFromHeader s = .ok (sb, sk) → LegalBucket sb → PlainKey sk scs →
      answer cfg ext (.copyObject b k s) fs = .ok a →
      ∃ c, stored cfg (after cfg ext (.copyObject b k s) fs) b k = some c ∧
        a = .etag (some (quoted (ext.md5hex c)))) := by
  refine ⟨?_, ?_, ?_, ?_, ?_⟩
  · intro i hi h
    obtain ⟨e, rfl, hd⟩ := put_done hi hw h
    obtain ⟨body, _, _, h3, h4⟩ := hd.body
    exact ⟨_, h3, by rw [h4]⟩
  · intro u n body hu h
    obtain ⟨e, he, rfl⟩ := answer_uploadPart h
    cases body with
    | none => cases he
    | some body =>
      obtain ⟨_, h2, h3, _⟩ := uploadPart_run hu hw he
      exact ⟨_, h3, by rw [h2]⟩
  · intro b k u parts h
    obtain ⟨e, he, rfl⟩ := answer_complete.mp h
    obtain ⟨c, hc, rfl⟩ := complete_etag (fs' := (run cfg (completeMultipartUpload cfg ext b k u parts) fs).2)
      (e := e) (by rw [← he])
    exact ⟨c, by rw [after_complete]; exact hc, rfl⟩
  · intro b k r w h c hc
    obtain ⟨o, ho, rfl⟩ := answer_get.mp h
    exact ⟨_, _, _, by rw [get_etag hc ho]⟩
  · intro b k s sb sk scs hb hs hsb hsk h
    have hb' := (C02_bucket_name_rule b).mpr hb
    have hsb' := (C02_bucket_name_rule sb).mpr hsb
    obtain ⟨e, he, rfl⟩ := answer_copy.mp h
    obtain ⟨c, src, dst, _, _, _, h4, _, h6⟩ := copy_done (e := e) hb' hs (fun q hq => plain_not_meta hsb' hsk hq) hw
      (fs' := (run cfg (copyObject cfg ext b k s) fs).2) (by rw [← he])
    exact ⟨_, by rw [after_copy]; exact h4, by rw [h6]⟩

/-- all five requests succeed in the sample tree -/
example : answer Sample.cfg Sample.ext (.putObject Sample.put3) Sample.fs = .ok (.etag (some b!"\"md5:7\"")) ∧
    answer Sample.cfg Sample.ext (.uploadPart b!"u" 1 (some [some b!"ab", some b!"c"])) Sample.fs = .ok (.etag (some b!"\"md5:3\"")) ∧
    answer Sample.cfg Sample.ext (.completeMultipartUpload b!"aaa" b!"x" b!"u" (some [some 1]))
      (after Sample.cfg Sample.ext (.uploadPart b!"u" 1 (some [some b!"ab", some b!"c"])) Sample.fs) = .ok (.etag (some b!"\"md5:3\"")) ∧
    answer Sample.cfg Sample.ext (.getObject b!"bbb" b!"y" (some b!"bytes=1-2") fun _ => 1) Sample.fs
      = .ok (.object 2 none b!"\"md5:6\"" (some b!"or")) ∧
    answer Sample.cfg Sample.ext (.copyObject b!"aaa" b!"x" b!"bbb/y") Sample.fs = .ok (.etag (some b!"\"md5:6\"")) ∧
    copySourceFromHeader b!"bbb/y" = .ok (b!"bbb", b!"y") :=
  ⟨by decide +kernel, by decide +kernel, by decide +kernel, by decide +kernel, by decide +kernel, by decide +kernel⟩

/-- an object whose key leads to the metadata file of `aaa/x`, with metadata of its own -/
def Sample.putAlias : PutInput :=
  { bucket := b!"aaa", key := b!"../" ++ metadataName b!"aaa" b!"x", body := some [some b!"hi"],
    contentLength := none, metadata := some [], storageClass := none }

/-- C13 fails: when the source of CopyObject leads to the metadata file of the destination, the ETag answered is not that
of the stored copy; and PutObject to a key with a trailing slash answers no ETag. -/
theorem C13_etag_fails :
    (∃ (cfg : Cfg) (ext : Ext) (fs : FS) (b k s c d : Bytes), WF fs ∧ LegalBucket b ∧ PlainKey k [k] ∧
      stored cfg (after cfg ext (.copyObject b k s) fs) b k = some c ∧
      answer cfg ext (.copyObject b k s) fs = .ok (.etag (some (quoted (ext.md5hex d)))) ∧
      ext.md5hex c ≠ ext.md5hex d) ∧
    (∃ (cfg : Cfg) (ext : Ext) (fs : FS) (i : PutInput), WF fs ∧ LegalBucket i.bucket ∧
      answer cfg ext (.putObject i) fs = .ok (.etag none)) :=
  ⟨⟨Sample.cfg, Sample.ext, after Sample.cfg Sample.ext (.putObject Sample.putAlias) Sample.fs, b!"aaa", b!"x",
      b!"aaa/../" ++ metadataName b!"aaa" b!"x", b!"hi", [], run_wf _ _ Sample.fs_wf, (C02_bucket_name_rule _).mp (by decide +kernel),
      plain1 (by decide), by decide +kernel, by decide +kernel, by decide +kernel⟩,
    ⟨Sample.cfg, Sample.ext, Sample.fs, { Sample.put3 with key := b!"d/", contentLength := some 0 }, Sample.fs_wf,
      (C02_bucket_name_rule _).mp (by decide +kernel), by decide +kernel⟩⟩

/-! ### C26 -/

/-- the file of a plain key -/
def Spec.plainFile (cfg : Cfg) (b k : Bytes) : Path := cfg.root ++ b :: splitAll 47 k

theorem plainFile_eq {b k : Bytes} {cs : List Bytes} (hk : PlainKey k cs) : plainFile cfg b k = cfg.root ++ b :: cs := by
  rw [plainFile, hk.text, splitAll_joinWith hk.nonempty fun c hc => (hk.comps c hc).noSlash]

theorem plainFile_inj {b k k' : Bytes} {cs cs' : List Bytes} (hk : PlainKey k cs) (hk' : PlainKey k' cs')
    (h : plainFile cfg b k = plainFile cfg b k') : k = k' := by
  rw [plainFile_eq hk, plainFile_eq hk'] at h
  exact (plain_path_inj hk hk' h).2

theorem deleteCollect_run {b : Bytes} (hb : checkBucketName b = true) (ks : List Bytes)
    (hk : ∀ k ∈ ks, ∃ cs, PlainKey k cs) (fs : FS) :
    run cfg (deleteCollect cfg b ks) fs =
      (.ok ((ks.filter fun k => (fs.lookup (plainFile cfg b k)).isSome).map fun k => (⟨plainFile cfg b k, false⟩, k)), fs) := by
  induction ks with
  | nil => rfl
  | cons k ks ih =>
    obtain ⟨cs, hcs⟩ := hk k (by simp)
    simp only [deleteCollect, bind_eq, pure_eq]
    rw [objectPath_plain cfg hb hcs, run_orInternal_some, run_exists_bind, run_bind,
      ih fun k h => hk k (List.mem_cons_of_mem _ h)]
    simp only [run, at_false, ← plainFile_eq (cfg := cfg) (b := b) hcs, List.filter_cons]
    split <;> rfl

theorem deleteAll_run {b : Bytes} (l : List Bytes) :
    ∀ {fs : FS}, (∀ k ∈ l, ∃ cs, PlainKey k cs) → l.Nodup →
      (∀ k ∈ l, ∃ i, fs.lookup (plainFile cfg b k) = some (.file i)) →
      ∃ fs', run cfg (deleteAll (l.map fun k => (⟨plainFile cfg b k, false⟩, k))) fs = (.ok l, fs') ∧
        (∀ k ∈ l, fs'.lookup (plainFile cfg b k) = none) ∧
        (∀ q, (∀ k ∈ l, q ≠ plainFile cfg b k) → fs'.lookup q = fs.lookup q) := by
  induction l with
  | nil => intro fs _ _ _; exact ⟨fs, rfl, by simp, fun _ _ => rfl⟩
  | cons k l ih =>
    intro fs hk hn hf
    obtain ⟨i, hi⟩ := hf k (by simp)
    obtain ⟨cs, hcs⟩ := hk k (by simp)
    have hn' := List.nodup_cons.mp hn
    have hne : ∀ k' ∈ l, plainFile cfg b k' ≠ plainFile cfg b k := by
      intro k' hk' e
      obtain ⟨cs', hcs'⟩ := hk k' (List.mem_cons_of_mem _ hk')
      exact hn'.1 (plainFile_inj hcs' hcs e ▸ hk')
    have hnil : ∀ k, plainFile cfg b k ≠ [] := by simp [plainFile]
    obtain ⟨fs', h1, h2, h3⟩ := ih (fs := fs.erase (plainFile cfg b k)) (fun k h => hk k (List.mem_cons_of_mem _ h)) hn'.2
      (by
        intro k' hk'
        obtain ⟨j, hj⟩ := hf k' (List.mem_cons_of_mem _ hk')
        exact ⟨j, by rw [lookup_erase, if_neg (hnil _), if_neg (hne k' hk')]; exact hj⟩)
    refine ⟨fs', ?_, ?_, ?_⟩
    · have hx : exec cfg fs (.unlink ⟨plainFile cfg b k, false⟩) = (true, fs.erase (plainFile cfg b k)) := by
        simp [exec, at_false, hi]
      simp only [List.map_cons, deleteAll, bind_eq, pure_eq]
      rw [run_call1, hx]
      simp only [if_true]
      rw [run_bind, h1]
      rfl
    · intro k' hk'
      rcases List.mem_cons.mp hk' with rfl | h
      · rw [h3 _ (fun k h => (hne k h).symm), lookup_erase, if_neg (hnil _), if_pos rfl]
      · exact h2 k' h
    · intro q hq
      rw [h3 q fun k h => hq k (List.mem_cons_of_mem _ h), lookup_erase, if_neg (hq k (by simp))]
      split
      · rename_i e; rw [e, lookup_nil]
      · rfl

/-- **C26** (partial) DeleteObjects of distinct plain keys, none of which names a directory, succeeds, reports exactly
those keys that held an object, in the order of the request, and afterwards none of the listed keys holds an object;
all files other than those of the listed keys are as before.
Missing from the full property: lists with duplicates, and listed keys that name a directory, see
`C26_delete_objects_fails`. -/
theorem C26_delete_objects_partial {b : Bytes} (hb : LegalBucket b) {ks : List Bytes} (hn : ks.Nodup) {fs : FS} (hw : WF fs)
    (hk : ∀ k ∈ ks, ∃ cs, PlainKey k cs ∧ ¬ IsDir fs (cfg.root ++ b :: cs)) :
    answer cfg ext (.deleteObjects b ks) fs = .ok (.keys (ks.filter fun k => (stored cfg fs b k).isSome)) ∧
    (∀ k ∈ ks, stored cfg (after cfg ext (.deleteObjects b ks) fs) b k = none) ∧
    (∀ q, (∀ k ∈ ks, q ≠ plainFile cfg b k) →
      (after cfg ext (.deleteObjects b ks) fs).lookup q = fs.lookup q ∧
      contentAt (after cfg ext (.deleteObjects b ks) fs) q = contentAt fs q) := by
  have hb' := (C02_bucket_name_rule b).mpr hb
  have hk' : ∀ k ∈ ks, ∃ cs, PlainKey k cs := fun k h => (hk k h).imp fun _ h => h.1
  have hst : ∀ k ∈ ks, ∀ fs' : FS, (stored cfg fs' b k) = contentAt fs' (plainFile cfg b k) := by
    intro k h fs'
    obtain ⟨cs, hcs⟩ := hk' k h
    simp [stored, objectPath_plain cfg hb' hcs, plainFile_eq hcs]
  have hex : ∀ k ∈ ks, (fs.lookup (plainFile cfg b k)).isSome = (stored cfg fs b k).isSome := by
    intro k h
    rw [hst k h, contentAt]
    obtain ⟨cs, hcs, hd⟩ := hk k h
    rw [← plainFile_eq (cfg := cfg) (b := b) hcs] at hd
    cases hl : fs.lookup (plainFile cfg b k) with
    | none => rfl
    | some n => cases n with
      | dir => exact absurd hl hd
      | file i => rfl
  have hfil : (ks.filter fun k => (fs.lookup (plainFile cfg b k)).isSome) = ks.filter fun k => (stored cfg fs b k).isSome :=
    List.filter_congr hex
  have hrun : ∃ fs', run cfg (deleteObjects cfg b ks) fs = (.ok (ks.filter fun k => (stored cfg fs b k).isSome), fs') ∧
      (∀ k ∈ ks.filter fun k => (stored cfg fs b k).isSome, fs'.lookup (plainFile cfg b k) = none) ∧
      (∀ q, (∀ k ∈ ks.filter fun k => (stored cfg fs b k).isSome, q ≠ plainFile cfg b k) → fs'.lookup q = fs.lookup q) := by
    simp only [deleteObjects, bind_eq]
    rw [run_bind, deleteCollect_run hb' ks hk', hfil]
    refine deleteAll_run _ ?_ (hn.filter _) ?_
    · intro k h; exact hk' k (List.mem_filter.mp h).1
    · intro k h
      obtain ⟨h1, h2⟩ := List.mem_filter.mp h
      rw [hst k h1, contentAt] at h2
      cases hl : fs.lookup (plainFile cfg b k) with
      | none => rw [hl] at h2; cases h2
      | some n => cases n with
        | dir => rw [hl] at h2; cases h2
        | file i => exact ⟨i, rfl⟩
  obtain ⟨fs', h1, h2, h3⟩ := hrun
  have ha : after cfg ext (.deleteObjects b ks) fs = fs' := by
    rw [after, opProg, run_bind, h1]; rfl
  have hl : ∀ k ∈ ks, fs'.lookup (plainFile cfg b k) = none := by
    intro k h
    by_cases he : (stored cfg fs b k).isSome = true
    · exact h2 k (List.mem_filter.mpr ⟨h, he⟩)
    · rw [h3]
      · rw [← hex k h] at he; simpa using he
      · intro k' hk2 e
        obtain ⟨h4, h5⟩ := List.mem_filter.mp hk2
        obtain ⟨cs, hcs⟩ := hk' k h
        obtain ⟨cs', hcs'⟩ := hk' k' h4
        rw [plainFile_inj hcs hcs' e] at he
        exact he h5
  refine ⟨?_, ?_, ?_⟩
  · rw [answer, opProg, run_bind, h1]; rfl
  · intro k h
    rw [hst k h, ha, contentAt, hl k h]
  · intro q hq
    have hfr := op_frame cfg ext (.deleteObjects b ks) (fun q h => h) hw
    have hno : ¬ opOwn cfg (.deleteObjects b ks) q := by
      rintro (h | ⟨k, h, h'⟩ | h)
      · exact h
      · obtain ⟨cs, hcs⟩ := hk' k h
        rw [objP_plain hb' hcs, ← plainFile_eq (cfg := cfg) (b := b) hcs] at h'
        exact hq k h h'
      · exact h
    refine ⟨?_, content_frame hw hfr hno⟩
    rcases hfr.node q hno with h | h
    · exact h
    · exact absurd h.1 (fun h => h)

example : LegalBucket b!"aaa" ∧ [b!"zz", b!"x", b!"d/e"].Nodup ∧
    (∀ k ∈ [b!"zz", b!"x", b!"d/e"], ∃ cs, PlainKey k cs ∧ ¬ IsDir Sample.fs (Sample.cfg.root ++ b!"aaa" :: cs)) ∧
    answer Sample.cfg Sample.ext (.deleteObjects b!"aaa" [b!"zz", b!"x", b!"d/e"]) Sample.fs = .ok (.keys [b!"x"]) := by
  refine ⟨(C02_bucket_name_rule _).mp (by decide +kernel), by decide, ?_, by decide +kernel⟩
  intro k hk
  simp only [List.mem_cons, List.not_mem_nil, or_false] at hk
  rcases hk with rfl | rfl | rfl
  · exact ⟨_, plain1 (by decide), by unfold IsDir; decide +kernel⟩
  · exact ⟨_, plain1 (by decide), by unfold IsDir; decide +kernel⟩
  · exact ⟨_, plain2 (a := b!"d") (c := b!"e") ⟨by decide, by decide, by decide, by decide⟩
        ⟨by decide, by decide, by decide, by decide⟩, by unfold IsDir; decide +kernel⟩

/-- C26 fails: with a key listed twice the answer is an internal error, and the objects before it have been deleted. -/
theorem C26_delete_objects_fails :
    ∃ (cfg : Cfg) (ext : Ext) (fs : FS) (b k : Bytes), WF fs ∧ LegalBucket b ∧ PlainKey k [k] ∧
      stored cfg fs b k = some b!"hello" ∧
      answer cfg ext (.deleteObjects b [k, k]) fs = .err .InternalError ∧
      stored cfg (after cfg ext (.deleteObjects b [k, k]) fs) b k = none :=
  ⟨Sample.cfg, Sample.ext, Sample.fs, b!"aaa", b!"x", Sample.fs_wf, (C02_bucket_name_rule _).mp (by decide +kernel),
    plain1 (by decide), by decide +kernel, by decide +kernel, by decide +kernel⟩

end S3
