import Verif.Lemmas.RetryDelete
import Verif.Props.Again
/-! C110: copies, deletions and the making of buckets that are sent again after an attempt that failed or was cut off. -/
namespace S3
open Spec

variable {cfg : Cfg} {ext : Ext}

/-- **C110** A CopyObject from one plain address to another that would succeed can be sent again after an attempt that the disk failed at any
point or that was cut off at any moment: the answer is the one it would have had, and what is stored is as if the attempt had never been
made. -/
theorem C110_copy_retry {b k s sb sk : Bytes} {cs scs : List Bytes} (hb : LegalBucket b) (hk : PlainKey k cs)
    (hs : copySourceFromHeader s = .ok (sb, sk)) (hsb : LegalBucket sb) (hsk : PlainKey sk scs) (hne : (b, k) ≠ (sb, sk)) {fs : FS} (hw : WF fs)
    {a : Answer} (h : answer cfg ext (.copyObject b k s) fs = .ok a) {d : Disk} {fs1 : FS} (hm : Moment cfg ext d (.copyObject b k s) fs fs1) :
    answer cfg ext (.copyObject b k s) fs1 = .ok a ∧ Alike (after cfg ext (.copyObject b k s) fs1) (after cfg ext (.copyObject b k s) fs) :=
  copy_retry ((C02_bucket_name_rule _).mpr hb) hk hs ((C02_bucket_name_rule _).mpr hsb) hsk hne hw h hm

/-- an object with metadata is copied over another one; the disk fails while the bytes are copied, which leaves a part of them there -/
example :
    let fs := after Sample.cfg Sample.ext (.putObject Sample.put3) Sample.fs
    let o := Op.copyObject b!"aaa" b!"x" b!"aaa/d/e"
    LegalBucket b!"aaa" ∧ PlainKey b!"x" [b!"x"] ∧ PlainKey b!"d/e" [b!"d", b!"e"] ∧
    copySourceFromHeader b!"aaa/d/e" = .ok (b!"aaa", b!"d/e") ∧
    answer Sample.cfg Sample.ext o fs = .ok (.etag (some b!"\"md5:7\"")) ∧
    stored Sample.cfg fs b!"aaa" b!"d/e" = some b!"one two" ∧
    answerF Sample.cfg Sample.ext (oneFault 4 (.during 3 [])) o fs = .err .InternalError ∧
    stored Sample.cfg (afterF Sample.cfg Sample.ext (oneFault 4 (.during 3 [])) o fs) b!"aaa" b!"x" = some b!"one" ∧
    Moment Sample.cfg Sample.ext (oneFault 4 (.during 3 [])) o fs (afterF Sample.cfg Sample.ext (oneFault 4 (.during 3 [])) o fs) := by
  refine ⟨Sample.legal (by decide +kernel), plain1 (by decide), Sample.plain_de, by decide +kernel, by decide +kernel, by decide +kernel, by decide +kernel, by decide +kernel, .inr rfl⟩

/-- **C110** The same for CreateBucket, except that the second request is told if the first one had made the bucket: the attempt has done
nothing or everything. -/
theorem C110_create_bucket_retry {b : Bytes} (hb : LegalBucket b) {fs : FS} (hw : WF fs) (hr : IsDir fs cfg.root) {a : Answer}
    (h : answer cfg ext (.createBucket b) fs = .ok a) {d : Disk} {fs1 : FS} (hm : Moment cfg ext d (.createBucket b) fs fs1) :
    (fs1 = fs ∧ answer cfg ext (.createBucket b) fs1 = .ok a ∨
      IsDir fs1 (bucketDir cfg b) ∧ answer cfg ext (.createBucket b) fs1 = .err .BucketAlreadyExists) ∧
    after cfg ext (.createBucket b) fs1 = after cfg ext (.createBucket b) fs := by
  rcases createBucket_moment hb hw hm with rfl | rfl
  · exact ⟨.inl ⟨rfl, h⟩, rfl⟩
  · have h2 := C110_create_bucket hb hw hr h
    refine ⟨.inr ⟨?_, h2.1⟩, h2.2⟩
    have hc := C22_create_bucket (cfg := cfg) (ext := ext) hw hr hb
    have he : fs.lookup (bucketDir cfg b) = none := by
      apply Classical.byContradiction
      intro hn
      rw [(hc.1 hn).1] at h
      cases h
    rw [IsDir, (hc.2 he).2.1, if_pos rfl]

/-- the disk reports an error although the bucket was made -/
example :
    let o := Op.createBucket b!"ccc"
    let d := oneFault 1 .after
    LegalBucket b!"ccc" ∧ answer Sample.cfg Sample.ext o Sample.fs = .ok .done ∧
    answerF Sample.cfg Sample.ext d o Sample.fs = .err .InternalError ∧
    answer Sample.cfg Sample.ext o (afterF Sample.cfg Sample.ext d o Sample.fs) = .err .BucketAlreadyExists ∧
    Moment Sample.cfg Sample.ext d o Sample.fs (afterF Sample.cfg Sample.ext d o Sample.fs) :=
  ⟨Sample.legal (by decide +kernel), by decide +kernel, by decide +kernel, by decide +kernel, .inr rfl⟩

/-- **C110** A DeleteBucket that would succeed and is sent again after an attempt that was cut off in the middle, with any part of the bucket
removed: it succeeds unless the bucket was gone already, and what is stored is in both cases as if the attempt had never been made. -/
theorem C110_delete_bucket_retry {b : Bytes} (hb : LegalBucket b) {fs : FS} (hw : WF fs) {a : Answer}
    (h : answer cfg ext (.deleteBucket b) fs = .ok a) {d : Disk} {fs1 : FS} (hm : Moment cfg ext d (.deleteBucket b) fs fs1) :
    (fs1.lookup (bucketDir cfg b) ≠ none → answer cfg ext (.deleteBucket b) fs1 = .ok a) ∧
    (fs1.lookup (bucketDir cfg b) = none → answer cfg ext (.deleteBucket b) fs1 = .err .InternalError) ∧
    Alike (after cfg ext (.deleteBucket b) fs1) (after cfg ext (.deleteBucket b) fs) := deleteBucket_retry hb hw h hm

/-- the disk fails when one of two objects of the bucket is gone -/
example :
    let fs := after Sample.cfg Sample.ext (.putObject Sample.put3) Sample.fs
    let o := Op.deleteBucket b!"aaa"
    let d := oneFault 0 (.during 0 [plainFile Sample.cfg b!"aaa" b!"x"])
    LegalBucket b!"aaa" ∧ answer Sample.cfg Sample.ext o fs = .ok .done ∧
    answerF Sample.cfg Sample.ext d o fs = .err .InternalError ∧
    stored Sample.cfg (afterF Sample.cfg Sample.ext d o fs) b!"aaa" b!"x" = none ∧
    stored Sample.cfg (afterF Sample.cfg Sample.ext d o fs) b!"aaa" b!"d/e" = some b!"one two" ∧
    (afterF Sample.cfg Sample.ext d o fs).lookup (bucketDir Sample.cfg b!"aaa") ≠ none ∧
    Moment Sample.cfg Sample.ext d o fs (afterF Sample.cfg Sample.ext d o fs) :=
  ⟨Sample.legal (by decide +kernel), by decide +kernel, by decide +kernel, by decide +kernel, by decide +kernel, by decide +kernel, .inr rfl⟩

/-- **C110** An attempt at a DeleteObject that failed or was cut off has done nothing or everything, and the same request sent again leaves
the tree that it would have left, whatever bucket and key, and whether it succeeds or not. -/
theorem C110_delete_retry (b k : Bytes) {fs : FS} (hw : WF fs) {d : Disk} {fs1 : FS} (hm : Moment cfg ext d (.deleteObject b k) fs fs1) :
    (fs1 = fs ∨ fs1 = after cfg ext (.deleteObject b k) fs) ∧
    after cfg ext (.deleteObject b k) fs1 = after cfg ext (.deleteObject b k) fs := by
  rcases deleteObject_moment hw hm with rfl | rfl
  · exact ⟨.inl rfl, rfl⟩
  · exact ⟨.inr rfl, C110_delete b k fs⟩

/-- an object is removed although the disk reports an error -/
example :
    let o := Op.deleteObject b!"aaa" b!"x"
    let d := oneFault 0 .after
    answerF Sample.cfg Sample.ext d o Sample.fs = .err .InternalError ∧
    stored Sample.cfg Sample.fs b!"aaa" b!"x" = some b!"hello" ∧
    stored Sample.cfg (afterF Sample.cfg Sample.ext d o Sample.fs) b!"aaa" b!"x" = none ∧
    Moment Sample.cfg Sample.ext d o Sample.fs (afterF Sample.cfg Sample.ext d o Sample.fs) :=
  ⟨by decide +kernel, by decide +kernel, by decide +kernel, .inr rfl⟩

/-- **C110** (partial) A DeleteObjects sent again after an attempt that failed or was cut off succeeds, reports the keys that were still there
and leaves what it would have left. Missing: as in `C110_delete_many_partial`. -/
theorem C110_delete_many_retry_partial {b : Bytes} (hb : LegalBucket b) {ks : List Bytes} (hn : ks.Nodup) {fs : FS} (hw : WF fs)
    (hk : ∀ k ∈ ks, ∃ cs, PlainKey k cs ∧ ¬ IsDir fs (cfg.root ++ b :: cs)) {d : Disk} {fs1 : FS}
    (hm : Moment cfg ext d (.deleteObjects b ks) fs fs1) :
    answer cfg ext (.deleteObjects b ks) fs1 = .ok (.keys (ks.filter fun k => (stored cfg fs1 b k).isSome)) ∧
    Alike (after cfg ext (.deleteObjects b ks) fs1) (after cfg ext (.deleteObjects b ks) fs) := deleteMany_retry hb hn hw hk hm

/-- the server dies between two objects; the second request reports the other one -/
example :
    let fs := after Sample.cfg Sample.ext (.putObject Sample.put3) Sample.fs
    let o := Op.deleteObjects b!"aaa" [b!"x", b!"d/e"]
    let fs1 := duringF Sample.cfg Sample.ext (fun _ => .none) 3 o fs
    LegalBucket b!"aaa" ∧ [b!"x", b!"d/e"].Nodup ∧
    (∀ k ∈ [b!"x", b!"d/e"], ∃ cs, PlainKey k cs ∧ ¬ IsDir fs (Sample.cfg.root ++ b!"aaa" :: cs)) ∧
    answer Sample.cfg Sample.ext o fs = .ok (.keys [b!"x", b!"d/e"]) ∧
    answer Sample.cfg Sample.ext o fs1 = .ok (.keys [b!"d/e"]) ∧
    Moment Sample.cfg Sample.ext (fun _ => .none) o fs fs1 := by
  refine ⟨Sample.legal (by decide +kernel), by decide, ?_, by decide +kernel, by decide +kernel, .inl ⟨3, rfl⟩⟩
  intro k hk
  simp only [List.mem_cons, List.not_mem_nil, or_false] at hk
  rcases hk with rfl | rfl
  · exact ⟨[b!"x"], plain1 (by decide), by show ¬ _ = _; decide +kernel⟩
  · exact ⟨[b!"d", b!"e"], Sample.plain_de, by show ¬ _ = _; decide +kernel⟩

end S3
