import Verif.Lemmas.Retry
import Verif.Lemmas.InFlight
/-! C110: requests that are sent again. -/
namespace S3
open Spec

variable {cfg : Cfg} {ext : Ext}

/-! ### again after success -/

/-- **C110** A PutObject that succeeded can be sent again: the answer is the same and nothing changes. -/
theorem C110_put {i : PutInput} (hb : LegalBucket i.bucket) {fs : FS} (hw : WF fs) {a : Answer}
    (h : answer cfg ext (.putObject i) fs = .ok a) :
    answer cfg ext (.putObject i) (after cfg ext (.putObject i) fs) = .ok a ∧
    after cfg ext (.putObject i) (after cfg ext (.putObject i) fs) = after cfg ext (.putObject i) fs := by
  obtain ⟨e, he, rfl⟩ := answer_put.mp h
  have hr : run cfg (putObject cfg ext i) fs = (.ok e, after cfg ext (.putObject i) fs) := by
    rw [after_put]; exact Prod.ext he rfl
  have key : run cfg (putObject cfg ext i) (after cfg ext (.putObject i) fs) = (.ok e, after cfg ext (.putObject i) fs) := by
    cases hk : endsWithByte i.key 47 with
    | false => exact put_again ⟨(C02_bucket_name_rule _).mpr hb, hk⟩ hw hr
    | true => exact put_folder_again hk hw hr
  exact ⟨answer_put.mpr ⟨e, by rw [key], rfl⟩, by rw [after_put, key]⟩

/-- an object in a directory that is made for it, with metadata; and a folder -/
example : LegalBucket Sample.put3.bucket ∧
    answer Sample.cfg Sample.ext (.putObject Sample.put3) Sample.fs = .ok (.etag (some b!"\"md5:7\"")) ∧
    answer Sample.cfg Sample.ext (.putObject { Sample.put3 with key := b!"d/", contentLength := some 0 }) Sample.fs = .ok (.etag none) ∧
    stored Sample.cfg (after Sample.cfg Sample.ext (.putObject Sample.put3) Sample.fs) b!"aaa" b!"d/e" ≠
      stored Sample.cfg Sample.fs b!"aaa" b!"d/e" :=
  ⟨Sample.legal (by decide +kernel), by decide +kernel, by decide +kernel, by decide +kernel⟩

/-- **C110** An UploadPart that succeeded can be sent again: the answer is the same and nothing changes. -/
theorem C110_part {u : Bytes} {n : Int} {body : Option Body} {fs : FS} (hw : WF fs) {a : Answer}
    (h : answer cfg ext (.uploadPart u n body) fs = .ok a) :
    answer cfg ext (.uploadPart u n body) (after cfg ext (.uploadPart u n body) fs) = .ok a ∧
    after cfg ext (.uploadPart u n body) (after cfg ext (.uploadPart u n body) fs) = after cfg ext (.uploadPart u n body) fs := by
  obtain ⟨e, he, rfl⟩ := answer_upload.mp h
  have key := part_again hw (show run cfg (uploadPart cfg ext u n body) fs = (.ok e, after cfg ext (.uploadPart u n body) fs) by
    rw [after_upload]; exact Prod.ext he rfl)
  exact ⟨answer_upload.mpr ⟨e, by rw [key], rfl⟩, by rw [after_upload (fs := after ..), key]⟩

example : answer Sample.cfg Sample.ext (.uploadPart b!"u" 1 (some [some b!"ab", some b!"c"])) Sample.fs = .ok (.etag (some b!"\"md5:3\"")) := by
  decide +kernel

/-- **C110** A CopyObject with a plain source that succeeded can be sent again: the answer is the same and nothing changes. -/
theorem C110_copy_partial {b k s sb sk : Bytes} {scs : List Bytes} (hb : LegalBucket b) (hs : copySourceFromHeader s = .ok (sb, sk))
    (hsb : LegalBucket sb) (hsk : PlainKey sk scs) {fs : FS} (hw : WF fs) {a : Answer}
    (h : answer cfg ext (.copyObject b k s) fs = .ok a) :
    answer cfg ext (.copyObject b k s) (after cfg ext (.copyObject b k s) fs) = .ok a ∧
    after cfg ext (.copyObject b k s) (after cfg ext (.copyObject b k s) fs) = after cfg ext (.copyObject b k s) fs := by
  obtain ⟨e, he, rfl⟩ := answer_copy.mp h
  have key := copy_again ((C02_bucket_name_rule _).mpr hb) hs
    (fun q hq => plain_not_meta ((C02_bucket_name_rule _).mpr hsb) hsk hq) hw
    (show run cfg (copyObject cfg ext b k s) fs = (.ok e, after cfg ext (.copyObject b k s) fs) by
      rw [after_copy]; exact Prod.ext he rfl)
  exact ⟨answer_copy.mpr ⟨e, by rw [key], rfl⟩, by rw [after_copy (fs := after ..), key]⟩

example : copySourceFromHeader b!"bbb/y" = .ok (b!"bbb", b!"y") ∧ LegalBucket b!"aaa" ∧ LegalBucket b!"bbb" ∧ PlainKey b!"y" [b!"y"] ∧
    answer Sample.cfg Sample.ext (.copyObject b!"aaa" b!"x" b!"bbb/y") Sample.fs = .ok (.etag (some b!"\"md5:6\"")) ∧
    stored Sample.cfg (after Sample.cfg Sample.ext (.copyObject b!"aaa" b!"x" b!"bbb/y") Sample.fs) b!"aaa" b!"x" = some b!"world!" :=
  ⟨by decide +kernel, Sample.legal (by decide +kernel), Sample.legal (by decide +kernel), plain1 (by decide), by decide +kernel,
    by decide +kernel⟩

/-- **C110** A CreateBucket that succeeded and is sent again is refused, and nothing changes. -/
theorem C110_create_bucket {b : Bytes} (hb : LegalBucket b) {fs : FS} (hw : WF fs) (hr : IsDir fs cfg.root) {a : Answer}
    (h : answer cfg ext (.createBucket b) fs = .ok a) :
    answer cfg ext (.createBucket b) (after cfg ext (.createBucket b) fs) = .err .BucketAlreadyExists ∧
    after cfg ext (.createBucket b) (after cfg ext (.createBucket b) fs) = after cfg ext (.createBucket b) fs := by
  obtain ⟨h1, h2⟩ := C22_create_bucket (cfg := cfg) (ext := ext) hw hr hb
  by_cases he : fs.lookup (bucketDir cfg b) = none
  · obtain ⟨_, hl, _⟩ := h2 he
    have hroot : IsDir (after cfg ext (.createBucket b) fs) cfg.root := by
      rw [IsDir, hl, if_neg (by simp [bucketDir])]; exact hr
    refine (C22_create_bucket (cfg := cfg) (ext := ext) (wf_after hw) hroot hb).1 ?_
    rw [hl, if_pos rfl]
    exact fun h => nomatch h
  · rw [(h1 he).1] at h; cases h

example : LegalBucket b!"ccc" ∧ IsDir Sample.fs Sample.cfg.root ∧
    answer Sample.cfg Sample.ext (.createBucket b!"ccc") Sample.fs = .ok .done :=
  ⟨Sample.legal (by decide +kernel), by show _ = _; decide +kernel, by decide +kernel⟩

/-- **C110** A DeleteBucket that succeeded and is sent again is refused, and nothing changes. -/
theorem C110_delete_bucket {b : Bytes} (hb : LegalBucket b) {fs : FS} {a : Answer}
    (h : answer cfg ext (.deleteBucket b) fs = .ok a) :
    answer cfg ext (.deleteBucket b) (after cfg ext (.deleteBucket b) fs) = .err .InternalError ∧
    after cfg ext (.deleteBucket b) (after cfg ext (.deleteBucket b) fs) = after cfg ext (.deleteBucket b) fs := by
  obtain ⟨h1, h2⟩ := C23_delete_bucket_partial (cfg := cfg) (ext := ext) (fs := fs) hb
  by_cases he : IsDir fs (bucketDir cfg b)
  · obtain ⟨_, hl, _⟩ := h2 he
    refine (C23_delete_bucket_partial (cfg := cfg) (ext := ext) hb).1 ?_
    rw [IsDir, hl, if_pos (by simp [below])]
    exact fun h => nomatch h
  · rw [(h1 he).1] at h; cases h

example : LegalBucket b!"aaa" ∧ answer Sample.cfg Sample.ext (.deleteBucket b!"aaa") Sample.fs = .ok .done :=
  ⟨Sample.legal (by decide +kernel), by decide +kernel⟩

/-- **C110** A DeleteObject sent twice does the same as once, whatever bucket and key. -/
theorem C110_delete (b k : Bytes) (fs : FS) :
    after cfg ext (.deleteObject b k) (after cfg ext (.deleteObject b k) fs) = after cfg ext (.deleteObject b k) fs := delete_again fs

/-- **C110** (partial) A DeleteObjects sent again reports no keys, and nothing changes. Missing: lists with duplicates and keys of
directories, for which already the first request is refused half way, see `C26_delete_objects_fails`. -/
theorem C110_delete_many_partial {b : Bytes} (hb : LegalBucket b) {ks : List Bytes} (hn : ks.Nodup) {fs : FS} (hw : WF fs)
    (hk : ∀ k ∈ ks, ∃ cs, PlainKey k cs ∧ ¬ IsDir fs (cfg.root ++ b :: cs)) :
    answer cfg ext (.deleteObjects b ks) (after cfg ext (.deleteObjects b ks) fs) = .ok (.keys []) ∧
    after cfg ext (.deleteObjects b ks) (after cfg ext (.deleteObjects b ks) fs) = after cfg ext (.deleteObjects b ks) fs :=
  deleteMany_again hb hn hw hk

example : LegalBucket b!"aaa" ∧ [b!"x", b!"z"].Nodup ∧
    (∀ k ∈ [b!"x", b!"z"], ∃ cs, PlainKey k cs ∧ ¬ IsDir Sample.fs (Sample.cfg.root ++ b!"aaa" :: cs)) ∧
    answer Sample.cfg Sample.ext (.deleteObjects b!"aaa" [b!"x", b!"z"]) Sample.fs = .ok (.keys [b!"x"]) := by
  refine ⟨Sample.legal (by decide +kernel), by decide, ?_, by decide +kernel⟩
  intro k hk
  simp only [List.mem_cons, List.not_mem_nil, or_false] at hk
  rcases hk with rfl | rfl
  · exact ⟨[b!"x"], plain1 (by decide), by show ¬ _ = _; decide +kernel⟩
  · exact ⟨[b!"z"], plain1 (by decide), by show ¬ _ = _; decide +kernel⟩

/-- C110 fails for CompleteMultipartUpload: sent again after it succeeded, it is answered an internal error, and the object it had
put together is empty. -/
theorem C110_complete_fails :
    ∃ (cfg : Cfg) (ext : Ext) (fs : FS) (b k u : Bytes) (parts : List (Option Int)) (a : Answer), WF fs ∧ LegalBucket b ∧
      PlainKey k [k] ∧ (47 : UInt8) ∉ u ∧
      answer cfg ext (.completeMultipartUpload b k u (some parts)) fs = .ok a ∧
      stored cfg (after cfg ext (.completeMultipartUpload b k u (some parts)) fs) b k = some b!"abcde" ∧
      answer cfg ext (.completeMultipartUpload b k u (some parts)) (after cfg ext (.completeMultipartUpload b k u (some parts)) fs)
        = .err .InternalError ∧
      stored cfg (afterAll cfg ext [.completeMultipartUpload b k u (some parts), .completeMultipartUpload b k u (some parts)] fs) b k
        = some [] :=
  ⟨Sample.cfg, Sample.ext, afterAll Sample.cfg Sample.ext Sample.ups Sample.fs, b!"aaa", b!"x", b!"id1", numbers 0 3,
    .etag (some b!"\"md5:5\""), wf_afterAll Sample.fs_wf, Sample.legal (by decide +kernel), plain1 (by decide), by decide,
    by decide +kernel, by decide +kernel, by decide +kernel, by decide +kernel⟩

/-! ### again after an attempt that was cut off -/

/-- **C110** A PutObject that would succeed can be sent again after an attempt that failed on the disk in any way or was cut off at any
moment by the end of the server: it succeeds with the answer it would have had, and all objects, metadata and directories are then as if
the first attempt had succeeded. -/
theorem C110_put_retry {i : PutInput} {cs : List Bytes} (hb : LegalBucket i.bucket) (hk : PlainKey i.key cs) {fs : FS} (hw : WF fs)
    (hr : IsDir fs cfg.root) {a : Answer} (h : answer cfg ext (.putObject i) fs = .ok a) {d : Disk} {fs1 : FS}
    (hm : Moment cfg ext d (.putObject i) fs fs1) :
    answer cfg ext (.putObject i) fs1 = .ok a ∧ Alike (after cfg ext (.putObject i) fs1) (after cfg ext (.putObject i) fs) :=
  have hatt := put_attempted ((C02_bucket_name_rule _).mpr hb) hk hw hm
  put_retry hb hk hw hr h hatt.1 hatt.2

/-- the server dies after the directory, the file and half of the body; or the disk fails then -/
example : LegalBucket Sample.put3.bucket ∧ PlainKey Sample.put3.key [b!"d", b!"e"] ∧ IsDir Sample.fs Sample.cfg.root ∧
    answer Sample.cfg Sample.ext (.putObject Sample.put3) Sample.fs = .ok (.etag (some b!"\"md5:7\"")) ∧
    stored Sample.cfg (duringF Sample.cfg Sample.ext (fun _ => .none) 3 (.putObject Sample.put3) Sample.fs) b!"aaa" b!"d/e" = some b!"one " ∧
    answerF Sample.cfg Sample.ext (oneFault 3 (.during 1 [])) (.putObject Sample.put3) Sample.fs = .err .InternalError :=
  ⟨Sample.legal (by decide +kernel), Sample.plain_de, by show _ = _; decide +kernel, by decide +kernel, by decide +kernel, by decide +kernel⟩

/-- **C110** The same for UploadPart. -/
theorem C110_part_retry {u : Bytes} (hu : (47 : UInt8) ∉ u) {n : Int} {body : Option Body} {fs : FS} (hw : WF fs) {a : Answer}
    (h : answer cfg ext (.uploadPart u n body) fs = .ok a) {d : Disk} {fs1 : FS}
    (hm : Moment cfg ext d (.uploadPart u n body) fs fs1) :
    answer cfg ext (.uploadPart u n body) fs1 = .ok a ∧
    Alike (after cfg ext (.uploadPart u n body) fs1) (after cfg ext (.uploadPart u n body) fs) :=
  have hatt := part_attempted hu hw hm
  part_retry hu hw h hatt.1 hatt.2

example : (47 : UInt8) ∉ b!"u" ∧
    answer Sample.cfg Sample.ext (.uploadPart b!"u" 1 (some [some b!"ab", some b!"c"])) Sample.fs = .ok (.etag (some b!"\"md5:3\"")) ∧
    answerF Sample.cfg Sample.ext (oneFault 2 .before) (.uploadPart b!"u" 1 (some [some b!"ab", some b!"c"])) Sample.fs = .err .InternalError ∧
    contentAt (afterF Sample.cfg Sample.ext (oneFault 2 .before) (.uploadPart b!"u" 1 (some [some b!"ab", some b!"c"])) Sample.fs)
      (partFile Sample.cfg b!"u" 1) = some b!"ab" :=
  ⟨by decide, by decide +kernel, by decide +kernel, by decide +kernel⟩

/-- C110 fails for CompleteMultipartUpload: when one write fails on the way (here the third part), the same request sent again is
answered an internal error, and neither the object nor the parts have the bytes of the first part any more. -/
theorem C110_complete_retry_fails :
    ∃ (cfg : Cfg) (ext : Ext) (fs : FS) (b k u : Bytes) (parts : List (Option Int)) (d : Disk) (a : Answer), WF fs ∧ LegalBucket b ∧
      PlainKey k [k] ∧ (47 : UInt8) ∉ u ∧
      answer cfg ext (.completeMultipartUpload b k u (some parts)) fs = .ok a ∧
      answerF cfg ext d (.completeMultipartUpload b k u (some parts)) fs = .err .InternalError ∧
      answer cfg ext (.completeMultipartUpload b k u (some parts)) (afterF cfg ext d (.completeMultipartUpload b k u (some parts)) fs)
        = .err .InternalError ∧
      contentAt fs (partFile cfg u 1) = some b!"ab" ∧
      let fs2 := after cfg ext (.completeMultipartUpload b k u (some parts)) (afterF cfg ext d (.completeMultipartUpload b k u (some parts)) fs)
      contentAt fs2 (partFile cfg u 1) = none ∧ stored cfg fs2 b k = some [] :=
  ⟨Sample.cfg, Sample.ext, afterAll Sample.cfg Sample.ext Sample.ups Sample.fs, b!"aaa", b!"x", b!"id1", numbers 0 3,
    oneFault 7 .before, .etag (some b!"\"md5:5\""), wf_afterAll Sample.fs_wf, Sample.legal (by decide +kernel), plain1 (by decide), by decide,
    by decide +kernel, by decide +kernel, by decide +kernel, by decide +kernel, by decide +kernel, by decide +kernel⟩

/-! ### again while the first is still under way -/

/-- **C110** Any number of PutObjects with the same body, in whatever fragments, for the same object, at the same time, and among
requests on other objects: when one of them has succeeded and all of them have been answered, the object is the body. -/
theorem C110_put_in_flight {os : List Op} {n : Nat} {i : PutInput} {cs : List Bytes} (hn : os[n]? = some (.putObject i))
    (hb : LegalBucket i.bucket) (hk : PlainKey i.key cs) {w : Bytes}
    (ho : ∀ o ∈ os, (∃ i' body, o = .putObject i' ∧ i'.bucket = i.bucket ∧ i'.key = i.key ∧ i'.body = some body ∧ unbroken body ∧
      received body = w) ∨ OnOthers i.bucket (Away i.bucket i.key) o)
    {fs : FS} (hw : WF fs) (sched : List Nat) {a : Answer} (h : answerAt cfg ext sched os fs n = some (.ok a))
    (hall : ∀ (j : Nat) i', os[j]? = some (.putObject i') → i'.bucket = i.bucket → i'.key = i.key → answerAt cfg ext sched os fs j ≠ none) :
    stored cfg (runPar cfg sched (os.map (opProg cfg ext)) fs).2 i.bucket i.key = some w := by
  have hb' := (C02_bucket_name_rule _).mpr hb
  have hget : ∀ j : Nat, (os.map (opProg cfg ext))[j]? = (os[j]?).map (opProg cfg ext) := fun j => List.getElem?_map
  simp only [stored, objectPath_plain cfg hb' hk, Bool.false_eq_true, if_false]
  refine settled (T := fun j => ∃ i', os[j]? = some (.putObject i') ∧ i'.bucket = i.bucket ∧ i'.key = i.key) (n := n) hw ?_ ?_ h ?_
  · intro j p hj
    rw [hget, Option.map_eq_some_iff] at hj
    obtain ⟨o, hoj, rfl⟩ := hj
    rcases ho o (List.mem_of_getElem? hoj) with ⟨i', body, rfl, h1, h2, h3, h4, h5⟩ | h1
    · have := opens_map Answer.etag (opens_put (cfg := cfg) (ext := ext) (w := w) (i := i') (cs := cs) (by rw [h1]; exact hb')
        (by rw [h2]; exact hk) (fun body' hb => by rw [h3] at hb; cases hb; exact ⟨h4, h5⟩))
      rw [h1] at this
      exact opens_weaken (fun _ => ⟨i', hoj, h1, h2⟩) this
    · exact opens_away hb' hk h1 (.inl rfl)
  · intro p hp
    rw [hget, hn] at hp
    cases hp
    exact before_map Answer.etag (before_put hb' hk)
  · rintro j ⟨i', hj, h1, h2⟩ p hp hnone
    exact hall j i' hj h1 h2 (by simp [answerAt, hp, hnone])

/-- **C110** and when they carry the same metadata, that is the metadata of the object -/
theorem C110_put_in_flight_meta {os : List Op} {n : Nat} {i : PutInput} {cs : List Bytes} {m : Meta} (hn : os[n]? = some (.putObject i))
    (hb : LegalBucket i.bucket) (hk : PlainKey i.key cs) (hl : MetaLaw ext) (hm : ValidMeta m) (him : i.metadata = some m)
    (ho : ∀ o ∈ os, (∃ i', o = .putObject i' ∧ i'.bucket = i.bucket ∧ i'.key = i.key ∧ i'.metadata = some m) ∨
      OnOthers i.bucket (Away i.bucket i.key) o)
    {fs : FS} (hw : WF fs) (sched : List Nat) {a : Answer} (h : answerAt cfg ext sched os fs n = some (.ok a))
    (hall : ∀ (j : Nat) i', os[j]? = some (.putObject i') → i'.bucket = i.bucket → i'.key = i.key → answerAt cfg ext sched os fs j ≠ none) :
    storedMeta cfg ext (runPar cfg sched (os.map (opProg cfg ext)) fs).2 i.bucket i.key = some (some m) := by
  have hb' := (C02_bucket_name_rule _).mpr hb
  have hget : ∀ j : Nat, (os.map (opProg cfg ext))[j]? = (os[j]?).map (opProg cfg ext) := fun j => List.getElem?_map
  have key : contentAt (runPar cfg sched (os.map (opProg cfg ext)) fs).2 (metaFile cfg i.bucket i.key) = some (ext.metaEnc m) := by
    refine settled (T := fun j => ∃ i', os[j]? = some (.putObject i') ∧ i'.bucket = i.bucket ∧ i'.key = i.key) (n := n) hw ?_ ?_ h ?_
    · intro j p hj
      rw [hget, Option.map_eq_some_iff] at hj
      obtain ⟨o, hoj, rfl⟩ := hj
      rcases ho o (List.mem_of_getElem? hoj) with ⟨i', rfl, h1, h2, h3⟩ | h1
      · have := opens_map Answer.etag (opens_put_meta (cfg := cfg) (ext := ext) (w := ext.metaEnc m) (i := i') (cs := cs) (by rw [h1]; exact hb')
          (by rw [h2]; exact hk) (fun m' hb => by rw [h3] at hb; cases hb; rfl))
        rw [h1, h2] at this
        exact opens_weaken (fun _ => ⟨i', hoj, h1, h2⟩) this
      · exact opens_away hb' hk h1 (.inr rfl)
    · intro p hp
      rw [hget, hn] at hp
      cases hp
      exact before_map Answer.etag (before_put_meta hb' hk him)
    · rintro j ⟨i', hj, h1, h2⟩ p hp hnone
      exact hall j i' hj h1 h2 (by simp [answerAt, hp, hnone])
  unfold contentAt at key
  unfold storedMeta metaAt
  split at key
  · rename_i j hj
    rw [show cfg.root ++ [metadataName i.bucket i.key] = metaFile cfg i.bucket i.key from rfl, hj]
    simp only
    rw [Option.some.inj key, hl m hm]
    rfl
  · cases key

/-- **C110** The same for UploadPart. -/
theorem C110_part_in_flight {os : List Op} {n : Nat} {u : Bytes} {pn : Int} {body : Option Body} (hn : os[n]? = some (.uploadPart u pn body))
    (hu : (47 : UInt8) ∉ u) {w : Bytes}
    (ho : ∀ o ∈ os, (∃ body, o = .uploadPart u pn (some body) ∧ unbroken body ∧ received body = w) ∨ Tidy o ∧ ¬ UsesPart o u pn)
    {fs : FS} (hw : WF fs) (sched : List Nat) {a : Answer} (h : answerAt cfg ext sched os fs n = some (.ok a))
    (hall : ∀ (j : Nat) body, os[j]? = some (.uploadPart u pn body) → answerAt cfg ext sched os fs j ≠ none) :
    contentAt (runPar cfg sched (os.map (opProg cfg ext)) fs).2 (partFile cfg u pn) = some w := by
  have hget : ∀ j : Nat, (os.map (opProg cfg ext))[j]? = (os[j]?).map (opProg cfg ext) := fun j => List.getElem?_map
  refine settled (T := fun j => ∃ body, os[j]? = some (.uploadPart u pn body)) (n := n) hw ?_ ?_ h ?_
  · intro j p hj
    rw [hget, Option.map_eq_some_iff] at hj
    obtain ⟨o, hoj, rfl⟩ := hj
    rcases ho o (List.mem_of_getElem? hoj) with ⟨body, rfl, h1, h2⟩ | h1
    · exact opens_weaken (fun _ => ⟨_, hoj⟩) (opens_map (fun e => Answer.etag (some e)) (opens_part (cfg := cfg) (ext := ext) (w := w) hu
        (fun x hx => by cases hx; exact ⟨h1, h2⟩)))
    · exact opens_tidy h1.1 h1.2
  · intro p hp
    rw [hget, hn] at hp
    cases hp
    exact before_map (fun e => Answer.etag (some e)) (before_part hu)
  · rintro j ⟨body, hj⟩ p hp hnone
    exact hall j body hj (by simp [answerAt, hp, hnone])

/-- the same upload three times, in other fragments, one after the other started while the former is under way, beside a deletion elsewhere:
in between the object has a hole -/
example :
    let put := fun body => Op.putObject { Sample.uploadX body with metadata := some [(b!"k", b!"v")] }
    let os : List Op := [put [some b!"ab", some b!"cd"], put [some b!"abcd"], put [some b!"abc", some [], some b!"d"], .deleteObject b!"bbb" b!"y"]
    let early := [0, 0, 0, 0, 1, 1, 1, 0]
    let sched := early ++ [3, 2, 2, 2, 2, 3, 3, 0, 1, 1, 2, 2, 0, 0, 1, 2, 3, 0, 1, 2, 0, 1, 2]
    (∀ o ∈ os, (∃ i' body, o = .putObject i' ∧ i'.bucket = b!"aaa" ∧ i'.key = b!"x" ∧ i'.body = some body ∧ unbroken body ∧
      received body = b!"abcd") ∨ OnOthers b!"aaa" (Away b!"aaa" b!"x") o) ∧
    (∀ j, j < 3 → answerAt Sample.cfg Sample.ext sched os Sample.fs j = some (.ok (.etag (some b!"\"md5:4\"")))) ∧
    stored Sample.cfg (runPar Sample.cfg early (os.map (opProg Sample.cfg Sample.ext)) Sample.fs).2 b!"aaa" b!"x" = some [0, 0, 99, 100] := by
  refine ⟨?_, ?_, by decide +kernel⟩
  · intro o ho
    simp only [List.mem_cons, List.not_mem_nil, or_false] at ho
    rcases ho with rfl | rfl | rfl | rfl
    · exact .inl ⟨_, _, rfl, rfl, rfl, rfl, by simp [unbroken], rfl⟩
    · exact .inl ⟨_, _, rfl, rfl, rfl, rfl, by simp [unbroken], rfl⟩
    · exact .inl ⟨_, _, rfl, rfl, rfl, rfl, by simp [unbroken], rfl⟩
    · exact .inr ⟨Sample.legal (by decide +kernel), ⟨[b!"y"], plain1 (by decide)⟩, by decide⟩
  · intro j hj
    match j, hj with
    | 0, _ => exact Eq.trans rfl (by decide +kernel)
    | 1, _ => exact Eq.trans rfl (by decide +kernel)
    | 2, _ => exact Eq.trans rfl (by decide +kernel)

/-- a part sent twice at the same time, beside a PutObject -/
example :
    let os : List Op := [.uploadPart b!"id1" 2 (some [some b!"ab", some b!"c"]), .putObject Sample.put3,
      .uploadPart b!"id1" 2 (some [some b!"abc"])]
    let sched := [0, 0, 2, 1, 0, 1, 2, 1, 0, 2, 0, 2]
    (∀ o ∈ os, (∃ body, o = .uploadPart b!"id1" 2 (some body) ∧ unbroken body ∧ received body = b!"abc") ∨
      Tidy o ∧ ¬ UsesPart o b!"id1" 2) ∧
    answerAt Sample.cfg Sample.ext sched os Sample.fs 0 = some (.ok (.etag (some b!"\"md5:3\""))) ∧
    answerAt Sample.cfg Sample.ext sched os Sample.fs 2 = some (.ok (.etag (some b!"\"md5:3\""))) := by
  refine ⟨?_, Eq.trans rfl (by decide +kernel), Eq.trans rfl (by decide +kernel)⟩
  intro o ho
  simp only [List.mem_cons, List.not_mem_nil, or_false] at ho
  rcases ho with rfl | rfl | rfl
  · exact .inl ⟨_, rfl, by simp [unbroken], rfl⟩
  · exact .inr ⟨⟨Sample.legal (by decide +kernel), [b!"d", b!"e"], Sample.plain_de⟩, fun h => h⟩
  · exact .inl ⟨_, rfl, by simp [unbroken], rfl⟩

/-- C110 fails for CompleteMultipartUpload: of two that are under way at the same time for the same upload one is answered with success
and the ETag of an object that begins with a hole where the first part should be, whose bytes are lost. -/
theorem C110_complete_in_flight_fails :
    ∃ (cfg : Cfg) (ext : Ext) (fs : FS) (b k u : Bytes) (parts : List (Option Int)) (sched : List Nat) (a : Answer), WF fs ∧
      LegalBucket b ∧ PlainKey k [k] ∧ (47 : UInt8) ∉ u ∧
      stored cfg (after cfg ext (.completeMultipartUpload b k u (some parts)) fs) b k = some b!"abcde" ∧
      let os : List Op := [.completeMultipartUpload b k u (some parts), .completeMultipartUpload b k u (some parts)]
      answerAt cfg ext sched os fs 0 = some (.ok a) ∧ answerAt cfg ext sched os fs 1 = some (.err .InternalError) ∧
      stored cfg (runPar cfg sched (os.map (opProg cfg ext)) fs).2 b k = some [0, 0, 99, 100, 101] ∧
      contentAt (runPar cfg sched (os.map (opProg cfg ext)) fs).2 (partFile cfg u 1) = none :=
  ⟨Sample.cfg, Sample.ext, afterAll Sample.cfg Sample.ext Sample.ups Sample.fs, b!"aaa", b!"x", b!"id1", numbers 0 3,
    List.replicate 5 0 ++ [1, 1] ++ List.replicate 20 0 ++ List.replicate 20 1, .etag (some b!"\"md5:5\""),
    wf_afterAll Sample.fs_wf, Sample.legal (by decide +kernel), plain1 (by decide), by decide, by decide +kernel,
    Eq.trans rfl (by decide +kernel), Eq.trans rfl (by decide +kernel), by decide +kernel, by decide +kernel⟩

end S3
