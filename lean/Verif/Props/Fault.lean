import Verif.Lemmas.HonestRead
import Verif.Lemmas.FaultCrash
import Verif.Lemmas.Served
import Verif.Spec.Fault
import Verif.Props.Crash
import Verif.Props.Etag
import Verif.Props.Concurrent
import Verif.Props.Buckets
/-! C100–C104: requests on a disk that fails. -/
namespace S3
open Spec

variable {cfg : Cfg} {ext : Ext} {d : Disk}

theorem honF {α : Type} {p : Prog α} (h : Hon cfg Eq p p) {fs : FS} (hw : WF fs) {a : α} {fs' : FS}
    (hr : runF cfg d p fs = (.ok a, fs')) : run cfg p fs = (.ok a, fs') := by
  obtain ⟨x, h1, rfl⟩ := h fs hw d a fs' hr
  exact h1

theorem hon_map {α β : Type} {p : Prog α} (h : Hon cfg Eq p p) (g : α → β) :
    Hon cfg Eq (p.bind fun x => .ret (g x)) (p.bind fun x => .ret (g x)) :=
  Hon.bind h fun a a' e => Hon.ret (by rw [e])

theorem hon_op (o : Op) (hl : ¬ Looks o) : Hon cfg Eq (opProg cfg ext o) (opProg cfg ext o) := by
  cases o with
  | createBucket b => exact hon_map (hon_createBucket b) _
  | copyObject b k s => exact (hl trivial).elim
  | deleteBucket b => exact hon_map (hon_deleteBucket b) _
  | deleteObject b k => exact hon_map (hon_deleteObject b k) _
  | deleteObjects b ks => exact (hl trivial).elim
  | getBucketLocation b => exact hon_map (hon_getBucketLocation b) _
  | getObject b k r w => exact (hl trivial).elim
  | headBucket b => exact hon_map (hon_headBucket b) _
  | headObject b k => exact (hl trivial).elim
  | listBuckets => exact hon_map hon_listBuckets _
  | listObjects b p f => exact hon_map (hon_listObjects b p f) _
  | listObjectsV2 b p f => exact hon_map (hon_listObjectsV2 b p f) _
  | putObject i => exact hon_map (hon_putObject i) _
  | createMultipartUpload u => exact hon_map (Hon.ret rfl) _
  | uploadPart u n b => exact hon_map (hon_uploadPart u n b) _
  | completeMultipartUpload b k u p => exact hon_map (hon_complete b k u p) _

theorem answerF_ok {o : Op} {fs : FS} {a : Answer} :
    answerF cfg ext d o fs = .ok a ↔ runF cfg d (opProg cfg ext o) fs = (.ok a, afterF cfg ext d o fs) := by
  constructor
  · intro h; exact Prod.ext h rfl
  · intro h; simp only [answerF, h]

/-- **C100** Whatever fails on the disk: when a request is answered with success then the answer and the stored data are the
ones of a disk on which nothing fails. For all requests but the four that look whether a file is there
(GetObject, HeadObject, CopyObject, DeleteObjects): these are the subject of C101 and C102. -/
theorem C100_success (d : Disk) {o : Op} (ho : ¬ Looks o) {fs : FS} (hw : WF fs) {a : Answer}
    (h : answerF cfg ext d o fs = .ok a) : answer cfg ext o fs = .ok a ∧ afterF cfg ext d o fs = after cfg ext o fs := by
  have h1 := honF (hon_op (cfg := cfg) (ext := ext) o ho) hw (answerF_ok.mp h)
  constructor
  · simp only [answer, h1]
  · simp only [after, h1]

/-- a sound disk, a disk that fails before anything has been written, a disk that fails on the second write -/
example : ¬ Looks (.putObject Sample.overwrite) ∧
    answerF Sample.cfg Sample.ext (oneFault 9 .before) (.putObject Sample.overwrite) Sample.fs = .ok (.etag (some b!"\"md5:7\"")) ∧
    answerF Sample.cfg Sample.ext (oneFault 1 .before) (.putObject Sample.overwrite) Sample.fs = .err .InternalError ∧
    answerF Sample.cfg Sample.ext (oneFault 4 (.during 1 [])) (.putObject Sample.overwrite) Sample.fs = .err .InternalError :=
  ⟨fun h => h, by decide +kernel, by decide +kernel, by decide +kernel⟩

/-- a failed `mkdir` of a directory that is there is not noticed, and the success is honest: the second call of this request fails -/
example : answerF Sample.cfg Sample.ext (oneFault 0 .before) (.putObject Sample.overwrite) Sample.fs = .ok (.etag (some b!"\"md5:7\"")) := by
  decide +kernel

/-- **C100** A PutObject answered with success on a disk that may fail has stored the whole body, which arrived unbroken, and the
metadata, and the ETag is that of the body. -/
theorem C100_put (d : Disk) (hl : MetaLaw ext) {i : PutInput} (hi : ObjectPut i) (hv : ∀ m, i.metadata = some m → ValidMeta m)
    {fs : FS} (hw : WF fs) {a : Answer} (h : answerF cfg ext d (.putObject i) fs = .ok a) :
    (∃ body, i.body = some body ∧ unbroken body ∧ stored cfg (afterF cfg ext d (.putObject i) fs) i.bucket i.key = some (received body) ∧
      a = .etag (some (quoted (ext.md5hex (received body))))) ∧
    ∀ m, i.metadata = some m → storedMeta cfg ext (afterF cfg ext d (.putObject i) fs) i.bucket i.key = some (some m) := by
  obtain ⟨h1, h2⟩ := C100_success d (o := .putObject i) (fun h => h) hw h
  rw [h2]
  obtain ⟨e, rfl, hd⟩ := put_done hi hw h1
  refine ⟨?_, ?_⟩
  · obtain ⟨body, hb, hu, hs, rfl⟩ := hd.body
    exact ⟨body, hb, hu, hs, rfl⟩
  · intro m hm
    have := put_meta hl hi hv hw h1
    rw [hm] at this
    exact this

example : MetaLaw Sample.ext ∧ ObjectPut Sample.put3 ∧ (∀ m, Sample.put3.metadata = some m → ValidMeta m) ∧ WF Sample.fs ∧
    answerF Sample.cfg Sample.ext (oneFault 0 .after) (.putObject Sample.put3) Sample.fs = .ok (.etag (some b!"\"md5:7\"")) :=
  ⟨Sample.ext_roundtrip, ⟨by decide +kernel, by decide +kernel⟩, Sample.validMeta, Sample.fs_wf, by decide +kernel⟩

/-- **C100** An UploadPart answered with success on a disk that may fail has stored the whole part. -/
theorem C100_part (d : Disk) {u : Bytes} (hu : (47 : UInt8) ∉ u) (n : Int) (body : Body) {fs : FS} (hw : WF fs) {a : Answer}
    (h : answerF cfg ext d (.uploadPart u n (some body)) fs = .ok a) :
    unbroken body ∧ contentAt (afterF cfg ext d (.uploadPart u n (some body)) fs) (partFile cfg u n) = some (received body) := by
  obtain ⟨h1, h2⟩ := C100_success d (o := .uploadPart u n (some body)) (fun h => h) hw h
  rw [h2]
  obtain ⟨e, hr, _⟩ := answer_uploadPart h1
  have := uploadPart_run hu hw hr
  exact ⟨this.1, this.2.2.1⟩

example : answerF Sample.cfg Sample.ext (oneFault 3 .before) (.uploadPart b!"id1" 2 (some [some b!"cd", some b!"e"])) Sample.fs
      = .ok (.etag (some b!"\"md5:3\"")) ∧
    answerF Sample.cfg Sample.ext (oneFault 2 .after) (.uploadPart b!"id1" 2 (some [some b!"cd", some b!"e"])) Sample.fs = .err .InternalError :=
  ⟨by decide +kernel, by decide +kernel⟩

/-- **C100** A DeleteObject answered with success on a disk that may fail has removed the object. -/
theorem C100_delete (d : Disk) {b k : Bytes} (hk : endsWithByte k 47 = false) {fs : FS} (hw : WF fs) {a : Answer}
    (h : answerF cfg ext d (.deleteObject b k) fs = .ok a) :
    stored cfg fs b k ≠ none ∧ stored cfg (afterF cfg ext d (.deleteObject b k) fs) b k = none := by
  obtain ⟨h1, h2⟩ := C100_success d (o := .deleteObject b k) (fun h => h) hw h
  rw [h2]
  obtain ⟨p, i, hp, ha, he⟩ := delete_erases hk h1
  rw [he]
  constructor
  · rw [stored_some.mpr ⟨p, i, hp, ha, rfl⟩]; simp
  · rw [stored_none hp]
    intro j hj
    rw [at_none (erase_gone ha)] at hj
    cases hj

example : answerF Sample.cfg Sample.ext (oneFault 1 .before) (.deleteObject b!"aaa" b!"x") Sample.fs = .ok .done ∧
    answerF Sample.cfg Sample.ext (oneFault 0 .after) (.deleteObject b!"aaa" b!"x") Sample.fs = .err .InternalError :=
  ⟨by decide +kernel, by decide +kernel⟩

/-- **C100** A CompleteMultipartUpload answered with success on a disk that may fail has stored the concatenation of the parts. -/
theorem C100_complete (d : Disk) {u b k : Bytes} {cs : List Bytes} (hu : (47 : UInt8) ∉ u) (hb : LegalBucket b)
    (hk : PlainKey k cs) {fs : FS} (hw : WF fs) (contents : List Bytes)
    (hparts : ∀ (j : Nat) c, contents[j]? = some c → contentAt fs (partFile cfg u (j + 1)) = some c) {a : Answer}
    (h : answerF cfg ext d (.completeMultipartUpload b k u (some (numbers 0 contents.length))) fs = .ok a) :
    stored cfg (afterF cfg ext d (.completeMultipartUpload b k u (some (numbers 0 contents.length))) fs) b k = some contents.flatten ∧
    a = .etag (some (quoted (ext.md5hex contents.flatten))) := by
  obtain ⟨h1, h2⟩ := C100_success d (o := .completeMultipartUpload b k u (some (numbers 0 contents.length))) (fun h => h) hw h
  rw [h2]
  have hb' := (C02_bucket_name_rule b).mpr hb
  have hobj := objectPath_plain cfg hb' hk
  obtain ⟨e, h3, rfl⟩ := answer_complete.mp h1
  have hc : ∃ i, (exec cfg fs (.create ⟨cfg.root ++ b :: cs, false⟩)).1 = some i := by
    cases hc : (exec cfg fs (.create ⟨cfg.root ++ b :: cs, false⟩)).1 with
    | some i => exact ⟨i, rfl⟩
    | none =>
      simp only [completeMultipartUpload, bind_eq, pure_eq, hobj, run_orInternal_some] at h3
      rw [run_call1, hc] at h3
      cases h3
  obtain ⟨fs', h4, h5, _, _⟩ := complete_run (ext := ext) hu
    (fun m => plain_not_part (u := u) (n := m) hb' hk ((objP_plain hb' hk).mpr rfl)) hobj hw hc contents (by
      intro j d hj
      rw [show (0 : Int) + 1 + j = j + 1 by omega]
      exact hparts j d hj)
  rw [after_complete, h4]
  rw [h4] at h3
  cases h3
  exact ⟨by simp [stored, hobj, h5], rfl⟩

example : (∀ (j : Nat) c, ([b!"ab", b!"cde", b!""] : List Bytes)[j]? = some c →
      contentAt (afterAll Sample.cfg Sample.ext Sample.ups Sample.fs) (partFile Sample.cfg b!"id1" (j + 1)) = some c) ∧
    answerF Sample.cfg Sample.ext (oneFault 20 .before) (.completeMultipartUpload b!"aaa" b!"x" b!"id1" (some (numbers 0 3)))
      (afterAll Sample.cfg Sample.ext Sample.ups Sample.fs) = .ok (.etag (some b!"\"md5:5\"")) ∧
    answerF Sample.cfg Sample.ext (oneFault 7 .before) (.completeMultipartUpload b!"aaa" b!"x" b!"id1" (some (numbers 0 3)))
      (afterAll Sample.cfg Sample.ext Sample.ups Sample.fs) = .err .InternalError := by
  refine ⟨?_, by decide +kernel, by decide +kernel⟩
  intro j c h
  rcases j with _ | _ | _ | j
  · simp at h; subst h; decide +kernel
  · simp at h; subst h; decide +kernel
  · simp at h; subst h; decide +kernel
  · simp at h

/-- **C100** A listing answered with success on a disk that may fail is complete. -/
theorem C100_listing (d : Disk) {b : Bytes} {fs : FS} (hw : WF fs) (hl : Listable cfg fs b) (pfx : Option Bytes)
    {fuel : Nat} (hf : fs.nodes.length < fuel) {l : List (Bytes × Nat)} (h : answerF cfg ext d (.listObjects b pfx fuel) fs = .ok (.objects l))
    (k : Bytes) (n : Nat) : (k, n) ∈ l ↔ ∃ cs c, PlainKey k cs ∧ stored cfg fs b k = some c ∧ n = c.length ∧ matchesPrefix pfx k := by
  obtain ⟨h1, _⟩ := C100_success d (o := .listObjects b pfx fuel) (fun h => h) hw h
  obtain ⟨l', h2, _, _, h3⟩ := C20_listing_partial (ext := ext) hw hl pfx hf
  rw [h1] at h2
  cases h2
  exact h3 k n

example : answerF Sample.cfg Sample.ext (oneFault 9 .before) (.listObjects b!"aaa" none 20) Sample.fs = .ok (.objects [(b!"x", 5)]) ∧
    answerF Sample.cfg Sample.ext (oneFault 1 .before) (.listObjects b!"aaa" none 20) Sample.fs = .err .InternalError :=
  ⟨by decide +kernel, by decide +kernel⟩

/-! ### C101: reading on a disk that fails -/

theorem runF_map {α β : Type} {p : Prog α} {f : α → β} {fs : FS} {b : β} {fs' : FS}
    (h : runF cfg d (p.bind fun x => .ret (f x)) fs = (.ok b, fs')) : ∃ a, runF cfg d p fs = (.ok a, fs') ∧ f a = b := by
  induction p generalizing fs d with
  | ret a => simp only [Prog.bind, runF, Prod.mk.injEq, Outcome.ok.injEq] at h ⊢; exact ⟨a, ⟨rfl, h.2⟩, h.1⟩
  | fail e => simp [Prog.bind, runF] at h
  | panic => simp [Prog.bind, runF] at h
  | diverge => simp [Prog.bind, runF] at h
  | sys c k ih => exact ih _ h

/-- **C101** (partial) When a GetObject is answered with success on a disk that may fail, the object is there, the ETag is that of its
content, the length is the announced one, and either the bytes delivered are exactly those asked for or the transfer visibly breaks off; the
metadata are the stored ones or are missing. HeadObject answers the true length, and metadata likewise. Neither changes anything.
Missing from the full property: that metadata are never missing from a successful answer, and that an object that is there is never said not
to exist; both are false, see `C101_read_fails`. -/
theorem C101_read_partial (d : Disk) {b k : Bytes} {fs : FS} :
    (∀ r w n md e body, answerF cfg ext d (.getObject b k r w) fs = .ok (.object n md e body) →
      afterF cfg ext d (.getObject b k r w) fs = fs ∧
      ∃ c, stored cfg fs b k = some c ∧ e = quoted (ext.md5hex c) ∧ (md = none ∨ storedMeta cfg ext fs b k = some md) ∧
        (r = none → n = c.length ∧ (body = none ∨ body = some c)) ∧
        (∀ h x, r = some h → RangeHeader h x → c.length < 2 ^ 64 → body = none ∨ body = some (x.select c))) ∧
    (∀ n md, answerF cfg ext d (.headObject b k) fs = .ok (.head n md) →
      afterF cfg ext d (.headObject b k) fs = fs ∧
      (∀ c, stored cfg fs b k = some c → n = c.length) ∧
      (∃ p, objectPath cfg b k = some p ∧ fs.at p ≠ none) ∧ (md = none ∨ storedMeta cfg ext fs b k = some md)) := by
  constructor
  · intro r w n md e body h
    obtain ⟨⟨o, body'⟩, h1, h2⟩ := runF_map (answerF_ok.mp h)
    cases h2
    obtain ⟨h3, ht⟩ := okF_get b k r w fs d _ _ h1
    refine ⟨h3, ?_⟩
    obtain ⟨p, i, x, hp, hi, hx, hsl, hlim, hcl, he, hbody⟩ := ht.ok
    refine ⟨fs.data i, stored_some.mpr ⟨p, i, hp, hi, rfl⟩, he, ht.md, ?_, ?_⟩
    · rintro rfl
      cases hx
      simp only [rangeSlice, Option.some.injEq, Prod.mk.injEq] at hsl
      obtain ⟨h4, h5⟩ := hsl
      simp only at hcl hbody
      refine ⟨?_, ?_⟩
      · rw [hcl, ← h5]
      · rw [← h4, ← h5] at hbody
        simpa using hbody
    · rintro s v rfl hv hlen
      obtain ⟨v', hv', rfl⟩ := rangeOf_header hv
      rw [hv'] at hx
      cases hx
      simp only at hbody
      rw [slice_select hv (by simp only [u64Max]; omega) hsl] at hbody
      exact hbody
  · intro n md h
    obtain ⟨⟨n', md'⟩, h1, h2⟩ := runF_map (answerF_ok.mp h)
    cases h2
    obtain ⟨h3, ⟨p, nd, hp, hnd, hn⟩, hmd⟩ := okF_head b k fs d _ _ h1
    refine ⟨h3, ?_, ⟨p, hp, by rw [hnd]; simp⟩, hmd⟩
    intro c hc
    obtain ⟨p', i, hp', hi, rfl⟩ := stored_some.mp hc
    rw [hp] at hp'
    cases hp'
    rw [hnd] at hi
    cases hi
    exact hn

/-- the sample installation with an object `aaa/d/e` that has metadata -/
def Sample.withMeta : FS := after Sample.cfg Sample.ext (.putObject Sample.put3) Sample.fs

/-- the seventh call fails: the answer has begun, the transfer breaks off -/
example : answerF Sample.cfg Sample.ext (oneFault 7 .before) (.getObject b!"aaa" b!"d/e" none fun _ => 100) Sample.withMeta
      = .ok (.object 7 (some [(b!"k", b!"v")]) b!"\"md5:7\"" none) ∧
    answerF Sample.cfg Sample.ext (oneFault 9 .before) (.getObject b!"aaa" b!"d/e" (some b!"bytes=1-2") fun _ => 100) Sample.withMeta
      = .ok (.object 2 (some [(b!"k", b!"v")]) b!"\"md5:7\"" (some b!"ne")) ∧
    answerF Sample.cfg Sample.ext (oneFault 9 .before) (.headObject b!"aaa" b!"d/e") Sample.withMeta = .ok (.head 7 (some [(b!"k", b!"v")])) :=
  ⟨by decide +kernel, by decide +kernel, by decide +kernel⟩

/-- C101 fails: when the disk fails at the wrong moment then GetObject and HeadObject answer success without the metadata the object has;
GetObject, HeadObject and HeadBucket say that an object or a bucket does not exist that does. -/
theorem C101_read_fails :
    ∃ (cfg : Cfg) (ext : Ext) (fs : FS) (b k c : Bytes) (m : Meta) (w : Nat → Nat) (d d' : Disk), WF fs ∧ LegalBucket b ∧
      stored cfg fs b k = some c ∧ storedMeta cfg ext fs b k = some (some m) ∧ m ≠ [] ∧
      answerF cfg ext d (.getObject b k none w) fs = .ok (.object c.length none (quoted (ext.md5hex c)) (some c)) ∧
      answerF cfg ext d (.headObject b k) fs = .ok (.head c.length none) ∧
      answerF cfg ext d' (.getObject b k none w) fs = .err .NoSuchKey ∧
      answerF cfg ext d' (.headObject b k) fs = .err .NoSuchKey ∧
      answerF cfg ext d' (.headBucket b) fs = .err .NoSuchBucket :=
  ⟨Sample.cfg, Sample.ext, Sample.withMeta, b!"aaa", b!"d/e", b!"one two", [(b!"k", b!"v")], fun _ => 100, oneFault 2 .before, oneFault 0 .before,
    wf_after Sample.fs_wf, (C02_bucket_name_rule _).mp (by decide +kernel), by decide +kernel, by decide +kernel, by decide, by decide +kernel,
    by decide +kernel, by decide +kernel, by decide +kernel, by decide +kernel⟩

/-! ### C102: copying and deleting many -/

/-- **C102** (partial) A CopyObject between two different plain addresses that is answered with success on a disk that may fail has copied
all bytes; the ETag is that of the copy; the metadata of the destination are those of the source or those it had before.
Missing from the full property: that they are those of the source, which is false, see `C102_skip_fails`. -/
theorem C102_copy_partial (d : Disk) {b k s sb sk : Bytes} {cs scs : List Bytes} (hb : LegalBucket b) (hk : PlainKey k cs)
    (hs : copySourceFromHeader s = .ok (sb, sk)) (hsb : LegalBucket sb) (hsk : PlainKey sk scs) (hne : (b, k) ≠ (sb, sk))
    {fs : FS} (hw : WF fs) {a : Answer} (h : answerF cfg ext d (.copyObject b k s) fs = .ok a) :
    ∃ c, stored cfg fs sb sk = some c ∧
      stored cfg (afterF cfg ext d (.copyObject b k s) fs) b k = some c ∧
      stored cfg (afterF cfg ext d (.copyObject b k s) fs) sb sk = some c ∧
      a = .etag (some (quoted (ext.md5hex c))) ∧
      (storedMeta cfg ext (afterF cfg ext d (.copyObject b k s) fs) b k = storedMeta cfg ext fs sb sk ∨
        storedMeta cfg ext (afterF cfg ext d (.copyObject b k s) fs) b k = storedMeta cfg ext fs b k) := by
  have hb' := (C02_bucket_name_rule b).mpr hb
  have hsb' := (C02_bucket_name_rule sb).mpr hsb
  obtain ⟨e, h1, rfl⟩ := runF_map (answerF_ok.mp h)
  obtain ⟨src, dst, fs1, hsp, hdp, h2, h3, j, hj, rfl⟩ := okF_copy hs hw d _ _ h1
  generalize afterF cfg ext d (.copyObject b k s) fs = fs' at *
  rw [objectPath_plain cfg hsb' hsk] at hsp
  rw [objectPath_plain cfg hb' hk] at hdp
  cases hsp
  cases hdp
  obtain ⟨i, hi, _, ⟨m, hm⟩, hfr⟩ := copyFile_ok hw h2
  have hw1 := run_wf_of h2 hw
  have hsd : cfg.root ++ sb :: scs ≠ cfg.root ++ b :: cs := fun e => hne (by
    have := plain_path_inj hsk hk e; rw [this.1, this.2])
  rw [if_neg hsd] at hm
  have hi' : Has fs (cfg.root ++ sb :: scs) i (fs.data i) := ⟨(at_file hi).1, rfl⟩
  have hi1 := hfr.keep hw hsd hi'
  have hfr2 : Frame (· = metaFile cfg b k) (fun _ => False) fs1 fs' := by
    rcases h3 with rfl | h3
    · exact .refl ..
    · exact (copyFile_ok hw1 h3).choose_spec.2.2.2
  have hi2 := hfr2.keep hw1 (fun e => meta_not_prefix hsb' (pfx_of_eq e.symm)) hi1
  have hm2 := hfr2.keep hw1 (fun e => meta_not_prefix hb' (pfx_of_eq e.symm)) hm
  have hji : fs'.data j = fs.data i := by
    have h4 := (at_file hj).1
    rw [hi2.node] at h4
    cases h4
    exact hi2.data
  rw [hji]
  refine ⟨fs.data i, stored_some.mpr ⟨_, i, objectPath_plain cfg hsb' hsk, hi, rfl⟩, ?_, ?_, rfl, ?_⟩
  · simp only [stored, objectPath_plain cfg hb' hk]; exact hm2.content
  · simp only [stored, objectPath_plain cfg hsb' hsk]; exact hi2.content
  · have hkeep : ∀ b' k', storedMeta cfg ext fs1 b' k' = storedMeta cfg ext fs b' k' := fun b' k' =>
      metaAt_same (frame_same hfr (fun e => meta_not_prefix hb' (pfx_of_eq e)) (.inl fun h => h)) hw
    rcases h3 with rfl | h3
    · exact .inr (hkeep b k)
    · left
      obtain ⟨x, hx, _, ⟨y, hy⟩, _⟩ := copyFile_ok hw1 h3
      have hmm : metaFile cfg sb sk ≠ metaFile cfg b k := fun e => hne (by
        have := metaFile_inj e; rw [this.1, this.2])
      rw [if_neg hmm] at hy
      rw [← hkeep sb sk]
      have hx' := (at_file hx).1
      simp only at hx'
      have e1 : storedMeta cfg ext fs' b k = (ext.metaDec (fs1.data x)).map some := by
        rw [storedMeta, metaAt, show cfg.root ++ [metadataName b k] = metaFile cfg b k from rfl, hy.node]
        simp only [hy.data]
      rw [e1, storedMeta, metaAt, show cfg.root ++ [metadataName sb sk] = metaFile cfg sb sk from rfl, hx']

/-- **C102** (partial) When a DeleteObjects of distinct plain keys (none naming a directory) is answered with success on a disk that may
fail, the keys reported as deleted were listed, held an object, and hold none now; what was not reported is as it was before.
Missing from the full property: that every listed key that held an object is reported, which is false, see `C102_skip_fails`. -/
theorem C102_delete_objects_partial (d : Disk) {b : Bytes} (hb : LegalBucket b) {ks : List Bytes} (hn : ks.Nodup) {fs : FS} (hw : WF fs)
    (hk : ∀ k ∈ ks, ∃ cs, PlainKey k cs ∧ ¬ IsDir fs (cfg.root ++ b :: cs)) {l : List Bytes}
    (h : answerF cfg ext d (.deleteObjects b ks) fs = .ok (.keys l)) :
    l.Sublist ks ∧
    (∀ k ∈ l, stored cfg fs b k ≠ none ∧ stored cfg (afterF cfg ext d (.deleteObjects b ks) fs) b k = none) ∧
    (∀ k ∈ ks, k ∉ l → stored cfg (afterF cfg ext d (.deleteObjects b ks) fs) b k = stored cfg fs b k) := by
  obtain ⟨l', h1, h2⟩ := runF_map (answerF_ok.mp h)
  cases h2
  obtain ⟨ks', hsub, hr⟩ := okF_deleteObjects b ks hw d _ _ h1
  generalize afterF cfg ext d (.deleteObjects b ks) fs = fs' at *
  have hk' : ∀ k ∈ ks', ∃ cs, PlainKey k cs ∧ ¬ IsDir fs (cfg.root ++ b :: cs) := fun k h => hk k (hsub.subset h)
  obtain ⟨ha, hg, ho⟩ := C26_delete_objects_partial (cfg := cfg) (ext := ext) hb (hsub.nodup hn) hw hk'
  have hA : after cfg ext (.deleteObjects b ks') fs = fs' := by rw [after, opProg, run_bind, hr]; rfl
  have hB : answer cfg ext (.deleteObjects b ks') fs = .ok (.keys l) := by rw [answer, opProg, run_bind, hr]; rfl
  rw [hA] at hg ho
  rw [hB] at ha
  cases ha
  refine ⟨List.Sublist.trans List.filter_sublist hsub, ?_, ?_⟩
  · intro k hk1
    obtain ⟨h3, h4⟩ := List.mem_filter.mp hk1
    exact ⟨(by intro e; rw [e] at h4; cases h4), hg k h3⟩
  · intro k hk1 hk2
    by_cases hk3 : k ∈ ks'
    · rw [hg k hk3]
      cases hs : stored cfg fs b k with
      | none => rfl
      | some c => exact absurd (List.mem_filter.mpr ⟨hk3, by rw [hs]; rfl⟩) hk2
    · obtain ⟨cs, hcs, _⟩ := hk k hk1
      have hb' := (C02_bucket_name_rule b).mpr hb
      simp only [stored, objectPath_plain cfg hb' hcs, ← plainFile_eq (cfg := cfg) (b := b) hcs]
      refine (ho _ ?_).2
      intro k' hk4 e
      obtain ⟨cs', hcs', _⟩ := hk' k' hk4
      exact hk3 (plainFile_inj hcs hcs' e ▸ hk4)

example : PlainKey b!"x" [b!"x"] ∧ copySourceFromHeader b!"aaa/d/e" = .ok (b!"aaa", b!"d/e") ∧
    answerF Sample.cfg Sample.ext (oneFault 20 .before) (.copyObject b!"aaa" b!"x" b!"aaa/d/e") Sample.withMeta = .ok (.etag (some b!"\"md5:7\"")) ∧
    answerF Sample.cfg Sample.ext (oneFault 4 (.during 3 [])) (.copyObject b!"aaa" b!"x" b!"aaa/d/e") Sample.withMeta = .err .InternalError :=
  ⟨plain1 (by decide), by decide +kernel, by decide +kernel, by decide +kernel⟩

example : ([b!"d/e", b!"x"] : List Bytes).Nodup ∧
    (∀ k ∈ [b!"d/e", b!"x"], ∃ cs, PlainKey k cs ∧ ¬ IsDir Sample.withMeta (Sample.cfg.root ++ b!"aaa" :: cs)) ∧
    answerF Sample.cfg Sample.ext (oneFault 1 .before) (.deleteObjects b!"aaa" [b!"d/e", b!"x"]) Sample.withMeta = .ok (.keys [b!"d/e"]) := by
  refine ⟨by decide, ?_, by decide +kernel⟩
  intro k hk
  rcases List.mem_cons.mp hk with rfl | hk
  · exact ⟨[b!"d", b!"e"], plain2 (a := b!"d") (c := b!"e") ⟨by decide, by decide, by decide, by decide⟩
      ⟨by decide, by decide, by decide, by decide⟩, by unfold IsDir; decide +kernel⟩
  · rw [List.mem_singleton.mp hk]
    exact ⟨[b!"x"], plain1 (by decide), by unfold IsDir; decide +kernel⟩

/-- C102 fails: when the disk fails at the wrong moment, a copy is answered with success although the metadata have not been copied, and
DeleteObjects is answered with success although an object in its list is still there. -/
theorem C102_skip_fails :
    ∃ (cfg : Cfg) (ext : Ext) (fs : FS) (b k k' s : Bytes) (m : Meta) (a : Answer) (d d' : Disk), WF fs ∧ LegalBucket b ∧
      copySourceFromHeader s = .ok (b, k) ∧ storedMeta cfg ext fs b k = some (some m) ∧ m ≠ [] ∧
      answerF cfg ext d (.copyObject b k' s) fs = .ok a ∧
      storedMeta cfg ext (afterF cfg ext d (.copyObject b k' s) fs) b k' = some none ∧
      answerF cfg ext d' (.deleteObjects b [k, k']) fs = .ok (.keys [k']) ∧
      stored cfg (afterF cfg ext d' (.deleteObjects b [k, k']) fs) b k = some b!"one two" :=
  ⟨Sample.cfg, Sample.ext, Sample.withMeta, b!"aaa", b!"d/e", b!"x", b!"aaa/d/e", [(b!"k", b!"v")], .etag (some b!"\"md5:7\""),
    oneFault 5 .before, oneFault 0 .before,
    wf_after Sample.fs_wf, (C02_bucket_name_rule _).mp (by decide +kernel), by decide +kernel, by decide +kernel, by decide, by decide +kernel,
    by decide +kernel, by decide +kernel, by decide +kernel⟩

/-! ### C103: errors of the disk do not spread -/

theorem moment_of {J : FS → Prop} {o : Op} {fs fs' : FS} (h : alwF cfg J (opProg cfg ext o) fs) (hm : Moment cfg ext d o fs fs') : J fs' := by
  rcases hm with ⟨n, rfl⟩ | rfl
  · exact h d n
  · exact alwF_end h d

/-- **C103** Whatever fails on the disk, and at every moment (so also when the server dies): a request on other objects and buckets leaves the
content and the metadata of an object alone. -/
theorem C103_others (d : Disk) {b k : Bytes} {cs : List Bytes} (hb : LegalBucket b) (hk : PlainKey k cs) {o : Op}
    (ho : OnOthers b (Away b k) o) {fs fs' : FS} (hw : WF fs) (hm : Moment cfg ext d o fs fs') :
    stored cfg fs' b k = stored cfg fs b k ∧ storedMeta cfg ext fs' b k = storedMeta cfg ext fs b k := by
  have hb' := (C02_bucket_name_rule b).mpr hb
  have hs := (op_safe cfg ext o).mono (fun c h => away_ok (cfg := cfg) hb' hk ho h) (fun _ h => h)
  have hf : Frame _ _ fs fs' := moment_of (alwF_safe hs (J := Frame _ _ fs)
    (fun x c f hwx hj hc => hj.trans (execF_frame hwx hc f)) hw (.refl ..)) hm
  constructor
  · simp only [stored, objectPath_plain cfg hb' hk]
    exact content_frame hw hf (fun h => h (.inl rfl))
  · exact metaAt_same (frame_same hf (fun h => h (.inr rfl)) (.inl fun h => h rfl)) hw

/-- an upload over `aaa/x` on a full disk; the removal of a bucket that breaks off after one file -/
example : OnOthers b!"bbb" (Away b!"bbb" b!"y") (.putObject Sample.overwrite) ∧ OnOthers b!"bbb" (Away b!"bbb" b!"y") (.deleteBucket b!"aaa") ∧
    stored Sample.cfg Sample.fs b!"bbb" b!"y" = some b!"world!" ∧
    Moment Sample.cfg Sample.ext (oneFault 0 (.during 0 [[b!"srv", b!"aaa", b!"x"]])) (.deleteBucket b!"aaa") Sample.fs
      (duringF Sample.cfg Sample.ext (oneFault 0 (.during 0 [[b!"srv", b!"aaa", b!"x"]])) 1 (.deleteBucket b!"aaa") Sample.fs) ∧
    stored Sample.cfg (duringF Sample.cfg Sample.ext (oneFault 0 (.during 0 [[b!"srv", b!"aaa", b!"x"]])) 1 (.deleteBucket b!"aaa") Sample.fs)
      b!"aaa" b!"x" = none ∧
    answerF Sample.cfg Sample.ext (oneFault 0 (.during 0 [[b!"srv", b!"aaa", b!"x"]])) (.deleteBucket b!"aaa") Sample.fs = .err .InternalError :=
  ⟨⟨(C02_bucket_name_rule _).mp (by decide +kernel), ⟨[b!"x"], plain1 (by decide)⟩, by decide⟩,
    ⟨(C02_bucket_name_rule _).mp (by decide +kernel), by decide⟩, by decide +kernel, .inl ⟨1, rfl⟩, by decide +kernel, by decide +kernel⟩

/-- **C103** Requests that only read change nothing, whatever fails. -/
theorem C103_reads (d : Disk) {o : Op} (ho : IsReadOp o) {fs fs' : FS} (hw : WF fs) (hm : Moment cfg ext d o fs fs') : fs' = fs := by
  refine moment_of (J := fun x => x = fs) (alwF_safe (op_safe cfg ext o) ?_ hw rfl) hm
  intro x c f _ hx hc
  subst hx
  cases c with
  | mkdir p => cases o <;> first | exact hc.elim | exact ho.elim
  | create p => cases o <;> first | exact hc.elim | exact ho.elim
  | writeAt i a b => cases o <;> first | exact hc.elim | exact ho.elim
  | unlink p => cases o <;> first | exact hc.elim | exact ho.elim
  | rmdir p => cases o <;> first | exact hc.elim | exact ho.elim
  | rmtree p => cases o <;> first | exact hc.elim | exact ho.elim
  | readDir p =>
    have e : (exec cfg x (.readDir p)).2 = x := by simp only [exec]; split <;> rfl
    cases f <;> first | rfl | exact e
  | _ => cases f <;> rfl

/-- a listing that breaks off at its second call -/
example : IsReadOp (.listObjects b!"aaa" none 20) ∧
    answerF Sample.cfg Sample.ext (oneFault 1 (.during 5 [[b!"srv", b!"aaa"]])) (.listObjects b!"aaa" none 20) Sample.fs = .err .InternalError ∧
    Moment Sample.cfg Sample.ext (oneFault 1 (.during 5 [[b!"srv", b!"aaa"]])) (.listObjects b!"aaa" none 20) Sample.fs
      (afterF Sample.cfg Sample.ext (oneFault 1 (.during 5 [[b!"srv", b!"aaa"]])) (.listObjects b!"aaa" none 20) Sample.fs) :=
  ⟨trivial, by decide +kernel, .inr rfl⟩

/-- **C103** Nothing outside the storage root changes, whatever fails. -/
theorem C103_root (d : Disk) (o : Op) {fs fs' : FS} (hw : WF fs) (hr : RootReachable cfg fs) (hm : Moment cfg ext d o fs fs')
    {q : Path} (hq : ¬ Above cfg.root q) : contentAt fs' q = contentAt fs q ∧ fs'.lookup q = fs.lookup q := by
  have hs := (op_safe cfg ext o).mono (op_region cfg o) (fun _ h => h)
  have h1 := moment_of (alwF_safe hs (J := fun x => Agree (fun q => !below cfg.root q) fs x ∧ RegionRooted (below cfg.root) x)
    (fun x c f hx hj hc => by
      have := execF_outside (cfg := cfg) hx hj.2 hc f
      exact ⟨hj.1.trans this, hj.2.agree this⟩) hw ⟨.refl .., regionRooted_below hr⟩) hm
  have hz : (!below cfg.root q) = true := by
    cases hb : below cfg.root q with
    | false => rfl
    | true =>
      obtain ⟨t, ht⟩ := isPrefixOf_iff.mp hb
      exact absurd ⟨t, ht.symm⟩ hq
  exact ⟨content_of_agree hw h1.1 (Z := fun q => !below cfg.root q) hz, (h1.1.lookup (Z := fun q => !below cfg.root q) hz).symm⟩

/-- a disk that is told by its fault to remove more than it was asked to: only what is below the directory counts -/
example : WF Sample.fs ∧ RootReachable Sample.cfg Sample.fs ∧ ¬ Above Sample.cfg.root [b!"etc", b!"passwd"] ∧
    contentAt (afterF Sample.cfg Sample.ext (oneFault 0 (.during 0 [[], [b!"srv"], [b!"etc"], [b!"srv", b!"aaa", b!"x"]])) (.deleteBucket b!"aaa")
      Sample.fs) [b!"srv", b!"aaa", b!"x"] = none :=
  ⟨Sample.fs_wf, sample_reachable, (by rintro ⟨t, h⟩; exact absurd (List.cons.inj h).1 (by decide)), by decide +kernel⟩

/-- **C103** Whatever fails, a request ends without a panic, and an error it is answered with is one of the documented ones. -/
theorem C103_errors (d : Disk) (o : Op) (fs : FS) :
    answerF cfg ext d o fs ≠ .panic ∧ ∀ e, answerF cfg ext d o fs = .err e → e ∈ operationErrors o := by
  have := (ends_op cfg ext o).runF (cfg := cfg) d fs
  exact ⟨this.2.1, this.1⟩

example : answerF Sample.cfg Sample.ext (fun _ => .before) (.listBuckets) Sample.fs = .err .InternalError ∧
    answerF Sample.cfg Sample.ext (fun _ => .before) (.headObject b!"aaa" b!"x") Sample.fs = .err .NoSuchKey ∧
    answerF Sample.cfg Sample.ext (fun _ => .before) (.copyObject b!"aaa" b!"x" b!"bbb/y") Sample.fs = .err .InternalError :=
  ⟨by decide +kernel, by decide +kernel, by decide +kernel⟩

/-! ### C104: what a failed write leaves -/

theorem alwF_map {α β : Type} {J : FS → Prop} {p : Prog α} {g : α → β} {fs : FS} (hw : WF fs) (h : alwF cfg J p fs) :
    alwF cfg J (p.bind fun x => .ret (g x)) fs := alwF_bind hw h fun _ _ _ hj => alwF_ret hj

/-- **C104** (partial) Whatever fails, and at every moment: the object of a PutObject has its old content or a beginning of the new one.
Missing from the full property: that it has its old content when the answer is an error, which is false, see `C104_old_lost_fails`. -/
theorem C104_put_partial (d : Disk) {i : PutInput} (hb : LegalBucket i.bucket) {body : Body} (hbody : i.body = some body)
    {fs fs' : FS} (hw : WF fs) (hm : Moment cfg ext d (.putObject i) fs fs') :
    stored cfg fs' i.bucket i.key = stored cfg fs i.bucket i.key ∨ ∃ x, x <+: received body ∧ stored cfg fs' i.bucket i.key = some x := by
  cases hp : objectPath cfg i.bucket i.key with
  | none => simp [stored, hp]
  | some p =>
    cases hs : p.slash with
    | true => simp [stored, hp, hs]
    | false =>
      rw [stored_content hp hs, stored_content hp hs]
      exact moment_of (alwF_map hw (alwF_putObject (ext := ext) ((C02_bucket_name_rule _).mpr hb) hbody hp hw)) hm

/-- **C104** The file of a part holds its old content or a beginning of the new one. -/
theorem C104_part (d : Disk) {u : Bytes} (hu : (47 : UInt8) ∉ u) (n : Int) (body : Body) {fs fs' : FS} (hw : WF fs)
    (hm : Moment cfg ext d (.uploadPart u n (some body)) fs fs') :
    contentAt fs' (partFile cfg u n) = contentAt fs (partFile cfg u n) ∨
      ∃ x, x <+: received body ∧ contentAt fs' (partFile cfg u n) = some x :=
  moment_of (alwF_map hw (alwF_uploadPart (ext := ext) hu n body hw)) hm

example : contentAt (afterF Sample.cfg Sample.ext (oneFault 1 (.during 1 [])) (.uploadPart b!"id1" 2 (some [some b!"cd", some b!"e"])) Sample.fs)
      (partFile Sample.cfg b!"id1" 2) = some b!"c" ∧
    contentAt (afterF Sample.cfg Sample.ext (oneFault 1 .after) (.uploadPart b!"id1" 2 (some [some b!"cd", some b!"e"])) Sample.fs)
      (partFile Sample.cfg b!"id1" 2) = some b!"cd" :=
  ⟨by decide +kernel, by decide +kernel⟩

/-- **C104** While parts are put together, the bytes of each part are in its file or in the object, whatever fails. -/
theorem C104_complete (d : Disk) {b k u : Bytes} {cs : List Bytes} (hu : (47 : UInt8) ∉ u) (hb : LegalBucket b)
    (hk : PlainKey k cs) (parts : Option (List (Option Int))) {fs fs' : FS} (hw : WF fs)
    (hm : Moment cfg ext d (.completeMultipartUpload b k u parts) fs fs') {n : Int} {c : Bytes}
    (hc : contentAt fs (partFile cfg u n) = some c) :
    contentAt fs' (partFile cfg u n) = some c ∨ ∃ x, stored cfg fs' b k = some x ∧ c <:+: x :=
  moment_of (alwF_map hw (alwF_complete (ext := ext) hu ((C02_bucket_name_rule _).mpr hb) hk parts hw)) hm n c hc

/-- an assembly of three parts that fails at its eighth call: the first part is in the object, the other two are still there -/
example : contentAt (afterF Sample.cfg Sample.ext (oneFault 7 .before) (.completeMultipartUpload b!"aaa" b!"x" b!"id1" (some (numbers 0 3)))
      (afterAll Sample.cfg Sample.ext Sample.ups Sample.fs)) (partFile Sample.cfg b!"id1" 1) = none ∧
    stored Sample.cfg (afterF Sample.cfg Sample.ext (oneFault 7 .before) (.completeMultipartUpload b!"aaa" b!"x" b!"id1" (some (numbers 0 3)))
      (afterAll Sample.cfg Sample.ext Sample.ups Sample.fs)) b!"aaa" b!"x" = some b!"ab" ∧
    contentAt (afterF Sample.cfg Sample.ext (oneFault 7 .before) (.completeMultipartUpload b!"aaa" b!"x" b!"id1" (some (numbers 0 3)))
      (afterAll Sample.cfg Sample.ext Sample.ups Sample.fs)) (partFile Sample.cfg b!"id1" 2) = some b!"cde" :=
  ⟨by decide +kernel, by decide +kernel, by decide +kernel⟩

/-- **C104** A deleted object has its old content or is gone, whatever fails. -/
theorem C104_delete (d : Disk) {b k : Bytes} (hk : endsWithByte k 47 = false) {fs fs' : FS} (hw : WF fs)
    (hm : Moment cfg ext d (.deleteObject b k) fs fs') : stored cfg fs' b k = stored cfg fs b k ∨ stored cfg fs' b k = none := by
  refine moment_of (J := fun x => stored cfg x b k = stored cfg fs b k ∨ stored cfg x b k = none) (alwF_map hw ?_) hm
  simp only [deleteObject, hk, bind_eq, pure_eq]
  refine alwF_orInternal (.inl rfl) fun p hp => ?_
  have he : stored cfg (exec cfg fs (.unlink p)).2 b k = stored cfg fs b k ∨ stored cfg (exec cfg fs (.unlink p)).2 b k = none := by
    cases ha : fs.at p with
    | none => simp only [exec, ha]; exact .inl trivial
    | some n =>
      cases n with
      | dir => simp only [exec, ha]; exact .inl trivial
      | file i =>
        simp only [exec, ha]
        right
        rw [stored_none hp]
        intro j hj
        rw [at_none (erase_gone ha)] at hj
        cases hj
  refine alwF_call (.inl rfl) fun f => ?_
  have hJ : stored cfg (execF cfg fs (.unlink p) f).2 b k = stored cfg fs b k ∨ stored cfg (execF cfg fs (.unlink p) f).2 b k = none := by
    cases f <;> first | exact he | exact .inl rfl
  split
  · exact alwF_ret hJ
  · exact alwF_fail hJ

/-- an error before the removal, and one after it -/
example : endsWithByte b!"x" 47 = false ∧
    stored Sample.cfg (afterF Sample.cfg Sample.ext (oneFault 0 .before) (.deleteObject b!"aaa" b!"x") Sample.fs) b!"aaa" b!"x" = some b!"hello" ∧
    stored Sample.cfg (afterF Sample.cfg Sample.ext (oneFault 0 .after) (.deleteObject b!"aaa" b!"x") Sample.fs) b!"aaa" b!"x" = none :=
  ⟨by decide +kernel, by decide +kernel, by decide +kernel⟩

/-- **C104** The destination of a copy has its old content or a beginning of that of the source, whatever fails. -/
theorem C104_copy (d : Disk) {b k s sb sk : Bytes} {cs scs : List Bytes} (hb : LegalBucket b) (hk : PlainKey k cs)
    (hs : copySourceFromHeader s = .ok (sb, sk)) (hsb : LegalBucket sb) (hsk : PlainKey sk scs) (hne : (b, k) ≠ (sb, sk))
    {fs fs' : FS} (hw : WF fs) (hm : Moment cfg ext d (.copyObject b k s) fs fs') :
    stored cfg fs' b k = stored cfg fs b k ∨
      ∃ c x, stored cfg fs sb sk = some c ∧ x <+: c ∧ stored cfg fs' b k = some x := by
  have hb' := (C02_bucket_name_rule b).mpr hb
  have hsb' := (C02_bucket_name_rule sb).mpr hsb
  have hsp := objectPath_plain cfg hsb' hsk
  have hdp := objectPath_plain cfg hb' hk
  have hsd : cfg.root ++ sb :: scs ≠ cfg.root ++ b :: cs := fun e => hne (by
    have := plain_path_inj hsk hk e; rw [this.1, this.2])
  simp only [stored, hsp, hdp]
  refine moment_of (J := CopyMoment fs (cfg.root ++ sb :: scs) (cfg.root ++ b :: cs)) (alwF_map hw ?_) hm
  have h0 : CopyMoment fs (cfg.root ++ sb :: scs) (cfg.root ++ b :: cs) fs := .inl rfl
  simp only [copyObject, hs, hsp, hdp, bind_eq, pure_eq, metadataPath_eq]
  refine alwF_orInternal h0 fun src hsrc => ?_
  cases hsrc
  refine alwF_orInternal h0 fun dst hdst => ?_
  cases hdst
  refine alwF_call h0 fun f => ?_
  have hsame : (execF cfg fs (.stat ⟨cfg.root ++ sb :: scs, false⟩) f).2 = fs := by cases f <;> rfl
  rw [hsame]
  refine alwF_orInternal h0 fun _ _ => ?_
  refine alwF_bind hw (alwF_copyFile (src := ⟨cfg.root ++ sb :: scs, false⟩) (dst := ⟨cfg.root ++ b :: cs, false⟩) hsd hw) fun _ fs1 hw1 h1 => ?_
  -- the rest writes only the metadata file
  have keep : ∀ {α : Type} {p : Prog α}, Safe (writeOk (· = metaFile cfg b k) (fun _ => False)) (fun _ => True) p →
      alwF cfg (CopyMoment fs (cfg.root ++ sb :: scs) (cfg.root ++ b :: cs)) p fs1 := by
    intro α p hp
    refine alwF_mono (J := fun x => contentAt x (cfg.root ++ b :: cs) = contentAt fs1 (cfg.root ++ b :: cs)) ?_
      (alwF_safe hp (fun x c f hwx hx hc => (content_frame hwx (execF_frame hwx hc f)
        (fun e => meta_not_prefix hb' (pfx_of_eq e.symm))).trans hx) hw1 rfl)
    intro x hx
    rcases h1 with h | ⟨c, y, h2, h3, h4⟩
    · exact .inl (hx.trans h)
    · exact .inr ⟨c, y, h2, h3, hx.trans h4⟩
  apply keep
  have hend : Safe (Perm.ok { rd := fun _ => True, wr := (· = metaFile cfg b k) }) (fun _ => True)
      ((getMd5Sum cfg ext sb sk).bind fun sum => Prog.ret (quoted sum)) := Safe.bind (safe_getMd5Sum fun _ _ => trivial) fun _ _ => trivial
  refine Safe.mono (ok := Perm.ok { rd := fun _ => True, wr := (· = metaFile cfg b k) })
    (by intro c hc; cases c <;> first | exact hc | exact hc.elim | trivial) (fun _ h => h) ?_
  refine Safe.orInternal fun sm _ => safe_exists trivial fun e => ?_
  cases e with
  | false => exact hend
  | true =>
    refine Safe.orInternal fun dm hdm => ?_
    cases hdm
    exact Safe.bind (safe_copyFile trivial rfl) fun _ _ => hend

/-- the disk is full at the second fragment: a beginning of the new content is left -/
example : stored Sample.cfg Sample.fs b!"aaa" b!"x" = some b!"hello" ∧
    stored Sample.cfg (afterF Sample.cfg Sample.ext (oneFault 1 .before) (.putObject Sample.overwrite) Sample.fs) b!"aaa" b!"x" = some b!"hello" ∧
    stored Sample.cfg (afterF Sample.cfg Sample.ext (oneFault 2 (.during 3 [])) (.copyObject b!"bbb" b!"y" b!"aaa/x") Sample.fs) b!"bbb" b!"y"
      = some b!"world!" ∧
    stored Sample.cfg (afterF Sample.cfg Sample.ext (oneFault 4 (.during 3 [])) (.copyObject b!"bbb" b!"y" b!"aaa/x") Sample.fs) b!"bbb" b!"y"
      = some b!"hel" :=
  ⟨by decide +kernel, by decide +kernel, by decide +kernel, by decide +kernel⟩

/-- C104 fails: an upload to a full disk is answered with an error, and the old object is lost. -/
theorem C104_old_lost_fails :
    ∃ (cfg : Cfg) (ext : Ext) (fs : FS) (i : PutInput) (body : Body) (d : Disk), WF fs ∧ ObjectPut i ∧ i.body = some body ∧ unbroken body ∧
      answerF cfg ext d (.putObject i) fs = .err .InternalError ∧
      stored cfg fs i.bucket i.key = some b!"hello" ∧ received body = b!"one two" ∧
      stored cfg (afterF cfg ext d (.putObject i) fs) i.bucket i.key = some b!"one t" :=
  ⟨Sample.cfg, Sample.ext, Sample.fs, Sample.overwrite, [some b!"one ", some b!"two"], oneFault 4 (.during 1 []), Sample.fs_wf,
    ⟨by decide +kernel, by decide +kernel⟩, rfl, by simp [unbroken], by decide +kernel, by decide +kernel, by decide +kernel, by decide +kernel⟩

end S3
