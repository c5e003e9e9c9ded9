import Verif.Lemmas.DelCopy
import Verif.Props.Put
/-! C17, C18: deleting twice, copying. -/
namespace S3
open Spec

variable {cfg : Cfg} {ext : Ext}

theorem answer_del {b k : Bytes} {fs : FS} {a : Answer} :
    answer cfg ext (.deleteObject b k) fs = .ok a ↔ (run cfg (deleteObject cfg b k) fs).1 = .ok () ∧ .done = a := by
  refine (run_map_fst (f := fun _ : Unit => Answer.done)).trans ?_
  exact ⟨fun ⟨_, h⟩ => h, fun h => ⟨(), h⟩⟩

theorem after_del {b k : Bytes} {fs : FS} :
    after cfg ext (.deleteObject b k) fs = (run cfg (deleteObject cfg b k) fs).2 := run_map_snd

theorem stored_none {fs : FS} {b k : Bytes} {p : OsPath} (hp : objectPath cfg b k = some p) :
    stored cfg fs b k = none ↔ ∀ i, fs.at p ≠ some (.file i) := by
  simp only [stored, hp, FS.at, contentAt]
  cases hs : p.slash <;> cases fs.lookup p.comps with
  | none => simp
  | some n => cases n <;> simp

/-- the object is deleted: success exactly when it is stored -/
theorem delete_answer {b k : Bytes} (hk : endsWithByte k 47 = false) (fs : FS) :
    answer cfg ext (.deleteObject b k) fs = (if stored cfg fs b k = none then .err .InternalError else .ok .done) ∧
    (stored cfg fs b k = none → after cfg ext (.deleteObject b k) fs = fs) := by
  rw [after_del]
  cases hp : objectPath cfg b k with
  | none =>
    have h := deleteObject_run (cfg := cfg) (b := b) hk fs
    rw [hp] at h
    have hs : stored cfg fs b k = none := by simp [stored, hp]
    rw [if_pos hs, h]
    exact ⟨run_map_err.mpr (by rw [h]), fun _ => rfl⟩
  | some p =>
    have h := deleteObject_run (cfg := cfg) (b := b) hk fs
    rw [hp] at h
    simp only at h
    by_cases hs : stored cfg fs b k = none
    · have hs' := (stored_none hp).mp hs
      have : unlinked fs p = (.err .InternalError, fs) := by
        unfold unlinked
        split
        · rename_i i hi; exact absurd hi (hs' i)
        · rfl
      rw [this] at h
      rw [if_pos hs]
      exact ⟨run_map_err.mpr (by rw [h]), fun _ => by rw [h]⟩
    · have : ∃ i, fs.at p = some (.file i) := by
        refine Classical.byContradiction fun hn => hs ((stored_none hp).mpr fun i hi => hn ⟨i, hi⟩)
      obtain ⟨i, hi⟩ := this
      rw [if_neg hs]
      exact ⟨answer_del.mpr ⟨by rw [h]; simp [unlinked, hi], rfl⟩, fun h => absurd h hs⟩

/-- **C17** (partial) Deleting an object that is not stored changes nothing, and so does deleting it again.
The answer is an internal error instead of the success the property asks for, see `C17_delete_idempotent_fails`.
Keys that end in `/` are not covered. -/
theorem C17_delete_idempotent_partial {b k : Bytes} (hk : endsWithByte k 47 = false) (fs : FS) :
    (stored cfg fs b k = none → after cfg ext (.deleteObject b k) fs = fs) ∧
    afterAll cfg ext [.deleteObject b k, .deleteObject b k] fs = after cfg ext (.deleteObject b k) fs := by
  refine ⟨(delete_answer hk fs).2, ?_⟩
  show after cfg ext (.deleteObject b k) (after cfg ext (.deleteObject b k) fs) = _
  refine (delete_answer hk _).2 ?_
  rw [after_del]
  have h := deleteObject_run (cfg := cfg) (b := b) hk fs
  cases hp : objectPath cfg b k with
  | none => simp [stored, hp]
  | some p =>
    rw [hp] at h
    rw [h, stored_none hp]
    intro i
    simp only [unlinked]
    split
    · rename_i j hj
      rw [at_none (erase_gone hj)]; simp
    · rename_i hn
      exact fun e => hn i e

example : stored Sample.cfg Sample.fs b!"aaa" b!"x" = some b!"hello" ∧
    stored Sample.cfg (after Sample.cfg Sample.ext (.deleteObject b!"aaa" b!"x") Sample.fs) b!"aaa" b!"x" = none ∧
    stored Sample.cfg Sample.fs b!"aaa" b!"nothing" = none :=
  ⟨by decide +kernel, by decide +kernel, by decide +kernel⟩

/-- C17 fails: deleting an object that does not exist is answered with an internal error. -/
theorem C17_delete_idempotent_fails :
    ∃ (cfg : Cfg) (ext : Ext) (fs : FS) (b k : Bytes), WF fs ∧ checkBucketName b = true ∧
      answer cfg ext (.headBucket b) fs = .ok .done ∧ stored cfg fs b k = none ∧
      answer cfg ext (.deleteObject b k) fs = .err .InternalError :=
  ⟨Sample.cfg, Sample.ext, Sample.fs, b!"aaa", b!"nothing", Sample.fs_wf, by decide +kernel, by decide +kernel,
    by decide +kernel, by decide +kernel⟩

/-! ### copying -/

/-- what a successful copy has done, for any source path that is not the destination's metadata file -/
theorem copy_done {b k s sb sk : Bytes} (hb : checkBucketName b = true)
    (hs : copySourceFromHeader s = .ok (sb, sk)) (hsm : ∀ q, objP cfg sb sk q → q ≠ metaFile cfg b k)
    {fs fs' : FS} (hw : WF fs) {e : Bytes} (h : run cfg (copyObject cfg ext b k s) fs = (.ok e, fs')) :
    ∃ c src dst, objectPath cfg sb sk = some src ∧ objectPath cfg b k = some dst ∧
      stored cfg fs sb sk = some c ∧
      stored cfg fs' b k = some (if src.comps = dst.comps then [] else c) ∧
      stored cfg fs' sb sk = some (if src.comps = dst.comps then [] else c) ∧
      e = quoted (ext.md5hex (if src.comps = dst.comps then [] else c)) := by
  simp only [copyObject, hs, bind_eq, pure_eq] at h
  cases hsp : objectPath cfg sb sk with
  | none => rw [hsp] at h; cases h
  | some src =>
    cases hdp : objectPath cfg b k with
    | none => rw [hsp, hdp] at h; cases h
    | some dst =>
      rw [hsp, hdp] at h
      simp only [run_orInternal_some] at h
      rw [run_stat_bind] at h
      cases ha : fs.at src with
      | none => rw [ha] at h; cases h
      | some n =>
        rw [ha] at h
        simp only [Option.map_some, run_orInternal_some] at h
        obtain ⟨_, fs1, h1, h⟩ := run_bind_ok h
        obtain ⟨i, hi, hds, ⟨j, hj⟩, hfr⟩ := copyFile_ok hw h1
        have hw1 : WF fs1 := run_wf_of h1 hw
        rw [metadataPath_eq] at h
        simp only [run_orInternal_some] at h
        rw [run_exists_bind] at h
        have hdm : dst.comps ≠ metaFile cfg b k := objectPath_ne_meta hb hdp
        have hsm' : src.comps ≠ metaFile cfg b k := hsm _ ⟨_, hsp, rfl⟩
        -- the metadata is copied or not; then the digest is computed in `fs2`
        have key : ∃ fs2, Frame (· = metaFile cfg b k) (fun _ => False) fs1 fs2 ∧ WF fs2 ∧
            run cfg ((getMd5Sum cfg ext sb sk).bind fun sum => .ret (quoted sum)) fs2 = (.ok e, fs') := by
          by_cases hm : (fs1.at ⟨cfg.root ++ [metadataName sb sk], false⟩).isSome = true
          · rw [hm] at h
            simp only [if_true] at h
            rw [metadataPath_eq] at h
            simp only [run_orInternal_some] at h
            obtain ⟨_, fs2, h2, h⟩ := run_bind_ok h
            obtain ⟨_, _, _, _, hfr2⟩ := copyFile_ok hw1 h2
            have hw2 : WF fs2 := run_wf_of h2 hw1
            exact ⟨fs2, hfr2, hw2, h⟩
          · rw [if_neg hm] at h
            exact ⟨fs1, Frame.refl .., hw1, h⟩
        obtain ⟨fs2, hfr2, hw2, h⟩ := key
        obtain ⟨sum, fs3, h3, h⟩ := run_bind_ok h
        rw [getMd5Sum_run, hsp] at h3
        simp only [Option.bind_some] at h3
        have hss := (at_file hi).2
        have hdst2 : Has fs2 dst.comps j (if src.comps = dst.comps then [] else fs.data i) := hfr2.keep hw1 hdm hj
        have hsrc1 : ∃ i', Has fs1 src.comps i' (if src.comps = dst.comps then [] else fs.data i) := by
          by_cases hsd : src.comps = dst.comps
          · rw [hsd] at hj ⊢; exact ⟨j, hj⟩
          · refine ⟨i, ?_⟩
            rw [if_neg hsd]
            exact hfr.keep hw hsd ⟨(at_file hi).1, rfl⟩
        obtain ⟨i', hsrc1⟩ := hsrc1
        have hsrc2 := hfr2.keep hw1 hsm' hsrc1
        have hat2 : fs2.at src = some (.file i') := by simp [FS.at, hsrc2.node, hss]
        rw [hat2] at h3
        simp only [Prod.mk.injEq, Outcome.ok.injEq] at h3
        obtain ⟨rfl, rfl⟩ := h3
        rw [run_ret] at h
        simp only [Prod.mk.injEq, Outcome.ok.injEq] at h
        obtain ⟨rfl, rfl⟩ := h
        refine ⟨fs.data i, src, dst, rfl, rfl, ?_, ?_, ?_, ?_⟩
        · simp [stored, hsp, hss, contentAt, (at_file hi).1]
        · simp only [stored, hdp, hds]; exact hdst2.content
        · simp only [stored, hsp, hss]; exact hsrc2.content
        · rw [hsrc2.data]

theorem answer_copy {b k s : Bytes} {fs : FS} {a : Answer} :
    answer cfg ext (.copyObject b k s) fs = .ok a ↔
      ∃ e, (run cfg (copyObject cfg ext b k s) fs).1 = .ok e ∧ .etag (some e) = a := run_map_fst

theorem after_copy {b k s : Bytes} {fs : FS} :
    after cfg ext (.copyObject b k s) fs = (run cfg (copyObject cfg ext b k s) fs).2 := run_map_snd

theorem plain_not_meta {b k b' k' : Bytes} {cs : List Bytes} (hb : checkBucketName b = true) (hk : PlainKey k cs) {q : Path}
    (h : objP cfg b k q) : q ≠ metaFile cfg b' k' := by
  rw [objP_plain hb hk] at h
  rw [h, metaFile]
  simp only [ne_eq, List.append_cancel_left_eq, List.cons.injEq, not_and]
  exact fun _ => hk.nonempty

theorem plain_path_inj {b k b' k' : Bytes} {cs cs' : List Bytes} (hk : PlainKey k cs) (hk' : PlainKey k' cs')
    (h : cfg.root ++ b :: cs = cfg.root ++ b' :: cs') : b = b' ∧ k = k' := by
  simp only [List.append_cancel_left_eq, List.cons.injEq] at h
  exact ⟨h.1, by rw [hk.text, hk'.text, h.2]⟩

/-- **C18** (partial) After a successful CopyObject between two different plain addresses the destination has the
bytes the source had before the request, the source still has them, and the entity tag is their digest.
Missing from the full property: copying an object onto itself, for which it is false
(`C18_copy_fails`), and keys that are not plain paths (they can alias). -/
theorem C18_copy_partial {b k s sb sk : Bytes} {cs scs : List Bytes} (hb : checkBucketName b = true) (hk : PlainKey k cs)
    (hs : copySourceFromHeader s = .ok (sb, sk)) (hsb : checkBucketName sb = true) (hsk : PlainKey sk scs)
    (hne : (b, k) ≠ (sb, sk)) {fs : FS} (hw : WF fs) {a : Answer}
    (h : answer cfg ext (.copyObject b k s) fs = .ok a) :
    ∃ c, stored cfg fs sb sk = some c ∧
      stored cfg (after cfg ext (.copyObject b k s) fs) b k = some c ∧
      stored cfg (after cfg ext (.copyObject b k s) fs) sb sk = some c ∧
      a = .etag (some (quoted (ext.md5hex c))) := by
  obtain ⟨e, he, rfl⟩ := answer_copy.mp h
  rw [after_copy]
  obtain ⟨c, src, dst, h1, h2, h3, h4, h5, h6⟩ := copy_done hb hs (fun q hq => plain_not_meta hsb hsk hq) hw
    (show run cfg (copyObject cfg ext b k s) fs = (.ok e, _) from Prod.ext he rfl)
  rw [objectPath_plain cfg hsb hsk] at h1
  rw [objectPath_plain cfg hb hk] at h2
  cases h1; cases h2
  have hnp : ¬ (cfg.root ++ sb :: scs = cfg.root ++ b :: cs) := fun e =>
    hne (by have := plain_path_inj hsk hk e; rw [this.1, this.2])
  simp only [if_neg hnp] at h4 h5 h6
  exact ⟨c, h3, h4, h5, by rw [h6]⟩

example : copySourceFromHeader b!"aaa/x" = .ok (b!"aaa", b!"x") ∧ PlainKey b!"x" [b!"x"] ∧ PlainKey b!"z" [b!"z"] ∧
    answer Sample.cfg Sample.ext (.copyObject b!"bbb" b!"z" b!"aaa/x") Sample.fs = .ok (.etag (some b!"\"md5:5\"")) ∧
    stored Sample.cfg (after Sample.cfg Sample.ext (.copyObject b!"bbb" b!"z" b!"aaa/x") Sample.fs) b!"bbb" b!"z"
      = some b!"hello" :=
  ⟨by decide +kernel, plain1 (by decide), plain1 (by decide), by decide +kernel, by decide +kernel⟩

/-- C18 fails: copying an object onto itself succeeds and empties it. -/
theorem C18_copy_fails :
    ∃ (cfg : Cfg) (ext : Ext) (fs : FS) (b k s : Bytes) (a : Answer), WF fs ∧ checkBucketName b = true ∧ PlainKey k [k] ∧
      copySourceFromHeader s = .ok (b, k) ∧ stored cfg fs b k = some b!"hello" ∧
      answer cfg ext (.copyObject b k s) fs = .ok a ∧
      stored cfg (after cfg ext (.copyObject b k s) fs) b k = some [] :=
  ⟨Sample.cfg, Sample.ext, Sample.fs, b!"aaa", b!"x", b!"aaa/x", .etag (some b!"\"md5:0\""), Sample.fs_wf,
    by decide +kernel, plain1 (by decide), by decide +kernel, by decide +kernel, by decide +kernel, by decide +kernel⟩

end S3
