import Verif.Lemmas.Again
import Verif.Spec.Again
import Verif.Props.Concurrent
/-! A PutObject or UploadPart that is sent again after an attempt that was cut off or failed. -/
namespace S3
open Spec

variable {cfg : Cfg} {ext : Ext}

theorem frame_stored_dir {own up : Path → Prop} {a b : FS} (h : Frame own up a b) {q : Path} (hq : ¬ own q)
    (hd : a.lookup q = some .dir) : b.lookup q = some .dir := by
  rcases h.node q hq with e | ⟨_, e, _⟩
  · rw [e]; exact hd
  · rw [e] at hd; cases hd

/-- what a PutObject with a plain key does to the file tree, call by call -/
def putOk (P M : Path) (md : Bool) (c : Call) : Prop :=
  writeOk (fun q => q = P ∨ (md = true ∧ q = M)) (fun q => q <+: P ∧ q ≠ P) c ∧ builds c ∧
    ∀ q, c = .mkdir q → q ≠ P ∧ q ≠ M

theorem put_calls {i : PutInput} {cs : List Bytes} (hb : checkBucketName i.bucket = true) (hk : PlainKey i.key cs) :
    Safe (putOk (cfg.root ++ i.bucket :: cs) (metaFile cfg i.bucket i.key) i.metadata.isSome) (fun _ => True)
      (opProg cfg ext (.putObject i)) := by
  refine (op_safe cfg ext (.putObject i)).mono (fun c h => ?_) (fun _ h => h)
  have hup : ∀ {q}, (opPerm cfg (.putObject i)).up q → q <+: cfg.root ++ i.bucket :: cs ∧ q ≠ cfg.root ++ i.bucket :: cs := by
    rintro q ⟨p, hp, hq⟩
    rw [objP_plain hb hk] at hp
    subst hp
    rw [plain_no_slash hk] at hq
    simp only [Bool.false_eq_true, if_false] at hq
    refine ⟨hq.trans (List.dropLast_prefix _), ?_⟩
    rintro rfl
    have := hq.length_le
    simp at this
    omega
  have hwr : ∀ {q}, (opPerm cfg (.putObject i)).wr q →
      q = cfg.root ++ i.bucket :: cs ∨ (i.metadata.isSome = true ∧ q = metaFile cfg i.bucket i.key) := by
    rintro q ⟨_, h | ⟨h1, h⟩⟩
    · exact .inl ((objP_plain hb hk).mp h)
    · exact .inr ⟨h1, h⟩
  cases c with
  | mkdir p =>
    refine ⟨.inl (hup h), trivial, ?_⟩
    rintro q ⟨⟩
    exact ⟨(hup h).2, fun e => meta_not_prefix hb (e ▸ (hup h).1)⟩
  | create p => exact ⟨hwr h, trivial, fun _ h => nomatch h⟩
  | writeAt j off b => exact ⟨hwr h, trivial, fun _ h => nomatch h⟩
  | unlink p => exact (h : False).elim
  | rmdir p => exact (h : False).elim
  | rmtree p => exact (h : False).elim
  | _ => exact ⟨trivial, trivial, fun _ h => nomatch h⟩

/-- the state an attempt of a PutObject leaves: like `fs` except for the object and directories above it -/
structure Attempted (P M : Path) (md : Bool) (fs x : FS) : Prop where
  frame : Frame (fun q => q = P ∨ (md = true ∧ q = M)) (fun q => q <+: P ∧ q ≠ P) fs x
  object : x.lookup P = some .dir → fs.lookup P = some .dir
  md : x.lookup M = some .dir → fs.lookup M = some .dir

theorem Attempted.step {P M : Path} {md : Bool} {fs x : FS} {c : Call} {f : Fault} (hw : WF x) (h : Attempted P M md fs x)
    (hc : putOk P M md c) : Attempted P M md fs (execF cfg x c f).2 := by
  refine ⟨h.frame.trans (execF_frame hw hc.1 f), fun hd => ?_, fun hd => ?_⟩
  · rcases execF_new_dir hd with e | e
    · exact h.object e
    · exact absurd rfl (hc.2.2 _ e).1
  · rcases execF_new_dir hd with e | e
    · exact h.md e
    · exact absurd rfl (hc.2.2 _ e).2

theorem put_dir_stays {i : PutInput} {cs : List Bytes} (hb : checkBucketName i.bucket = true) (hk : PlainKey i.key cs)
    {fs : FS} (hw : WF fs) {q : Path} (h : fs.lookup q = some .dir) :
    (after cfg ext (.putObject i) fs).lookup q = some .dir :=
  (put_calls (cfg := cfg) (ext := ext) hb hk).inv cfg (J := fun x => x.lookup q = some .dir)
    (fun _ _ _ h hc => exec_dir_stays hc.2.1 h) hw h

theorem put_attempted {i : PutInput} {cs : List Bytes} (hb : checkBucketName i.bucket = true) (hk : PlainKey i.key cs)
    {fs : FS} (hw : WF fs) {d : Disk} {fs1 : FS} (hm : Moment cfg ext d (.putObject i) fs fs1) :
    WF fs1 ∧ Attempted (cfg.root ++ i.bucket :: cs) (metaFile cfg i.bucket i.key) i.metadata.isSome fs fs1 := by
  refine moment_of (J := fun x => WF x ∧ Attempted (cfg.root ++ i.bucket :: cs) (metaFile cfg i.bucket i.key) i.metadata.isSome fs x)
    (fun o n => ?_) hm
  exact (put_calls (cfg := cfg) (ext := ext) hb hk).invF
    (J := fun x => WF x ∧ Attempted (cfg.root ++ i.bucket :: cs) (metaFile cfg i.bucket i.key) i.metadata.isSome fs x)
    (fun x c f hw h hc => ⟨execF_wf hw c f, h.2.step hw hc⟩) hw ⟨hw, .refl .., fun h => h, fun h => h⟩ o n

/-- when a PutObject succeeds in `fs`, it succeeds in what an attempt has left, with the same result -/
theorem put_retry {i : PutInput} {cs : List Bytes} (hb : LegalBucket i.bucket) (hk : PlainKey i.key cs) {fs : FS} (hw : WF fs)
    (hr : IsDir fs cfg.root) {a : Answer} (h : answer cfg ext (.putObject i) fs = .ok a) {fs1 : FS} (hw1 : WF fs1)
    (hatt : Attempted (cfg.root ++ i.bucket :: cs) (metaFile cfg i.bucket i.key) i.metadata.isSome fs fs1) :
    answer cfg ext (.putObject i) fs1 = .ok a ∧ Alike (after cfg ext (.putObject i) fs1) (after cfg ext (.putObject i) fs) := by
  have hb' := (C02_bucket_name_rule _).mpr hb
  have hi : ObjectPut i := ⟨hb', plain_no_slash hk⟩
  have hp := objectPath_plain cfg hb' hk
  have hw' : WF (after cfg ext (.putObject i) fs) := wf_after hw
  have hw1' : WF (after cfg ext (.putObject i) fs1) := wf_after hw1
  have frame : ∀ {x : FS}, WF x → Frame (fun q => q = cfg.root ++ i.bucket :: cs ∨ (i.metadata.isSome = true ∧ q = metaFile cfg i.bucket i.key))
      (fun q => q <+: cfg.root ++ i.bucket :: cs ∧ q ≠ cfg.root ++ i.bucket :: cs) x (after cfg ext (.putObject i) x) := by
    intro x hx
    exact ((put_calls (cfg := cfg) (ext := ext) hb' hk).mono (fun _ h => h.1) (fun _ h => h)).frame cfg hx
  obtain ⟨e, rfl, hd⟩ := put_done hi hw h
  obtain ⟨body, hbody, hu, hst, he⟩ := hd.body
  obtain ⟨p, j, hp', ha, hdat⟩ := stored_some.mp hst
  rw [hp] at hp'
  cases hp'
  have hl : (after cfg ext (.putObject i) fs).lookup (cfg.root ++ i.bucket :: cs) = some (.file j) := (at_file ha).1
  have hMP : ∀ q, q <+: cfg.root ++ i.bucket :: cs → q ≠ metaFile cfg i.bucket i.key :=
    fun q hq e => meta_not_prefix hb' (e ▸ hq)
  have hnot : ∀ q, q <+: cfg.root ++ i.bucket :: cs → q ≠ cfg.root ++ i.bucket :: cs →
      ¬ (q = cfg.root ++ i.bucket :: cs ∨ (i.metadata.isSome = true ∧ q = metaFile cfg i.bucket i.key)) :=
    fun q h1 h2 h => h.elim h2 fun h => hMP q h1 h.2
  have hrootne : cfg.root <+: cfg.root ++ i.bucket :: cs ∧ cfg.root ≠ cfg.root ++ i.bucket :: cs :=
    ⟨List.prefix_append _ _, by simp⟩
  have hsc : i.storageClass = none ∨ i.storageClass = some b!"STANDARD" ∨ i.storageClass = some b!"REDUCED_REDUNDANCY" := by
    obtain ⟨e, he, _⟩ := answer_put.mp h
    simp only [putObject] at he
    cases hs : i.storageClass with
    | none => exact .inl rfl
    | some s =>
      rw [hs] at he
      by_cases hok : storageClassOk s = true
      · simp only [storageClassOk, Bool.or_eq_true, beq_iff_eq] at hok
        rcases hok with rfl | rfl
        · exact .inr (.inl rfl)
        · exact .inr (.inr rfl)
      · simp only [Option.all_some, hok, Bool.not_false, if_true] at he
        cases he
  have hmd : ∀ {n}, (if i.metadata.isSome then some (metadataName i.bucket i.key) else none) = some n →
      ∃ m, i.metadata = some m ∧ n = metadataName i.bucket i.key := by
    intro n hn
    cases hm : i.metadata with
    | none => rw [hm] at hn; cases hn
    | some m => rw [hm] at hn; cases hn; exact ⟨m, rfl, rfl⟩
  have hmeta : ∀ m, i.metadata = some m → ∃ j, (after cfg ext (.putObject i) fs).lookup (metaFile cfg i.bucket i.key) = some (.file j) := by
    intro m hm
    have := hd.md m hm
    simp only [contentAt] at this
    split at this
    · exact ⟨_, by assumption⟩
    · cases this
  have hroom : Room cfg fs1 i.bucket cs (if i.metadata.isSome then some (metadataName i.bucket i.key) else none) := by
    refine ⟨node_names hw' hl, frame_stored_dir hatt.frame (hnot _ hrootne.1 hrootne.2) hr, fun q h1 h2 => ?_, fun hx => ?_, fun n hn => ?_⟩
    · have hq := node_above hw' hl h1 h2
      cases hc : contentAt fs1 q with
      | none => rfl
      | some c =>
        have hf : ∃ j, fs1.lookup q = some (.file j) := by
          simp only [contentAt] at hc
          split at hc
          · exact ⟨_, by assumption⟩
          · cases hc
        obtain ⟨j, hj⟩ := hf
        have h3 : fs.lookup q = some (.file j) := by
          rcases hatt.frame.node q (hnot q h1 h2) with e | ⟨_, _, e⟩
          · rw [← e]; exact hj
          · rw [e] at hj; cases hj
        rcases (frame hw).node q (hnot q h1 h2) with e | ⟨_, e, _⟩
        · rw [e, h3] at hq; cases hq
        · rw [h3] at e; cases e
    · have := put_dir_stays (cfg := cfg) (ext := ext) hb' hk hw (hatt.object hx)
      rw [hl] at this; cases this
    · obtain ⟨m, hm, rfl⟩ := hmd hn
      obtain ⟨j', hj'⟩ := hmeta m hm
      refine ⟨node_names hw' hj' _ (by simp [metaFile]), fun hx => ?_⟩
      have := put_dir_stays (cfg := cfg) (ext := ext) hb' hk hw (hatt.md hx)
      rw [hj'] at this; cases this
  have hok : ∃ e1, (run cfg (putObject cfg ext i) fs1).1 = .ok e1 :=
    wp_run hw1 (wp_anti (R' := (· = ·)) (fun a b _ _ h => by subst h; exact Frame.refl ..) hw1 (put_room (ext := ext) hb hk hbody hu hsc hw1 hroom))
  obtain ⟨e1, he1⟩ := hok
  have hans : answer cfg ext (.putObject i) fs1 = .ok (.etag e1) := answer_put.mpr ⟨e1, he1, rfl⟩
  obtain ⟨e1', hee, hd1⟩ := put_done hi hw1 hans
  cases hee
  obtain ⟨body1, hbody1, hu1, hst1, he1'⟩ := hd1.body
  rw [hbody] at hbody1
  cases hbody1
  refine ⟨by rw [hans, he1', he], fun q => ?_⟩
  have hc1 : contentAt (after cfg ext (.putObject i) fs1) (cfg.root ++ i.bucket :: cs) = some (received body) := by
    have := hst1
    simp only [stored, hp] at this
    exact this
  have hl1 : ∃ j, (after cfg ext (.putObject i) fs1).lookup (cfg.root ++ i.bucket :: cs) = some (.file j) := by
    simp only [contentAt] at hc1
    split at hc1
    · exact ⟨_, by assumption⟩
    · cases hc1
  obtain ⟨j1, hl1⟩ := hl1
  by_cases hqP : q = cfg.root ++ i.bucket :: cs
  · subst hqP
    refine ⟨?_, by simp [IsDir, hl, hl1]⟩
    rw [hc1]
    have := hst
    simp only [stored, hp] at this
    exact this.symm
  by_cases hqM : i.metadata.isSome = true ∧ q = metaFile cfg i.bucket i.key
  · obtain ⟨hs, rfl⟩ := hqM
    cases hm : i.metadata with
    | none => rw [hm] at hs; cases hs
    | some m =>
      have h1 := hd.md m hm
      have h2 := hd1.md m hm
      refine ⟨by rw [h1, h2], ?_⟩
      have nd : ∀ {x : FS} {c : Bytes}, contentAt x (metaFile cfg i.bucket i.key) = some c → ¬ IsDir x (metaFile cfg i.bucket i.key) := by
        intro x c hx hd
        rw [IsDir] at hd
        simp [contentAt, hd] at hx
      exact ⟨fun h => absurd h (nd h2), fun h => absurd h (nd h1)⟩
  have hq : ¬ (q = cfg.root ++ i.bucket :: cs ∨ (i.metadata.isSome = true ∧ q = metaFile cfg i.bucket i.key)) :=
    fun h => h.elim hqP hqM
  by_cases hup : q <+: cfg.root ++ i.bucket :: cs
  · have h1 := node_above hw' hl hup hqP
    have h2 := node_above hw1' hl1 hup hqP
    simp [contentAt, IsDir, h1, h2]
  · have same : ∀ {x y : FS}, WF x → Frame (fun q => q = cfg.root ++ i.bucket :: cs ∨ (i.metadata.isSome = true ∧ q = metaFile cfg i.bucket i.key))
        (fun q => q <+: cfg.root ++ i.bucket :: cs ∧ q ≠ cfg.root ++ i.bucket :: cs) x y →
        contentAt y q = contentAt x q ∧ (IsDir y q ↔ IsDir x q) := by
      intro x y hx hf
      have he : y.lookup q = x.lookup q := by
        rcases hf.node q hq with e | ⟨h, _, _⟩
        · exact e
        · exact absurd h.1 hup
      refine ⟨?_, by simp [IsDir, he]⟩
      simp only [contentAt, he]
      cases hl : x.lookup q with
      | none => rfl
      | some n =>
        cases n with
        | dir => rfl
        | file i =>
          simp only
          rw [hf.data i (by rw [(hx.ino _ _ hl).1]; exact hq)]
    have h1 := same hw (frame hw)
    have h2 := same hw (hatt.frame.trans (frame hw1))
    exact ⟨h2.1.trans h1.1.symm, h2.2.trans h1.2.symm⟩

/-! ### parts -/

/-- the state an attempt of an UploadPart leaves -/
structure PartAttempted (P : Path) (fs x : FS) : Prop where
  frame : Frame (· = P) (fun _ => False) fs x
  file : x.lookup P = some .dir → fs.lookup P = some .dir

def partOk (P : Path) (c : Call) : Prop :=
  writeOk (· = P) (fun _ => False) c ∧ builds c ∧ ∀ q, c ≠ .mkdir q

theorem part_calls {u : Bytes} (hu : (47 : UInt8) ∉ u) (n : Int) (body : Option Body) :
    Safe (partOk (partFile cfg u n)) (fun _ => True) (opProg cfg ext (.uploadPart u n body)) := by
  refine (op_safe cfg ext (.uploadPart u n body)).mono (fun c h => ?_) (fun _ h => h)
  cases c with
  | mkdir p => exact (h : False).elim
  | create p => exact ⟨partP_eq hu h, trivial, fun _ h => nomatch h⟩
  | writeAt j off b => exact ⟨partP_eq hu h, trivial, fun _ h => nomatch h⟩
  | unlink p => exact (h : False).elim
  | rmdir p => exact (h : False).elim
  | rmtree p => exact (h : False).elim
  | _ => exact ⟨trivial, trivial, fun _ h => nomatch h⟩

theorem part_attempted {u : Bytes} (hu : (47 : UInt8) ∉ u) {n : Int} {body : Option Body} {fs : FS} (hw : WF fs) {d : Disk}
    {fs1 : FS} (hm : Moment cfg ext d (.uploadPart u n body) fs fs1) : WF fs1 ∧ PartAttempted (partFile cfg u n) fs fs1 := by
  refine moment_of (J := fun x => WF x ∧ PartAttempted (partFile cfg u n) fs x) (fun o m => ?_) hm
  refine (part_calls (cfg := cfg) (ext := ext) hu n body).invF (J := fun x => WF x ∧ PartAttempted (partFile cfg u n) fs x)
    (fun x c f hw h hc => ⟨execF_wf hw c f, h.2.frame.trans (execF_frame hw hc.1 f), fun hd => ?_⟩) hw ⟨hw, .refl .., fun h => h⟩ o m
  rcases execF_new_dir hd with e | e
  · exact h.2.file e
  · exact absurd e (hc.2.2 _)

theorem answer_upload {u : Bytes} {n : Int} {body : Option Body} {fs : FS} {a : Answer} :
    answer cfg ext (.uploadPart u n body) fs = .ok a ↔
      ∃ e, (run cfg (uploadPart cfg ext u n body) fs).1 = .ok e ∧ .etag (some e) = a := run_map_fst

theorem after_upload {u : Bytes} {n : Int} {body : Option Body} {fs : FS} :
    after cfg ext (.uploadPart u n body) fs = (run cfg (uploadPart cfg ext u n body) fs).2 := run_map_snd

theorem content_node {fs : FS} {p : Path} {c : Bytes} (h : contentAt fs p = some c) : ∃ j, fs.lookup p = some (.file j) := by
  simp only [contentAt] at h
  split at h
  · exact ⟨_, by assumption⟩
  · cases h

theorem part_retry {u : Bytes} (hu : (47 : UInt8) ∉ u) {n : Int} {body : Option Body} {fs : FS} (hw : WF fs) {a : Answer}
    (h : answer cfg ext (.uploadPart u n body) fs = .ok a) {fs1 : FS} (hw1 : WF fs1) (hatt : PartAttempted (partFile cfg u n) fs fs1) :
    answer cfg ext (.uploadPart u n body) fs1 = .ok a ∧
    Alike (after cfg ext (.uploadPart u n body) fs1) (after cfg ext (.uploadPart u n body) fs) := by
  obtain ⟨e, he, rfl⟩ := answer_upload.mp h
  cases body with
  | none => cases he
  | some body =>
    obtain ⟨hb, rfl, hc, hf⟩ := uploadPart_run hu hw (Prod.ext he rfl : run cfg (uploadPart cfg ext u n (some body)) fs = (.ok e, _))
    have hw' : WF (run cfg (uploadPart cfg ext u n (some body)) fs).2 := run_wf cfg _ hw
    obtain ⟨j, hj⟩ := content_node hc
    have hroot : fs.lookup cfg.root = some .dir := by
      have := node_parent hw' hj
      rw [partFile, List.dropLast_concat] at this
      rcases hf.node cfg.root (by simp [partFile]) with e | ⟨h, _⟩
      · rw [← e]; exact this
      · exact h.elim
    have hnd : fs.lookup (partFile cfg u n) ≠ some .dir := by
      intro hd
      have := (part_calls (cfg := cfg) (ext := ext) hu n (some body)).inv cfg (J := fun x => x.lookup (partFile cfg u n) = some .dir)
        (fun _ _ _ h hc => exec_dir_stays hc.2.1 h) hw hd
      have e : (run cfg (opProg cfg ext (.uploadPart u n (some body))) fs).2 = _ := after_upload (cfg := cfg) (ext := ext)
      rw [e, hj] at this
      cases this
    have hwr : Writable cfg.root (partName u n) fs1 :=
      ⟨frame_stored_dir hatt.frame (by simp [partFile]) hroot, node_names hw' hj, fun hd => hnd (hatt.file hd)⟩
    obtain ⟨e1, he1⟩ := uploadPart_ok (cfg := cfg) (ext := ext) hu hb hw1 hwr
    obtain ⟨_, rfl, hc1, hf1⟩ := uploadPart_run hu hw1 (Prod.ext he1 rfl : run cfg (uploadPart cfg ext u n (some body)) fs1 = (.ok e1, _))
    refine ⟨answer_upload.mpr ⟨_, he1, rfl⟩, fun q => ?_⟩
    rw [after_upload, after_upload]
    by_cases hq : q = partFile cfg u n
    · subst hq
      obtain ⟨j1, hj1⟩ := content_node hc1
      exact ⟨by rw [hc1, hc], by simp [IsDir, hj, hj1]⟩
    · have same : ∀ {x y : FS}, WF x → Frame (· = partFile cfg u n) (fun _ => False) x y →
          contentAt y q = contentAt x q ∧ (IsDir y q ↔ IsDir x q) := by
        intro x y hx hf
        have he : y.lookup q = x.lookup q := by
          rcases hf.node q hq with e | ⟨h, _⟩
          · exact e
          · exact h.elim
        refine ⟨?_, by simp [IsDir, he]⟩
        simp only [contentAt, he]
        cases hl : x.lookup q with
        | none => rfl
        | some n =>
          cases n with
          | dir => rfl
          | file i =>
            simp only
            rw [hf.data i (by rw [(hx.ino _ _ hl).1]; exact hq)]
      have h1 := same hw hf
      have h2 := same hw (hatt.frame.trans hf1)
      exact ⟨h2.1.trans h1.1.symm, h2.2.trans h1.2.symm⟩

/-! ### deletions -/

theorem delete_again {b k : Bytes} (fs : FS) :
    after cfg ext (.deleteObject b k) (after cfg ext (.deleteObject b k) fs) = after cfg ext (.deleteObject b k) fs := by
  cases hk : endsWithByte k 47 with
  | false => exact (C17_delete_idempotent_partial (cfg := cfg) (ext := ext) (b := b) hk fs).2
  | true =>
    simp only [after_del]
    rw [deleteObject_run_dir hk fs]
    cases hp : objectPath cfg b k with
    | none =>
      simp only
      rw [deleteObject_run_dir hk fs, hp]
    | some p =>
      simp only
      by_cases hd : fs.lookup p.comps = some .dir
      · rw [if_pos hd]
        by_cases hch : fs.children p.comps = []
        · rw [if_pos hch]
          by_cases hpe : p.comps = []
          · rw [if_pos hpe]
            simp only
            rw [deleteObject_run_dir hk fs, hp]
            simp only
            rw [if_pos hd, if_pos hch, if_pos hpe]
          · rw [if_neg hpe]
            simp only
            rw [deleteObject_run_dir hk, hp]
            simp only
            rw [lookup_erase, if_neg hpe, if_pos rfl]
            rfl
        · rw [if_neg hch]
          simp only
          rw [deleteObject_run_dir hk fs, hp]
          simp only
          rw [if_pos hd, if_neg hch]
      · rw [if_neg hd]
        simp only
        rw [deleteObject_run_dir hk fs, hp]
        simp only
        rw [if_neg hd]

theorem deleteMany_again {b : Bytes} (hb : LegalBucket b) {ks : List Bytes} (hn : ks.Nodup) {fs : FS} (hw : WF fs)
    (hk : ∀ k ∈ ks, ∃ cs, PlainKey k cs ∧ ¬ IsDir fs (cfg.root ++ b :: cs)) :
    answer cfg ext (.deleteObjects b ks) (after cfg ext (.deleteObjects b ks) fs) = .ok (.keys []) ∧
    after cfg ext (.deleteObjects b ks) (after cfg ext (.deleteObjects b ks) fs) = after cfg ext (.deleteObjects b ks) fs := by
  have hb' := (C02_bucket_name_rule b).mpr hb
  obtain ⟨_, h2, _⟩ := C26_delete_objects_partial (cfg := cfg) (ext := ext) hb hn hw hk
  generalize hfs : after cfg ext (.deleteObjects b ks) fs = fs' at h2 ⊢
  have hnone : ∀ k ∈ ks, fs'.lookup (plainFile cfg b k) = none := by
    intro k hkm
    obtain ⟨cs, hcs, hd⟩ := hk k hkm
    have hs := h2 k hkm
    rw [stored, objectPath_plain cfg hb' hcs] at hs
    simp only [Bool.false_eq_true, if_false] at hs
    rw [plainFile_eq hcs]
    have hnd : fs'.lookup (cfg.root ++ b :: cs) ≠ some .dir := by
      rw [← hfs]
      refine (op_safe cfg ext (.deleteObjects b ks)).inv cfg (J := fun x => x.lookup (cfg.root ++ b :: cs) ≠ some .dir)
        (fun x c _ hx hc hdir => ?_) hw hd
      rcases exec_new_dir hdir with e | e
      · exact hx e
      · subst e; exact (hc : False).elim
    cases hl : fs'.lookup (cfg.root ++ b :: cs) with
    | none => rfl
    | some n =>
      cases n with
      | dir => exact absurd hl hnd
      | file j => simp [contentAt, hl] at hs
  have hrun : run cfg (deleteObjects cfg b ks) fs' = (.ok [], fs') := by
    simp only [deleteObjects, bind_eq]
    rw [run_bind, deleteCollect_run hb' ks (fun k h => (hk k h).imp fun _ h => h.1)]
    have : (ks.filter fun k => (fs'.lookup (plainFile cfg b k)).isSome) = [] := by
      rw [List.filter_eq_nil_iff]
      intro k hkm
      rw [hnone k hkm]
      simp
    rw [this]
    rfl
  constructor
  · rw [answer, opProg, run_bind, hrun]; rfl
  · rw [after, opProg, run_bind, hrun]; rfl

end S3
