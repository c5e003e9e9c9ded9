import Verif.Lemmas.Run
import Verif.Lemmas.PutOk
import Verif.Props.Get
/-! C12, C19, C30: what a successful PUT means for later requests. -/
namespace S3
open Spec

variable {cfg : Cfg} {ext : Ext}

/-- a PUT of an object: legal bucket name, key that does not end in `/` -/
structure Spec.ObjectPut (i : PutInput) : Prop where
  bucket : checkBucketName i.bucket = true
  key : endsWithByte i.key 47 = false

theorem put_done {i : PutInput} (hi : ObjectPut i) {fs : FS} (hw : WF fs) {a : Answer}
    (h : answer cfg ext (.putObject i) fs = .ok a) :
    ∃ e, a = .etag e ∧ PutDone cfg ext i e (after cfg ext (.putObject i) fs) := by
  obtain ⟨e, he, rfl⟩ := answer_put.mp h
  rw [after_put]
  refine ⟨e, rfl, ?_⟩
  have := wp_run hw (putObject_wp (cfg := cfg) (ext := ext) rely_eq (own := fun _ => True)
    (fun a b _ _ h => by subst h; exact fun _ _ _ _ h => h) i hi.key hi.bucket (fun _ _ => trivial) trivial hw)
  exact this e he

theorem put_keeps_meta {i : PutInput} (hi : ObjectPut i) (hm : i.metadata = none) {fs : FS} (hw : WF fs) :
    storedMeta cfg ext (after cfg ext (.putObject i) fs) i.bucket i.key = storedMeta cfg ext fs i.bucket i.key := by
  have hf := op_frame cfg ext (.putObject i) (fun _ h => h) hw
  refine metaAt_same (frame_same hf ?_ (Or.inl ?_)) hw
  · rintro (h | h | h)
    · rcases h.2 with ⟨p, hp, he⟩ | h
      · exact objectPath_ne_meta hi.bucket hp he.symm
      · rw [hm] at h; cases h.1
    · exact h
    · exact h
  · rintro ⟨q, ⟨p, hp, rfl⟩, hd⟩
    rw [hi.key] at hd
    exact objectPath_no_meta hi.bucket hp (hd.trans (List.dropLast_prefix _))

theorem put_meta {i : PutInput} (hl : MetaLaw ext) (hi : ObjectPut i) (hv : ∀ m, i.metadata = some m → ValidMeta m) {fs : FS} (hw : WF fs) {a : Answer}
    (h : answer cfg ext (.putObject i) fs = .ok a) :
    storedMeta cfg ext (after cfg ext (.putObject i) fs) i.bucket i.key =
      match i.metadata with
      | some m => some (some m)
      | none => storedMeta cfg ext fs i.bucket i.key := by
  cases hm : i.metadata with
  | none => exact put_keeps_meta hi hm hw
  | some m =>
    obtain ⟨e, rfl, hd⟩ := put_done hi hw h
    have := hd.md m hm
    simp only [contentAt] at this
    split at this
    · rename_i j hj
      have hj' : (after cfg ext (.putObject i) fs).lookup (cfg.root ++ [metadataName i.bucket i.key]) = some (.file j) := hj
      simp only [storedMeta, metaAt, hj']
      rw [Option.some.inj this, hl m (hv m hm)]; rfl
    · cases this

/-- **C12** (partial) After a successful PutObject the object is stored as sent: GET delivers exactly the
bytes of the body, however it was cut into fragments, with their number as length and their digest as
entity tag, and the upload had arrived completely.
Missing from the full property: keys that end in `/`, for which it is false
(`C12_read_your_write_fails`), objects of 2^63 bytes or more, and objects whose old metadata file is
unreadable. -/
theorem C12_read_your_write_partial (hl : MetaLaw ext) {i : PutInput} (hi : ObjectPut i)
    (hv : ∀ m, i.metadata = some m → ValidMeta m) {fs : FS} (hw : WF fs)
    {a : Answer} (h : answer cfg ext (.putObject i) fs = .ok a)
    (hm : i.metadata = none → storedMeta cfg ext fs i.bucket i.key ≠ none) :
    ∃ body, i.body = some body ∧ unbroken body ∧
      (((received body).length ≤ i64Max) → ∀ w, ∃ md,
        answer cfg ext (.getObject i.bucket i.key none w) (after cfg ext (.putObject i) fs)
          = .ok (.object (received body).length md (quoted (ext.md5hex (received body))) (some (received body)))) := by
  obtain ⟨e, rfl, hd⟩ := put_done hi hw h
  obtain ⟨body, hb, hu, hs, _⟩ := hd.body
  refine ⟨body, hb, hu, fun hlen w => ?_⟩
  have hmeta := put_meta hl hi hv hw h
  have : ∃ md, storedMeta cfg ext (after cfg ext (.putObject i) fs) i.bucket i.key = some md := by
    rw [hmeta]
    cases hx : i.metadata with
    | some m => exact ⟨_, rfl⟩
    | none =>
      have := hm hx
      simp only
      cases hy : storedMeta cfg ext fs i.bucket i.key with
      | none => exact (this hy).elim
      | some md => exact ⟨_, rfl⟩
  obtain ⟨md, hmd⟩ := this
  exact ⟨md, (get_stored hs hmd hlen w).1⟩

/-- a PUT in three fragments, one of them empty, with metadata -/
def Sample.put3 : PutInput :=
  { bucket := b!"aaa", key := b!"d/e", body := some [some b!"one ", some [], some b!"two"],
    contentLength := some 7, metadata := some [(b!"k", b!"v")], storageClass := none }

/-- a map with one entry -/
theorem Sample.validMeta : ∀ m, Sample.put3.metadata = some m → ValidMeta m := by
  intro m h
  cases h
  exact ⟨by decide +kernel, by decide +kernel⟩

example : MetaLaw Sample.ext ∧ ObjectPut Sample.put3 ∧ (∀ m, Sample.put3.metadata = some m → ValidMeta m) ∧
    answer Sample.cfg Sample.ext (.putObject Sample.put3) Sample.fs = .ok (.etag (some b!"\"md5:7\"")) ∧
    answer Sample.cfg Sample.ext (.getObject b!"aaa" b!"d/e" none fun _ => 2)
      (after Sample.cfg Sample.ext (.putObject Sample.put3) Sample.fs)
      = .ok (.object 7 (some [(b!"k", b!"v")]) b!"\"md5:7\"" (some b!"one two")) :=
  ⟨Sample.ext_roundtrip, ⟨by decide +kernel, by decide +kernel⟩, Sample.validMeta, by decide +kernel, by decide +kernel⟩

/-- C12 fails: after a successful PUT of the key `d/` a GET of it answers an internal error. -/
theorem C12_read_your_write_fails :
    ∃ (cfg : Cfg) (ext : Ext) (fs : FS) (i : PutInput) (w : Nat → Nat), MetaLaw ext ∧ WF fs ∧
      checkBucketName i.bucket = true ∧ answer cfg ext (.putObject i) fs = .ok (.etag none) ∧
      answer cfg ext (.getObject i.bucket i.key none w) (after cfg ext (.putObject i) fs) = .err .InternalError :=
  ⟨Sample.cfg, Sample.ext, Sample.fs,
    { bucket := b!"aaa", key := b!"d/", body := some [], contentLength := some 0, metadata := none, storageClass := none },
    fun _ => 1, Sample.ext_roundtrip, Sample.fs_wf, by decide +kernel, by decide +kernel, by decide +kernel⟩

/-- **C19** (partial) After a successful PutObject with user metadata, GET and HEAD return exactly this metadata;
after one without metadata they return none if there was none before.
Missing from the full property: a PUT without metadata over an object that has metadata, for which it
is false, see `C19_metadata_fails`. (For whole histories see `C14_map_refinement_partial`.) -/
theorem C19_metadata_partial (hl : MetaLaw ext) {i : PutInput} (hi : ObjectPut i)
    (hv : ∀ m, i.metadata = some m → ValidMeta m) {fs : FS} (hw : WF fs)
    {a : Answer} (h : answer cfg ext (.putObject i) fs = .ok a)
    (hm : i.metadata = none → storedMeta cfg ext fs i.bucket i.key = some none)
    (hlen : ∀ body, i.body = some body → (received body).length ≤ i64Max) (w : Nat → Nat) :
    (∃ n e c, answer cfg ext (.getObject i.bucket i.key none w) (after cfg ext (.putObject i) fs)
      = .ok (.object n i.metadata e c)) ∧
    (∃ n, answer cfg ext (.headObject i.bucket i.key) (after cfg ext (.putObject i) fs)
      = .ok (.head n i.metadata)) := by
  obtain ⟨e, rfl, hd⟩ := put_done hi hw h
  obtain ⟨body, hb, hu, hs, _⟩ := hd.body
  have hmeta := put_meta hl hi hv hw h
  have : storedMeta cfg ext (after cfg ext (.putObject i) fs) i.bucket i.key = some i.metadata := by
    rw [hmeta]
    cases hx : i.metadata with
    | some m => rfl
    | none => exact hm hx
  have := get_stored hs this (hlen body hb) w
  exact ⟨⟨_, _, _, this.1⟩, ⟨_, this.2⟩⟩

example : storedMeta Sample.cfg Sample.ext Sample.fs b!"aaa" b!"d/e" = some none ∧
    storedMeta Sample.cfg Sample.ext (after Sample.cfg Sample.ext (.putObject Sample.put3) Sample.fs) b!"aaa" b!"d/e"
      = some (some [(b!"k", b!"v")]) := ⟨by decide +kernel, by decide +kernel⟩

/-- C19 fails: after a PUT with metadata and a PUT without, and also after deleting the object in between, GET
still returns the old metadata. -/
theorem C19_metadata_fails :
    ∃ (cfg : Cfg) (ext : Ext) (fs : FS) (i j : PutInput) (m : Meta) (w : Nat → Nat) (c : Bytes), MetaLaw ext ∧ WF fs ∧
      ObjectPut i ∧ ObjectPut j ∧ i.bucket = j.bucket ∧ i.key = j.key ∧ j.metadata = none ∧ m ≠ [] ∧
      answer cfg ext (.getObject j.bucket j.key none w) (afterAll cfg ext [.putObject i, .putObject j] fs)
        = .ok (.object c.length (some m) (quoted (ext.md5hex c)) (some c)) ∧
      answer cfg ext (.getObject j.bucket j.key none w)
          (afterAll cfg ext [.putObject i, .deleteObject i.bucket i.key, .putObject j] fs)
        = .ok (.object c.length (some m) (quoted (ext.md5hex c)) (some c)) :=
  ⟨Sample.cfg, Sample.ext, Sample.fs, Sample.put3, samplePut b!"aaa" b!"d/e" b!"new", [(b!"k", b!"v")], fun _ => 9,
    b!"new", Sample.ext_roundtrip, Sample.fs_wf, ⟨by decide +kernel, by decide +kernel⟩,
    ⟨by decide +kernel, by decide +kernel⟩, rfl, rfl, rfl, by decide, by decide +kernel, by decide +kernel⟩

/-- **C30** (partial) A PutObject of a plain key into a bucket that exists changes nothing at the level of
the buckets except the metadata file of the object: no bucket appears, disappears or becomes something else.
The property itself (a missing bucket is refused) is false, see `C30_missing_bucket_fails`. -/
theorem C30_missing_bucket_partial {i : PutInput} {cs : List Bytes} (hb : checkBucketName i.bucket = true)
    (hk : PlainKey i.key cs) {fs : FS} (hw : WF fs) (he : IsDir fs (bucketDir cfg i.bucket)) (n : Bytes)
    (hn : cfg.root ++ [n] ≠ metaFile cfg i.bucket i.key) :
    (after cfg ext (.putObject i) fs).lookup (cfg.root ++ [n]) = fs.lookup (cfg.root ++ [n]) := by
  have hf := op_frame cfg ext (.putObject i) (fun _ h => h) hw
  have hno : ¬ opOwn cfg (.putObject i) (cfg.root ++ [n]) := by
    rintro (h | h | h)
    · rcases h.2 with h | h
      · rw [objP_plain hb hk] at h
        simp only [List.append_cancel_left_eq, List.cons.injEq] at h
        exact hk.nonempty h.2.symm
      · exact hn h.2
    · exact h
    · exact h
  rcases hf.node (cfg.root ++ [n]) hno with e | ⟨⟨q, hq, hd⟩, h0, _⟩
  · exact e
  · exfalso
    rw [objP_plain hb hk] at hq
    subst hq
    have h2 : cfg.root ++ [n] <+: cfg.root ++ i.bucket :: cs := by
      refine hd.trans ?_
      split
      · exact List.prefix_refl _
      · exact List.dropLast_prefix _
    rw [List.prefix_append_right_inj] at h2
    rw [(List.cons_prefix_cons.mp h2).1] at h0
    rw [IsDir, bucketDir, h0] at he
    cases he

example : IsDir Sample.fs (bucketDir Sample.cfg b!"aaa") ∧ PlainKey b!"y" [b!"y"] :=
  ⟨by unfold IsDir; decide +kernel, plain1 (by decide)⟩

/-- C30 fails: PutObject into a bucket that does not exist succeeds and creates the bucket. -/
theorem C30_missing_bucket_fails :
    ∃ (cfg : Cfg) (ext : Ext) (fs : FS) (i : PutInput), WF fs ∧ ObjectPut i ∧
      answer cfg ext (.headBucket i.bucket) fs = .err .NoSuchBucket ∧
      answer cfg ext (.putObject i) fs = .ok (.etag (some (quoted (ext.md5hex b!"one")))) ∧
      answer cfg ext (.headBucket i.bucket) (after cfg ext (.putObject i) fs) = .ok .done :=
  ⟨Sample.cfg, Sample.ext, Sample.fs, samplePut b!"ccc" b!"x" b!"one", Sample.fs_wf,
    ⟨by decide +kernel, by decide +kernel⟩, by decide +kernel, by decide +kernel, by decide +kernel⟩

end S3
