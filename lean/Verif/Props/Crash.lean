import Verif.Lemmas.Crash
import Verif.Lemmas.Fails
import Verif.Props.Put
/-! C29, C34: failed and interrupted PUTs. -/
namespace S3
open Spec

variable {cfg : Cfg} {ext : Ext}

theorem alw_opProg_put {i : PutInput} (hb : checkBucketName i.bucket = true) {body : Body}
    (hbody : i.body = some body) {p : OsPath} (hp : objectPath cfg i.bucket i.key = some p) {fs : FS} (hw : WF fs) :
    alw cfg (OldOrPrefix fs p.comps (received body)) (opProg cfg ext (.putObject i)) fs := by
  have h := alw_putObject (ext := ext) hb hbody hp hw
  refine alw_bind h fun a fs' e => alw_ret ?_
  have := alw_end h
  rw [e] at this; exact this

theorem stored_content {fs : FS} {b k : Bytes} {p : OsPath} (hp : objectPath cfg b k = some p) (hs : p.slash = false) :
    stored cfg fs b k = contentAt fs p.comps := by simp [stored, hp, hs]

/-- **C34** (partial) If the server stops after any number of file-system steps of a PutObject with a plain
key, the object has its old content or a beginning of the new one, and every other object with a plain
key has its content of before.
Missing: that the content is never a proper beginning of the new one, which is false, see
`C34_crash_in_put_fails`. -/
theorem C34_crash_in_put_partial {i : PutInput} {cs : List Bytes} (hb : checkBucketName i.bucket = true)
    (hk : PlainKey i.key cs) {body : Body} (hbody : i.body = some body) {fs : FS} (hw : WF fs) (n : Nat) :
    (stored cfg (runN cfg n (opProg cfg ext (.putObject i)) fs).2 i.bucket i.key = stored cfg fs i.bucket i.key ∨
      ∃ x, x <+: received body ∧
        stored cfg (runN cfg n (opProg cfg ext (.putObject i)) fs).2 i.bucket i.key = some x) ∧
    (∀ b' k' cs', checkBucketName b' = true → PlainKey k' cs' → ¬ (b' = i.bucket ∧ k' = i.key) →
      stored cfg (runN cfg n (opProg cfg ext (.putObject i)) fs).2 b' k' = stored cfg fs b' k') := by
  have hp := objectPath_plain cfg hb hk
  constructor
  · rw [stored_content hp rfl, stored_content hp rfl]
    exact alw_opProg_put hb hbody hp hw n
  · intro b' k' cs' hb' hk' hne
    have hp' := objectPath_plain cfg hb' hk'
    rw [stored_content hp' rfl, stored_content hp' rfl]
    have hs : Safe (writeOk (opOwn cfg (.putObject i)) (opPerm cfg (.putObject i)).up) (fun _ => True)
        (opProg cfg ext (.putObject i)) := by
      refine (op_safe cfg ext (.putObject i)).mono (fun c h => ?_) (fun _ h => h)
      cases c with
      | mkdir p => exact Or.inl h
      | create p => exact Or.inl h
      | writeAt i => exact Or.inl h
      | unlink p => exact Or.inr (Or.inl h)
      | rmdir p => exact Or.inr (Or.inr h)
      | rmtree p => exact (h : False).elim
      | _ => trivial
    have hf := hs.invN cfg (J := Frame (opOwn cfg (.putObject i)) (opPerm cfg (.putObject i)).up fs)
      (fun _ _ hw' hj hc => hj.trans (exec_frame cfg hw' hc)) hw (.refl ..) n
    refine frame_content hw hf ?_
    intro h
    rcases own_cases hb hk (o := .putObject i) ⟨rfl, rfl⟩ h with h | h | ⟨u, n, _, h⟩
    · simp only [List.append_cancel_left_eq, List.cons.injEq] at h
      exact hne ⟨h.1, by rw [hk.text, hk'.text, h.2]⟩
    · simp only [metaFile, List.append_cancel_left_eq, List.cons.injEq] at h
      exact hk'.nonempty h.2
    · simp only [List.append_cancel_left_eq, List.cons.injEq] at h
      exact hk'.nonempty h.2

example : checkBucketName b!"aaa" = true ∧ PlainKey b!"x" [b!"x"] ∧
    stored Sample.cfg (runN Sample.cfg 100 (opProg Sample.cfg Sample.ext (.putObject (samplePut b!"aaa" b!"x" b!"new"))) Sample.fs).2
      b!"aaa" b!"x" = some b!"new" :=
  ⟨by decide +kernel, plain1 (by decide), by decide +kernel⟩

/-- an upload of `one two` over the object `aaa/x` in two fragments -/
def Sample.overwrite : PutInput :=
  { bucket := b!"aaa", key := b!"x", body := some [some b!"one ", some b!"two"], contentLength := some 7,
    metadata := none, storageClass := none }

/-- C34 fails: when the server stops in the middle, the object is neither the old one nor the new one. -/
theorem C34_crash_in_put_fails :
    ∃ (cfg : Cfg) (ext : Ext) (fs : FS) (i : PutInput) (n : Nat) (body : Body), WF fs ∧ ObjectPut i ∧
      i.body = some body ∧ unbroken body ∧ stored cfg fs i.bucket i.key = some b!"hello" ∧ received body = b!"one two" ∧
      stored cfg (runN cfg n (opProg cfg ext (.putObject i)) fs).2 i.bucket i.key = some b!"one " :=
  ⟨Sample.cfg, Sample.ext, Sample.fs, Sample.overwrite, 4, [some b!"one ", some b!"two"], Sample.fs_wf,
    ⟨by decide +kernel, by decide +kernel⟩, rfl, by simp [unbroken], by decide +kernel, by decide +kernel, by decide +kernel⟩

/-- **C29** (partial) If PutObject answers an error then the object is what it was before, or a beginning of
the body that was received; it is always what it was before when the error is not an internal error
(storage class not supported, no body, folder with content).
Missing: internal errors after the file has been opened, for which the old object is lost, see
`C29_failed_put_fails`. -/
theorem C29_failed_put_partial {i : PutInput} (hb : checkBucketName i.bucket = true) {fs : FS} (hw : WF fs)
    {e : S3ErrorCode} (h : answer cfg ext (.putObject i) fs = .err e) :
    (stored cfg (after cfg ext (.putObject i) fs) i.bucket i.key = stored cfg fs i.bucket i.key ∨
      ∃ body x, i.body = some body ∧ x <+: received body ∧
        stored cfg (after cfg ext (.putObject i) fs) i.bucket i.key = some x) ∧
    (e ≠ .InternalError → after cfg ext (.putObject i) fs = fs) := by
  constructor
  · cases hp : objectPath cfg i.bucket i.key with
    | none => simp [stored, hp]
    | some p =>
      cases hs : p.slash with
      | true => simp [stored, hp, hs]
      | false =>
        rw [stored_content hp hs, stored_content hp hs]
        cases hbody : i.body with
        | none =>
          left
          have : (after cfg ext (.putObject i) fs) = fs := by
            rw [after_put]
            simp only [putObject, hbody]
            split <;> rfl
          rw [this]
        | some body =>
          rcases alw_end (alw_opProg_put (ext := ext) hb hbody hp hw) with h | ⟨x, hx, h⟩
          · exact Or.inl h
          · exact Or.inr ⟨body, x, rfl, hx, h⟩
  · intro hne
    rw [after_put]
    have hE : IsInternal .InternalError := rfl
    have h' := run_map_err.mp h
    revert h'
    simp only [putObject, bind_eq, pure_eq]
    split
    · exact fun _ => rfl
    split
    · exact fun _ => rfl
    split
    · split
      · intro h'
        refine (hne ?_).elim
        refine (Ends.run (D := True) (E := IsInternal) ?_ fs).1 e h'
        exact Ends.orInternal hE fun _ => Ends.bind (fails_createDirAllRev hE _) fun _ => trivial
      · exact fun _ => rfl
    rename_i body _ _
    · intro h'
      refine (hne ?_).elim
      refine (Ends.run (D := True) (E := IsInternal) ?_ fs).1 e h'
      refine Ends.orInternal hE fun p => ?_
      have hrest : Fails IsInternal ((call (.create p)).bind fun r => (orInternal r).bind fun ino =>
          (copyBytes ino 0 body).bind fun content =>
            (saveOptional cfg ext i.bucket i.key i.metadata).bind fun _ =>
              .ret (some (quoted (ext.md5hex content)))) :=
        Ends.call fun r => Ends.orInternal hE fun ino => Ends.bind (fails_copyBytes hE _ _ _) fun _ =>
          Ends.bind (fails_saveOptional hE _ _ _) fun _ => trivial
      split
      · exact Ends.bind (fails_createDirAllRev hE _) fun _ => hrest
      · exact hrest

example : answer Sample.cfg Sample.ext (.putObject { Sample.overwrite with storageClass := some b!"GLACIER" }) Sample.fs
      = .err .InvalidStorageClass ∧
    answer Sample.cfg Sample.ext (.putObject { Sample.overwrite with body := some [some b!"one", none] }) Sample.fs
      = .err .InternalError := ⟨by decide +kernel, by decide +kernel⟩

/-- C29 fails: an upload that breaks off is answered with an error and has replaced the object. -/
theorem C29_failed_put_fails :
    ∃ (cfg : Cfg) (ext : Ext) (fs : FS) (i : PutInput), WF fs ∧ ObjectPut i ∧
      answer cfg ext (.putObject i) fs = .err .InternalError ∧
      stored cfg fs i.bucket i.key = some b!"hello" ∧
      stored cfg (after cfg ext (.putObject i) fs) i.bucket i.key = some b!"on" :=
  ⟨Sample.cfg, Sample.ext, Sample.fs, { Sample.overwrite with body := some [some b!"on", none] }, Sample.fs_wf,
    ⟨by decide +kernel, by decide +kernel⟩, by decide +kernel, by decide +kernel, by decide +kernel⟩

end S3
