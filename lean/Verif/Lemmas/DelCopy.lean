import Verif.Lemmas.Put
import Verif.Lemmas.Run
/-! What DELETE and COPY do, as functions of the file tree. -/
namespace S3
open Spec

variable {cfg : Cfg} {ext : Ext}

theorem run_call1 {β : Type} (c : Call) (f : Resp c → Prog β) (fs : FS) :
    run cfg ((call c).bind f) fs = run cfg (f (exec cfg fs c).1) (exec cfg fs c).2 := rfl

theorem run_wf_of {α : Type} {p : Prog α} {o : Outcome α} {fs fs' : FS} (h : run cfg p fs = (o, fs')) (hw : WF fs) : WF fs' := by
  have := run_wf cfg p hw
  rw [h] at this; exact this

/-- answer and file tree after deleting the regular file at `p` -/
def unlinked (fs : FS) (p : OsPath) : Outcome Unit × FS :=
  match fs.at p with
  | some (.file _) => (.ok (), fs.erase p.comps)
  | _ => (.err .InternalError, fs)

theorem deleteObject_run {b k : Bytes} (hk : endsWithByte k 47 = false) (fs : FS) :
    run cfg (deleteObject cfg b k) fs =
      match objectPath cfg b k with
      | none => (.err .InternalError, fs)
      | some p => unlinked fs p := by
  simp only [deleteObject, bind_eq, pure_eq, hk]
  cases hp : objectPath cfg b k with
  | none => rfl
  | some p =>
    show run cfg ((call (.unlink p)).bind _) fs = _
    rw [run_call1]
    cases ha : fs.at p with
    | none =>
      have : exec cfg fs (.unlink p) = (false, fs) := by simp [exec, ha]
      rw [this]; simp [unlinked, ha]
    | some n =>
      cases n with
      | dir =>
        have : exec cfg fs (.unlink p) = (false, fs) := by simp [exec, ha]
        rw [this]; simp [unlinked, ha]
      | file i =>
        have : exec cfg fs (.unlink p) = (true, fs.erase p.comps) := by simp [exec, ha]
        rw [this]; simp [unlinked, ha]

theorem deleteObject_run_dir {b k : Bytes} (hk : endsWithByte k 47 = true) (fs : FS) :
    run cfg (deleteObject cfg b k) fs =
      match objectPath cfg b k with
      | none => (.err .InternalError, fs)
      | some p =>
        if fs.lookup p.comps = some .dir then
          if fs.children p.comps = [] then
            if p.comps = [] then (.err .InternalError, fs) else (.ok (), fs.erase p.comps)
          else (.ok (), fs)
        else (.err .InternalError, fs) := by
  simp only [deleteObject, bind_eq, pure_eq, hk, if_true]
  cases hp : objectPath cfg b k with
  | none => rfl
  | some p =>
    show run cfg ((call (.readDir p)).bind _) fs = _
    rw [run_call1]
    simp only [exec]
    cases hl : fs.lookup p.comps with
    | none => rfl
    | some n =>
      cases n with
      | file i => simp only [reduceCtorEq, Option.some.injEq, if_false]; rfl
      | dir =>
        simp only [if_true, run_orInternal_some, List.map_eq_nil_iff]
        by_cases hc : fs.children p.comps = []
        · simp only [hc, if_true]
          show run cfg ((call (.rmdir p)).bind _) fs = _
          rw [run_call1]
          simp only [exec, hl, hc, and_true]
          by_cases h0 : p.comps = []
          · simp [h0]
          · simp [h0]
        · simp only [hc, if_false]
          rfl

theorem erase_gone {fs : FS} {p : OsPath} {i : Ino} (h : fs.at p = some (.file i)) :
    (fs.erase p.comps).lookup p.comps = none := by
  rw [lookup_erase]
  have := (at_file h).1
  split
  · rename_i h0; rw [h0, lookup_nil] at this; cases this
  · simp

theorem at_none {fs : FS} {p : OsPath} (h : fs.lookup p.comps = none) : fs.at p = none := by
  simp [FS.at, h]

/-- what GET and HEAD answer when there is nothing at the path -/
theorem get_absent {fs : FS} {b k : Bytes} {p : OsPath} (hp : objectPath cfg b k = some p) (ha : fs.at p = none)
    (r : Option Bytes) (w : Nat → Nat) :
    answer cfg ext (.getObject b k r w) fs = .err (if rangeOf r = none then .InvalidRequest else .NoSuchKey) ∧
    answer cfg ext (.headObject b k) fs = .err .NoSuchKey := by
  constructor
  · refine run_map_err.mpr ?_
    cases hr : rangeOf r with
    | some x =>
      rw [get_run_none hp ha hr]; simp
    | none =>
      cases r with
      | none => cases hr
      | some s =>
        simp only [rangeOf, Option.map_eq_none_iff] at hr
        simp [getObjectFull, getObject, hp, parseRange, hr, orInternal, Prog.bind]
  · refine run_map_err.mpr ?_
    rw [head_run hp, ha]

/-! ### copying a file -/

theorem frame_of_writes {own up : Path → Prop} {α : Type} {p : Prog α} (hs : Safe (writeOk own up) (fun _ => True) p)
    {fs : FS} (hw : WF fs) : Frame own up fs (run cfg p fs).2 := hs.frame cfg hw

theorem copyFile_ok {src dst : OsPath} {fs fs' : FS} (hw : WF fs) (h : run cfg (copyFile src dst) fs = (.ok (), fs')) :
    ∃ i, fs.at src = some (.file i) ∧ dst.slash = false ∧
      (∃ j, Has fs' dst.comps j (if src.comps = dst.comps then [] else fs.data i)) ∧
      Frame (· = dst.comps) (fun _ => False) fs fs' := by
  have hfr : Frame (· = dst.comps) (fun _ => False) fs fs' := by
    have : Safe (writeOk (· = dst.comps) (fun _ => False)) (fun _ => True) (copyFile src dst) :=
      (safe_copyFile (π := { rd := fun _ => True, wr := (· = dst.comps) }) trivial rfl).mono
        (by intro c hc; cases c <;> first | exact hc | exact hc.elim | trivial) (fun _ h => h)
    have := this.frame cfg hw
    rw [h] at this
    exact this
  simp only [copyFile, bind_eq, pure_eq] at h
  rw [run_open_bind] at h
  cases ha : fs.at src with
  | none => rw [ha] at h; cases h
  | some n =>
    cases n with
    | dir => rw [ha] at h; cases h
    | file i =>
      rw [ha] at h
      simp only [Option.map_some, Node.handle, run_orInternal_some] at h
      rw [run_call1] at h
      cases hc : (exec cfg fs (.create dst)).1 with
      | none => rw [hc] at h; cases h
      | some j =>
        rw [hc, run_orInternal_some] at h
        obtain ⟨hh, hs⟩ := exec_create_snd hc
        have hw1 := exec_wf cfg hw (.create dst)
        generalize hfs1 : (exec cfg fs (.create dst)).2 = fs1 at h hh hw1
        rw [run_readAll_bind] at h
        simp only [run_orInternal_some] at h
        rw [run_call1] at h
        replace h : (Outcome.ok (), (exec cfg fs1 (.writeAt j 0 (fs1.data i))).2) = (Outcome.ok (), fs') := h
        simp only [Prod.mk.injEq, true_and] at h
        have h2 := hh.write (cfg := cfg) 0 (fs1.data i)
        rw [h, splice_nil] at h2
        refine ⟨i, rfl, hs, ⟨j, ?_⟩, hfr⟩
        have hi := hw.ino _ _ (at_file ha).1
        split
        · rename_i e
          have hl := (at_file ha).1
          have : j = i := by
            have h3 : exec cfg fs (.create dst) = (some i, fs.setData i []) := by
              have : (exec cfg fs (.create dst)).1 = some j := hc
              simp only [exec] at this ⊢
              split at this
              · cases this
              · rename_i h4
                simp only [h4]
                split at this
                · cases this
                · rename_i h5
                  simp only [← e, hl]
                  rfl
            rw [h3] at hc; exact (Option.some.inj hc).symm
          subst this
          rw [hh.data] at h2
          exact h2
        · rename_i e
          have : fs1.data i = fs.data i := by
            have hf : Frame (· = dst.comps) (fun _ => False) fs fs1 := by
              rw [← hfs1]; exact exec_frame cfg hw (c := .create dst) rfl
            exact hf.data i (by rw [hi.1]; exact e)
          rw [this] at h2
          exact h2

end S3
