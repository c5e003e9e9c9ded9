import Verif.Lemmas.Retry
import Verif.Lemmas.FaultCrash
import Verif.Lemmas.Life
import Verif.Props.History
/-! A CopyObject that is sent again after an attempt that was cut off or failed. -/
namespace S3
open Spec

variable {cfg : Cfg} {ext : Ext}

/-- what a copy may write: the object, and the metadata file if the source has one -/
def copyOwn (P M : Path) (md : Bool) (q : Path) : Prop := q = P ∨ md = true ∧ q = M

theorem copy_builds {b k s : Bytes} : Safe (fun c => builds c ∧ ∀ q, c ≠ .mkdir q) (fun _ => True) (opProg cfg ext (.copyObject b k s)) := by
  refine (op_safe cfg ext (.copyObject b k s)).mono (fun c h => ?_) (fun _ h => h)
  cases c with
  | mkdir p => exact (h : False).elim
  | unlink p => exact (h : False).elim
  | rmdir p => exact (h : False).elim
  | rmtree p => exact (h : False).elim
  | _ => exact ⟨trivial, fun _ h => nomatch h⟩

theorem copyFile_writes (src dst : OsPath) : Safe (writeOk (· = dst.comps) (fun _ => False)) (fun _ => True) (copyFile src dst) :=
  (safe_copyFile (π := { rd := fun _ => True, wr := (· = dst.comps) }) trivial rfl).mono
    (by intro c hc; cases c <;> first | exact hc | exact hc.elim | trivial) (fun _ h => h)

theorem md5_writes (b k : Bytes) : Safe (writeOk (fun _ => False) (fun _ => False)) (fun _ => True) (getMd5Sum cfg ext b k) :=
  (safe_getMd5Sum (π := { rd := fun _ => True, wr := fun _ => False }) (fun _ _ => trivial)).mono
    (by intro c hc; cases c <;> first | exact hc | exact hc.elim | trivial) (fun _ h => h)

section
variable {b k s sb sk : Bytes} {cs scs : List Bytes} (hb : checkBucketName b = true) (hk : PlainKey k cs)
  (hs : copySourceFromHeader s = .ok (sb, sk)) (hsb : checkBucketName sb = true) (hsk : PlainKey sk scs) (hne : (b, k) ≠ (sb, sk))
include hb hk hs hsb hsk hne

/-- what an attempt of a copy leaves, at every moment, whatever fails -/
theorem copy_attempted {fs : FS} (hw : WF fs) :
    alwF cfg (fun x => WF x ∧ Frame (copyOwn (cfg.root ++ b :: cs) (metaFile cfg b k) (fs.lookup (metaFile cfg sb sk)).isSome) (fun _ => False) fs x)
      (copyObject cfg ext b k s) fs := by
  generalize hmd : (fs.lookup (metaFile cfg sb sk)).isSome = md
  have hPM : ∀ b1 k1, metaFile cfg b1 k1 ≠ cfg.root ++ b :: cs := fun b1 k1 e => meta_not_prefix hb (pfx_of_eq e)
  have hMM : metaFile cfg sb sk ≠ metaFile cfg b k := by
    intro e
    have := metaFile_inj e
    exact hne (by rw [this.1, this.2])
  have h0 : WF fs ∧ Frame (copyOwn (cfg.root ++ b :: cs) (metaFile cfg b k) md) (fun _ => False) fs fs := ⟨hw, .refl ..⟩
  have hstep : ∀ {own : Path → Prop}, (∀ q, own q → copyOwn (cfg.root ++ b :: cs) (metaFile cfg b k) md q) → ∀ (x : FS) (c : Call) (f : Fault), WF x →
      (WF x ∧ Frame (copyOwn (cfg.root ++ b :: cs) (metaFile cfg b k) md) (fun _ => False) fs x) → writeOk own (fun _ => False) c →
      WF (execF cfg x c f).2 ∧ Frame (copyOwn (cfg.root ++ b :: cs) (metaFile cfg b k) md) (fun _ => False) fs (execF cfg x c f).2 :=
    fun ho x c f hx hj hc => ⟨execF_wf hx c f, hj.2.trans ((execF_frame hx hc f).mono ho fun _ h => h)⟩
  simp only [copyObject, hs, objectPath_plain cfg hsb hsk, objectPath_plain cfg hb hk, bind_eq, pure_eq]
  refine alwF_orInternal h0 fun src hsrc => alwF_orInternal h0 fun dst hdst => ?_
  cases hsrc
  cases hdst
  have hstat : ∀ (x : FS) (p : OsPath) (f : Fault), (execF cfg x (.stat p) f).2 = x := by
    intro x p f
    cases f with
    | none => simp only [execF, exec]
    | before => rfl
    | after => simp only [execF, exec]
    | during n rs => rfl
  refine alwF_call h0 fun f => ?_
  rw [hstat]
  refine alwF_orInternal h0 fun _ _ => ?_
  refine alwF_bind hw (alwF_safe (copyFile_writes _ _) (hstep fun q hq => .inl hq) hw h0) fun _ x hx hj => ?_
  rw [metadataPath_eq]
  refine alwF_orInternal hj fun sm hsm => ?_
  cases hsm
  have hlk : x.lookup (metaFile cfg sb sk) = fs.lookup (metaFile cfg sb sk) := by
    rcases hj.2.node (metaFile cfg sb sk) (fun h => h.elim (hPM _ _) fun h => hMM h.2) with e | ⟨h, _⟩
    · exact e
    · exact h.elim
  have hmd5 : ∀ {y : FS}, WF y → (WF y ∧ Frame (copyOwn (cfg.root ++ b :: cs) (metaFile cfg b k) md) (fun _ => False) fs y) →
      alwF cfg (fun x => WF x ∧ Frame (copyOwn (cfg.root ++ b :: cs) (metaFile cfg b k) md) (fun _ => False) fs x)
        ((getMd5Sum cfg ext sb sk).bind fun sum => .ret (quoted sum)) y := by
    intro y hy hjy
    exact alwF_bind hy (alwF_safe (md5_writes _ _) (hstep fun q hq => hq.elim) hy hjy) fun _ _ _ h => alwF_ret h
  show alwF cfg _ ((call (.stat _)).bind _) x
  refine alwF_call hj fun f => ?_
  rw [hstat]
  cases md with
  | true =>
    show alwF cfg _ (if _ then _ else _) x
    split
    · rw [metadataPath_eq]
      refine alwF_orInternal hj fun dm hdm => ?_
      cases hdm
      exact alwF_bind hx (alwF_safe (copyFile_writes _ _) (hstep fun q hq => .inr ⟨rfl, hq⟩) hx hj) fun _ y hy hjy => hmd5 hy hjy
    · exact hmd5 hx hj
  | false =>
    have hnone : (execF cfg x (.stat ⟨cfg.root ++ [metadataName sb sk], false⟩) f).1 = none := by
      have hl : x.at ⟨cfg.root ++ [metadataName sb sk], false⟩ = none := by
        rw [at_false]
        show x.lookup (metaFile cfg sb sk) = none
        rw [hlk]
        cases h : fs.lookup (metaFile cfg sb sk) with
        | none => rfl
        | some n => rw [h] at hmd; cases hmd
      cases f with
      | none => simp only [execF, exec, hl]
      | before => rfl
      | after => rfl
      | during n rs => rfl
    rw [hnone]
    exact hmd5 hx hj

/-- what a successful copy has done -/
theorem copy_effect {fs fs' : FS} (hw : WF fs) {e : Bytes} (h : run cfg (copyObject cfg ext b k s) fs = (.ok e, fs')) :
    ∃ i, fs.lookup (cfg.root ++ sb :: scs) = some (.file i) ∧ e = quoted (ext.md5hex (fs.data i)) ∧
      contentAt fs' (cfg.root ++ b :: cs) = some (fs.data i) ∧
      (fs.lookup (metaFile cfg sb sk) = none ∨
        ∃ m, fs.lookup (metaFile cfg sb sk) = some (.file m) ∧ contentAt fs' (metaFile cfg b k) = some (fs.data m)) := by
  have hsp := objectPath_plain cfg hsb hsk
  have hdp := objectPath_plain cfg hb hk
  have hPS : cfg.root ++ sb :: scs ≠ cfg.root ++ b :: cs := by
    intro e
    have := plain_path_inj hsk hk e
    exact hne (by rw [this.1, this.2])
  have hMM : metaFile cfg sb sk ≠ metaFile cfg b k := by
    intro e
    have := metaFile_inj e
    exact hne (by rw [this.1, this.2])
  have hPM : ∀ b1 k1, metaFile cfg b1 k1 ≠ cfg.root ++ b :: cs := fun b1 k1 e => meta_not_prefix hb (pfx_of_eq e)
  have hSM : cfg.root ++ sb :: scs ≠ metaFile cfg b k := fun e => meta_not_prefix hsb (pfx_of_eq e.symm)
  simp only [copyObject, hs, hsp, hdp, bind_eq, pure_eq] at h
  simp only [run_orInternal_some] at h
  rw [run_stat_bind] at h
  cases ha : fs.at ⟨cfg.root ++ sb :: scs, false⟩ with
  | none => rw [ha] at h; cases h
  | some n =>
    rw [ha] at h
    simp only [Option.map_some, run_orInternal_some] at h
    obtain ⟨_, fs1, h1, h⟩ := run_bind_ok h
    obtain ⟨i, hi, _, ⟨j, hj⟩, hfr⟩ := copyFile_ok hw h1
    have hw1 : WF fs1 := run_wf_of h1 hw
    simp only [if_neg hPS] at hj hfr
    have hsrc : Has fs1 (cfg.root ++ sb :: scs) i (fs.data i) := hfr.keep hw hPS ⟨(at_file hi).1, rfl⟩
    have hlm : fs1.lookup (metaFile cfg sb sk) = fs.lookup (metaFile cfg sb sk) := by
      rcases hfr.node _ (hPM sb sk) with h | h
      · exact h
      · exact h.1.elim
    have fin : ∀ {fs2 : FS}, Has fs2 (cfg.root ++ sb :: scs) i (fs.data i) →
        run cfg ((getMd5Sum cfg ext sb sk).bind fun sum => .ret (quoted sum)) fs2 = (.ok e, fs') → fs' = fs2 ∧ e = quoted (ext.md5hex (fs.data i)) := by
      intro fs2 h2 h
      rw [run_bind, getMd5Sum_run, hsp] at h
      simp only [Option.bind_some, at_false, h2.node, h2.data, Outcome.andThen, run, Prod.mk.injEq, Outcome.ok.injEq] at h
      exact ⟨h.2.symm, h.1.symm⟩
    rw [metadataPath_eq] at h
    simp only [run_orInternal_some] at h
    rw [run_exists_bind, at_false] at h
    rw [show fs1.lookup (cfg.root ++ [metadataName sb sk]) = fs.lookup (metaFile cfg sb sk) from hlm] at h
    refine ⟨i, (at_file hi).1, ?_⟩
    cases hl : fs.lookup (metaFile cfg sb sk) with
    | none =>
      rw [hl] at h
      obtain ⟨rfl, he⟩ := fin hsrc h
      exact ⟨he, hj.content, .inl rfl⟩
    | some x =>
      rw [hl] at h
      simp only [Option.isSome_some, if_true] at h
      rw [metadataPath_eq] at h
      simp only [run_orInternal_some] at h
      obtain ⟨_, fs2, h2, h⟩ := run_bind_ok h
      obtain ⟨m, hm, _, ⟨j2, hj2⟩, hfr2⟩ := copyFile_ok hw1 h2
      obtain ⟨rfl, he⟩ := fin (hfr2.keep hw1 hSM hsrc) h
      rw [at_false, show fs1.lookup (cfg.root ++ [metadataName sb sk]) = fs.lookup (metaFile cfg sb sk) from hlm, hl] at hm
      cases hm
      have hdat : fs1.data m = fs.data m := hfr.data m (by rw [hw.of_file hl]; exact hPM sb sk)
      have hj2 : Has fs' (metaFile cfg b k) j2 (fs.data m) := by
        rw [← hdat]
        refine Eq.mp ?_ hj2
        rw [if_neg]
        · rfl
        · exact hMM
      exact ⟨he, (hfr2.keep hw1 (fun e => hPM b k e.symm) hj).content, .inr ⟨m, rfl, hj2.content⟩⟩

/-- a copy succeeds when there is a file to copy and room for the copy and its metadata -/
theorem copy_suffices {fs : FS} (hw : WF fs) {i : Ino} (hi : fs.lookup (cfg.root ++ sb :: scs) = some (.file i)) {d : Path} {n : Bytes}
    (hd : cfg.root ++ b :: cs = d ++ [n]) (hwr : Writable d n fs)
    (hm : fs.lookup (metaFile cfg sb sk) = none ∨
      ∃ m, fs.lookup (metaFile cfg sb sk) = some (.file m) ∧ Writable cfg.root (metadataName b k) fs) :
    ∃ e fs', run cfg (copyObject cfg ext b k s) fs = (.ok e, fs') := by
  have hsp := objectPath_plain cfg hsb hsk
  have hdp := objectPath_plain cfg hb hk
  have hPS : cfg.root ++ sb :: scs ≠ cfg.root ++ b :: cs := by
    intro e
    have := plain_path_inj hsk hk e
    exact hne (by rw [this.1, this.2])
  have hPM : ∀ b1 k1, metaFile cfg b1 k1 ≠ cfg.root ++ b :: cs := fun b1 k1 e => meta_not_prefix hb (pfx_of_eq e)
  have hSM : cfg.root ++ sb :: scs ≠ metaFile cfg b k := fun e => meta_not_prefix hsb (pfx_of_eq e.symm)
  simp only [copyObject, hs, hsp, hdp, bind_eq, pure_eq]
  have ha : fs.at ⟨cfg.root ++ sb :: scs, false⟩ = some (.file i) := by rw [at_false]; exact hi
  rw [run_orInternal_some, run_orInternal_some, run_stat_bind, ha]
  simp only [Option.map_some, run_orInternal_some]
  rw [hd]
  obtain ⟨fs1, h1⟩ := copyFile_run (cfg := cfg) ha hwr
  have hw1 : WF fs1 := run_wf_of h1 hw
  obtain ⟨_, _, _, ⟨j, hj⟩, hfr⟩ := copyFile_ok hw h1
  simp only at hfr hj
  rw [← hd] at hfr hj
  rw [run_bind, h1]
  simp only [Outcome.andThen]
  rw [metadataPath_eq, run_orInternal_some, run_exists_bind, at_false]
  have hlm : fs1.lookup (metaFile cfg sb sk) = fs.lookup (metaFile cfg sb sk) := by
    rcases hfr.node _ (hPM sb sk) with h | h
    · exact h
    · exact h.1.elim
  have hsrc1 : Has fs1 (cfg.root ++ sb :: scs) i (fs.data i) := hfr.keep hw hPS ⟨hi, rfl⟩
  have hmd5 : ∀ fs2, Has fs2 (cfg.root ++ sb :: scs) i (fs.data i) →
      ∃ e fs', run cfg ((getMd5Sum cfg ext sb sk).bind fun sum => .ret (quoted sum)) fs2 = (.ok e, fs') := by
    intro fs2 h2
    rw [run_bind, getMd5Sum_run, hsp]
    simp only [Option.bind_some, at_false, h2.node, h2.data, Outcome.andThen, run]
    exact ⟨_, _, rfl⟩
  rw [show fs1.lookup (cfg.root ++ [metadataName sb sk]) = fs.lookup (metaFile cfg sb sk) from hlm]
  rcases hm with hl | ⟨m, hl, hmw⟩
  · rw [hl]
    exact hmd5 fs1 hsrc1
  · rw [hl]
    simp only [Option.isSome_some, if_true]
    rw [metadataPath_eq, run_orInternal_some]
    have hmw1 : Writable cfg.root (metadataName b k) fs1 :=
      hmw.of_frame hfr (fun e => by
        have := congrArg List.length e
        simp at this) (hPM b k)
    have ha1 : fs1.at ⟨cfg.root ++ [metadataName sb sk], false⟩ = some (.file m) := by
      rw [at_false]
      exact hlm.trans hl
    obtain ⟨fs2, h2⟩ := copyFile_run (cfg := cfg) ha1 hmw1
    obtain ⟨m', hm', _, ⟨j2, hj2⟩, hfr2⟩ := copyFile_ok hw1 h2
    rw [run_bind, h2]
    simp only [Outcome.andThen]
    exact hmd5 fs2 (hfr2.keep hw1 hSM hsrc1)

/-- when a copy succeeds in `fs`, it succeeds in what an attempt has left, with the same result -/
theorem copy_retry {fs : FS} (hw : WF fs) {a : Answer} (h : answer cfg ext (.copyObject b k s) fs = .ok a) {d : Disk} {fs1 : FS}
    (hm : Moment cfg ext d (.copyObject b k s) fs fs1) :
    answer cfg ext (.copyObject b k s) fs1 = .ok a ∧ Alike (after cfg ext (.copyObject b k s) fs1) (after cfg ext (.copyObject b k s) fs) := by
  have att : ∀ {x : FS}, WF x → alwF cfg (fun y => WF y ∧
      Frame (copyOwn (cfg.root ++ b :: cs) (metaFile cfg b k) (x.lookup (metaFile cfg sb sk)).isSome) (fun _ => False) x y)
      (opProg cfg ext (.copyObject b k s)) x := fun hx => alwF_map hx (copy_attempted hb hk hs hsb hsk hne hx)
  have hnod : ∀ (q : Path), fs1.lookup q = some .dir → fs.lookup q = some .dir := by
    intro q
    refine moment_of (J := fun y => y.lookup q = some .dir → fs.lookup q = some .dir) (alwF_safe copy_builds (fun y c f hy hj hc hd => ?_) hw fun h => h) hm
    rcases execF_new_dir hd with e | e
    · exact hj e
    · exact absurd e (hc.2 _)
  have hdir : ∀ (q : Path), fs.lookup q = some .dir → (after cfg ext (.copyObject b k s) fs).lookup q = some .dir := fun q hq =>
    copy_builds.inv cfg (J := fun x => x.lookup q = some .dir) (fun _ _ _ h hc => exec_dir_stays hc.1 h) hw hq
  obtain ⟨hw1, hf1⟩ := moment_of (att hw) hm
  have hend : ∀ {x : FS}, WF x → Frame (copyOwn (cfg.root ++ b :: cs) (metaFile cfg b k) (x.lookup (metaFile cfg sb sk)).isSome) (fun _ => False) x
      (after cfg ext (.copyObject b k s) x) := by
    intro x hx
    have := alwF_end (att hx) (fun _ => .none)
    rw [runF_sound (cfg := cfg) (opProg cfg ext (.copyObject b k s)) (fun _ => rfl) x] at this
    exact this.2
  obtain ⟨e, he, rfl⟩ := answer_copy.mp h
  have hrun : run cfg (copyObject cfg ext b k s) fs = (.ok e, after cfg ext (.copyObject b k s) fs) := by rw [after_copy]; exact Prod.ext he rfl
  obtain ⟨i, hi, rfl, hP, hM⟩ := copy_effect hb hk hs hsb hsk hne hw hrun
  have hw' : WF (after cfg ext (.copyObject b k s) fs) := wf_after hw
  have hPS : cfg.root ++ sb :: scs ≠ cfg.root ++ b :: cs := by
    intro e
    have := plain_path_inj hsk hk e
    exact hne (by rw [this.1, this.2])
  have hMM : metaFile cfg sb sk ≠ metaFile cfg b k := by
    intro e
    have := metaFile_inj e
    exact hne (by rw [this.1, this.2])
  have hPM : ∀ b1 k1, metaFile cfg b1 k1 ≠ cfg.root ++ b :: cs := fun b1 k1 e => meta_not_prefix hb (pfx_of_eq e)
  have hSM : cfg.root ++ sb :: scs ≠ metaFile cfg b k := fun e => meta_not_prefix hsb (pfx_of_eq e.symm)
  have nown : ∀ {q md}, q ≠ cfg.root ++ b :: cs → q ≠ metaFile cfg b k → ¬ copyOwn (cfg.root ++ b :: cs) (metaFile cfg b k) md q :=
    fun h1 h2 h => h.elim h1 fun h => h2 h.2
  have look : ∀ {x y : FS} {md : Bool}, Frame (copyOwn (cfg.root ++ b :: cs) (metaFile cfg b k) md) (fun _ => False) x y → ∀ {q},
      ¬ copyOwn (cfg.root ++ b :: cs) (metaFile cfg b k) md q → y.lookup q = x.lookup q := by
    intro x y md hf q hq
    rcases hf.node q hq with e | ⟨h, _⟩
    · exact e
    · exact h.elim
  have hsm1 : fs1.lookup (metaFile cfg sb sk) = fs.lookup (metaFile cfg sb sk) := look hf1 (nown (hPM _ _) hMM)
  have hi1 : fs1.lookup (cfg.root ++ sb :: scs) = some (.file i) := (look hf1 (nown hPS hSM)).trans hi
  have hdat1 : ∀ {q : Path} {m : Ino}, q ≠ cfg.root ++ b :: cs → q ≠ metaFile cfg b k → fs.lookup q = some (.file m) → fs1.data m = fs.data m := by
    intro q m h1 h2 hl
    exact hf1.data m (by rw [hw.of_file hl]; exact nown h1 h2)
  -- the room for the copy
  obtain ⟨d', n, hdn⟩ : ∃ d' n, cfg.root ++ b :: cs = d' ++ [n] :=
    ⟨_, _, (List.dropLast_concat_getLast (l := cfg.root ++ b :: cs) (by simp)).symm⟩
  obtain ⟨j, hj⟩ := content_node hP
  have hd'P : d' <+: cfg.root ++ b :: cs := by rw [hdn]; exact List.prefix_append _ _
  have hd'ne : d' ≠ cfg.root ++ b :: cs := by
    intro e
    have := congrArg List.length (e.trans hdn)
    simp at this
  have hd'own : ∀ md, ¬ copyOwn (cfg.root ++ b :: cs) (metaFile cfg b k) md d' := fun md =>
    nown hd'ne fun e => meta_not_prefix hb (e ▸ hd'P)
  have hroot : cfg.root ≠ cfg.root ++ b :: cs ∧ cfg.root ≠ metaFile cfg b k := by
    refine ⟨by simp, fun e => ?_⟩
    have := congrArg List.length e
    simp [metaFile] at this
  have hwr1 : Writable d' n fs1 := by
    refine ⟨?_, ?_, fun hd => ?_⟩
    · have := node_parent hw' hj
      rw [hdn, List.dropLast_concat] at this
      rw [look hf1 (hd'own _), ← look (hend hw) (hd'own _)]
      exact this
    · rw [← hdn]; exact node_names hw' hj
    · rw [← hdn] at hd
      have := hdir _ (hnod _ hd)
      rw [hj] at this
      cases this
  have hmw1 : fs1.lookup (metaFile cfg sb sk) = none ∨
      ∃ m, fs1.lookup (metaFile cfg sb sk) = some (.file m) ∧ Writable cfg.root (metadataName b k) fs1 := by
    rw [hsm1]
    rcases hM with hl | ⟨m, hl, hc⟩
    · exact .inl hl
    · obtain ⟨j', hj'⟩ := content_node hc
      refine .inr ⟨m, hl, ?_, node_names hw' hj', fun hd => ?_⟩
      · have := node_parent hw' hj'
        rw [metaFile, List.dropLast_concat] at this
        rw [look hf1 (nown hroot.1 hroot.2), ← look (hend hw) (nown hroot.1 hroot.2)]
        exact this
      · have := hdir _ (hnod _ hd)
        rw [show (after cfg ext (.copyObject b k s) fs).lookup (cfg.root ++ [metadataName b k]) = _ from hj'] at this
        cases this
  obtain ⟨e1, fs2, hrun1⟩ := copy_suffices (ext := ext) hb hk hs hsb hsk hne hw1 hi1 hdn hwr1 hmw1
  obtain rfl : after cfg ext (.copyObject b k s) fs1 = fs2 := by rw [after_copy, hrun1]
  obtain ⟨i1, hi1', rfl, hP1, hM1⟩ := copy_effect hb hk hs hsb hsk hne hw1 hrun1
  rw [hi1] at hi1'
  cases hi1'
  rw [hdat1 hPS hSM hi] at hP1 hrun1
  refine ⟨answer_copy.mpr ⟨_, by rw [hrun1], rfl⟩, fun q => ?_⟩
  have nd : ∀ {x : FS} {q : Path} {c : Bytes}, contentAt x q = some c → ¬ IsDir x q := by
    intro x q c hx hd
    rw [IsDir] at hd
    simp [contentAt, hd] at hx
  have both : ∀ {q : Path} {c : Bytes}, contentAt (after cfg ext (.copyObject b k s) fs1) q = some c →
      contentAt (after cfg ext (.copyObject b k s) fs) q = some c →
      contentAt (after cfg ext (.copyObject b k s) fs1) q = contentAt (after cfg ext (.copyObject b k s) fs) q ∧
      (IsDir (after cfg ext (.copyObject b k s) fs1) q ↔ IsDir (after cfg ext (.copyObject b k s) fs) q) :=
    fun h1 h2 => ⟨h1.trans h2.symm, fun h => absurd h (nd h1), fun h => absurd h (nd h2)⟩
  by_cases hqP : q = cfg.root ++ b :: cs
  · subst hqP; exact both hP1 hP
  by_cases hqM : (fs.lookup (metaFile cfg sb sk)).isSome = true ∧ q = metaFile cfg b k
  · obtain ⟨hs', rfl⟩ := hqM
    rcases hM with hl | ⟨m, hl, hc⟩
    · rw [hl] at hs'; cases hs'
    · rcases hM1 with hl1 | ⟨m1, hl1, hc1⟩
      · rw [hsm1, hl] at hl1; cases hl1
      · rw [hsm1, hl] at hl1
        cases hl1
        rw [hdat1 (hPM _ _) hMM hl] at hc1
        exact both hc1 hc
  have hq : ¬ copyOwn (cfg.root ++ b :: cs) (metaFile cfg b k) (fs.lookup (metaFile cfg sb sk)).isSome q := fun h => h.elim hqP hqM
  have same : ∀ {x y : FS}, WF x → Frame (copyOwn (cfg.root ++ b :: cs) (metaFile cfg b k) (fs.lookup (metaFile cfg sb sk)).isSome) (fun _ => False) x y →
      contentAt y q = contentAt x q ∧ (IsDir y q ↔ IsDir x q) := by
    intro x y hx hf
    have he := look hf hq
    refine ⟨?_, by simp [IsDir, he]⟩
    simp only [contentAt, he]
    cases hl : x.lookup q with
    | none => rfl
    | some n =>
      cases n with
      | dir => rfl
      | file i =>
        simp only
        rw [hf.data i (by rw [(hx.ino _ _ hl).1]; exact hq)]
  have h1 := same hw (hend hw)
  have h2 := hend hw1
  rw [hsm1] at h2
  have h2 := same hw (hf1.trans h2)
  exact ⟨h2.1.trans h1.1.symm, h2.2.trans h1.2.symm⟩

end

end S3
