import Verif.Props.Retried
import Verif.Props.WebLife
import Verif.Lemmas.Root
import Verif.Lemmas.FolderMade
import Verif.Spec.Retry
/-! Requests over HTTP that are sent again and again. -/
namespace S3
open Spec

variable {cfg : Cfg} {ext : Ext} {lib : Lib} {auth : Option Provider} {α β : Type}

/-- a call that leaves the tree as it is, whatever goes wrong -/
def StillCall (cfg : Cfg) (c : Call) : Prop := ∀ fs f, (execF cfg fs c f).2 = fs

theorem justReads_still {o : Op} (ho : JustReads o) : Safe (StillCall cfg) (fun _ => True) (opProg cfg ext o) := by
  refine (op_safe cfg ext o).mono ?_ (fun _ _ => trivial)
  intro c hc fs f
  cases c with
  | mkdir p => cases o <;> first | exact hc.elim | exact ho.elim
  | create p => cases o <;> first | exact hc.elim | exact ho.elim
  | writeAt i a b => cases o <;> first | exact hc.elim | exact ho.elim
  | unlink p => cases o <;> first | exact hc.elim | exact ho.elim
  | rmdir p => cases o <;> first | exact hc.elim | exact ho.elim
  | rmtree p => cases o <;> first | exact hc.elim | exact ho.elim
  | readDir p =>
    have e : (exec cfg fs (.readDir p)).2 = fs := by simp only [exec]; split <;> rfl
    cases f <;> first | rfl | exact e
  | _ => cases f <;> rfl

/-- a run of one thread beside threads that only read is a run of its program on a failing disk -/
theorem beside_runF (steps : List (Nat × Fault)) : ∀ (ps : List (Prog α)) (n : Nat) (p : Prog α) (fs : FS), WF fs → ps[n]? = some p →
    (∀ (j : Nat) q, j ≠ n → ps[j]? = some q → Safe (StillCall cfg) (fun _ => True) q) →
    ∃ d m, (runParF cfg steps ps fs).2 = (runFN cfg d m p fs).2 := by
  induction steps with
  | nil => intro ps n p fs _ _ _; exact ⟨fun _ => .none, 0, by cases p <;> rfl⟩
  | cons s steps ih =>
    intro ps n p fs hw hp hq
    obtain ⟨i, f⟩ := s
    have hlen : n < ps.length := (List.getElem?_eq_some_iff.mp hp).1
    simp only [runParF]
    cases hi : ps[i]? with
    | none => exact ih ps n p fs hw hp hq
    | some q =>
      simp only
      by_cases hin : i = n
      · subst hin
        rw [hp] at hi
        cases hi
        have hq' : ∀ (j : Nat) q, j ≠ i → (ps.set i (stepProgF cfg p f fs).1)[j]? = some q → Safe (StillCall cfg) (fun _ => True) q := by
          intro j q hj h
          rw [List.getElem?_set_ne (Ne.symm hj)] at h
          exact hq j q hj h
        have hp' : (ps.set i (stepProgF cfg p f fs).1)[i]? = some (stepProgF cfg p f fs).1 := by
          rw [List.getElem?_set_self hlen]
        cases p with
        | sys c k =>
          obtain ⟨d, m, h⟩ := ih _ i _ _ (execF_wf hw c f) hp' hq'
          exact ⟨fun m => match m with | 0 => f | m + 1 => d m, m + 1, h⟩
        | ret a => exact ih _ i _ _ hw hp' hq'
        | fail e => exact ih _ i _ _ hw hp' hq'
        | panic => exact ih _ i _ _ hw hp' hq'
        | diverge => exact ih _ i _ _ hw hp' hq'
      · have hs := hq i q hin hi
        have hilen : i < ps.length := (List.getElem?_eq_some_iff.mp hi).1
        have key : (stepProgF cfg q f fs).2 = fs ∧ Safe (StillCall cfg) (fun _ => True) (stepProgF cfg q f fs).1 := by
          cases q with
          | sys c k => exact ⟨hs.1 fs f, hs.2 _ (execF_respOk hw c f)⟩
          | _ => exact ⟨rfl, hs⟩
        rw [key.1]
        refine ih _ n p fs hw ?_ ?_
        · rw [List.getElem?_set_ne hin]
          exact hp
        · intro j q' hj h
          by_cases hji : j = i
          · subst hji
            rw [List.getElem?_set_self hilen] at h
            cases h
            exact key.2
          · rw [List.getElem?_set_ne (Ne.symm hji)] at h
            exact hq j q' hj h

/-- an attempt to serve a request is an attempt at the operation it asks for -/
theorem attempt_moment {x : Exchange} {o : Op} (hx : Asks lib auth x o) {w : WebEpoch}
    (hw : ∃ n, w.requests[n]? = some x ∧ ∀ (j : Nat) y, j ≠ n → w.requests[j]? = some y → AsksIn cfg ext lib auth JustReads y)
    {fs : FS} (hfs : WF fs) : ∃ d, Moment cfg ext d o fs (w.leaves cfg ext lib auth fs) := by
  obtain ⟨n, hn, hy⟩ := hw
  obtain ⟨e, he, hen, hej, h⟩ := web_epoch_at (cfg := cfg) (ext := ext) (P := JustReads) trivial hn hx hy
  obtain ⟨d, m, hd⟩ := beside_runF (cfg := cfg) e.steps (e.requests.map (opProg cfg ext)) n (opProg cfg ext o) fs hfs
    (by rw [List.getElem?_map, hen]; rfl) (by
      intro j q hj hq
      rw [List.getElem?_map] at hq
      cases ho : e.requests[j]? with
      | none => rw [ho] at hq; cases hq
      | some o' =>
        rw [ho] at hq
        cases hq
        exact justReads_still (hej j o' hj ho))
  exact ⟨d, .inl ⟨m, (h fs).1.symm.trans hd⟩⟩

/-- what is answered to a request is a function of what its operation answers -/
theorem wrap_answer {x : Texts} {c : Ctx} {h : Handler} (p : Prog Answer) : ∀ fs : FS, run cfg (wrap x c h p) fs =
    (match (run cfg p fs).1 with
      | .ok a => ((wrap x c h (.ret a)).outcome).getD .diverge
      | .err e => ((errorResponse x e).outcome).getD .diverge
      | .panic => .panic
      | .diverge => .diverge, (run cfg p fs).2) := by
  induction p with
  | ret a =>
    intro fs
    obtain ⟨res, hr⟩ := respond_caught x c h a
    have : wrap x c h (.ret a) = .ret res := hr
    simp only [run]
    rw [this]
    rfl
  | fail e =>
    intro fs
    obtain ⟨res, hr⟩ := errorResponse_ret x e
    have : wrap x c h (.fail e) = .ret res := hr
    rw [this]
    simp only [run, hr]
    rfl
  | panic => intro fs; rfl
  | diverge => intro fs; rfl
  | sys c k ih => intro fs; exact ih _ _

theorem responded_asks {x : Exchange} {o : Op} (hx : Asks lib auth x o) :
    ∃ c, ∀ fs, responded cfg ext lib auth x.env x.texts x.req fs = (match answer cfg ext o fs with
      | .ok a => ((wrap x.texts c o.handler (.ret a)).outcome).getD .diverge
      | .err e => ((errorResponse x.texts e).outcome).getD .diverge
      | .panic => .panic
      | .diverge => .diverge) ∧
      afterResponded cfg ext lib auth x.env x.texts x.req fs = after cfg ext o fs := by
  obtain ⟨c, hc, ho⟩ := hx
  refine ⟨c, fun fs => ?_⟩
  rw [responded, afterResponded, hyperCall_asks hc ho, wrap_answer]
  exact ⟨rfl, rfl⟩

/-- a request that is answered with success has been served -/
theorem answered_success {x : Exchange} {o : Op} (hx : Asks lib auth x o) {fs : FS} {res : Response}
    (h : responded cfg ext lib auth x.env x.texts x.req fs = .ok res) (hs : res.status / 100 = 2) : ∃ a, answer cfg ext o fs = .ok a := by
  obtain ⟨c, hr⟩ := responded_asks (cfg := cfg) (ext := ext) hx
  rw [(hr fs).1] at h
  cases ha : answer cfg ext o fs with
  | ok a => exact ⟨a, rfl⟩
  | err e =>
    rw [ha] at h
    obtain ⟨res', hres⟩ := errorResponse_ret x.texts e
    simp only [hres, Prog.outcome, Option.getD_some] at h
    cases h
    have hmem : e ∈ operationErrors o := by
      exact ((fails_op cfg ext o).run (cfg := cfg) fs).1 e ha
    have hne : ∀ e ∈ operationErrors o, e.httpStatus / 100 ≠ 2 := by
      cases o <;> simp only [operationErrors] <;> decide
    exact absurd ((errorResponse_status hres) ▸ hs) (hne e hmem)
  | panic => rw [ha] at h; cases h
  | diverge => rw [ha] at h; cases h

/-! ### attempt after attempt -/

theorem refill_root {o : Op} (ho : Refills o) {fs : FS} (hw : WF fs) (hr : IsDir fs cfg.root) {d : Disk} {fs1 : FS}
    (hm : Moment cfg ext d o fs fs1) : WF fs1 ∧ IsDir fs1 cfg.root := by
  refine moment_of (J := fun y => WF y ∧ y.lookup cfg.root = some .dir) (alwF_safe (op_safe cfg ext o)
    (fun y c f hy hj hc => ⟨execF_wf hj.1 c f, execF_sparesDir ?_ f hj.2⟩) hw ⟨hw, hr⟩) hm
  cases c with
  | rmdir p => cases o <;> first | exact (ho : False).elim | exact (hc : False).elim
  | rmtree p => cases o <;> first | exact (ho : False).elim | exact (hc : False).elim
  | _ => trivial

/-- one attempt to make a folder does not matter to the next -/
theorem folder_retry {i : PutInput} {k : Bytes} {cs : List Bytes} (hb : LegalBucket i.bucket) (hk : PlainKey k cs) (ek : i.key = k ++ b!"/")
    {fs : FS} (hw : WF fs) {a : Answer} (h : answer cfg ext (.putObject i) fs = .ok a) {d : Disk} {fs1 : FS}
    (hm : Moment cfg ext d (.putObject i) fs fs1) :
    answer cfg ext (.putObject i) fs1 = .ok a ∧ Spec.Alike (after cfg ext (.putObject i) fs1) (after cfg ext (.putObject i) fs) := by
  have hprog : opProg cfg ext (.putObject i) = (createDirAllRev (cfg.root ++ i.bucket :: cs).reverse).bind fun _ => .ret (.etag none) := by
    rcases folder_prog (cfg := cfg) (ext := ext) hb hk ek with ⟨⟨e, he⟩, _⟩ | e
    · rw [answer, he] at h
      cases h
    · exact e
  have hsafe : Safe (writeOk (fun _ => False) (fun q => q <+: cfg.root ++ i.bucket :: cs)) (fun _ => True) (opProg cfg ext (.putObject i)) := by
    rw [hprog]
    refine Safe.bind (Q := fun _ => True) ?_ fun _ _ => trivial
    refine (safe_createDirAllRev (π := { st := fun _ => True, up := fun q => q <+: cfg.root ++ i.bucket :: cs }) _ ?_).mono ?_ fun _ h => h
    · intro q hq
      rw [List.reverse_reverse] at hq
      exact ⟨trivial, hq⟩
    · intro c hc
      cases c <;> first | exact .inl hc | exact .inr hc | exact trivial | exact hc | exact hc.elim
  have hfr : ∀ {x : FS}, WF x → Frame (fun _ => False) (fun q => q <+: cfg.root ++ i.bucket :: cs) x (after cfg ext (.putObject i) x) :=
    fun hx => hsafe.frame cfg hx
  have hf1 : WF fs1 ∧ Frame (fun _ => False) (fun q => q <+: cfg.root ++ i.bucket :: cs) fs fs1 :=
    moment_of (J := fun x => WF x ∧ Frame (fun _ => False) (fun q => q <+: cfg.root ++ i.bucket :: cs) fs x)
      (alwF_safe hsafe (fun x c f hx hj hc => ⟨execF_wf hx c f, hj.2.trans (execF_frame hx hc f)⟩) hw ⟨hw, .refl ..⟩) hm
  obtain ⟨hw1, hf1⟩ := hf1
  obtain ⟨ha, hd, _⟩ := C68_folder_created hb hk ek hw h
  have hD : (after cfg ext (.putObject i) fs).lookup (cfg.root ++ i.bucket :: cs) = some .dir := by
    simpa [IsDir, bucketDir] using hd
  have hwa : WF (after cfg ext (.putObject i) fs) := wf_after hw
  have above : ∀ {x : FS}, WF x → x.lookup (cfg.root ++ i.bucket :: cs) = some .dir → ∀ q, q <+: cfg.root ++ i.bucket :: cs → x.lookup q = some .dir := by
    intro x hx hl q hq
    by_cases e : q = cfg.root ++ i.bucket :: cs
    · rw [e]; exact hl
    · exact node_above hx hl hq e
  have hclear : Clear (cfg.root ++ i.bucket :: cs) fs1 := by
    intro q hq
    rcases hf1.node q (fun h => h) with e | ⟨_, _, e⟩
    · rcases (hfr hw).node q (fun h => h) with e' | ⟨_, e', _⟩
      · right; rw [e, ← e']; exact above hwa hD q hq
      · left; rw [e]; exact e'
    · exact .inr e
  have hrun := wp_run hw1 (createDirAllRev_wp (cfg := cfg) rely_eq (P := cfg.root ++ i.bucket :: cs)
    (fun a b e => e ▸ fun _ _ => .inl rfl) (node_names hwa hD) (cfg.root ++ i.bucket :: cs).reverse
    (by rw [List.reverse_reverse]; exact List.prefix_refl _) hw1 hclear)
  have hans : answer cfg ext (.putObject i) fs1 = .ok a := by
    rw [answer, hprog, run_bind]
    generalize run cfg (createDirAllRev (cfg.root ++ i.bucket :: cs).reverse) fs1 = r at hrun
    obtain ⟨r1, r2⟩ := r
    obtain ⟨e, _⟩ := hrun
    simp only at e
    subst e
    rw [ha]
    rfl
  refine ⟨hans, ?_⟩
  obtain ⟨_, hd1, _⟩ := C68_folder_created hb hk ek hw1 hans
  have hD1 : (after cfg ext (.putObject i) fs1).lookup (cfg.root ++ i.bucket :: cs) = some .dir := by
    simpa [IsDir, bucketDir] using hd1
  have hwa1 : WF (after cfg ext (.putObject i) fs1) := wf_after hw1
  have hf2 := hf1.trans (hfr hw1)
  intro q
  refine ⟨(content_frame hw hf2 (fun h => h)).trans (content_frame hw (hfr hw) (fun h => h)).symm, ?_⟩
  by_cases hq : q <+: cfg.root ++ i.bucket :: cs
  · exact ⟨fun _ => above hwa hD q hq, fun _ => above hwa1 hD1 q hq⟩
  · have e1 : (after cfg ext (.putObject i) fs1).lookup q = fs.lookup q := (hf2.node q (fun h => h)).resolve_right fun h => hq h.1
    have e2 : (after cfg ext (.putObject i) fs).lookup q = fs.lookup q := ((hfr hw).node q (fun h => h)).resolve_right fun h => hq h.1
    show _ = _ ↔ _ = _
    rw [e1, e2]

/-- one attempt at an upload or copy does not matter to the next -/
theorem refill_retry {o : Op} (ho : Refills o) {fs : FS} (hw : WF fs) (hr : IsDir fs cfg.root) {a : Answer} (h : answer cfg ext o fs = .ok a)
    {d : Disk} {fs1 : FS} (hm : Moment cfg ext d o fs fs1) :
    answer cfg ext o fs1 = .ok a ∧ Spec.Alike (after cfg ext o fs1) (after cfg ext o fs) := by
  cases o with
  | putObject i =>
    obtain ⟨hb, k, cs, hk, ek | ek⟩ := ho
    · exact C110_put_retry hb (ek ▸ hk) hw hr h hm
    · exact folder_retry hb hk ek hw h hm
  | uploadPart u n body => exact C110_part_retry ho hw h hm
  | copyObject b k s =>
    obtain ⟨hb, ⟨cs, hk⟩, sb, sk, hs, hsb, ⟨scs, hsk⟩, hne⟩ := ho
    exact C110_copy_retry hb hk hs hsb hsk hne hw h hm
  | _ => exact (ho : False).elim

theorem refills_life {x : Exchange} {o : Op} (hx : Asks lib auth x o) (ho : Refills o) {ws : List WebEpoch} (hws : Attempts cfg ext lib auth x ws) :
    ∀ {fs : FS}, WF fs → IsDir fs cfg.root → ∀ {a : Answer}, answer cfg ext o fs = .ok a →
      answer cfg ext o (webLife cfg ext lib auth ws fs) = .ok a ∧
      Spec.Alike (after cfg ext o (webLife cfg ext lib auth ws fs)) (after cfg ext o fs) := by
  induction ws with
  | nil => intro fs _ _ a h; exact ⟨h, fun _ => ⟨rfl, Iff.rfl⟩⟩
  | cons w ws ih =>
    intro fs hw hr a h
    obtain ⟨d, hm⟩ := attempt_moment (cfg := cfg) (ext := ext) hx (hws w (List.mem_cons_self ..)) hw
    obtain ⟨h1, h2⟩ := refill_retry ho hw hr h hm
    obtain ⟨hw1, hr1⟩ := refill_root ho hw hr hm
    obtain ⟨h3, h4⟩ := ih (fun w hw => hws w (List.mem_cons_of_mem _ hw)) hw1 hr1 h1
    exact ⟨h3, fun q => ⟨(h4 q).1.trans (h2 q).1, (h4 q).2.trans (h2 q).2⟩⟩

/-- one attempt at a deletion or CreateBucket does not matter to what the next leaves -/
theorem settle_retry {o : Op} {fs : FS} (ho : Settles cfg fs o) (hw : WF fs) {d : Disk} {fs1 : FS} (hm : Moment cfg ext d o fs fs1) :
    (WF fs1 ∧ Settles cfg fs1 o) ∧ Spec.Alike (after cfg ext o fs1) (after cfg ext o fs) := by
  have hw1 : WF fs1 := moment_of (J := WF) (alwF_safe (op_safe cfg ext o) (fun y c f hy _ _ => execF_wf hy c f) hw hw) hm
  have eq : ∀ {a b : FS}, a = b → Spec.Alike a b := fun h => h ▸ fun _ => ⟨rfl, Iff.rfl⟩
  cases o with
  | createBucket b =>
    refine ⟨⟨hw1, ho⟩, eq ?_⟩
    rcases createBucket_moment ho hw hm with e | e
    · rw [e]
    · rw [e]; exact createBucket_again ho fs
  | deleteBucket b =>
    refine ⟨⟨hw1, ho⟩, ?_⟩
    by_cases hd : IsDir fs (bucketDir cfg b)
    · exact (deleteBucket_retry ho hw ((C23_delete_bucket_partial (cfg := cfg) (ext := ext) ho).2 hd).1 hm).2.2
    · rw [deleteBucket_moment ho hw hd hm]; exact eq rfl
  | deleteObject b k => exact ⟨⟨hw1, trivial⟩, eq (C110_delete_retry b k hw hm).2⟩
  | deleteObjects b ks =>
    obtain ⟨hb, hn, hk⟩ := ho
    have ht := (thinned_moment (deleteMany_thins (cfg := cfg) (ext := ext) hb (ks := ks) fun k h => (hk k h).imp fun _ h => h.1) hw hm).2
    exact ⟨⟨hw1, hb, hn, fun k h => (hk k h).imp fun _ h => ⟨h.1, fun hd => h.2 (ht.dir hd)⟩⟩, (deleteMany_retry hb hn hw hk hm).2⟩
  | _ => exact (ho : False).elim

theorem settles_life {x : Exchange} {o : Op} (hx : Asks lib auth x o) {ws : List WebEpoch} (hws : Attempts cfg ext lib auth x ws) :
    ∀ {fs : FS}, Settles cfg fs o → WF fs →
      Settles cfg (webLife cfg ext lib auth ws fs) o ∧ Spec.Alike (after cfg ext o (webLife cfg ext lib auth ws fs)) (after cfg ext o fs) := by
  induction ws with
  | nil => intro fs ho _; exact ⟨ho, fun _ => ⟨rfl, Iff.rfl⟩⟩
  | cons w ws ih =>
    intro fs ho hw
    obtain ⟨d, hm⟩ := attempt_moment (cfg := cfg) (ext := ext) hx (hws w (List.mem_cons_self ..)) hw
    obtain ⟨⟨hw1, ho1⟩, h2⟩ := settle_retry ho hw hm
    obtain ⟨h3, h4⟩ := ih (fun w hw => hws w (List.mem_cons_of_mem _ hw)) ho1 hw1
    exact ⟨h3, fun q => ⟨(h4 q).1.trans (h2 q).1, (h4 q).2.trans (h2 q).2⟩⟩

end S3
