import Verif.Lemmas.RetryCopy
/-! Requests that remove, or that make a bucket, sent again after an attempt that was cut off or failed. -/
namespace S3
open Spec

variable {cfg : Cfg} {ext : Ext}

/-- only files and directories in `T` are gone, nothing else has changed -/
structure Thinned (T : Path → Prop) (fs fs' : FS) : Prop where
  look : ∀ q, fs'.lookup q = fs.lookup q ∨ T q ∧ fs'.lookup q = none
  data : ∀ i, fs'.data i = fs.data i

theorem Thinned.refl {T : Path → Prop} (fs : FS) : Thinned T fs fs := ⟨fun _ => .inl rfl, fun _ => rfl⟩

theorem Thinned.trans {T : Path → Prop} {a b c : FS} (h1 : Thinned T a b) (h2 : Thinned T b c) : Thinned T a c := by
  refine ⟨fun q => ?_, fun i => (h2.data i).trans (h1.data i)⟩
  rcases h2.look q with e | e
  · rcases h1.look q with e' | e'
    · exact .inl (e.trans e')
    · exact .inr ⟨e'.1, e.trans e'.2⟩
  · exact .inr e

theorem Thinned.outside {T : Path → Prop} {fs fs' : FS} (h : Thinned T fs fs') {q : Path} (hq : ¬ T q) : fs'.lookup q = fs.lookup q :=
  (h.look q).elim id fun h => absurd h.1 hq

theorem Thinned.content {T : Path → Prop} {fs fs' : FS} (h : Thinned T fs fs') {q : Path} (hq : ¬ T q) : contentAt fs' q = contentAt fs q := by
  simp only [contentAt, h.outside hq]
  cases fs.lookup q with
  | none => rfl
  | some n =>
    cases n with
    | dir => rfl
    | file i => simp only [h.data]

theorem Thinned.dir {T : Path → Prop} {fs fs' : FS} (h : Thinned T fs fs') {q : Path} (hd : IsDir fs' q) : IsDir fs q := by
  rw [IsDir] at *
  rcases h.look q with e | e
  · rw [← e]; exact hd
  · rw [e.2] at hd; cases hd

/-- calls that remove only what is in `T` -/
def rmOk (T : Path → Prop) : Call → Prop
  | .unlink p => T p.comps
  | .rmdir p => T p.comps
  | .rmtree p => ∀ q, p <+: q → T q
  | .mkdir _ => False
  | .create _ => False
  | .writeAt .. => False
  | _ => True

theorem thinned_erase {T : Path → Prop} {fs : FS} {p : Path} (h : T p) : Thinned T fs (fs.erase p) := by
  refine ⟨fun q => ?_, fun _ => rfl⟩
  rw [lookup_erase]
  by_cases hq : q = []
  · left; simp [hq, FS.lookup]
  · rw [if_neg hq]
    split
    · rename_i e; subst e; exact .inr ⟨h, rfl⟩
    · exact .inl rfl

theorem thinned_eraseTree {T : Path → Prop} {fs : FS} {p : Path} (h : ∀ q, p <+: q → T q) : Thinned T fs (fs.eraseTree p) := by
  refine ⟨fun q => ?_, fun _ => rfl⟩
  rw [lookup_eraseTree]
  by_cases hq : q = []
  · left; simp [hq, FS.lookup]
  · rw [if_neg hq]
    split
    · rename_i e; exact .inr ⟨h q (List.isPrefixOf_iff_prefix.mp e), rfl⟩
    · exact .inl rfl

theorem thinned_sweep {T : Path → Prop} {p : Path} (h : ∀ q, p <+: q → T q) (rs : List Path) (fs : FS) :
    Thinned T fs (rs.foldl (fun fs q => if p.isPrefixOf q then fs.eraseTree q else fs) fs) := by
  induction rs generalizing fs with
  | nil => exact .refl _
  | cons r rs ih =>
    simp only [List.foldl_cons]
    refine Thinned.trans ?_ (ih _)
    split
    · rename_i hp
      exact thinned_eraseTree fun q hq => h q ((List.isPrefixOf_iff_prefix.mp hp).trans hq)
    · exact .refl _

theorem exec_thinned {T : Path → Prop} {fs : FS} {c : Call} (h : rmOk T c) : Thinned T fs (exec cfg fs c).2 := by
  cases c with
  | unlink p =>
    simp only [exec]
    split
    · exact thinned_erase h
    · exact .refl _
  | rmdir p =>
    simp only [exec]
    split
    · split
      · exact thinned_erase h
      · exact .refl _
    · exact .refl _
  | rmtree p =>
    simp only [exec]
    split
    · split
      · exact thinned_eraseTree h
      · exact .refl _
    · exact .refl _
  | mkdir p => exact (h : False).elim
  | create p => exact (h : False).elim
  | writeAt i o b => exact (h : False).elim
  | readDir p => simp only [exec]; split <;> exact .refl _
  | openRead p => simp only [exec]; exact .refl _
  | stat p => exact .refl _
  | fstat h => cases h <;> exact .refl _
  | readAll h => cases h <;> exact .refl _
  | readAt h o n => cases h <;> exact .refl _

theorem execF_thinned {T : Path → Prop} {fs : FS} {c : Call} (h : rmOk T c) (f : Fault) : Thinned T fs (execF cfg fs c f).2 := by
  cases f with
  | none => exact exec_thinned h
  | before => exact .refl _
  | after => exact exec_thinned h
  | during n rs =>
    cases c with
    | rmtree p =>
      simp only [execF, partialEffect]
      split
      · split
        · exact thinned_sweep h rs fs
        · exact .refl _
      · exact .refl _
    | writeAt i o b => exact (h : False).elim
    | _ => exact .refl _

/-- what an attempt of a request that only removes leaves -/
theorem thinned_moment {T : Path → Prop} {o : Op} (hs : Safe (rmOk T) (fun _ => True) (opProg cfg ext o)) {fs : FS} (hw : WF fs) {d : Disk} {fs1 : FS}
    (hm : Moment cfg ext d o fs fs1) : WF fs1 ∧ Thinned T fs fs1 :=
  moment_of (J := fun y => WF y ∧ Thinned T fs y)
    (alwF_safe hs (fun _ c f _ hj hc => ⟨execF_wf hj.1 c f, hj.2.trans (execF_thinned hc f)⟩) hw ⟨hw, .refl _⟩) hm

theorem thinned_after {T : Path → Prop} {o : Op} (hs : Safe (rmOk T) (fun _ => True) (opProg cfg ext o)) {fs : FS} (hw : WF fs) :
    Thinned T fs (after cfg ext o fs) :=
  hs.inv cfg (J := fun y => Thinned T fs y) (fun _ _ _ hj hc => hj.trans (exec_thinned hc)) hw (.refl _)

/-! ### buckets -/

theorem deleteBucket_thins {b : Bytes} (hb : LegalBucket b) :
    Safe (rmOk fun q => below (bucketDir cfg b) q) (fun _ => True) (opProg cfg ext (.deleteBucket b)) := by
  refine (op_safe cfg ext (.deleteBucket b)).mono (fun c h => ?_) (fun _ h => h)
  cases c with
  | rmtree p =>
    obtain ⟨x, hx, rfl⟩ : bucketP cfg b p := h
    rw [bucketPath_legal cfg ((C02_bucket_name_rule b).mpr hb)] at hx
    cases hx
    exact fun q hq => List.isPrefixOf_iff_prefix.mpr hq
  | mkdir p => exact (h : False).elim
  | unlink p => exact (h : False).elim
  | rmdir p => exact (h : False).elim
  | create p => exact (h : False).elim
  | writeAt i _ _ => exact (h : False).elim
  | _ => trivial

theorem deleteBucket_retry {b : Bytes} (hb : LegalBucket b) {fs : FS} (hw : WF fs) {a : Answer}
    (h : answer cfg ext (.deleteBucket b) fs = .ok a) {d : Disk} {fs1 : FS} (hm : Moment cfg ext d (.deleteBucket b) fs fs1) :
    (fs1.lookup (bucketDir cfg b) ≠ none → answer cfg ext (.deleteBucket b) fs1 = .ok a) ∧
    (fs1.lookup (bucketDir cfg b) = none → answer cfg ext (.deleteBucket b) fs1 = .err .InternalError) ∧
    Spec.Alike (after cfg ext (.deleteBucket b) fs1) (after cfg ext (.deleteBucket b) fs) := by
  obtain ⟨hw1, ht⟩ := thinned_moment (deleteBucket_thins hb) hw hm
  have c0 := C23_delete_bucket_partial (cfg := cfg) (ext := ext) (fs := fs) hb
  have c1 := C23_delete_bucket_partial (cfg := cfg) (ext := ext) (fs := fs1) hb
  have hdir : IsDir fs (bucketDir cfg b) := by
    apply Classical.byContradiction
    intro hn
    rw [(c0.1 hn).1] at h
    cases h
  obtain ⟨ha, hl, hc, _⟩ := c0.2 hdir
  rw [ha] at h
  cases h
  have hdir1 : IsDir fs1 (bucketDir cfg b) ∨ fs1.lookup (bucketDir cfg b) = none := (ht.look _).elim (fun e => .inl (e.trans hdir)) fun e => .inr e.2
  rcases hdir1 with hd1 | hn1
  · obtain ⟨ha1, hl1, hc1, _⟩ := c1.2 hd1
    refine ⟨fun _ => ha1, fun e => absurd (hd1.symm.trans e) (fun h => nomatch h), fun q => ?_⟩
    rw [IsDir, IsDir, hl1, hl, hc1, hc]
    split
    · exact ⟨rfl, Iff.rfl⟩
    · rename_i hq
      exact ⟨ht.content hq, by rw [ht.outside hq]⟩
  · obtain ⟨ha1, hf1⟩ := c1.1 (by rw [IsDir, hn1]; exact fun h => nomatch h)
    refine ⟨fun e => absurd hn1 e, fun _ => ha1, fun q => ?_⟩
    rw [hf1, IsDir, IsDir, hl, hc]
    split
    · rename_i hq
      have hnone : fs1.lookup q = none := by
        cases he : fs1.lookup q with
        | none => rfl
        | some n =>
          by_cases e : bucketDir cfg b = q
          · rw [← e, hn1] at he; cases he
          · have := node_above hw1 he (List.isPrefixOf_iff_prefix.mp hq) e
            rw [hn1] at this
            cases this
      exact ⟨by simp [contentAt, hnone], by rw [hnone]⟩
    · rename_i hq
      exact ⟨ht.content hq, by rw [ht.outside hq]⟩

/-- a DeleteBucket that finds no bucket does nothing, whatever fails -/
theorem deleteBucket_moment {b : Bytes} (hb : LegalBucket b) {fs : FS} (hw : WF fs) (hd : ¬ IsDir fs (bucketDir cfg b)) {d : Disk} {fs1 : FS}
    (hm : Moment cfg ext d (.deleteBucket b) fs fs1) : fs1 = fs := by
  refine moment_of (J := fun y => y = fs) (alwF_map hw ?_) hm
  simp only [deleteBucket, bind_eq, bucketPath_legal cfg ((C02_bucket_name_rule b).mpr hb)]
  refine alwF_orInternal rfl fun p hp => ?_
  cases hp
  refine alwF_call rfl fun f => ?_
  have hno : fs.lookup (cfg.root ++ [b]) = some .dir → False := hd
  have e : (execF cfg fs (.rmtree (cfg.root ++ [b])) f).2 = fs := by
    have hex : (exec cfg fs (.rmtree (cfg.root ++ [b]))).2 = fs := by
      simp only [exec]
    cases f with
    | none => exact hex
    | before => rfl
    | after => exact hex
    | during n rs =>
      simp only [execF, partialEffect]
  generalize (execF cfg fs (.rmtree (cfg.root ++ [b])) f).1 = r
  cases r
  · exact alwF_fail e
  · exact alwF_ret e

theorem createBucket_after {b : Bytes} (hb : LegalBucket b) (fs : FS) : after cfg ext (.createBucket b) fs =
    if (fs.lookup (bucketDir cfg b)).isSome then fs else (exec cfg fs (.mkdir (cfg.root ++ [b]))).2 := by
  have ha : after cfg ext (.createBucket b) fs = (run cfg (createBucket cfg b) fs).2 := by
    rw [after, opProg, run_bind]
    generalize run cfg (createBucket cfg b) fs = r
    obtain ⟨r, y⟩ := r
    cases r <;> rfl
  rw [ha]
  simp only [createBucket, bucketPath_legal cfg ((C02_bucket_name_rule b).mpr hb), bind_eq, run_orInternal_some, run_exists_bind, at_false]
  change (run cfg (if (fs.lookup (bucketDir cfg b)).isSome = true then _ else _) fs).2 = _
  split
  · rfl
  · rw [run_bind]
    simp only [call, run, Outcome.andThen]
    generalize exec cfg fs (.mkdir (cfg.root ++ [b])) = r
    obtain ⟨r, y⟩ := r
    cases r <;> rfl

theorem mkdir_effect (fs : FS) (p : Path) : (exec cfg fs (.mkdir p)).2 = fs ∨
    fs.lookup p = none ∧ (exec cfg fs (.mkdir p)).2 = fs.set p .dir := by
  simp only [exec]
  split
  · exact .inl rfl
  · split
    · exact .inl rfl
    · split
      · exact .inl rfl
      · exact .inl rfl
      · split
        · exact .inl rfl
        · rename_i h
          split
          · exact .inr ⟨h, rfl⟩
          · exact .inl rfl

/-- an attempt at CreateBucket has done nothing or everything -/
theorem createBucket_moment {b : Bytes} (hb : LegalBucket b) {fs : FS} (hw : WF fs) {d : Disk} {fs1 : FS}
    (hm : Moment cfg ext d (.createBucket b) fs fs1) : fs1 = fs ∨ fs1 = after cfg ext (.createBucket b) fs := by
  have hp := bucketPath_legal cfg ((C02_bucket_name_rule b).mpr hb)
  have halw : alwF cfg (fun y => y = fs ∨ y = (exec cfg fs (.mkdir (cfg.root ++ [b]))).2) (opProg cfg ext (.createBucket b)) fs := by
    refine alwF_map hw ?_
    simp only [createBucket, bind_eq, hp]
    refine alwF_orInternal (.inl rfl) fun p hp => ?_
    cases hp
    refine alwF_call (c := .stat _) (.inl rfl) fun f => ?_
    have e : (execF cfg fs (.stat ⟨cfg.root ++ [b], false⟩) f).2 = fs := by cases f <;> rfl
    rw [e]
    simp only
    split
    · exact alwF_fail (.inl rfl)
    · refine alwF_call (.inl rfl) fun f => ?_
      have e : (execF cfg fs (.mkdir (cfg.root ++ [b])) f).2 = fs ∨
          (execF cfg fs (.mkdir (cfg.root ++ [b])) f).2 = (exec cfg fs (.mkdir (cfg.root ++ [b]))).2 := by
        cases f with
        | none => exact .inr rfl
        | before => exact .inl rfl
        | after => exact .inr rfl
        | during => exact .inl rfl
      generalize (execF cfg fs (.mkdir (cfg.root ++ [b])) f).1 = r
      cases r
      · exact alwF_ret e
      all_goals exact alwF_fail e
  rcases moment_of halw hm with e | e
  · exact .inl e
  · rw [createBucket_after hb]
    rcases mkdir_effect (cfg := cfg) fs (cfg.root ++ [b]) with h | ⟨h, _⟩
    · exact .inl (e.trans h)
    · rw [if_neg (by rw [bucketDir, h]; simp)]
      exact .inr e

theorem createBucket_again {b : Bytes} (hb : LegalBucket b) (fs : FS) :
    after cfg ext (.createBucket b) (after cfg ext (.createBucket b) fs) = after cfg ext (.createBucket b) fs := by
  rw [createBucket_after hb fs]
  split
  · rename_i h
    rw [createBucket_after hb fs, if_pos h]
  · rename_i hn
    rcases mkdir_effect (cfg := cfg) fs (cfg.root ++ [b]) with h | ⟨_, h⟩
    · rw [h, createBucket_after hb fs, if_neg hn, h]
    · rw [h, createBucket_after hb, if_pos]
      rw [lookup_set, bucketDir]
      simp

/-- an attempt at DeleteObject has done nothing or everything -/
theorem deleteObject_moment {b k : Bytes} {fs : FS} (hw : WF fs) {d : Disk} {fs1 : FS} (hm : Moment cfg ext d (.deleteObject b k) fs fs1) :
    fs1 = fs ∨ fs1 = after cfg ext (.deleteObject b k) fs := by
  refine moment_of (J := fun y => y = fs ∨ y = after cfg ext (.deleteObject b k) fs) (alwF_map hw ?_) hm
  rw [after_del]
  simp only [deleteObject, bind_eq]
  refine alwF_orInternal (.inl rfl) fun p hp => ?_
  simp only [hp]
  have fin : ∀ {c : Call} (g : Resp c → Prog Unit), (∀ r, g r = .ret () ∨ g r = .fail .InternalError) → (∀ n rs, partialEffect fs n rs c = fs) →
      alwF cfg (fun y => y = fs ∨ y = (run cfg ((call c).bind g) fs).2) ((call c).bind g) fs := by
    intro c g hg hpe
    refine alwF_call (.inl rfl) fun f => ?_
    have hr : (run cfg ((call c).bind g) fs).2 = (exec cfg fs c).2 := by
      rw [run_bind]
      simp only [call, run, Outcome.andThen]
      rcases hg (exec cfg fs c).1 with e | e <;> rw [e] <;> rfl
    rw [hr]
    have e : (execF cfg fs c f).2 = fs ∨ (execF cfg fs c f).2 = (exec cfg fs c).2 := by
      cases f with
      | none => exact .inr rfl
      | before => exact .inl rfl
      | after => exact .inr rfl
      | during n rs => exact .inl (hpe n rs)
    rcases hg (execF cfg fs c f).1 with h | h <;> rw [h]
    · exact alwF_ret e
    · exact alwF_fail e
  rw [run_orInternal_some]
  split
  · refine alwF_call (.inl rfl) fun f => ?_
    have e : (execF cfg fs (.readDir p) f).2 = fs := by
      have : (exec cfg fs (.readDir p)).2 = fs := by simp only [exec]; split <;> rfl
      cases f with
      | none => exact this
      | before => rfl
      | after => exact this
      | during => rfl
    rw [e]
    have hno : ∀ r : Option (List (Bytes × Bool)), (execF cfg fs (.readDir p) f).1 = r → r = none ∨ r = (exec cfg fs (.readDir p)).1 := by
      intro r hr
      cases f with
      | none => exact .inr hr.symm
      | _ => exact .inl hr.symm
    rcases hno _ rfl with h | h
    · rw [h]; exact alwF_fail (.inl rfl)
    · rw [h]
      rw [run_bind]
      have he : (exec cfg fs (.readDir p)).2 = fs := by simp only [exec]; split <;> rfl
      simp only [call, run, Outcome.andThen]
      rw [he]
      cases hr : (exec cfg fs (.readDir p)).1 with
      | none => exact alwF_fail (.inl rfl)
      | some es =>
        simp only [orInternal, Prog.bind]
        by_cases hes : es = []
        · simp only [hes, if_true]
          refine fin (c := .rmdir p) _ (fun r => ?_) fun _ _ => rfl
          cases r
          · exact .inr rfl
          · exact .inl rfl
        · simp only [hes, if_false]
          exact alwF_ret (.inl rfl)
  · refine fin (c := .unlink p) _ (fun r => ?_) fun _ _ => rfl
    cases r
    · exact .inr rfl
    · exact .inl rfl

/-! ### several objects -/

theorem deleteMany_thins {b : Bytes} (hb : LegalBucket b) {ks : List Bytes} (hk : ∀ k ∈ ks, ∃ cs, PlainKey k cs) :
    Safe (rmOk fun q => ∃ k ∈ ks, q = plainFile cfg b k) (fun _ => True) (opProg cfg ext (.deleteObjects b ks)) := by
  refine (op_safe cfg ext (.deleteObjects b ks)).mono (fun c h => ?_) (fun _ h => h)
  cases c with
  | unlink p =>
    obtain ⟨k, hm, ho⟩ : ∃ k ∈ ks, objP cfg b k p.comps := h
    obtain ⟨cs, hcs⟩ := hk k hm
    obtain ⟨x, hx, e⟩ := ho
    rw [objectPath_plain cfg ((C02_bucket_name_rule b).mpr hb) hcs] at hx
    cases hx
    exact ⟨k, hm, e.trans (plainFile_eq hcs).symm⟩
  | mkdir p => exact (h : False).elim
  | rmdir p => exact (h : False).elim
  | rmtree p => exact (h : False).elim
  | create p => exact (h : False).elim
  | writeAt i _ _ => exact (h : False).elim
  | _ => trivial

theorem deleteMany_retry {b : Bytes} (hb : LegalBucket b) {ks : List Bytes} (hn : ks.Nodup) {fs : FS} (hw : WF fs)
    (hk : ∀ k ∈ ks, ∃ cs, PlainKey k cs ∧ ¬ IsDir fs (cfg.root ++ b :: cs)) {d : Disk} {fs1 : FS}
    (hm : Moment cfg ext d (.deleteObjects b ks) fs fs1) :
    answer cfg ext (.deleteObjects b ks) fs1 = .ok (.keys (ks.filter fun k => (stored cfg fs1 b k).isSome)) ∧
    Spec.Alike (after cfg ext (.deleteObjects b ks) fs1) (after cfg ext (.deleteObjects b ks) fs) := by
  have hb' := (C02_bucket_name_rule b).mpr hb
  have hs := deleteMany_thins (cfg := cfg) (ext := ext) hb (ks := ks) fun k h => (hk k h).imp fun _ h => h.1
  obtain ⟨hw1, ht⟩ := thinned_moment hs hw hm
  have hk1 : ∀ k ∈ ks, ∃ cs, PlainKey k cs ∧ ¬ IsDir fs1 (cfg.root ++ b :: cs) := fun k h => (hk k h).imp fun _ h => ⟨h.1, fun hd => h.2 (ht.dir hd)⟩
  have gone : ∀ {x : FS}, WF x → (∀ k ∈ ks, ∃ cs, PlainKey k cs ∧ ¬ IsDir x (cfg.root ++ b :: cs)) → ∀ k ∈ ks,
      (after cfg ext (.deleteObjects b ks) x).lookup (plainFile cfg b k) = none := by
    intro x hx hkx k hm
    obtain ⟨cs, hcs, hd⟩ := hkx k hm
    have h2 := (C26_delete_objects_partial (cfg := cfg) (ext := ext) hb hn hx hkx).2.1 k hm
    rw [stored, objectPath_plain cfg hb' hcs] at h2
    simp only [Bool.false_eq_true, if_false] at h2
    rw [plainFile_eq hcs]
    have hnd := fun hd' => hd ((thinned_after hs hx).dir (q := cfg.root ++ b :: cs) hd')
    cases hl : (after cfg ext (.deleteObjects b ks) x).lookup (cfg.root ++ b :: cs) with
    | none => rfl
    | some n =>
      cases n with
      | dir => exact absurd hl hnd
      | file j => simp [contentAt, hl] at h2
  refine ⟨(C26_delete_objects_partial (cfg := cfg) (ext := ext) hb hn hw1 hk1).1, fun q => ?_⟩
  by_cases hq : ∃ k ∈ ks, q = plainFile cfg b k
  · obtain ⟨k, hm, rfl⟩ := hq
    simp [contentAt, IsDir, gone hw hk k hm, gone hw1 hk1 k hm]
  · have t0 := thinned_after hs hw
    have t1 := ht.trans (thinned_after hs hw1)
    exact ⟨(t1.content hq).trans (t0.content hq).symm, by rw [IsDir, IsDir, t1.outside hq, t0.outside hq]⟩

end S3
