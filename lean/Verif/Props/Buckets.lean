import Verif.Lemmas.PutOk
import Verif.Props.Listing
import Verif.Model.Par
/-! C22, C23, C31: creating and deleting buckets. -/
namespace S3
open Spec

variable {cfg : Cfg} {ext : Ext}

theorem dir_names {fs : FS} (hw : WF fs) {p : Path} (h : IsDir fs p) : ∀ c ∈ p, nameOk c = true := by
  by_cases hp : p = []
  · subst hp; simp
  · exact (hw.names _ (mem_of_lookup hp h)).2

theorem legal_name {b : Bytes} (h : checkBucketName b = true) : nameOk b = true := by
  have h1 := legal_plain h
  have h2 := legal_nameOk h
  simp [nameOk, h1.nonempty, h1.noSlash, h1.notDot, h1.notDotDot, h2.1, h2.2]

/-- `mkdir` of an absent bucket -/
theorem mkdir_bucket {fs : FS} (hw : WF fs) (hr : IsDir fs cfg.root) {b : Bytes} (hb : checkBucketName b = true)
    (ha : fs.lookup (bucketDir cfg b) = none) :
    exec cfg fs (.mkdir (bucketDir cfg b)) = (.ok, fs.set (bucketDir cfg b) .dir) := by
  have hn : ∀ x ∈ cfg.root ++ [b], nameOk x = true := by
    intro x hx
    rcases List.mem_append.mp hx with h | h
    · exact dir_names hw hr x h
    · rw [List.mem_singleton.mp h]; exact legal_name hb
  have hc : Clear (cfg.root ++ [b]) fs := by
    intro q hq
    by_cases h : q = cfg.root ++ [b]
    · rw [h]; exact .inl ha
    · have h2 : q <+: cfg.root := by
        have := dropLast_eq_of_prefix (by simp) hq h
        simpa using this
      by_cases h3 : q = cfg.root
      · rw [h3]; exact .inr hr
      · exact .inr (hw.above hr h2 h3)
  rcases exec_mkdir (cfg := cfg) hn hc with h | h | h
  · rw [show fs.lookup cfg.root = some .dir from hr] at h; cases h.1
  · exact h.2.2
  · rw [show fs.lookup (cfg.root ++ [b]) = none from ha] at h; cases h.2.1

theorem createBucket_run {fs : FS} (hw : WF fs) (hr : IsDir fs cfg.root) {b : Bytes} (hb : checkBucketName b = true) :
    run cfg (createBucket cfg b) fs =
      if fs.lookup (bucketDir cfg b) = none then (.ok (), fs.set (bucketDir cfg b) .dir)
      else (.err .BucketAlreadyExists, fs) := by
  simp only [createBucket, bucketPath_legal cfg hb, bind_eq, run_orInternal_some, run_exists_bind, at_false]
  change run cfg (if (fs.lookup (bucketDir cfg b)).isSome = true then _ else _) fs = _
  cases ha : fs.lookup (bucketDir cfg b) with
  | some n => simp
  | none =>
    simp only [Option.isSome_none, Bool.false_eq_true, if_false, if_true]
    rw [run_call1, show cfg.root ++ [b] = bucketDir cfg b from rfl, mkdir_bucket hw hr hb ha]
    rfl

theorem answer_create {b : Bytes} {fs : FS} :
    answer cfg ext (.createBucket b) fs = (match (run cfg (createBucket cfg b) fs).1 with
      | .ok _ => .ok .done | .err e => .err e | .panic => .panic | .diverge => .diverge) ∧
    after cfg ext (.createBucket b) fs = (run cfg (createBucket cfg b) fs).2 := by
  refine ⟨?_, run_map_snd⟩
  simp only [answer, opProg]
  rw [run_bind]
  rcases run cfg (createBucket cfg b) fs with ⟨o | o | o | o, fs'⟩ <;> rfl

/-- an empty directory -/
theorem list_empty {fs : FS} {b : Bytes} (hb : checkBucketName b = true) (hd : IsDir fs (bucketDir cfg b))
    (hk : fs.kids (bucketDir cfg b) = []) (pfx : Option Bytes) (fuel : Nat) (hf : 0 < fuel) :
    answer cfg ext (.listObjects b pfx fuel) fs = .ok (.objects []) ∧
    answer cfg ext (.listObjectsV2 b pfx fuel) fs = .ok (.objectsV2 0 []) := by
  obtain ⟨n, rfl⟩ : ∃ n, fuel = n + 1 := ⟨fuel - 1, by omega⟩
  have hl : run cfg (listLoop cfg (bucketDir cfg b) pfx (n + 1) [bucketDir cfg b]) fs = (.ok [], fs) := by
    simp only [listLoop, bind_eq, pure_eq]
    rw [run_call1, exec_readDir hd, hk]
    simp [dirEntries, listEntries, listLoop]
  constructor
  · refine run_map_fst.mpr ⟨[], ?_, rfl⟩
    simp only [listObjects, bucketPath_legal cfg hb, bind_eq, pure_eq, run_orInternal_some]
    rw [run_bind, show cfg.root ++ [b] = bucketDir cfg b from rfl, hl]
    rfl
  · refine run_map_fst.mpr ⟨(0, []), ?_, rfl⟩
    simp only [listObjectsV2, bucketPath_legal cfg hb, bind_eq, pure_eq, run_orInternal_some]
    rw [run_bind, show cfg.root ++ [b] = bucketDir cfg b from rfl, hl]
    rfl

theorem headBucket_run {fs : FS} {b : Bytes} (hb : checkBucketName b = true) :
    answer cfg ext (.headBucket b) fs = (if fs.lookup (bucketDir cfg b) = none then .err .NoSuchBucket else .ok .done) ∧
    answer cfg ext (.getBucketLocation b) fs
      = (if fs.lookup (bucketDir cfg b) = none then .err .NoSuchBucket else .ok .done) := by
  have h1 : run cfg (headBucket cfg b) fs
      = (if fs.lookup (bucketDir cfg b) = none then .err .NoSuchBucket else .ok (), fs) := by
    simp only [headBucket, bucketPath_legal cfg hb, bind_eq, run_orInternal_some, run_exists_bind, at_false]
    change run cfg (if (fs.lookup (bucketDir cfg b)).isSome = true then _ else _) fs = _
    cases fs.lookup (bucketDir cfg b) <;> rfl
  have h2 : getBucketLocation cfg b = headBucket cfg b := rfl
  simp only [answer, opProg, h2]
  rw [run_bind, h1]
  split <;> exact ⟨rfl, rfl⟩

/-- **C22** CreateBucket succeeds exactly when nothing of that name exists. Then a directory of that name is the
only change, the bucket exists and its listing is empty. Otherwise the answer is BucketAlreadyExists and nothing
changes. -/
theorem C22_create_bucket {fs : FS} (hw : WF fs) (hr : IsDir fs cfg.root) {b : Bytes} (hb : LegalBucket b) :
    (fs.lookup (bucketDir cfg b) ≠ none →
      answer cfg ext (.createBucket b) fs = .err .BucketAlreadyExists ∧ after cfg ext (.createBucket b) fs = fs) ∧
    (fs.lookup (bucketDir cfg b) = none →
      answer cfg ext (.createBucket b) fs = .ok .done ∧
      (∀ q, (after cfg ext (.createBucket b) fs).lookup q
        = if q = bucketDir cfg b then some .dir else fs.lookup q) ∧
      (∀ q, contentAt (after cfg ext (.createBucket b) fs) q = contentAt fs q) ∧
      answer cfg ext (.headBucket b) fs = .err .NoSuchBucket ∧
      answer cfg ext (.headBucket b) (after cfg ext (.createBucket b) fs) = .ok .done ∧
      answer cfg ext (.getBucketLocation b) (after cfg ext (.createBucket b) fs) = .ok .done ∧
      ∀ pfx fuel, 0 < fuel →
        answer cfg ext (.listObjects b pfx fuel) (after cfg ext (.createBucket b) fs) = .ok (.objects []) ∧
        answer cfg ext (.listObjectsV2 b pfx fuel) (after cfg ext (.createBucket b) fs) = .ok (.objectsV2 0 [])) := by
  have hb' := (C02_bucket_name_rule b).mpr hb
  have hrun := createBucket_run hw hr hb'
  obtain ⟨h1, h2⟩ := answer_create (cfg := cfg) (ext := ext) (b := b) (fs := fs)
  rw [hrun] at h1 h2
  constructor
  · intro h
    rw [if_neg h] at h1 h2
    exact ⟨h1, h2⟩
  · intro h
    rw [if_pos h] at h1 h2
    have hne : bucketDir cfg b ≠ [] := by simp [bucketDir]
    have hl : ∀ q, (after cfg ext (.createBucket b) fs).lookup q
        = if q = bucketDir cfg b then some .dir else fs.lookup q := by
      intro q
      rw [h2, lookup_set]
      by_cases hq : q = []
      · subst hq; rw [if_pos rfl, if_neg (Ne.symm hne), lookup_nil]
      · rw [if_neg hq]
    have hd : IsDir (after cfg ext (.createBucket b) fs) (bucketDir cfg b) := by
      rw [IsDir, hl, if_pos rfl]
    refine ⟨h1, hl, ?_, by rw [(headBucket_run hb').1, if_pos h], ?_, ?_, ?_⟩
    · intro q
      simp only [contentAt, hl]
      by_cases hq : q = bucketDir cfg b
      · rw [if_pos hq, hq, h]
      · rw [if_neg hq, h2]; rfl
    · rw [(headBucket_run hb').1, if_neg]; rw [hd]; simp
    · rw [(headBucket_run hb').2, if_neg]; rw [hd]; simp
    · intro pfx fuel hf
      refine list_empty hb' hd ?_ pfx fuel hf
      rw [h2, FS.kids, FS.set]
      refine List.filter_eq_nil_iff.mpr ?_
      intro e he hc
      obtain ⟨c, hc⟩ := isChild_iff.mp hc
      simp only [List.mem_cons, List.mem_filter] at he
      rcases he with rfl | ⟨he, _⟩
      · simp at hc
      · have := hw.parent e he
        rw [hc, List.dropLast_concat, h] at this
        cases this

example : LegalBucket b!"new" ∧ IsDir Sample.fs Sample.cfg.root ∧
    Sample.fs.lookup (bucketDir Sample.cfg b!"new") = none ∧
    Sample.fs.lookup (bucketDir Sample.cfg b!"aaa") ≠ none :=
  ⟨(C02_bucket_name_rule _).mp (by decide +kernel), by unfold IsDir; decide +kernel, by decide +kernel, by decide +kernel⟩

/-! ### C23 -/

theorem deleteBucket_run {fs : FS} {b : Bytes} (hb : checkBucketName b = true) :
    run cfg (deleteBucket cfg b) fs =
      if fs.lookup (bucketDir cfg b) = some .dir then (.ok (), fs.eraseTree (bucketDir cfg b))
      else (.err .InternalError, fs) := by
  simp only [deleteBucket, bucketPath_legal cfg hb, bind_eq, run_orInternal_some]
  rw [run_call1, show cfg.root ++ [b] = bucketDir cfg b from rfl]
  have hne : bucketDir cfg b ≠ [] := by simp [bucketDir]
  by_cases h : fs.lookup (bucketDir cfg b) = some .dir
  · have : exec cfg fs (.rmtree (bucketDir cfg b)) = (true, fs.eraseTree (bucketDir cfg b)) := by
      simp [exec, h, hne]
    rw [this, if_pos h]; rfl
  · have : exec cfg fs (.rmtree (bucketDir cfg b)) = (false, fs) := by
      cases hn : fs.lookup (bucketDir cfg b) with
      | none => simp [exec, hn]
      | some n =>
        cases n with
        | dir => exact absurd hn h
        | file i => simp [exec, hn]
    rw [this, if_neg h]; rfl

theorem answer_delBucket {b : Bytes} {fs : FS} :
    answer cfg ext (.deleteBucket b) fs = (match (run cfg (deleteBucket cfg b) fs).1 with
      | .ok _ => .ok .done | .err e => .err e | .panic => .panic | .diverge => .diverge) ∧
    after cfg ext (.deleteBucket b) fs = (run cfg (deleteBucket cfg b) fs).2 := by
  refine ⟨?_, run_map_snd⟩
  simp only [answer, opProg]
  rw [run_bind]
  rcases run cfg (deleteBucket cfg b) fs with ⟨o | o | o | o, fs'⟩ <;> rfl

/-- **C23** (partial) DeleteBucket succeeds exactly on an existing bucket. It then removes the bucket with all it
contains and nothing else; otherwise it changes nothing.
Missing from the full property: refusing a bucket that still holds objects, which the code does not do, see
`C23_delete_bucket_fails`. -/
theorem C23_delete_bucket_partial {fs : FS} {b : Bytes} (hb : LegalBucket b) :
    (¬ IsDir fs (bucketDir cfg b) →
      answer cfg ext (.deleteBucket b) fs = .err .InternalError ∧ after cfg ext (.deleteBucket b) fs = fs) ∧
    (IsDir fs (bucketDir cfg b) →
      answer cfg ext (.deleteBucket b) fs = .ok .done ∧
      (∀ q, (after cfg ext (.deleteBucket b) fs).lookup q
        = if below (bucketDir cfg b) q then none else fs.lookup q) ∧
      (∀ q, contentAt (after cfg ext (.deleteBucket b) fs) q
        = if below (bucketDir cfg b) q then none else contentAt fs q) ∧
      answer cfg ext (.headBucket b) (after cfg ext (.deleteBucket b) fs) = .err .NoSuchBucket) := by
  have hb' := (C02_bucket_name_rule b).mpr hb
  obtain ⟨h1, h2⟩ := answer_delBucket (cfg := cfg) (ext := ext) (b := b) (fs := fs)
  rw [deleteBucket_run hb'] at h1 h2
  constructor
  · intro h
    rw [if_neg (show ¬ fs.lookup (bucketDir cfg b) = some .dir from h)] at h1 h2
    exact ⟨h1, h2⟩
  · intro h
    rw [if_pos (show fs.lookup (bucketDir cfg b) = some .dir from h)] at h1 h2
    have hne : bucketDir cfg b ≠ [] := by simp [bucketDir]
    have hl : ∀ q, (after cfg ext (.deleteBucket b) fs).lookup q
        = if below (bucketDir cfg b) q then none else fs.lookup q := by
      intro q
      rw [h2, lookup_eraseTree]
      rw [show (bucketDir cfg b).isPrefixOf q = below (bucketDir cfg b) q from rfl]
      by_cases hq : q = []
      · subst hq
        rw [if_pos rfl, if_neg, lookup_nil]
        intro h
        obtain ⟨r, hr⟩ := isPrefixOf_iff.mp h
        exact hne (List.append_eq_nil_iff.mp hr).1
      · rw [if_neg hq]
    refine ⟨h1, hl, ?_, ?_⟩
    · intro q
      simp only [contentAt, hl]
      by_cases hq : below (bucketDir cfg b) q = true
      · rw [if_pos hq, if_pos hq]
      · rw [if_neg hq, if_neg hq, h2]; rfl
    · rw [(headBucket_run hb').1, if_pos]
      rw [hl, if_pos (by simp [below])]

example : LegalBucket b!"aaa" ∧ IsDir Sample.fs (bucketDir Sample.cfg b!"aaa") ∧
    contentAt Sample.fs (bucketDir Sample.cfg b!"aaa" ++ [b!"x"]) = some b!"hello" ∧
    contentAt Sample.fs (bucketDir Sample.cfg b!"bbb" ++ [b!"y"]) = some b!"world!" :=
  ⟨(C02_bucket_name_rule _).mp (by decide +kernel), by unfold IsDir; decide +kernel, by decide +kernel, by decide +kernel⟩

/-- C23 fails: a bucket that holds an object is deleted together with it. -/
theorem C23_delete_bucket_fails :
    ∃ (cfg : Cfg) (ext : Ext) (fs : FS) (b k : Bytes), WF fs ∧ LegalBucket b ∧
      answer cfg ext (.headObject b k) fs = .ok (.head 5 none) ∧
      answer cfg ext (.deleteBucket b) fs = .ok .done ∧
      answer cfg ext (.headObject b k) (after cfg ext (.deleteBucket b) fs) = .err .NoSuchKey :=
  ⟨Sample.cfg, Sample.ext, Sample.fs, b!"aaa", b!"x", Sample.fs_wf, (C02_bucket_name_rule _).mp (by decide +kernel),
    by decide +kernel, by decide +kernel, by decide +kernel⟩

/-! ### C31 -/

/-- a program that never removes the directory at `p` -/
def keepsDir (p : Path) : Call → Prop
  | .unlink q => q.comps ≠ p
  | .rmdir q => q.comps ≠ p
  | .rmtree q => ¬ q <+: p
  | _ => True

theorem exec_keepsDir {p : Path} {fs : FS} {c : Call} (hc : keepsDir p c) (h : fs.lookup p ≠ none) :
    (exec cfg fs c).2.lookup p ≠ none := by
  cases c with
  | mkdir q =>
    simp only [exec]
    repeat' split
    all_goals first
      | exact h
      | (simp only [lookup_set]; repeat' split
         all_goals first | exact h | simp)
  | create q =>
    simp only [exec]
    repeat' split
    all_goals first
      | exact h
      | (simp only [lookup_setData, lookup_bump, lookup_set]; repeat' split
         all_goals first | exact h | simp)
  | unlink q =>
    simp only [keepsDir] at hc
    simp only [exec]
    split
    · simp only [lookup_erase]; split
      · simp
      · rw [if_neg (Ne.symm hc)]; exact h
    · exact h
  | rmdir q =>
    simp only [keepsDir] at hc
    simp only [exec]
    split
    · split
      · simp only [lookup_erase]; split
        · simp
        · rw [if_neg (Ne.symm hc)]; exact h
      · exact h
    · exact h
  | rmtree q =>
    simp only [keepsDir] at hc
    simp only [exec]
    split
    · split
      · simp only [lookup_eraseTree]; split
        · simp
        · rw [if_neg (by rw [isPrefixOf_iff]; exact hc)]; exact h
      · exact h
    · exact h
  | readDir q => simp only [exec]; split <;> exact h
  | _ => exact h

/-- the states a CreateBucket request goes through: the check, the pending `mkdir`, the end -/
inductive Creating (cfg : Cfg) (ext : Ext) (b : Bytes) : Prog Answer → Prop
  | start : Creating cfg ext b (opProg cfg ext (.createBucket b))
  | pending : Creating cfg ext b ((call (.mkdir (bucketDir cfg b))).bind fun r =>
      (mkdirDone r).bind fun _ => .ret .done)
  | ok : Creating cfg ext b (.ret .done)
  | fail (e : S3ErrorCode) : Creating cfg ext b (.fail e)

theorem exec_mkdir_cases (fs : FS) (p : Path) :
    (exec cfg fs (.mkdir p)).1 = .ok ∧ fs.lookup p = none ∧ (exec cfg fs (.mkdir p)).2 = fs.set p .dir ∨
    (exec cfg fs (.mkdir p)).1 ≠ .ok ∧ (exec cfg fs (.mkdir p)).2 = fs := by
  simp only [exec]
  repeat' split
  all_goals first
    | (right; exact ⟨by simp, rfl⟩)
    | (left; exact ⟨rfl, by assumption, rfl⟩)

/-- one step of a CreateBucket request -/
theorem creating_step {b : Bytes} (hb : checkBucketName b = true) {p : Prog Answer} (hp : Creating cfg ext b p)
    (fs : FS) :
    Creating cfg ext b (stepProg cfg p fs).1 ∧
    ((stepProg cfg p fs).2 = fs ∧ ((stepProg cfg p fs).1 = .ret .done → p = .ret .done) ∧
        (IsDir fs cfg.root → WF fs → fs.lookup (bucketDir cfg b) = none → ∀ e, (stepProg cfg p fs).1 = .fail e → p = .fail e) ∨
      fs.lookup (bucketDir cfg b) = none ∧ (stepProg cfg p fs).2 = fs.set (bucketDir cfg b) .dir ∧
        (stepProg cfg p fs).1 = .ret .done) := by
  cases hp with
  | ok => exact ⟨.ok, .inl ⟨rfl, fun _ => rfl, fun _ _ _ e h => h⟩⟩
  | fail e => exact ⟨.fail e, .inl ⟨rfl, (fun h => by cases h), fun _ _ _ e h => h⟩⟩
  | start =>
    obtain ⟨k, he, hk1, hk2⟩ : ∃ k, opProg cfg ext (.createBucket b) = .sys (.stat ⟨bucketDir cfg b, false⟩) k ∧
        k none = ((call (.mkdir (bucketDir cfg b))).bind fun r => (mkdirDone r).bind fun _ => .ret .done) ∧
        ∀ s, k (some s) = .fail .BucketAlreadyExists := by
      simp only [opProg, createBucket, bucketPath_legal cfg hb, bind_eq]
      exact ⟨_, rfl, rfl, fun s => rfl⟩
    rw [he]
    simp only [stepProg]
    have hx : exec cfg fs (.stat ⟨bucketDir cfg b, false⟩) = ((fs.lookup (bucketDir cfg b)).map (Node.stat fs), fs) := by
      simp only [exec, at_false]
      cases fs.lookup (bucketDir cfg b) with
      | none => rfl
      | some n => cases n <;> rfl
    rw [hx]
    cases hl : fs.lookup (bucketDir cfg b) with
    | none =>
      simp only [Option.map_none, hk1]
      exact ⟨.pending, .inl ⟨trivial, (fun h => by cases h), (fun _ _ _ e h => by cases h)⟩⟩
    | some n =>
      simp only [Option.map_some, hk2]
      exact ⟨.fail .BucketAlreadyExists, .inl ⟨trivial, (fun h => by cases h), (fun _ _ h => by cases h)⟩⟩
  | pending =>
    have h1 : (stepProg cfg ((call (.mkdir (bucketDir cfg b))).bind fun r => (mkdirDone r).bind fun _ => .ret Answer.done) fs)
        = ((mkdirDone (exec cfg fs (.mkdir (bucketDir cfg b))).1).bind (fun _ => .ret .done),
            (exec cfg fs (.mkdir (bucketDir cfg b))).2) := rfl
    rw [h1]
    rcases exec_mkdir_cases (cfg := cfg) fs (bucketDir cfg b) with ⟨h1, h2, h3⟩ | ⟨h1, h2⟩
    · simp only [h1, h3]
      exact ⟨.ok, .inr ⟨h2, trivial, rfl⟩⟩
    · have hm : mkdirDone (exec cfg fs (.mkdir (bucketDir cfg b))).1 = .fail .InternalError := by
        revert h1
        cases (exec cfg fs (.mkdir (bucketDir cfg b))).1 <;> simp [mkdirDone]
      simp only [h2, hm]
      refine ⟨.fail _, .inl ⟨trivial, (fun h => by cases h), fun hr hw hn => ?_⟩⟩
      rw [mkdir_bucket hw hr hb hn] at h1
      exact absurd rfl h1

/-- what every schedule maintains while some threads (`C`) create the bucket and the others do not remove it -/
structure Race (cfg : Cfg) (ext : Ext) (b : Bytes) (C : Nat → Prop) (ps : List (Prog Answer)) (fs : FS) : Prop where
  wf : WF fs
  creating : ∀ i p, C i → ps[i]? = some p → Creating cfg ext b p
  other : ∀ i p, ¬ C i → ps[i]? = some p → Safe (keepsDir (bucketDir cfg b)) (fun _ => True) p
  absent : fs.lookup (bucketDir cfg b) = none → ∀ i, C i → ps[i]? ≠ some (.ret .done)
  unique : ∀ i j, C i → C j → ps[i]? = some (.ret .done) → ps[j]? = some (.ret .done) → i = j

theorem race_run {b : Bytes} (hb : checkBucketName b = true) {C : Nat → Prop} (sched : List Nat) :
    ∀ {ps : List (Prog Answer)} {fs : FS}, Race cfg ext b C ps fs →
      Race cfg ext b C (runPar cfg sched ps fs).1 (runPar cfg sched ps fs).2 := by
  induction sched with
  | nil => intro ps fs h; exact h
  | cons t sched ih =>
    intro ps fs h
    simp only [runPar]
    cases hp : ps[t]? with
    | none => exact ih h
    | some p =>
      refine ih ?_
      have hlt : t < ps.length := by
        rcases Nat.lt_or_ge t ps.length with h | h
        · exact h
        · rw [List.getElem?_eq_none h] at hp; cases hp
      have hget : ∀ i, (ps.set t (stepProg cfg p fs).1)[i]? = if i = t then some (stepProg cfg p fs).1 else ps[i]? := by
        intro i
        rw [List.getElem?_set]
        by_cases hi : t = i
        · subst hi; simp [hlt]
        · simp [hi, Ne.symm hi]
      by_cases hC : C t
      · obtain ⟨h1, h2⟩ := creating_step hb (h.creating t p hC hp) fs
        refine ⟨stepProg_wf h.wf, ?_, ?_, ?_, ?_⟩
        · intro i q hi hq
          rw [hget] at hq
          split at hq
          · cases hq; exact h1
          · exact h.creating i q hi hq
        · intro i q hi hq
          rw [hget, if_neg (by rintro rfl; exact hi hC)] at hq
          exact h.other i q hi hq
        · intro hn i hi hq
          rw [hget] at hq
          rcases h2 with ⟨h2, h3, _⟩ | ⟨h2, h3, h4⟩
          · rw [h2] at hn
            split at hq
            · rename_i e; subst e
              cases (h3 (by simpa using hq)); exact h.absent hn i hi hp
            · exact h.absent hn i hi hq
          · rw [h3, lookup_set] at hn
            simp [bucketDir] at hn
        · intro i j hi hj hqi hqj
          rw [hget] at hqi hqj
          rcases h2 with ⟨h2, h3, _⟩ | ⟨h2, h3, h4⟩
          · have hi' : ps[i]? = some (.ret .done) := by
              split at hqi
              · rename_i e; subst e; rw [hp]; rw [h3 (by simpa using hqi)]
              · exact hqi
            have hj' : ps[j]? = some (.ret .done) := by
              split at hqj
              · rename_i e; subst e; rw [hp]; rw [h3 (by simpa using hqj)]
              · exact hqj
            exact h.unique i j hi hj hi' hj'
          · split at hqi
            · rename_i e
              split at hqj
              · rename_i e'; rw [e, e']
              · exact absurd hqj (h.absent h2 j hj)
            · exact absurd hqi (h.absent h2 i hi)
      · have hs := h.other t p hC hp
        have hstep : Safe (keepsDir (bucketDir cfg b)) (fun _ => True) (stepProg cfg p fs).1 ∧
            (fs.lookup (bucketDir cfg b) ≠ none → (stepProg cfg p fs).2.lookup (bucketDir cfg b) ≠ none) := by
          cases p with
          | sys c k => exact ⟨hs.2 _ (exec_respOk cfg h.wf c), exec_keepsDir hs.1⟩
          | _ => exact ⟨hs, fun h => h⟩
        have hsame : ∀ i, C i → (ps.set t (stepProg cfg p fs).1)[i]? = ps[i]? := by
          intro i hi
          rw [hget, if_neg (by rintro rfl; exact hC hi)]
        refine ⟨stepProg_wf h.wf, ?_, ?_, ?_, ?_⟩
        · intro i q hi hq
          rw [hsame i hi] at hq
          exact h.creating i q hi hq
        · intro i q hi hq
          rw [hget] at hq
          split at hq
          · cases hq; exact hstep.1
          · exact h.other i q hi hq
        · intro hn i hi
          rw [hsame i hi]
          refine h.absent ?_ i hi
          cases hl : fs.lookup (bucketDir cfg b) with
          | none => rfl
          | some n => exact absurd hn (hstep.2 (by rw [hl]; simp))
        · intro i j hi hj hqi hqj
          rw [hsame i hi] at hqi
          rw [hsame j hj] at hqj
          exact h.unique i j hi hj hqi hqj

/-- a request that does not delete the bucket `b`: no DeleteBucket of it, and objects are deleted under plain keys
only (the key `./` names the directory of the bucket) -/
def Spec.Harmless (b : Bytes) : Op → Prop
  | .deleteBucket b' => LegalBucket b' ∧ b' ≠ b
  | .deleteObject b' k => LegalBucket b' ∧ ∃ cs, PlainKey k cs
  | .deleteObjects b' ks => LegalBucket b' ∧ ∀ k ∈ ks, ∃ cs, PlainKey k cs
  | .completeMultipartUpload _ _ u _ => (47 : UInt8) ∉ u
  | _ => True

/-- the answer of the request number `i` after the steps of `sched`, if it has ended -/
def Spec.answerAt (cfg : Cfg) (ext : Ext) (sched : List Nat) (os : List Op) (fs : FS) (i : Nat) : Option (Outcome Answer) :=
  (runPar cfg sched (os.map (opProg cfg ext)) fs).1[i]?.bind Prog.outcome

theorem harmless_safe {b : Bytes} {o : Op} (h : Harmless b o) (hb : checkBucketName b = true) :
    Safe (keepsDir (bucketDir cfg b)) (fun _ => True) (opProg cfg ext o) := by
  have hobj : ∀ {b' k q}, LegalBucket b' → (∃ cs, PlainKey k cs) → objP cfg b' k q → q ≠ bucketDir cfg b := by
    rintro b' k q hb' ⟨cs, hk⟩ hq
    rw [objP_plain ((C02_bucket_name_rule _).mpr hb') hk] at hq
    subst hq
    intro e
    have := List.append_cancel_left (show cfg.root ++ (b' :: cs) = cfg.root ++ [b] from e)
    simp only [List.cons.injEq] at this
    exact hk.nonempty this.2
  have hpart : ∀ {u n q}, (47 : UInt8) ∉ u → partP cfg u n q → q ≠ bucketDir cfg b := by
    rintro u n q hu ⟨p, hp, rfl⟩ e
    rw [partPath_eq cfg hu] at hp
    cases hp
    have := List.append_cancel_left (show cfg.root ++ [partName u n] = cfg.root ++ [b] from e)
    simp only [List.cons.injEq, and_true] at this
    subst this
    have := ((C02_bucket_name_rule _).mp hb).first 46 _ rfl
    rcases this with ⟨h, _⟩ | ⟨h, _⟩ <;> exact absurd h (by decide)
  refine (op_safe cfg ext o).mono (fun c hc => ?_) fun _ h => h
  cases c with
  | unlink q =>
    show q.comps ≠ bucketDir cfg b
    cases o <;> simp only [opPerm, Perm.ok] at hc <;> simp only [Harmless] at h
    case deleteObject => exact hobj h.1 h.2 hc.2
    case deleteObjects =>
      obtain ⟨k, hk, hq⟩ := hc
      exact hobj h.1 (h.2 k hk) hq
    case completeMultipartUpload =>
      obtain ⟨l, n, _, _, hq⟩ := hc
      exact hpart h hq
  | rmdir q =>
    show q.comps ≠ bucketDir cfg b
    cases o <;> simp only [opPerm, Perm.ok] at hc <;> simp only [Harmless] at h
    case deleteObject => exact hobj h.1 h.2 hc.2
  | rmtree q =>
    show ¬ q <+: bucketDir cfg b
    cases o <;> simp only [opPerm, Perm.ok] at hc <;> simp only [Harmless] at h
    case deleteBucket b' =>
      obtain ⟨p, hp, rfl⟩ := hc
      rw [bucketPath_legal cfg ((C02_bucket_name_rule _).mpr h.1)] at hp
      cases hp
      intro hx
      have := List.IsPrefix.eq_of_length hx (by simp [bucketDir])
      have := List.append_cancel_left (show cfg.root ++ [b'] = cfg.root ++ [b] from this)
      simp only [List.cons.injEq, and_true] at this
      exact h.2 this
  | _ => trivial

theorem answerAt_iff {sched : List Nat} {os : List Op} {fs : FS} {i : Nat} {a : Answer} :
    answerAt cfg ext sched os fs i = some (.ok a) ↔
      (runPar cfg sched (os.map (opProg cfg ext)) fs).1[i]? = some (.ret a) := by
  simp only [answerAt, Option.bind_eq_some_iff]
  constructor
  · rintro ⟨p, hp, ho⟩
    cases p <;> simp [Prog.outcome] at ho
    rw [hp, ho]
  · intro h; exact ⟨_, h, rfl⟩

theorem create_not_done {b : Bytes} (hb : checkBucketName b = true) : opProg cfg ext (.createBucket b) ≠ .ret .done := by
  simp only [opProg, createBucket, bucketPath_legal cfg hb, bind_eq]
  intro h
  cases h

theorem race_start {b : Bytes} (hb : checkBucketName b = true) {os : List Op} {fs : FS} (hw : WF fs)
    (hos : ∀ o ∈ os, o = .createBucket b ∨ Harmless b o) :
    Race cfg ext b (fun i => os[i]? = some (.createBucket b)) (os.map (opProg cfg ext)) fs := by
  have hget : ∀ i, (os.map (opProg cfg ext))[i]? = (os[i]?).map (opProg cfg ext) := fun i => List.getElem?_map
  have hno : ∀ i : Nat, os[i]? = some (Op.createBucket b) → (os.map (opProg cfg ext))[i]? ≠ some (Prog.ret Answer.done) := by
    intro i hi
    rw [hget, hi]
    simp only [Option.map_some, ne_eq, Option.some.injEq]
    exact create_not_done hb
  refine ⟨hw, ?_, ?_, fun _ => hno, fun i j hi _ h => absurd h (hno i hi)⟩
  · intro i p hi hp
    rw [hget, hi] at hp
    cases hp
    exact .start
  · intro i p hi hp
    rw [hget, Option.map_eq_some_iff] at hp
    obtain ⟨o, ho, rfl⟩ := hp
    rcases hos o (List.mem_of_getElem? ho) with rfl | h
    · exact absurd ho hi
    · exact harmless_safe h hb

/-- the directory of the bucket appears together with the one success -/
theorem race_winner {b : Bytes} (hb : checkBucketName b = true) (sched : List Nat) :
    ∀ {ps : List (Prog Answer)} {fs : FS}, (∀ p ∈ ps, Creating cfg ext b p) → WF fs → IsDir fs cfg.root →
      (fs.lookup (bucketDir cfg b) = none → ∀ e, .fail e ∉ ps) →
      (fs.lookup (bucketDir cfg b) ≠ none → .ret .done ∈ ps) →
      (∀ p ∈ (runPar cfg sched ps fs).1, Creating cfg ext b p) ∧
      ((runPar cfg sched ps fs).2.lookup (bucketDir cfg b) = none → ∀ e, .fail e ∉ (runPar cfg sched ps fs).1) ∧
      ((runPar cfg sched ps fs).2.lookup (bucketDir cfg b) ≠ none → .ret .done ∈ (runPar cfg sched ps fs).1) := by
  induction sched with
  | nil => intro ps fs h1 _ _ h2 h3; exact ⟨h1, h2, h3⟩
  | cons t sched ih =>
    intro ps fs h1 hw hr h2 h3
    simp only [runPar]
    cases hp : ps[t]? with
    | none => exact ih h1 hw hr h2 h3
    | some p =>
      have hlt : t < ps.length := by
        rcases Nat.lt_or_ge t ps.length with h | h
        · exact h
        · rw [List.getElem?_eq_none h] at hp; cases hp
      have hpm := List.mem_of_getElem? hp
      obtain ⟨c1, c2⟩ := creating_step hb (h1 p hpm) fs
      refine ih ?_ (stepProg_wf hw) ?_ ?_ ?_
      · intro q hq
        rcases List.mem_or_eq_of_mem_set hq with h | h
        · exact h1 q h
        · rw [h]; exact c1
      · rcases c2 with ⟨c2, _⟩ | ⟨_, c2, _⟩
        · rw [c2]; exact hr
        · rw [c2, IsDir, lookup_set]
          split
          · rfl
          · rw [if_neg (by simp [bucketDir])]; exact hr
      · intro hn e he
        rcases c2 with ⟨c2, _, c3⟩ | ⟨_, c2, _⟩
        · rw [c2] at hn
          rcases List.mem_or_eq_of_mem_set he with h | h
          · exact h2 hn e h
          · have := c3 hr hw hn e h.symm
            rw [this] at hpm
            exact h2 hn e hpm
        · rw [c2, lookup_set] at hn
          simp [bucketDir] at hn
      · intro hn
        rcases c2 with ⟨c2, c3, c4⟩ | ⟨_, c2, c3⟩
        · rw [c2] at hn
          have := h3 hn
          obtain ⟨j, hj⟩ := List.getElem?_of_mem this
          by_cases hjt : j = t
          · subst hjt
            rw [hp] at hj; cases hj
            have : ps.set j (stepProg cfg (.ret Answer.done) fs).1 = ps := by
              apply List.ext_getElem?
              intro i
              rw [List.getElem?_set]
              split
              · rename_i e; subst e; rw [hp]; rfl
              · rfl
            rw [this]; assumption
          · refine List.mem_of_getElem? (i := j) ?_
            rw [List.getElem?_set, if_neg (Ne.symm hjt)]; exact hj
        · rw [c3]
          exact List.mem_set hlt _

/-- **C31** Any number of clients create the bucket `b` concurrently, possibly together with other requests that do not
delete it. In every interleaving at most one of them is told success. -/
theorem C31_create_race {b : Bytes} (hb : LegalBucket b) {os : List Op} {fs : FS} (hw : WF fs)
    (hos : ∀ o ∈ os, o = .createBucket b ∨ Harmless b o) (sched : List Nat) {i j : Nat}
    (hi : os[i]? = some (.createBucket b)) (hj : os[j]? = some (.createBucket b))
    (hai : answerAt cfg ext sched os fs i = some (.ok .done))
    (haj : answerAt cfg ext sched os fs j = some (.ok .done)) : i = j := by
  have hb' := (C02_bucket_name_rule b).mpr hb
  have := race_run hb' sched (race_start (cfg := cfg) (ext := ext) hb' hw hos)
  exact this.unique i j hi hj (answerAt_iff.mp hai) (answerAt_iff.mp haj)

/-- **C31**, second part: when the bucket was absent and all requests create it, then once one of them has been
answered there is a winner; all answers other than its success are errors. -/
theorem C31_create_race_winner {b : Bytes} (hb : LegalBucket b) {fs : FS} (hw : WF fs) (hr : IsDir fs cfg.root)
    (habs : fs.lookup (bucketDir cfg b) = none) (n : Nat) (sched : List Nat) {i : Nat} {x : Outcome Answer}
    (hx : answerAt cfg ext sched (List.replicate n (.createBucket b)) fs i = some x) :
    ∃ j, answerAt cfg ext sched (List.replicate n (.createBucket b)) fs j = some (.ok .done) ∧
      ∀ k y, k ≠ j → answerAt cfg ext sched (List.replicate n (.createBucket b)) fs k = some y → ∃ e, y = .err e := by
  have hb' := (C02_bucket_name_rule b).mpr hb
  have hall : ∀ o ∈ List.replicate n (Op.createBucket b), o = .createBucket b ∨ Harmless b o :=
    fun o ho => .inl (List.eq_of_mem_replicate ho)
  have hst : ∀ p ∈ (List.replicate n (Op.createBucket b)).map (opProg cfg ext), p = opProg cfg ext (.createBucket b) := by
    intro p hp
    obtain ⟨o, ho, rfl⟩ := List.mem_map.mp hp
    rw [List.eq_of_mem_replicate ho]
  obtain ⟨w1, w2, w3⟩ := race_winner (cfg := cfg) (ext := ext) hb' sched
    (ps := (List.replicate n (Op.createBucket b)).map (opProg cfg ext)) (fs := fs)
    (fun p hp => by rw [hst p hp]; exact .start) hw hr
    (fun _ e he => by
      have := hst _ he
      simp only [opProg, createBucket, bucketPath_legal cfg hb', bind_eq] at this
      cases this)
    (fun h => absurd habs h)
  have hlen : ∀ (sched : List Nat) (ps : List (Prog Answer)) (fs : FS), (runPar cfg sched ps fs).1.length = ps.length := by
    intro sched
    induction sched with
    | nil => intro ps fs; rfl
    | cons t s ih =>
      intro ps fs
      simp only [runPar]
      split
      · exact ih ..
      · rw [ih]; simp
  have hidx : ∀ {k : Nat} {p : Prog Answer},
      (runPar cfg sched ((List.replicate n (Op.createBucket b)).map (opProg cfg ext)) fs).1[k]? = some p →
      (List.replicate n (Op.createBucket b))[k]? = some (.createBucket b) := by
    intro k p hk
    obtain ⟨hk, _⟩ := List.getElem?_eq_some_iff.mp hk
    rw [hlen] at hk
    simp at hk
    simp [List.getElem?_replicate, hk]
  simp only [answerAt, Option.bind_eq_some_iff] at hx
  obtain ⟨p, hp, ho⟩ := hx
  have hpm := List.mem_of_getElem? hp
  have hne : (runPar cfg sched ((List.replicate n (Op.createBucket b)).map (opProg cfg ext)) fs).2.lookup (bucketDir cfg b) ≠ none := by
    intro hn
    have hrace := race_run hb' sched (race_start (cfg := cfg) (ext := ext) hb' hw hall)
    cases w1 p hpm with
    | start =>
      simp only [opProg, createBucket, bucketPath_legal cfg hb', bind_eq] at ho
      cases ho
    | pending => cases ho
    | fail e => exact w2 hn e hpm
    | ok => exact hrace.absent hn i (hidx hp) hp
  obtain ⟨j, hj⟩ := List.getElem?_of_mem (w3 hne)
  refine ⟨j, answerAt_iff.mpr hj, ?_⟩
  intro k y hkj hy
  simp only [answerAt, Option.bind_eq_some_iff] at hy
  obtain ⟨q, hq, hy⟩ := hy
  cases w1 q (List.mem_of_getElem? hq) with
  | start =>
    simp only [opProg, createBucket, bucketPath_legal cfg hb', bind_eq] at hy
    cases hy
  | pending => cases hy
  | fail e => exact ⟨e, by cases hy; rfl⟩
  | ok => exact absurd (C31_create_race hb hw hall sched (hidx hq) (hidx hj) (answerAt_iff.mpr hq) (answerAt_iff.mpr hj)) hkj

/-- three clients: both checks happen before both `mkdir`s; one client wins, the others are refused -/
example : LegalBucket b!"new" ∧
    (∀ o ∈ [Op.createBucket b!"new", .createBucket b!"new", .putObject Sample.put3], o = .createBucket b!"new" ∨ Harmless b!"new" o) ∧
    answerAt Sample.cfg Sample.ext [1, 0, 0, 1]
      [Op.createBucket b!"new", .createBucket b!"new", .putObject Sample.put3] Sample.fs 0 = some (.ok .done) ∧
    answerAt Sample.cfg Sample.ext [1, 0, 0, 1]
      [Op.createBucket b!"new", .createBucket b!"new", .putObject Sample.put3] Sample.fs 1 = some (.err .InternalError) ∧
    answerAt Sample.cfg Sample.ext [2, 1, 0, 0, 2, 1, 2]
      (List.replicate 3 (Op.createBucket b!"new")) Sample.fs 1 = some (.err .InternalError) :=
  ⟨(C02_bucket_name_rule _).mp (by decide +kernel), by simp [Harmless], by decide +kernel, by decide +kernel, by decide +kernel⟩

end S3
