import Verif.Lemmas.Concerns
import Verif.Lemmas.Power
import Verif.Lemmas.Get
import Verif.Spec.Moment
/-! Programs that do all at one of their system calls. -/
namespace S3
open Spec

variable {cfg : Cfg} {ext : Ext} {lib : Lib} {auth : Option Provider} {α β : Type}

/-- from now on the program only reads, and whatever it returns is `out`, or `B`, as long as the file tree satisfies `J` -/
def Post (cfg : Cfg) (B : α → Prop) (J : FS → Prop) (out : Outcome α) : Prog α → Prop
  | .ret b => out = .ok b ∨ B b
  | .sys c k => isReading c ∧ ∀ fs, J fs → Post cfg B J out (k (exec cfg fs c).1)
  | _ => True

/-- The program has done nothing so far. With its next system call it either does all that `q` would do alone at this moment, or
nothing, in which case it has still done nothing. -/
def Pre (cfg : Cfg) (B : α → Prop) (R : FS → FS → Prop) (q : Prog α) : Prog α → Prop
  | .ret b => B b
  | .sys c k => ∀ fs, WF fs →
      ((exec cfg fs c).2 = (run cfg q fs).2 ∧ R fs (exec cfg fs c).2 ∧ Post cfg B (R fs) (run cfg q fs).1 (k (exec cfg fs c).1)) ∨
      ((exec cfg fs c).2 = fs ∧ Pre cfg B R q (k (exec cfg fs c).1))
  | _ => True

theorem exec_reading {c : Call} (h : isReading c) (fs : FS) : (exec cfg fs c).2 = fs := execF_reading h .none fs

/-- what has happened after the first `m` steps -/
def stepsDone (cfg : Cfg) (steps : List (Nat × Fault)) (ps : List (Prog α)) (fs : FS) (m : Nat) : List (Prog α) × FS :=
  runParF cfg (steps.take m) ps fs

theorem stepsDone_succ {steps : List (Nat × Fault)} {m i : Nat} {f : Fault} (h : steps[m]? = some (i, f)) (ps : List (Prog α)) (fs : FS) :
    stepsDone cfg steps ps fs (m + 1) = runParF cfg [(i, f)] (stepsDone cfg steps ps fs m).1 (stepsDone cfg steps ps fs m).2 := by
  rw [stepsDone, stepsDone, List.take_succ, h, runParF_append]
  rfl

theorem stepsDone_end {steps : List (Nat × Fault)} {m : Nat} (h : steps[m]? = none) (ps : List (Prog α)) (fs : FS) :
    stepsDone cfg steps ps fs (m + 1) = stepsDone cfg steps ps fs m := by
  rw [stepsDone, stepsDone, List.take_succ, h]
  simp

/-- one program of a run is followed: it does all at one of its steps -/
theorem tracked {B : α → Prop} {R : FS → FS → Prop} (hrefl : ∀ fs, R fs fs) (htrans : ∀ a b c, R a b → R b c → R a c)
    {steps : List (Nat × Fault)} {ps : List (Prog α)} {n : Nat} (hf : ∀ s ∈ steps, s.1 = n → s.2 = .none) {q : Prog α} (hn : ps[n]? = some q)
    (hq : Pre cfg B R q q) {fs : FS} (hw : WF fs)
    (hR : ∀ (m j : Nat) f, j ≠ n → steps[m]? = some (j, f) → R (stepsDone cfg steps ps fs m).2 (stepsDone cfg steps ps fs (m + 1)).2) :
    ∀ m, ∃ p, (stepsDone cfg steps ps fs m).1[n]? = some p ∧
      ((Pre cfg B R q p ∧ ∀ (s : Nat) f, s < m → steps[s]? = some (n, f) → (stepsDone cfg steps ps fs (s + 1)).2 = (stepsDone cfg steps ps fs s).2) ∨
       ∃ t, t < m ∧ steps[t]? = some (n, .none) ∧
        (stepsDone cfg steps ps fs (t + 1)).2 = (run cfg q (stepsDone cfg steps ps fs t).2).2 ∧
        Post cfg B (R (stepsDone cfg steps ps fs t).2) (run cfg q (stepsDone cfg steps ps fs t).2).1 p ∧
        R (stepsDone cfg steps ps fs t).2 (stepsDone cfg steps ps fs m).2 ∧
        ∀ (s : Nat) f, s < m → s ≠ t → steps[s]? = some (n, f) → (stepsDone cfg steps ps fs (s + 1)).2 = (stepsDone cfg steps ps fs s).2) := by
  intro m
  induction m with
  | zero => exact ⟨q, hn, .inl ⟨hq, fun s _ h => absurd h (Nat.not_lt_zero _)⟩⟩
  | succ m ih =>
    obtain ⟨p, hp, hcase⟩ := ih
    have hwm : WF (stepsDone cfg steps ps fs m).2 := runParF_wf hw
    cases hs : steps[m]? with
    | none =>
      rw [stepsDone_end hs]
      refine ⟨p, hp, ?_⟩
      rcases hcase with ⟨h1, h2⟩ | ⟨t, ht, h1, h2, h3, h4, h5⟩
      · refine .inl ⟨h1, fun s f h hh => h2 s f ?_ hh⟩
        rcases Nat.lt_succ_iff_lt_or_eq.mp h with h | rfl
        · exact h
        · rw [hs] at hh; cases hh
      · refine .inr ⟨t, by omega, h1, h2, h3, h4, fun s f h hne hh => h5 s f ?_ hne hh⟩
        rcases Nat.lt_succ_iff_lt_or_eq.mp h with h | rfl
        · exact h
        · rw [hs] at hh; cases hh
    | some s =>
      obtain ⟨j, f⟩ := s
      have hsucc := stepsDone_succ (cfg := cfg) hs ps fs
      by_cases hj : j = n
      · subst hj
        have hf0 : f = .none := hf _ (List.mem_of_getElem? hs) rfl
        subst hf0
        have hstep : stepsDone cfg steps ps fs (m + 1) =
            ((stepsDone cfg steps ps fs m).1.set j (stepProgF cfg p .none (stepsDone cfg steps ps fs m).2).1,
              (stepProgF cfg p .none (stepsDone cfg steps ps fs m).2).2) := by
          rw [hsucc]; simp only [runParF, hp]
        have hlen := (List.getElem?_eq_some_iff.mp hp).1
        have hget : (stepsDone cfg steps ps fs (m + 1)).1[j]? = some (stepProgF cfg p .none (stepsDone cfg steps ps fs m).2).1 := by
          rw [hstep]; simp [hlen]
        have htree : (stepsDone cfg steps ps fs (m + 1)).2 = (stepProgF cfg p .none (stepsDone cfg steps ps fs m).2).2 := by rw [hstep]
        refine ⟨_, hget, ?_⟩
        have extend : ∀ {P : Nat → Prop}, (stepsDone cfg steps ps fs (m + 1)).2 = (stepsDone cfg steps ps fs m).2 →
            (∀ (s : Nat) f, s < m → P s → steps[s]? = some (j, f) → (stepsDone cfg steps ps fs (s + 1)).2 = (stepsDone cfg steps ps fs s).2) →
            ∀ (s : Nat) f, s < m + 1 → P s → steps[s]? = some (j, f) → (stepsDone cfg steps ps fs (s + 1)).2 = (stepsDone cfg steps ps fs s).2 := by
          intro P h h' s f hlt hP hh
          rcases Nat.lt_succ_iff_lt_or_eq.mp hlt with hlt | rfl
          · exact h' s f hlt hP hh
          · exact h
        rcases hcase with ⟨h1, h2⟩ | ⟨t, ht, h1, h2, h3, h4, h5⟩
        · cases p with
          | ret a => exact .inl ⟨h1, fun s f h hh => extend (P := fun _ => True) htree (fun s f h _ hh => h2 s f h hh) s f h trivial hh⟩
          | fail e => exact .inl ⟨trivial, fun s f h hh => extend (P := fun _ => True) htree (fun s f h _ hh => h2 s f h hh) s f h trivial hh⟩
          | panic => exact .inl ⟨trivial, fun s f h hh => extend (P := fun _ => True) htree (fun s f h _ hh => h2 s f h hh) s f h trivial hh⟩
          | diverge => exact .inl ⟨trivial, fun s f h hh => extend (P := fun _ => True) htree (fun s f h _ hh => h2 s f h hh) s f h trivial hh⟩
          | sys c k =>
            rcases h1 _ hwm with ⟨e1, e2, e3⟩ | ⟨e1, e2⟩
            · refine .inr ⟨m, by omega, hs, htree.trans e1, e3, by rw [htree]; exact e2, fun s f h hne hh => h2 s f (by omega) hh⟩
            · exact .inl ⟨e2, fun s f h hh => extend (P := fun _ => True) (htree.trans e1) (fun s f h _ hh => h2 s f h hh) s f h trivial hh⟩
        · refine .inr ⟨t, by omega, h1, h2, ?_, ?_⟩
          · cases p with
            | sys c k => exact h3.2 _ h4
            | _ => exact h3
          · have : (stepsDone cfg steps ps fs (m + 1)).2 = (stepsDone cfg steps ps fs m).2 := by
              rw [htree]
              cases p with
              | sys c k => exact exec_reading h3.1 _
              | _ => rfl
            refine ⟨by rw [this]; exact h4, extend (P := fun s => s ≠ t) this h5⟩
      · have hget : (stepsDone cfg steps ps fs (m + 1)).1[n]? = some p := by
          rw [hsucc]
          simp only [runParF]
          split
          · exact hp
          · rw [List.getElem?_set_ne hj]; exact hp
        have keep : ∀ {s : Nat} {f : Fault}, s < m + 1 → steps[s]? = some (n, f) → s < m := by
          intro s f h hh
          rcases Nat.lt_succ_iff_lt_or_eq.mp h with h | rfl
          · exact h
          · rw [hs] at hh; cases hh; exact absurd rfl hj
        refine ⟨p, hget, ?_⟩
        rcases hcase with ⟨h1, h2⟩ | ⟨t, ht, h1, h2, h3, h4, h5⟩
        · exact .inl ⟨h1, fun s f h hh => h2 s f (keep h hh) hh⟩
        · exact .inr ⟨t, by omega, h1, h2, h3, htrans _ _ _ h4 (hR m j _ hj hs), fun s f h hne hh => h5 s f (keep h hh) hne hh⟩

/-! ### operations with one change -/

/-- at any time, whatever the others do -/
abbrev Always : FS → FS → Prop := fun _ _ => True

/-- a call whose answer ends the program does all -/
theorem Pre.last {B : α → Prop} {c : Call} {k : Resp c → Prog α} {fs : FS}
    (h : (∃ a, k (exec cfg fs c).1 = .ret a) ∨ ∃ e, k (exec cfg fs c).1 = .fail e) :
    (exec cfg fs c).2 = (run cfg (.sys c k) fs).2 ∧ Always fs (exec cfg fs c).2 ∧
      Post cfg B (Always fs) (run cfg (.sys c k) fs).1 (k (exec cfg fs c).1) := by
  rcases h with ⟨a, h⟩ | ⟨a, h⟩ <;> simp [run, h, Post]

theorem createBucket_eq {b : Bytes} {p : OsPath} (hp : bucketPath cfg b = some p) : opProg cfg ext (.createBucket b) =
    .sys (.stat p) fun s => if s.isSome then .fail .BucketAlreadyExists else
      .sys (.mkdir p.comps) fun r => if r = .ok then .ret .done else .fail .InternalError := by
  simp only [opProg, createBucket, hp, orInternal, exists_, call, bind, pure, Prog.bind]
  congr; funext s
  cases s with
  | some => rfl
  | none =>
    simp only [Option.isSome, Bool.false_eq_true, if_false, Prog.bind]
    congr; funext r
    cases r <;> rfl

theorem mkdir_refused {fs : FS} {p : Path} (h : (exec cfg fs (.mkdir p)).1 ≠ .ok) : (exec cfg fs (.mkdir p)).2 = fs := by
  simp only [exec] at h ⊢
  repeat' split
  all_goals first | rfl | (exfalso; apply h; simp_all)

theorem pre_createBucket (b : Bytes) : Pre cfg (fun _ => False) Always (opProg cfg ext (.createBucket b)) (opProg cfg ext (.createBucket b)) := by
  cases hp : bucketPath cfg b with
  | none => simp only [opProg, createBucket, hp]; exact trivial
  | some p =>
    rw [createBucket_eq hp]
    intro fs hw
    refine .inr ⟨rfl, ?_⟩
    dsimp only
    split
    · exact trivial
    intro fs' hw'
    by_cases hm : (exec cfg fs' (.mkdir p.comps)).1 = .ok
    · left
      have hl : fs'.lookup p.comps = none := by
        simp only [exec] at hm
        repeat' split at hm
        all_goals first | assumption | cases hm
      have hst : exec cfg fs' (.stat p) = (none, fs') := by simp only [exec, FS.at, hl]
      simp [run, hst, hm, Post]
    · exact .inr ⟨mkdir_refused hm, by simp [hm, Pre]⟩

theorem pre_headBucket (b : Bytes) : Pre cfg (fun _ => False) Always (opProg cfg ext (.headBucket b)) (opProg cfg ext (.headBucket b)) := by
  simp only [opProg, headBucket]
  cases hp : bucketPath cfg b with
  | none => exact trivial
  | some p =>
    intro fs hw
    refine .inl (Pre.last ?_)
    cases (exec cfg fs (.stat p)).1
    · exact .inr ⟨_, rfl⟩
    · exact .inl ⟨_, rfl⟩

theorem pre_location (b : Bytes) : Pre cfg (fun _ => False) Always (opProg cfg ext (.getBucketLocation b)) (opProg cfg ext (.getBucketLocation b)) := by
  simp only [opProg, getBucketLocation]
  cases hp : bucketPath cfg b with
  | none => exact trivial
  | some p =>
    intro fs hw
    refine .inl (Pre.last ?_)
    cases (exec cfg fs (.stat p)).1
    · exact .inr ⟨_, rfl⟩
    · exact .inl ⟨_, rfl⟩

theorem deleteFolder_eq {b k : Bytes} {p : OsPath} (hp : objectPath cfg b k = some p) (hk : endsWithByte k 47 = true) :
    opProg cfg ext (.deleteObject b k) =
    .sys (.readDir p) fun r => match r with
      | none => .fail .InternalError
      | some [] => .sys (.rmdir p) fun r => if r = true then .ret .done else .fail .InternalError
      | some (_ :: _) => .ret .done := by
  simp only [opProg, deleteObject, hp, orInternal, call, bind, pure, Prog.bind, hk, if_true]
  congr; funext r
  rcases r with _ | _ | ⟨e, es⟩
  · rfl
  · simp only [Prog.bind, if_true]
    congr; funext r
    cases r <;> rfl
  · rfl

theorem pre_deleteObject (b k : Bytes) : Pre cfg (fun _ => False) Always (opProg cfg ext (.deleteObject b k)) (opProg cfg ext (.deleteObject b k)) := by
  cases hp : objectPath cfg b k with
  | none => simp only [opProg, deleteObject, hp]; exact trivial
  | some p =>
    cases hk : endsWithByte k 47 with
    | false =>
      simp only [opProg, deleteObject, hp, hk]
      intro fs hw
      refine .inl (Pre.last ?_)
      cases (exec cfg fs (.unlink p)).1
      · exact .inr ⟨_, rfl⟩
      · exact .inl ⟨_, rfl⟩
    | true =>
      rw [deleteFolder_eq hp hk]
      intro fs hw
      rcases hr : (exec cfg fs (.readDir p)).1 with _ | _ | ⟨e, es⟩
      · exact .inr ⟨exec_reading (c := .readDir p) trivial fs, trivial⟩
      · refine .inr ⟨exec_reading (c := .readDir p) trivial fs, ?_⟩
        intro fs' hw'
        by_cases hm : (exec cfg fs' (.rmdir p)).1 = true
        · left
          have hl : fs'.lookup p.comps = some .dir ∧ fs'.children p.comps = [] := by
            simp only [exec] at hm
            repeat' split at hm
            all_goals first | exact ⟨by assumption, by simp_all⟩ | cases hm
          have hst : exec cfg fs' (.readDir p) = (some [], fs') := by simp only [exec, hl.1, hl.2, List.map_nil]
          simp [run, hst, hm, Post]
        · right
          refine ⟨?_, by simp [hm, Pre]⟩
          simp only [exec] at hm ⊢
          repeat' split
          all_goals first | rfl | (exfalso; apply hm; simp_all)
      · left
        have := exec_reading (cfg := cfg) (c := .readDir p) trivial fs
        simp [run, hr, Post, this]

/-- the buckets among the entries -/
def bucketsOf (es : List (Bytes × Bool)) : List Bytes :=
  es.filterMap fun e => if e.2 = true ∧ checkBucketName (utf8Lossy e.1) = true then some (utf8Lossy e.1) else none

theorem post_bucketsLoop {J : FS → Prop} {out : Outcome β} (es : List (Bytes × Bool)) (g : List Bytes → Prog β)
    (h : Post cfg (fun _ => False) J out (g (bucketsOf es))) : Post cfg (fun _ => False) J out ((listBucketsLoop cfg es).bind g) := by
  induction es generalizing g with
  | nil => exact h
  | cons e es ih =>
    obtain ⟨n, d⟩ := e
    simp only [listBucketsLoop, bucketsOf, List.filterMap_cons] at h ⊢
    split
    · rename_i hd
      rw [if_pos hd] at h
      refine ⟨trivial, fun fs _ => ?_⟩
      cases (exec cfg fs (.stat ⟨cfg.root ++ [n], false⟩)).1 with
      | none => exact trivial
      | some st =>
        simp only [orInternal, bind_eq, Prog.bind, bind_assoc, pure_eq]
        exact ih _ h
    · rename_i hd
      rw [if_neg hd] at h
      exact ih _ h

theorem run_bucketsLoop {fs : FS} (es : List (Bytes × Bool)) (h : ∀ n, (n, true) ∈ es → fs.lookup (cfg.root ++ [n]) ≠ none) :
    run cfg (listBucketsLoop cfg es) fs = (.ok (bucketsOf es), fs) := by
  induction es with
  | nil => rfl
  | cons e es ih =>
    obtain ⟨n, d⟩ := e
    have ih := ih fun n hn => h n (List.mem_cons_of_mem _ hn)
    simp only [listBucketsLoop, bucketsOf, List.filterMap_cons]
    split
    · rename_i hd
      cases hl : fs.lookup (cfg.root ++ [n]) with
      | none =>
        rw [hd.1] at h
        exact absurd hl (h n (List.mem_cons_self ..))
      | some nd =>
        simp only [bind_eq, pure_eq]
        rw [run_stat_bind, at_false, hl]
        simp only [Option.map_some, run_orInternal_some]
        rw [run_bind, ih]
        simp [Outcome.andThen, bucketsOf, run]
    · exact ih

theorem pre_listBuckets : Pre cfg (fun _ => False) Always (opProg cfg ext .listBuckets) (opProg cfg ext .listBuckets) := by
  simp only [opProg, listBuckets, bind_eq, call, Prog.bind]
  intro fs hw
  have hrd := exec_reading (cfg := cfg) (c := .readDir ⟨cfg.root, false⟩) trivial fs
  cases hr : (exec cfg fs (.readDir ⟨cfg.root, false⟩)).1 with
  | none => exact .inr ⟨hrd, trivial⟩
  | some es =>
    left
    have hes : ∀ n, (n, true) ∈ es → fs.lookup (cfg.root ++ [n]) ≠ none := by
      intro n hn
      simp only [exec] at hr
      split at hr
      · cases hr
        rw [children_eq, List.map_map] at hn
        obtain ⟨⟨p, nd⟩, h1, h2⟩ := List.mem_map.mp hn
        obtain ⟨h3, c, h4⟩ := mem_kids.mp h1
        have : n = c := by
          have := (Prod.mk.inj h2).1
          simp only at h4
          rw [← this, h4]; simp
        rw [this]
        simp only at h4
        have := (lookup_iff_mem hw.nodup (hw.names _ h3).1 nd).mpr h3
        rw [← h4, this]
        exact fun h => nomatch h
      · cases hr
    simp only [run, hr, hrd, orInternal, Prog.bind]
    rw [run_bind, run_bucketsLoop es hes]
    refine ⟨rfl, trivial, post_bucketsLoop _ _ (.inl rfl)⟩

theorem pre_one {o : Op} (h : OneChange o) : Pre cfg (fun _ => False) Always (opProg cfg ext o) (opProg cfg ext o) := by
  cases h
  · exact pre_createBucket _
  · exact pre_deleteObject _ _
  · exact pre_headBucket _
  · exact pre_location _
  · exact pre_listBuckets

/-! ### requests -/

/-- a response that is not one of success -/
abbrev Unsuccessful (res : Response) : Prop := res.status / 100 ≠ 2

theorem http_unsuccessful (o : Op) : ∀ e ∈ operationErrors o, e.httpStatus / 100 ≠ 2 := by
  cases o <;> simp only [operationErrors] <;> decide

theorem wrap_after (x : Texts) (c : Ctx) (h : Handler) (p : Prog Answer) (fs : FS) : (run cfg (wrap x c h p) fs).2 = (run cfg p fs).2 := by
  induction p generalizing fs with
  | ret a =>
    obtain ⟨res, hr⟩ := respond_caught x c h a
    rw [wrap, Prog.bind, hr]; rfl
  | fail e =>
    obtain ⟨res, hr⟩ := errorResponse_ret x e
    rw [wrap, Prog.bind, Prog.catch, hr]; rfl
  | sys c k ih => exact ih _ _
  | _ => rfl

theorem wrap_ok {x : Texts} {c : Ctx} {h : Handler} {p : Prog Answer} {fs : FS} {a : Answer} (ha : (run cfg p fs).1 = .ok a) {res : Response}
    (hr : wrap x c h (.ret a) = .ret res) : (run cfg (wrap x c h p) fs).1 = .ok res := by
  induction p generalizing fs with
  | ret a' => cases ha; rw [hr]; rfl
  | sys c k ih => exact ih _ ha
  | _ => cases ha

theorem post_wrap (x : Texts) (c : Ctx) (h : Handler) {J : FS → Prop} {q : Prog Answer} {fs : FS} {p : Prog Answer}
    {D : Prop} {E : S3ErrorCode → Prop} (hE : ∀ e, E e → e.httpStatus / 100 ≠ 2) (he : Ends D E p)
    (hp : Post cfg (fun _ => False) J (run cfg q fs).1 p) : Post cfg Unsuccessful J (run cfg (wrap x c h q) fs).1 (wrap x c h p) := by
  induction p with
  | ret a =>
    obtain ⟨res, hr⟩ := respond_caught x c h a
    have hr' : wrap x c h (.ret a) = .ret res := hr
    rw [hr']
    exact .inl (wrap_ok (hp.resolve_right id) hr')
  | fail e =>
    obtain ⟨res, hr⟩ := errorResponse_ret x e
    have hr' : wrap x c h (.fail e) = .ret res := hr
    rw [hr']
    exact .inr (by rw [Unsuccessful, errorResponse_status hr]; exact hE _ he)
  | sys c k ih => exact ⟨hp.1, fun fs hJ => ih _ (he _) (hp.2 fs hJ)⟩
  | _ => trivial

theorem pre_wrap (x : Texts) (c : Ctx) (h : Handler) {R : FS → FS → Prop} {q p : Prog Answer} {D : Prop} {E : S3ErrorCode → Prop}
    (hE : ∀ e, E e → e.httpStatus / 100 ≠ 2) (he : Ends D E p) (hp : Pre cfg (fun _ => False) R q p) :
    Pre cfg Unsuccessful R (wrap x c h q) (wrap x c h p) := by
  induction p with
  | ret a => exact hp.elim
  | fail e =>
    obtain ⟨res, hr⟩ := errorResponse_ret x e
    have hr' : wrap x c h (.fail e) = .ret res := hr
    rw [hr']
    show Unsuccessful res
    rw [Unsuccessful, errorResponse_status hr]; exact hE _ he
  | sys c k ih =>
    intro fs hw
    rcases hp fs hw with ⟨h1, h2, h3⟩ | ⟨h1, h2⟩
    · exact .inl ⟨h1.trans (wrap_after ..).symm, h2, post_wrap _ _ _ hE (he _) h3⟩
    · exact .inr ⟨h1, ih _ (he _) h2⟩
  | _ => trivial

theorem leaves_cut (w : WebEpoch) (fs : FS) (m : Nat) : (w.cut m).leaves cfg ext lib auth fs =
    (stepsDone cfg w.steps (w.requests.map fun x => hyperCall cfg ext lib auth x.env x.texts x.req) fs m).2 := rfl

/-- a request for an operation with one change -/
theorem takesEffect_of {w : WebEpoch} {n : Nat} {x : Exchange} {o : Op} (hn : w.requests[n]? = some x) (hx : Asks lib auth x o)
    (ho : OneChange o) (hf : ∀ s ∈ w.steps, s.1 = n → s.2 = .none) {fs : FS} (hw : WF fs) : ∃ t, TakesEffectAt cfg ext lib auth w fs n x t := by
  obtain ⟨c, hc, hr⟩ := hx
  have hq : Pre cfg Unsuccessful Always (hyperCall cfg ext lib auth x.env x.texts x.req) (hyperCall cfg ext lib auth x.env x.texts x.req) := by
    rw [hyperCall_asks hc hr]
    exact pre_wrap _ _ _ (http_unsuccessful o) (ends_op cfg ext o) (pre_one ho)
  have hp : (w.requests.map fun x => hyperCall cfg ext lib auth x.env x.texts x.req)[n]? =
      some (hyperCall cfg ext lib auth x.env x.texts x.req) := by simp [hn]
  obtain ⟨p, h1, h2⟩ := tracked (fun _ => trivial) (fun _ _ _ _ _ => trivial) hf hp hq hw (fun _ _ _ _ _ => trivial) w.steps.length
  have hall : stepsDone cfg w.steps (w.requests.map fun x => hyperCall cfg ext lib auth x.env x.texts x.req) fs w.steps.length =
      runParF cfg w.steps (w.requests.map fun x => hyperCall cfg ext lib auth x.env x.texts x.req) fs := by
    rw [stepsDone, List.take_length]
  have hres : ∀ res, w.response cfg ext lib auth fs n = some (.ok res) → p = .ret res := by
    intro res h
    rw [WebEpoch.response, ← hall, h1] at h
    cases p <;> simp [Prog.outcome] at h
    rw [h]
  rcases h2 with ⟨h2, h3⟩ | ⟨t, ht, h2, h3, h4, _, h5⟩
  · refine ⟨none, fun s f _ hs => h3 s f ((List.getElem?_eq_some_iff.mp hs).1) hs, (fun _ h => nomatch h), fun res h hs => ?_⟩
    rw [hres res h] at h2
    exact absurd hs h2
  · refine ⟨some t, fun s f hne hs => h5 s f ((List.getElem?_eq_some_iff.mp hs).1) (fun e => hne (by rw [e])) hs, ?_, fun res h hs => ⟨t, rfl, ?_⟩⟩
    · rintro s ⟨⟩
      exact ⟨h2, h3⟩
    · rw [hres res h] at h4
      exact h4.resolve_right fun h => h hs

theorem nth_safe {ok : Call → Prop} {Q : α → Prop} {n : Nat} (steps : List (Nat × Fault)) {ps : List (Prog α)} {p : Prog α} (hn : ps[n]? = some p)
    (hp : Safe ok Q p) {fs : FS} (hw : WF fs) : ∃ p', (runParF cfg steps ps fs).1[n]? = some p' ∧ Safe ok Q p' := by
  induction steps generalizing ps p fs with
  | nil => exact ⟨p, hn, hp⟩
  | cons s steps ih =>
    obtain ⟨i, f⟩ := s
    simp only [runParF]
    split
    · exact ih hn hp hw
    · rename_i q hi
      by_cases h : i = n
      · subst h
        rw [hn] at hi
        cases hi
        have hlen := (List.getElem?_eq_some_iff.mp hn).1
        refine ih (p := (stepProgF cfg p f fs).1) (by simp [hlen]) ?_ (stepProgF_wf hw)
        cases p with
        | sys c k => exact hp.2 _ (execF_respOk hw c f)
        | _ => exact hp
      · exact ih (by rw [List.getElem?_set_ne h]; exact hn) hp (stepProgF_wf hw)

theorem still_run {ps : List (Prog α)} {n : Nat} {p : Prog α} (hn : ps[n]? = some p) (hp : Safe isReading (fun _ => True) p) {fs : FS} (hw : WF fs)
    {steps : List (Nat × Fault)} {s : Nat} {f : Fault} (hs : steps[s]? = some (n, f)) :
    (stepsDone cfg steps ps fs (s + 1)).2 = (stepsDone cfg steps ps fs s).2 := by
  obtain ⟨p', h1, h2⟩ := nth_safe (cfg := cfg) (steps.take s) hn hp hw
  rw [stepsDone_succ hs]
  rw [stepsDone]
  simp only [runParF, h1]
  cases p' with
  | sys c k => exact execF_reading h2.1 _ _
  | _ => rfl

/-- a request that is no PUT, POST or DELETE never changes anything -/
theorem still_method {w : WebEpoch} {n : Nat} {x : Exchange} (hn : w.requests[n]? = some x)
    (hm : x.req.method ≠ b!"PUT" ∧ x.req.method ≠ b!"POST" ∧ x.req.method ≠ b!"DELETE") {fs : FS} (hw : WF fs) {s : Nat} {f : Fault}
    (hs : w.steps[s]? = some (n, f)) : (w.cut (s + 1)).leaves cfg ext lib auth fs = (w.cut s).leaves cfg ext lib auth fs := by
  obtain ⟨os, h1, h2, h3⟩ := any_at (cfg := cfg) (ext := ext) (lib := lib) (auth := auth) w
  cases ho : os[n]? with
  | none =>
    have := (List.getElem?_eq_some_iff.mp hn).1
    rw [List.getElem?_eq_none_iff] at ho
    omega
  | some o =>
    obtain ⟨y, hy, hc⟩ := h1 n o ho
    rw [hn] at hy
    cases hy
    have hp : (os.map (opProg cfg ext))[n]? = some (opProg cfg ext o) := by simp [ho]
    exact (h3 _ _).symm.trans ((still_run hp ((op_safe cfg ext o).mono (fun c => concerns_reading hc hm.1 hm.2.1 hm.2.2) fun _ h => h) hw hs).trans (h3 _ _))

/-- a request that is refused at once never changes anything -/
theorem still_refused {w : WebEpoch} {n : Nat} {x : Exchange} (hn : w.requests[n]? = some x)
    (hx : ∃ err, handle cfg ext lib auth x.env x.req = .fail err) {fs : FS} (hw : WF fs) {s : Nat} {f : Fault}
    (hs : w.steps[s]? = some (n, f)) : (w.cut (s + 1)).leaves cfg ext lib auth fs = (w.cut s).leaves cfg ext lib auth fs := by
  have hp : (w.requests.map fun x => hyperCall cfg ext lib auth x.env x.texts x.req)[n]? =
      some (hyperCall cfg ext lib auth x.env x.texts x.req) := by simp [hn]
  exact still_run hp ((request_safe (P := fun _ => False) (.inr hx)).mono (fun c h => h.elim fun _ h => h.1.elim) fun _ h => h) hw hs

end S3
