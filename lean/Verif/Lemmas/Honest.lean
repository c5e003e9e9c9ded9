import Verif.Lemmas.Fault
/-! The operations report the failures of the disk: which success on a failing disk is one on a sound disk. -/
namespace S3
open Spec

variable {cfg : Cfg} {ext : Ext}

theorem never_failed {α β : Type} {f : α → Prog β} : Never ((orInternal (none : Option α)).bind f) := trivial

theorem hon_copyBytes (i : Ino) (off : Nat) (body : Body) : Hon cfg Eq (copyBytes i off body) (copyBytes i off body) := by
  induction body generalizing off with
  | nil => exact Hon.ret rfl
  | cons x rest ih =>
    cases x with
    | none => exact Hon.never trivial
    | some b =>
      simp only [copyBytes]
      split
      · exact ih off
      · refine Hon.call trivial fun r => ?_
        cases r with
        | false => exact Hon.never trivial
        | true => exact Hon.bind (ih _) fun a a' h => by subst h; exact Hon.ret rfl

theorem hon_getMd5Sum (b k : Bytes) : Hon cfg Eq (getMd5Sum cfg ext b k) (getMd5Sum cfg ext b k) :=
  Hon.orInternal fun _ => Hon.call trivial fun _ => Hon.orInternal fun h => Hon.call (by cases h <;> trivial) fun _ =>
    Hon.orInternal fun _ => Hon.ret rfl

theorem hon_saveMetadata (b k : Bytes) (m : Meta) : Hon cfg Eq (saveMetadata cfg ext b k m) (saveMetadata cfg ext b k m) :=
  Hon.orInternal fun _ => Hon.call trivial fun _ => Hon.orInternal fun _ => Hon.call trivial fun r => by
    cases r
    · exact Hon.never trivial
    · exact Hon.ret rfl

theorem hon_saveOptional (b k : Bytes) (m : Option Meta) : Hon cfg Eq (saveOptional cfg ext b k m) (saveOptional cfg ext b k m) := by
  cases m with
  | none => exact Hon.ret rfl
  | some m => exact hon_saveMetadata b k m

theorem hon_copyFile (s d : OsPath) : Hon cfg Eq (copyFile s d) (copyFile s d) := by
  refine Hon.call trivial fun _ => Hon.orInternal fun h => ?_
  cases h with
  | dir => exact Hon.never trivial
  | file i =>
    exact Hon.call trivial fun _ => Hon.orInternal fun _ => Hon.call trivial fun _ => Hon.orInternal fun _ => Hon.call trivial fun r => by
      cases r
      · exact Hon.never trivial
      · exact Hon.ret rfl

theorem hon_requireDir (p : Path) : Hon cfg Eq (requireDir p) (requireDir p) := by
  refine Hon.call trivial fun r => ?_
  cases r with
  | none => exact Hon.never trivial
  | some s =>
    cases s with
    | dir => exact Hon.ret rfl
    | file n => exact Hon.never trivial

/-- what it means that `requireDir` accepts -/
theorem okF_requireDir (p : Path) (fs : FS) : OkF cfg (fun _ fs' => fs' = fs ∧ fs.lookup p = some .dir) (requireDir p) fs := by
  refine OkF.call trivial ?_
  cases h : fs.lookup p with
  | none => simp only [exec, at_false, h]; exact OkF.fail
  | some n =>
    cases n with
    | dir => simp only [exec, at_false, h]; exact OkF.ret ⟨rfl, trivial⟩
    | file i => simp only [exec, at_false, h]; exact OkF.fail

theorem run_requireDir {p : Path} {fs : FS} (h : fs.lookup p = some .dir) : run cfg (requireDir p) fs = (.ok (), fs) := by
  show run cfg ((call (.stat ⟨p, false⟩)).bind _) fs = _
  rw [run_stat_bind, at_false, h]
  rfl

theorem exec_mkdir_exists {p : Path} {fs : FS} (hw : WF fs) (hne : p ≠ []) (h : fs.lookup p = some .dir) :
    exec cfg fs (.mkdir p) = (.failed, fs) := by
  have hd : fs.lookup p.dropLast = some .dir := (hw.parent _ (mem_of_lookup hne h))
  simp only [exec]
  split
  · rfl
  · split
    · rfl
    · simp only [hd, h]

theorem exec_mkdir_kept (p : Path) (fs : FS) :
    (exec cfg fs (.mkdir p)).2 = fs ∨ (exec cfg fs (.mkdir p)).1 = .ok := by
  simp only [exec]
  split
  · exact .inl rfl
  · split
    · exact .inl rfl
    · split
      · exact .inl rfl
      · exact .inl rfl
      · split
        · exact .inl rfl
        · split
          · exact .inr rfl
          · exact .inl rfl

theorem hon_mkdir {p : Path} (hne : p ≠ []) {A : MkdirRes → Prog Unit} (hok : A .ok = .ret ()) (hf : A .failed = requireDir p)
    (hnf : Hon cfg Eq (A .notFound) (A .notFound)) : Hon cfg Eq ((call (.mkdir p)).bind A) ((call (.mkdir p)).bind A) := by
  intro fs hw
  have key : ∀ fs1, fs1 = fs ∨ fs1 = (exec cfg fs (.mkdir p)).2 →
      OkF cfg (fun a' fs' => ∃ a, run cfg ((call (.mkdir p)).bind A) fs = (.ok a, fs') ∧ a = a') (A .failed) fs1 := by
    intro fs1 h1
    rw [hf]
    refine (okF_requireDir _ _).mono ?_
    rintro _ fs' ⟨rfl, hd⟩
    refine ⟨(), ?_, rfl⟩
    rw [run_call1]
    rcases exec_mkdir_kept (cfg := cfg) p fs with hs | hs
    · have hfs : fs' = fs := h1.elim id (fun h => h.trans hs)
      subst hfs
      rw [exec_mkdir_exists hw hne hd]
      rw [hf]
      exact run_requireDir hd
    · rcases h1 with h1 | h1
      · subst h1
        rw [exec_mkdir_exists hw hne hd] at hs
        cases hs
      · rw [hs, h1, hok]; rfl
  refine OkF.sys fun f => ?_
  cases f with
  | none =>
    show OkF cfg _ (A (exec cfg fs (.mkdir p)).1) (exec cfg fs (.mkdir p)).2
    have hw1 := exec_wf cfg hw (.mkdir p)
    have hrun : run cfg ((call (.mkdir p)).bind A) fs = run cfg (A (exec cfg fs (.mkdir p)).1) (exec cfg fs (.mkdir p)).2 := rfl
    rw [hrun]
    generalize (exec cfg fs (.mkdir p)).2 = fs1 at hw1
    cases (exec cfg fs (.mkdir p)).1 with
    | ok => rw [hok]; exact OkF.ret ⟨(), rfl, rfl⟩
    | notFound => exact hnf _ hw1
    | failed => rw [hf]; exact hon_requireDir _ _ hw1
  | before => exact key _ (.inl rfl)
  | after => exact key _ (.inr rfl)
  | during n rs => exact key _ (.inl rfl)

theorem hon_createDirAllRev (l : List Bytes) : Hon cfg Eq (createDirAllRev l) (createDirAllRev l) := by
  induction l with
  | nil =>
    intro fs hw
    refine OkF.sys fun f => ?_
    have hr : ∀ fs : FS, exec cfg fs (.mkdir []) = (.failed, fs) := by intro fs; simp [exec, noNul]
    have hrun : run cfg (createDirAllRev []) fs = (.ok (), fs) := by
      show run cfg ((call (.mkdir [])).bind _) fs = _
      rw [run_call1, hr]
      rfl
    cases f with
    | none => simp only [execF, hr]; exact OkF.ret ⟨(), hrun, trivial⟩
    | before => exact OkF.ret ⟨(), hrun, rfl⟩
    | after => simp only [execF, hr]; exact OkF.ret ⟨(), hrun, trivial⟩
    | during n rs => exact OkF.ret ⟨(), hrun, rfl⟩
  | cons c up ih =>
    have hne : (c :: up).reverse ≠ [] := by simp
    refine hon_mkdir hne rfl rfl (Hon.bind ih ?_)
    rintro _ _ rfl
    exact hon_mkdir hne rfl rfl (hon_requireDir _)

theorem hon_putObject (i : PutInput) : Hon cfg Eq (putObject cfg ext i) (putObject cfg ext i) := by
  simp only [putObject]
  split
  · exact Hon.never trivial
  · split
    · exact Hon.never trivial
    · split
      · split
        · refine Hon.orInternal fun p => Hon.bind (hon_createDirAllRev _) ?_
          rintro _ _ rfl
          exact Hon.ret rfl
        · exact Hon.never trivial
      · refine Hon.orInternal fun p => ?_
        have tail : ∀ body, Hon cfg Eq
            ((call (.create p)).bind fun r => (orInternal r).bind fun ino => (copyBytes ino 0 body).bind fun content =>
              (saveOptional cfg ext i.bucket i.key i.metadata).bind fun _ => .ret (some (quoted (ext.md5hex content))))
            ((call (.create p)).bind fun r => (orInternal r).bind fun ino => (copyBytes ino 0 body).bind fun content =>
              (saveOptional cfg ext i.bucket i.key i.metadata).bind fun _ => .ret (some (quoted (ext.md5hex content)))) := by
          intro body
          refine Hon.call trivial fun r => Hon.orInternal fun ino => Hon.bind (hon_copyBytes _ _ _) ?_
          rintro c _ rfl
          refine Hon.bind (hon_saveOptional _ _ _) ?_
          rintro _ _ rfl
          exact Hon.ret rfl
        split
        · refine Hon.bind (hon_createDirAllRev _) ?_
          rintro _ _ rfl
          exact tail _
        · exact tail _

theorem hon_uploadPart (u : Bytes) (n : Int) (body : Option Body) : Hon cfg Eq (uploadPart cfg ext u n body) (uploadPart cfg ext u n body) := by
  cases body with
  | none => exact Hon.never trivial
  | some body =>
    refine Hon.orInternal fun p => Hon.call trivial fun r => Hon.orInternal fun ino => Hon.bind (hon_copyBytes _ _ _) ?_
    rintro c _ rfl
    exact Hon.ret rfl

theorem hon_completeLoop (u : Bytes) (ino : Ino) (parts : List (Option Int)) :
    ∀ cnt off, Hon cfg Eq (completeLoop cfg u ino cnt off parts) (completeLoop cfg u ino cnt off parts) := by
  induction parts with
  | nil => intro cnt off; exact Hon.ret rfl
  | cons n rest ih =>
    intro cnt off
    simp only [completeLoop]
    refine Hon.orInternal fun n => ?_
    split
    · exact Hon.never trivial
    · refine Hon.orInternal fun pp => Hon.call trivial fun _ => Hon.orInternal fun h => Hon.call (by cases h <;> trivial) fun _ =>
        Hon.orInternal fun content => Hon.call trivial fun r => ?_
      cases r with
      | false => exact Hon.never trivial
      | true =>
        refine Hon.call trivial fun r => ?_
        cases r with
        | false => exact Hon.never trivial
        | true => exact ih _ _

theorem hon_complete (b k u : Bytes) (parts : Option (List (Option Int))) :
    Hon cfg Eq (completeMultipartUpload cfg ext b k u parts) (completeMultipartUpload cfg ext b k u parts) := by
  cases parts with
  | none => exact Hon.never trivial
  | some parts =>
    refine Hon.orInternal fun p => Hon.call trivial fun r => Hon.orInternal fun ino => Hon.bind (hon_completeLoop _ _ _ _ _) ?_
    rintro _ _ rfl
    refine Hon.call trivial fun r => Hon.orInternal fun _ => Hon.bind (hon_getMd5Sum _ _) ?_
    rintro _ _ rfl
    exact Hon.ret rfl

theorem exec_mkdir_ok {p : Path} {fs : FS} (h : (exec cfg fs (.mkdir p)).1 = .ok) : fs.lookup p = none := by
  simp only [exec] at h
  split at h; · cases h
  split at h; · cases h
  split at h
  · cases h
  · cases h
  · split at h
    · cases h
    · assumption

theorem hon_createBucket (b : Bytes) : Hon cfg Eq (createBucket cfg b) (createBucket cfg b) := by
  refine Hon.orInternal fun p => ?_
  intro fs hw
  have last : Hon cfg Eq ((call (.mkdir p.comps)).bind fun r => mkdirDone r) ((call (.mkdir p.comps)).bind fun r => mkdirDone r) := by
    refine Hon.call trivial fun r => ?_
    cases r with
    | ok => exact Hon.ret rfl
    | _ => exact Hon.never trivial
  have key : OkF cfg (fun a' fs' => ∃ a, run cfg ((exists_ p).bind fun e => if e = true then Prog.fail .BucketAlreadyExists else
        (call (.mkdir p.comps)).bind fun r => mkdirDone r) fs = (.ok a, fs') ∧ a = a')
      ((call (.mkdir p.comps)).bind fun r => mkdirDone r) fs := by
    refine (last fs hw).mono ?_
    rintro a' fs' ⟨a, ha, e⟩
    refine ⟨a, ?_, e⟩
    have hn : fs.lookup p.comps = none := by
      rw [run_call1] at ha
      refine exec_mkdir_ok (cfg := cfg) ?_
      cases hr : (exec cfg fs (.mkdir p.comps)).1 with
      | ok => rfl
      | _ => rw [hr] at ha; cases ha
    have hat : fs.at p = none := by simp [FS.at, hn]
    rw [run_exists_bind, hat]
    exact ha
  refine OkF.sys fun f => ?_
  cases f with
  | none =>
    cases hat : fs.at p with
    | none =>
      have e : execF cfg fs (.stat p) .none = (none, fs) := by simp only [execF, exec, hat]
      rw [e]
      exact key
    | some n => cases n <;> (simp only [execF, exec, hat]; exact OkF.fail)
  | before => exact key
  | after => exact key
  | during n rs => exact key

theorem hon_deleteBucket (b : Bytes) : Hon cfg Eq (deleteBucket cfg b) (deleteBucket cfg b) := by
  refine Hon.orInternal fun p => Hon.call trivial fun r => ?_
  cases r
  · exact Hon.never trivial
  · exact Hon.ret rfl

theorem hon_deleteObject (b k : Bytes) : Hon cfg Eq (deleteObject cfg b k) (deleteObject cfg b k) := by
  simp only [deleteObject]
  refine Hon.orInternal fun p => ?_
  split
  · refine Hon.call trivial fun r => Hon.orInternal fun es => ?_
    split
    · refine Hon.call trivial fun r => ?_
      cases r
      · exact Hon.never trivial
      · exact Hon.ret rfl
    · exact Hon.ret rfl
  · refine Hon.call trivial fun r => ?_
    cases r
    · exact Hon.never trivial
    · exact Hon.ret rfl

theorem hon_headBucket (b : Bytes) : Hon cfg Eq (headBucket cfg b) (headBucket cfg b) := by
  refine Hon.orInternal fun p => Hon.call trivial fun r => ?_
  cases r
  · exact Hon.never trivial
  · exact Hon.ret rfl

theorem hon_getBucketLocation (b : Bytes) : Hon cfg Eq (getBucketLocation cfg b) (getBucketLocation cfg b) := hon_headBucket b

theorem hon_listBucketsLoop (es : List (Bytes × Bool)) : Hon cfg Eq (listBucketsLoop cfg es) (listBucketsLoop cfg es) := by
  induction es with
  | nil => exact Hon.ret rfl
  | cons e es ih =>
    obtain ⟨n, d⟩ := e
    simp only [listBucketsLoop]
    split
    · refine Hon.call trivial fun r => Hon.orInternal fun _ => Hon.bind ih ?_
      rintro _ _ rfl
      exact Hon.ret rfl
    · exact ih

theorem hon_listBuckets : Hon cfg Eq (listBuckets cfg) (listBuckets cfg) :=
  Hon.call trivial fun _ => Hon.orInternal fun es => hon_listBucketsLoop es

theorem hon_listEntries (base : Path) (pfx : Option Bytes) (dir : Path) (es : List (Bytes × Bool)) :
    Hon cfg Eq (listEntries cfg base pfx dir es) (listEntries cfg base pfx dir es) := by
  induction es with
  | nil => exact Hon.ret rfl
  | cons e es ih =>
    obtain ⟨n, d⟩ := e
    simp only [listEntries]
    split
    · refine Hon.bind ih ?_
      rintro _ _ rfl
      exact Hon.ret rfl
    · split
      · exact ih
      · refine Hon.call trivial fun r => Hon.orInternal fun st => ?_
        split
        · refine Hon.bind ih ?_
          rintro _ _ rfl
          exact Hon.ret rfl
        · exact Hon.never trivial

theorem hon_listLoop (base : Path) (pfx : Option Bytes) (fuel : Nat) :
    ∀ q, Hon cfg Eq (listLoop cfg base pfx fuel q) (listLoop cfg base pfx fuel q) := by
  induction fuel with
  | zero =>
    intro q
    cases q with
    | nil => exact Hon.ret rfl
    | cons d q => exact Hon.never trivial
  | succ fuel ih =>
    intro q
    cases q with
    | nil => exact Hon.ret rfl
    | cons d q =>
      refine Hon.call trivial fun r => Hon.orInternal fun es => Hon.bind (hon_listEntries _ _ _ _) ?_
      rintro ⟨ds, os⟩ _ rfl
      refine Hon.bind (ih _) ?_
      rintro _ _ rfl
      exact Hon.ret rfl

theorem hon_listObjects (b : Bytes) (pfx : Option Bytes) (fuel : Nat) : Hon cfg Eq (listObjects cfg b pfx fuel) (listObjects cfg b pfx fuel) := by
  refine Hon.orInternal fun p => Hon.bind (hon_listLoop _ _ _ _) ?_
  rintro _ _ rfl
  exact Hon.ret rfl

theorem hon_listObjectsV2 (b : Bytes) (pfx : Option Bytes) (fuel : Nat) :
    Hon cfg Eq (listObjectsV2 cfg b pfx fuel) (listObjectsV2 cfg b pfx fuel) := by
  refine Hon.orInternal fun p => Hon.bind (hon_listLoop _ _ _ _) ?_
  rintro os _ rfl
  show Hon cfg Eq (if os.length ≤ i64Max then _ else _) (if os.length ≤ i64Max then _ else _)
  split
  · exact Hon.ret rfl
  · exact Hon.never trivial

end S3
