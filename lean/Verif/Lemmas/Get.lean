import Verif.Lemmas.Fs
import Verif.Model.Storage
import Verif.Lemmas.Resolve
import Verif.Spec.Object
/-! What GET and HEAD answer, as functions of the file tree. -/
namespace S3
open Spec

variable {cfg : Cfg} {ext : Ext}

@[simp] theorem run_orInternal_some {α β : Type} (a : α) (f : α → Prog β) (fs : FS) :
    run cfg ((orInternal (some a)).bind f) fs = run cfg (f a) fs := rfl
@[simp] theorem run_orInternal_none {α β : Type} (f : α → Prog β) (fs : FS) :
    run cfg ((orInternal (none : Option α)).bind f) fs = (.err .InternalError, fs) := rfl
@[simp] theorem run_ret_bind {α β : Type} (a : α) (f : α → Prog β) (fs : FS) :
    run cfg ((Prog.ret a).bind f) fs = run cfg (f a) fs := rfl

/-- the handle `open` gives for a node -/
def Node.handle : Node → Handle
  | .dir => .dir
  | .file i => .file i

/-- what `stat` says about a node -/
def Node.stat (fs : FS) : Node → Stat
  | .dir => .dir
  | .file i => .file (fs.data i).length

@[simp] theorem at_false (fs : FS) (p : Path) : fs.at ⟨p, false⟩ = fs.lookup p := by
  simp only [FS.at]
  split
  · rename_i h; simp [h]
  · rfl

theorem run_stat_bind {β : Type} (p : OsPath) (f : Option Stat → Prog β) (fs : FS) :
    run cfg (@Prog.bind (no_index (Resp (.stat p))) β (call (.stat p)) f) fs = run cfg (f ((fs.at p).map (Node.stat fs))) fs := by
  have : run cfg ((call (.stat p)).bind f) fs = run cfg (f (exec cfg fs (.stat p)).1) fs := rfl
  rw [this]
  simp only [exec]
  cases fs.at p with
  | none => rfl
  | some n => cases n <;> rfl

theorem run_open_bind {β : Type} (p : OsPath) (f : Option Handle → Prog β) (fs : FS) :
    run cfg (@Prog.bind (no_index (Resp (.openRead p))) β (call (.openRead p)) f) fs = run cfg (f ((fs.at p).map Node.handle)) fs := by
  have : run cfg ((call (.openRead p)).bind f) fs = run cfg (f (exec cfg fs (.openRead p)).1) fs := rfl
  rw [this]
  simp only [exec]
  cases fs.at p with
  | none => rfl
  | some n => cases n <;> rfl

theorem run_fstat_bind {β : Type} (i : Ino) (f : Option Nat → Prog β) (fs : FS) :
    run cfg (@Prog.bind (no_index (Resp (.fstat (.file i)))) β (call (.fstat (.file i))) f) fs = run cfg (f (some (fs.data i).length)) fs := rfl
theorem run_fstat_dir_bind {β : Type} (f : Option Nat → Prog β) (fs : FS) :
    run cfg (@Prog.bind (no_index (Resp (.fstat .dir))) β (call (.fstat .dir)) f) fs = run cfg (f (some cfg.dirLen)) fs := rfl
theorem run_readAll_bind {β : Type} (i : Ino) (f : Option Bytes → Prog β) (fs : FS) :
    run cfg (@Prog.bind (no_index (Resp (.readAll (.file i)))) β (call (.readAll (.file i))) f) fs = run cfg (f (some (fs.data i))) fs := rfl
theorem run_readAll_dir_bind {β : Type} (f : Option Bytes → Prog β) (fs : FS) :
    run cfg (@Prog.bind (no_index (Resp (.readAll .dir))) β (call (.readAll .dir)) f) fs = run cfg (f none) fs := rfl

theorem exec_fst_snd (fs : FS) {c : Call} {r : Resp c} {fs' : FS} (h : exec cfg fs c = (r, fs')) :
    (exec cfg fs c).1 = r ∧ (exec cfg fs c).2 = fs' := by rw [h]; exact ⟨rfl, rfl⟩

theorem run_exists_bind {β : Type} (p : OsPath) (f : Bool → Prog β) (fs : FS) :
    run cfg ((exists_ p).bind f) fs = run cfg (f (fs.at p).isSome) fs := by
  have : run cfg ((exists_ p).bind f) fs = run cfg (f (exec cfg fs (.stat p)).1.isSome) fs := rfl
  rw [this]
  simp only [exec]
  cases fs.at p with
  | none => rfl
  | some n => cases n <;> rfl

theorem loadMetadata_run (b k : Bytes) (fs : FS) :
    run cfg (loadMetadata cfg ext b k) fs =
      match metaAt ext fs (cfg.root ++ [metadataName b k]) with
      | some m => (.ok m, fs)
      | none => (.err .InternalError, fs) := by
  simp only [loadMetadata, bind_eq, pure_eq, metadataPath_eq, run_orInternal_some, run_exists_bind,
    at_false, metaAt]
  cases hl : fs.lookup (cfg.root ++ [metadataName b k]) with
  | none => rfl
  | some n =>
    cases n with
    | dir =>
      simp only [Option.isSome, if_true, run_open_bind, at_false, hl, Option.map_some, Node.handle,
        run_orInternal_some, run_readAll_dir_bind, run_orInternal_none]
    | file i =>
      simp only [Option.isSome, if_true, run_open_bind, at_false, hl, Option.map_some, Node.handle,
        run_orInternal_some, run_readAll_bind]
      cases hd : ext.metaDec (fs.data i) <;> rfl

/-- MD5 of the object -/
theorem getMd5Sum_run (b k : Bytes) (fs : FS) :
    run cfg (getMd5Sum cfg ext b k) fs =
      match (objectPath cfg b k).bind fs.at with
      | some (.file i) => (.ok (ext.md5hex (fs.data i)), fs)
      | _ => (.err .InternalError, fs) := by
  simp only [getMd5Sum, bind_eq, pure_eq]
  cases hp : objectPath cfg b k with
  | none => rfl
  | some p =>
    simp only [run_orInternal_some, run_open_bind, Option.bind_some]
    cases ha : fs.at p with
    | none => rfl
    | some n => cases n <;> rfl

theorem drainBody_file (i : Ino) (wants : Nat → Nat) (fs : FS) (fuel : Nat) :
    ∀ n off limit, limit < fuel →
      run cfg (drainBody (.file i) wants fuel n off limit) fs
        = (.ok (some (((fs.data i).drop off).take limit)), fs) := by
  induction fuel with
  | zero => intro n off limit h; omega
  | succ fuel ih =>
    intro n off limit h
    simp only [drainBody, bind_eq, pure_eq, run_call_bind]
    simp only [exec]
    generalize hrest : (fs.data i).drop off = rest
    by_cases h0 : min limit 4096 = 0 ∨ rest = []
    · rw [if_pos h0]
      simp only [List.take_zero, if_true]
      rcases h0 with h0 | h0
      · have : limit = 0 := by omega
        subst this; simp
      · subst h0; simp
    · rw [if_neg h0]
      have hlen : 0 < rest.length := by
        cases rest with
        | nil => simp at h0
        | cons => simp
      have hl : 0 < limit := by omega
      generalize hk : max 1 (min (wants n) (min (min limit 4096) rest.length)) = k
      have hk1 : 0 < k := by omega
      have hx1 : min (wants n) (min (min limit 4096) rest.length) ≤ rest.length :=
        Nat.le_trans (Nat.min_le_right ..) (Nat.min_le_right ..)
      have hx2 : min (wants n) (min (min limit 4096) rest.length) ≤ limit :=
        Nat.le_trans (Nat.min_le_right ..) (Nat.le_trans (Nat.min_le_left ..) (Nat.min_le_left ..))
      generalize min (wants n) (min (min limit 4096) rest.length) = x at hk hx1 hx2
      have hk2 : k ≤ limit := by rw [← hk]; exact Nat.max_le.mpr ⟨hl, hx2⟩
      have hk3 : k ≤ rest.length := by rw [← hk]; exact Nat.max_le.mpr ⟨hlen, hx1⟩
      have hne : rest.take k ≠ [] := by
        intro h; have := congrArg List.length h
        rw [List.length_take, Nat.min_eq_left hk3, List.length_nil] at this; omega
      have hlt : (rest.take k).length = k := by simp; omega
      simp only [if_neg hne, hlt]
      rw [run_bind, ih _ _ _ (by omega)]
      simp only [Outcome.andThen, run_ret, Prod.mk.injEq, and_true, Outcome.ok.injEq, Option.some.injEq]
      rw [← List.drop_drop, hrest, ← List.take_add]
      congr 1
      omega

theorem drainBody_dir (wants : Nat → Nat) (fs : FS) (fuel n off limit : Nat) :
    run cfg (drainBody .dir wants (fuel + 1) n off limit) fs = (.ok none, fs) := by
  simp [drainBody, exec]

/-- the parsed range of a request: `none` when the header is not a range -/
def rangeOf : Option Bytes → Option (Option Range)
  | none => some none
  | some s => (Range.fromHeaderStr s).map some

theorem parseRange_bind {β : Type} (r : Option Bytes) (f : Option Range → Prog β) (fs : FS) :
    run cfg ((parseRange r).bind f) fs =
      match rangeOf r with
      | some x => run cfg (f x) fs
      | none => (.err .InvalidRequest, fs) := by
  cases r with
  | none => rfl
  | some s =>
    simp only [parseRange, rangeOf]
    cases Range.fromHeaderStr s <;> rfl

/-- GET of a regular file -/
theorem get_run_file {b k : Bytes} {r : Option Bytes} {wants : Nat → Nat} {fs : FS} {p : OsPath} {i : Ino}
    (hp : objectPath cfg b k = some p) (ha : fs.at p = some (.file i)) {x : Option Range}
    (hr : rangeOf r = some x) :
    run cfg (getObjectFull cfg ext b k r wants) fs =
      match rangeSlice (fs.data i).length x with
      | none => (.err .InvalidRange, fs)
      | some (off, len) =>
        match metaAt ext fs (cfg.root ++ [metadataName b k]) with
        | none => (.err .InternalError, fs)
        | some md =>
          if len ≤ i64Max then
            (.ok (⟨.file i, off, len, len, md, quoted (ext.md5hex (fs.data i))⟩,
              some (((fs.data i).drop off).take len)), fs)
          else (.err .InternalError, fs) := by
  simp only [getObjectFull, bind_eq, pure_eq]
  rw [run_bind]
  simp only [getObject, bind_eq, pure_eq, hp, run_orInternal_some, parseRange_bind, hr, run_open_bind, ha,
    Option.map_some, Node.handle, run_fstat_bind, run_orInternal_some]
  cases rangeSlice (fs.data i).length x with
  | none => rfl
  | some ol =>
    obtain ⟨off, len⟩ := ol
    simp only [run_bind, loadMetadata_run]
    cases metaAt ext fs (cfg.root ++ [metadataName b k]) with
    | none => rfl
    | some md =>
      simp only [Outcome.andThen, getMd5Sum_run, hp, Option.bind_some, ha]
      by_cases hl : len ≤ i64Max
      · simp only [if_pos hl, run_ret, drainBody_file i wants fs (len + 1) 0 off len (by omega)]
      · simp only [if_neg hl, run_fail]

/-- GET of something absent -/
theorem get_run_none {b k : Bytes} {r : Option Bytes} {wants : Nat → Nat} {fs : FS} {p : OsPath}
    (hp : objectPath cfg b k = some p) (ha : fs.at p = none) {x : Option Range}
    (hr : rangeOf r = some x) :
    run cfg (getObjectFull cfg ext b k r wants) fs = (.err .NoSuchKey, fs) := by
  simp only [getObjectFull, bind_eq, pure_eq]
  rw [run_bind]
  simp only [getObject, bind_eq, pure_eq, hp, run_orInternal_some, parseRange_bind, hr, run_open_bind, ha]
  rfl

/-- GET of a directory never succeeds -/
theorem get_run_dir {b k : Bytes} {r : Option Bytes} {wants : Nat → Nat} {fs : FS} {p : OsPath}
    (hp : objectPath cfg b k = some p) (ha : fs.at p = some .dir) :
    (run cfg (getObjectFull cfg ext b k r wants) fs).1 = .err .InternalError ∨
    (run cfg (getObjectFull cfg ext b k r wants) fs).1 = .err .InvalidRange ∨
    (run cfg (getObjectFull cfg ext b k r wants) fs).1 = .err .InvalidRequest := by
  simp only [getObjectFull, bind_eq, pure_eq]
  rw [run_bind]
  simp only [getObject, bind_eq, pure_eq, hp, run_orInternal_some, parseRange_bind]
  cases rangeOf r with
  | none => exact Or.inr (Or.inr rfl)
  | some x =>
    simp only [run_open_bind, ha, Option.map_some, Node.handle, run_fstat_dir_bind, run_orInternal_some]
    cases rangeSlice cfg.dirLen x with
    | none => exact Or.inr (Or.inl rfl)
    | some ol =>
      simp only [run_bind, loadMetadata_run]
      cases metaAt ext fs (cfg.root ++ [metadataName b k]) with
      | none => exact Or.inl rfl
      | some md =>
        simp only [Outcome.andThen, getMd5Sum_run, hp, Option.bind_some, ha]
        exact Or.inl trivial

/-- HEAD -/
theorem head_run {b k : Bytes} {fs : FS} {p : OsPath} (hp : objectPath cfg b k = some p) :
    run cfg (headObject cfg ext b k) fs =
      match fs.at p with
      | none => (.err .NoSuchKey, fs)
      | some n =>
        match metaAt ext fs (cfg.root ++ [metadataName b k]) with
        | none => (.err .InternalError, fs)
        | some md =>
          let len := match n with
            | .dir => cfg.dirLen
            | .file i => (fs.data i).length
          if len ≤ i64Max then (.ok (len, md), fs) else (.err .InternalError, fs) := by
  simp only [headObject, bind_eq, pure_eq, hp, run_orInternal_some, run_exists_bind]
  cases ha : fs.at p with
  | none => rfl
  | some n =>
    cases n with
    | dir =>
      simp only [Option.isSome, if_true, run_stat_bind, ha, Option.map_some, Node.stat,
        run_orInternal_some]
      simp only [run_bind, loadMetadata_run]
      cases metaAt ext fs (cfg.root ++ [metadataName b k]) with
      | none => rfl
      | some md =>
        simp only [Outcome.andThen]
        by_cases hl : cfg.dirLen ≤ i64Max
        · exact (congrArg (fun x => run cfg x fs) (if_pos hl)).trans (by rw [if_pos hl]; rfl)
        · exact (congrArg (fun x => run cfg x fs) (if_neg hl)).trans (by rw [if_neg hl]; rfl)
    | file i =>
      simp only [Option.isSome, if_true, run_stat_bind, ha, Option.map_some, Node.stat,
        run_orInternal_some]
      simp only [run_bind, loadMetadata_run]
      cases metaAt ext fs (cfg.root ++ [metadataName b k]) with
      | none => rfl
      | some md =>
        simp only [Outcome.andThen]
        by_cases hl : (fs.data i).length ≤ i64Max
        · exact (congrArg (fun x => run cfg x fs) (if_pos hl)).trans (by rw [if_pos hl]; rfl)
        · exact (congrArg (fun x => run cfg x fs) (if_neg hl)).trans (by rw [if_neg hl]; rfl)

end S3
