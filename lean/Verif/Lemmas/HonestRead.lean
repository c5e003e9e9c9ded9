import Verif.Lemmas.Honest
/-! The operations that take an unreadable file for a missing one: reading, copying, deleting several objects. -/
namespace S3
open Spec

variable {cfg : Cfg} {ext : Ext}

theorem exec_stat_snd (p : OsPath) (fs : FS) : (exec cfg fs (.stat p)).2 = fs := rfl

/-- `exists` on a failing disk: the truth, or "no" -/
theorem okF_exists {β : Type} {p : OsPath} {f : Bool → Prog β} {Q : β → FS → Prop} {fs : FS}
    (h1 : OkF cfg Q (f (fs.at p).isSome) fs) (h2 : OkF cfg Q (f false) fs) : OkF cfg Q ((exists_ p).bind f) fs := by
  refine OkF.sys fun x => ?_
  cases x with
  | none =>
    have e : execF cfg fs (.stat p) .none = ((fs.at p).map (Node.stat fs), fs) := by
      simp only [execF, exec]
      cases fs.at p with
      | none => rfl
      | some n => cases n <;> rfl
    rw [e]
    cases hp : fs.at p with
    | none => rw [hp] at h1; exact h1
    | some n => rw [hp] at h1; exact h1
  | before => exact h2
  | after => exact h2
  | during n rs => exact h2

/-- reading a whole file -/
theorem okF_readFile {β : Type} {p : OsPath} {f : Bytes → Prog β} {Q : β → FS → Prop} {fs : FS}
    (h : ∀ i, fs.at p = some (.file i) → OkF cfg Q (f (fs.data i)) fs) :
    OkF cfg Q ((call (.openRead p)).bind fun r => (orInternal r).bind fun x => (call (.readAll x)).bind fun r => (orInternal r).bind f) fs := by
  refine OkF.call trivial ?_
  cases hp : fs.at p with
  | none =>
    have e : exec cfg fs (.openRead p) = (none, fs) := by simp only [exec, hp]
    rw [e]; exact OkF.fail
  | some n =>
    cases n with
    | dir =>
      have e : exec cfg fs (.openRead p) = (some .dir, fs) := by simp only [exec, hp]
      rw [e]
      exact OkF.call trivial OkF.fail
    | file i =>
      have e : exec cfg fs (.openRead p) = (some (.file i), fs) := by simp only [exec, hp]
      rw [e]
      exact OkF.call trivial (h i hp)

theorem okF_loadMetadata (b k : Bytes) (fs : FS) :
    OkF cfg (fun md fs' => fs' = fs ∧ (md = none ∨ storedMeta cfg ext fs b k = some md)) (loadMetadata cfg ext b k) fs := by
  simp only [loadMetadata, metadataPath_eq]
  refine OkF.orInternal fun p hp => ?_
  cases hp
  refine okF_exists ?_ (OkF.ret ⟨rfl, .inl rfl⟩)
  split
  · refine okF_readFile fun i hi => OkF.orInternal fun m hm => OkF.ret ⟨rfl, .inr ?_⟩
    simp only [storedMeta, metaAt]
    rw [at_false] at hi
    rw [hi]
    simp only [hm, Option.map_some]
  · exact OkF.ret ⟨rfl, .inl rfl⟩

theorem okF_getMd5Sum (b k : Bytes) (fs : FS) :
    OkF cfg (fun s fs' => fs' = fs ∧ ∃ p i, objectPath cfg b k = some p ∧ fs.at p = some (.file i) ∧ s = ext.md5hex (fs.data i))
      (getMd5Sum cfg ext b k) fs := by
  simp only [getMd5Sum]
  refine OkF.orInternal fun p hp => okF_readFile fun i hi => OkF.ret ⟨rfl, p, i, hp, hi, rfl⟩

theorem okF_drainBody (h : Handle) (wants : Nat → Nat) (fuel : Nat) : ∀ (n off limit : Nat) (fs : FS),
    OkF cfg (fun x fs' => fs' = fs ∧ (x = none ∨ (run cfg (drainBody h wants fuel n off limit) fs).1 = .ok x))
      (drainBody h wants fuel n off limit) fs := by
  induction fuel with
  | zero => intro n off limit fs; exact OkF.ret ⟨rfl, .inr rfl⟩
  | succ fuel ih =>
    intro n off limit fs
    refine OkF.sys fun x => ?_
    have bad : OkF cfg (fun x fs' => fs' = fs ∧ (x = none ∨ (run cfg (drainBody h wants (fuel + 1) n off limit) fs).1 = .ok x))
        (.ret none) fs := OkF.ret ⟨rfl, .inl rfl⟩
    cases x with
    | none =>
      have hs : (exec cfg fs (.readAt h off (min limit 4096) (wants n))).2 = fs := rfl
      have hrun : run cfg (drainBody h wants (fuel + 1) n off limit) fs
          = run cfg (match (exec cfg fs (.readAt h off (min limit 4096) (wants n))).1 with
            | none => .ret none
            | some b => if b = [] then .ret (some []) else
                (drainBody h wants fuel (n + 1) (off + b.length) (limit - b.length)).bind fun
                  | none => .ret none
                  | some r => .ret (some (b ++ r))) fs := rfl
      rw [hrun]
      show OkF cfg _ (match (exec cfg fs (.readAt h off (min limit 4096) (wants n))).1 with
            | none => .ret none
            | some b => if b = [] then .ret (some []) else
                (drainBody h wants fuel (n + 1) (off + b.length) (limit - b.length)).bind fun
                  | none => .ret none
                  | some r => .ret (some (b ++ r))) fs
      cases (exec cfg fs (.readAt h off (min limit 4096) (wants n))).1 with
      | none => exact OkF.ret ⟨rfl, .inl rfl⟩
      | some b =>
        by_cases hb : b = []
        · simp only [hb, if_true]; exact OkF.ret ⟨rfl, .inr rfl⟩
        · simp only [if_neg hb]
          refine OkF.bind (ih _ _ _ fs) ?_
          rintro r fs1 ⟨rfl, hr⟩
          cases r with
          | none => exact OkF.ret ⟨rfl, .inl rfl⟩
          | some r =>
            refine OkF.ret ⟨rfl, .inr ?_⟩
            rcases hr with hr | hr
            · cases hr
            · rw [run_bind]
              cases hx : run cfg (drainBody h wants fuel (n + 1) (off + b.length) (limit - b.length)) fs1 with
              | mk o fs2 =>
                rw [hx] at hr
                cases hr
                rfl
    | before => exact bad
    | after => exact bad
    | during n rs => exact bad

/-- what a GET that ends well on a failing disk has answered -/
structure TrueGet (cfg : Cfg) (ext : Ext) (b k : Bytes) (r : Option Bytes) (fs : FS) (o : GetOutput) (body : Option Bytes) : Prop where
  ok : ∃ p i x, objectPath cfg b k = some p ∧ fs.at p = some (.file i) ∧ rangeOf r = some x ∧
    rangeSlice (fs.data i).length x = some (o.offset, o.limit) ∧ o.limit ≤ i64Max ∧ o.contentLength = o.limit ∧
    o.etag = quoted (ext.md5hex (fs.data i)) ∧
    (body = none ∨ body = some (((fs.data i).drop o.offset).take o.limit))
  md : o.metadata = none ∨ storedMeta cfg ext fs b k = some o.metadata

theorem okF_get (b k : Bytes) (r : Option Bytes) (w : Nat → Nat) (fs : FS) :
    OkF cfg (fun a fs' => fs' = fs ∧ TrueGet cfg ext b k r fs a.1 a.2) (getObjectFull cfg ext b k r w) fs := by
  simp only [getObjectFull]
  have hget : OkF cfg (fun o fs' => fs' = fs ∧ (∃ p i x, objectPath cfg b k = some p ∧ fs.at p = some (.file i) ∧ o.handle = .file i ∧
      rangeOf r = some x ∧ rangeSlice (fs.data i).length x = some (o.offset, o.limit) ∧ o.limit ≤ i64Max ∧ o.contentLength = o.limit ∧
      o.etag = quoted (ext.md5hex (fs.data i))) ∧ (o.metadata = none ∨ storedMeta cfg ext fs b k = some o.metadata))
      (getObject cfg ext b k r) fs := by
    simp only [getObject]
    refine OkF.orInternal fun p hp => ?_
    have hparse : OkF cfg (fun x fs' => fs' = fs ∧ rangeOf r = some x) (parseRange r) fs := by
      cases r with
      | none => exact OkF.ret ⟨rfl, rfl⟩
      | some s =>
        simp only [parseRange, rangeOf]
        cases hs : Range.fromHeaderStr s with
        | none => exact OkF.fail
        | some x => exact OkF.ret ⟨rfl, rfl⟩
    refine OkF.bind hparse ?_
    rintro x fs1 ⟨rfl, hx⟩
    refine OkF.call trivial ?_
    cases ha : fs1.at p with
    | none =>
      have e : exec cfg fs1 (.openRead p) = (none, fs1) := by simp only [exec, ha]
      rw [e]; exact OkF.fail
    | some n =>
      have e : exec cfg fs1 (.openRead p) = (some n.handle, fs1) := by simp only [exec, ha]; cases n <;> rfl
      rw [e]
      refine OkF.call trivial ?_
      have rest : ∀ len, (∀ i, n = .file i → len = (fs1.data i).length) → OkF cfg (fun (o : GetOutput) fs' => fs' = fs1 ∧ (∃ p i x,
            objectPath cfg b k = some p ∧ fs1.at p = some (.file i) ∧ o.handle = .file i ∧
            rangeOf r = some x ∧ rangeSlice (fs1.data i).length x = some (o.offset, o.limit) ∧ o.limit ≤ i64Max ∧ o.contentLength = o.limit ∧
            o.etag = quoted (ext.md5hex (fs1.data i))) ∧ (o.metadata = none ∨ storedMeta cfg ext fs1 b k = some o.metadata))
          (match rangeSlice len x with
            | none => .fail .InvalidRange
            | some (off, len) => (loadMetadata cfg ext b k).bind fun md => (getMd5Sum cfg ext b k).bind fun sum =>
              if len ≤ i64Max then .ret { handle := n.handle, offset := off, limit := len, contentLength := len, metadata := md, etag := quoted sum }
              else .fail .InternalError) fs1 := by
        intro len hlen
        cases hsl : rangeSlice len x with
        | none => exact OkF.fail
        | some ol =>
          obtain ⟨off, lim⟩ := ol
          refine OkF.bind (okF_loadMetadata (ext := ext) b k fs1) ?_
          rintro md fs2 ⟨rfl, hmd⟩
          refine OkF.bind (okF_getMd5Sum (ext := ext) b k fs2) ?_
          rintro s fs3 ⟨rfl, p', i, hp', hi, rfl⟩
          rw [hp] at hp'
          cases hp'
          rw [ha] at hi
          cases hi
          split
          · rename_i hle
            refine OkF.ret ⟨rfl, ⟨p, i, x, hp, ha, rfl, hx, ?_, hle, rfl, rfl⟩, hmd⟩
            rw [← hlen i rfl]; exact hsl
          · exact OkF.fail
      cases n with
      | dir => exact rest cfg.dirLen (fun i h => nomatch h)
      | file i => exact rest _ (fun j h => by cases h; rfl)
  refine OkF.bind hget ?_
  rintro o fs1 ⟨rfl, ⟨p, i, x, hp, ha, hh, hx, hsl, hle, hcl, het⟩, hmd⟩
  refine OkF.bind (okF_drainBody _ _ _ _ _ _ _) ?_
  rintro body fs2 ⟨rfl, hb⟩
  refine OkF.ret ⟨rfl, ⟨p, i, x, hp, ha, hx, hsl, hle, hcl, het, ?_⟩, hmd⟩
  rcases hb with hb | hb
  · exact .inl hb
  · rw [hh, drainBody_file i w fs2 (o.limit + 1) 0 o.offset o.limit (by omega)] at hb
    cases hb
    exact .inr rfl

theorem okF_head (b k : Bytes) (fs : FS) :
    OkF cfg (fun a fs' => fs' = fs ∧ (∃ p n, objectPath cfg b k = some p ∧ fs.at p = some n ∧ a.1 = statLen cfg (n.stat fs)) ∧
      (a.2 = none ∨ storedMeta cfg ext fs b k = some a.2)) (headObject cfg ext b k) fs := by
  simp only [headObject]
  refine OkF.orInternal fun p hp => okF_exists ?_ OkF.fail
  split
  · refine OkF.call trivial ?_
    have e : exec cfg fs (.stat p) = ((fs.at p).map (Node.stat fs), fs) := by
      simp only [exec]
      cases fs.at p with
      | none => rfl
      | some n => cases n <;> rfl
    rw [e]
    refine OkF.orInternal fun st hst => ?_
    cases ha : fs.at p with
    | none => rw [ha] at hst; cases hst
    | some n =>
      rw [ha] at hst
      cases hst
      refine OkF.bind (okF_loadMetadata (ext := ext) b k fs) ?_
      rintro md fs1 ⟨rfl, hmd⟩
      split
      · exact OkF.ret ⟨rfl, ⟨p, n, hp, ha, rfl⟩, hmd⟩
      · exact OkF.fail
  · exact OkF.fail

/-- the first loop of DeleteObjects passes over keys -/
theorem okF_deleteCollect (b : Bytes) (ks : List Bytes) : ∀ fs, OkF cfg (fun l fs' => fs' = fs ∧ ∃ ks', ks'.Sublist ks ∧
    run cfg (deleteCollect cfg b ks') fs = (.ok l, fs)) (deleteCollect cfg b ks) fs := by
  induction ks with
  | nil => intro fs; exact OkF.ret ⟨rfl, [], .slnil, rfl⟩
  | cons k ks ih =>
    intro fs
    simp only [deleteCollect]
    refine OkF.orInternal fun p hp => ?_
    have skip : OkF cfg (fun l fs' => fs' = fs ∧ ∃ ks', ks'.Sublist (k :: ks) ∧ run cfg (deleteCollect cfg b ks') fs = (.ok l, fs))
        ((deleteCollect cfg b ks).bind fun r => .ret (if false = true then (p, k) :: r else r)) fs := by
      refine OkF.bind (ih fs) ?_
      rintro l fs1 ⟨rfl, ks', hs, hr⟩
      exact OkF.ret ⟨rfl, ks', hs.cons _, hr⟩
    refine okF_exists ?_ skip
    cases he : (fs.at p).isSome with
    | false => exact skip
    | true =>
      refine OkF.bind (ih fs) ?_
      rintro l fs1 ⟨rfl, ks', hs, hr⟩
      refine OkF.ret ⟨rfl, k :: ks', hs.cons_cons _, ?_⟩
      simp only [deleteCollect, bind_eq, pure_eq, hp, run_orInternal_some]
      rw [run_exists_bind, run_bind, hr, he]
      rfl

theorem hon_deleteAll (l : List (OsPath × Bytes)) : Hon cfg Eq (deleteAll l) (deleteAll l) := by
  induction l with
  | nil => exact Hon.ret rfl
  | cons e l ih =>
    obtain ⟨p, k⟩ := e
    refine Hon.call trivial fun r => ?_
    cases r with
    | false => exact Hon.never trivial
    | true =>
      refine Hon.bind ih ?_
      rintro _ _ rfl
      exact Hon.ret rfl

/-- DeleteObjects that ends well on a failing disk has deleted some of the keys and reports these -/
theorem okF_deleteObjects (b : Bytes) (ks : List Bytes) {fs : FS} (hw : WF fs) : OkF cfg (fun l fs' => ∃ ks', ks'.Sublist ks ∧
    run cfg (deleteObjects cfg b ks') fs = (.ok l, fs')) (deleteObjects cfg b ks) fs := by
  simp only [deleteObjects]
  refine OkF.bind (okF_deleteCollect b ks fs) ?_
  rintro l fs1 ⟨rfl, ks', hs, hr⟩
  refine (hon_deleteAll l fs1 hw).mono ?_
  rintro d fs' ⟨_, hd, rfl⟩
  refine ⟨ks', hs, ?_⟩
  rw [bind_eq, run_bind, hr]
  exact hd

/-- the steps of a copy that ends well on a failing disk -/
theorem okF_copy {b k s sb sk : Bytes} (hs : copySourceFromHeader s = .ok (sb, sk)) {fs : FS} (hw : WF fs) :
    OkF cfg (fun e fs' => ∃ src dst fs1, objectPath cfg sb sk = some src ∧ objectPath cfg b k = some dst ∧
      run cfg (copyFile src dst) fs = (.ok (), fs1) ∧
      (fs' = fs1 ∨ run cfg (copyFile ⟨metaFile cfg sb sk, false⟩ ⟨metaFile cfg b k, false⟩) fs1 = (.ok (), fs')) ∧
      ∃ i, fs'.at src = some (.file i) ∧ e = quoted (ext.md5hex (fs'.data i)))
      (copyObject cfg ext b k s) fs := by
  simp only [copyObject, hs, metadataPath_eq]
  refine OkF.orInternal fun src hsrc => OkF.orInternal fun dst hdst => OkF.call trivial (OkF.orInternal fun _ _ => ?_)
  show OkF cfg _ _ fs
  refine OkF.bind (hon_copyFile src dst fs hw) ?_
  rintro _ fs1 ⟨_, h1, rfl⟩
  have hw1 : WF fs1 := run_wf_of h1 hw
  refine OkF.orInternal fun sm hsm => ?_
  cases hsm
  have last : ∀ fs2, (fs2 = fs1 ∨ run cfg (copyFile ⟨metaFile cfg sb sk, false⟩ ⟨metaFile cfg b k, false⟩) fs1 = (.ok (), fs2)) →
      OkF cfg (fun e fs' => ∃ src dst fs1, objectPath cfg sb sk = some src ∧ objectPath cfg b k = some dst ∧
        run cfg (copyFile src dst) fs = (.ok (), fs1) ∧
        (fs' = fs1 ∨ run cfg (copyFile ⟨metaFile cfg sb sk, false⟩ ⟨metaFile cfg b k, false⟩) fs1 = (.ok (), fs')) ∧
        ∃ i, fs'.at src = some (.file i) ∧ e = quoted (ext.md5hex (fs'.data i)))
      ((getMd5Sum cfg ext sb sk).bind fun sum => .ret (quoted sum)) fs2 := by
    intro fs2 h2
    refine OkF.bind (okF_getMd5Sum (ext := ext) sb sk fs2) ?_
    rintro x fs3 ⟨rfl, p, i, hp, hi, rfl⟩
    rw [hsrc] at hp
    cases hp
    exact OkF.ret ⟨src, dst, fs1, hsrc, hdst, h1, h2, i, hi, rfl⟩
  refine okF_exists ?_ (last fs1 (.inl rfl))
  split
  · refine OkF.orInternal fun dm hdm => ?_
    cases hdm
    refine OkF.bind (hon_copyFile _ _ fs1 hw1) ?_
    rintro _ fs2 ⟨_, h2, rfl⟩
    exact last fs2 (.inr h2)
  · exact last fs1 (.inl rfl)

end S3
