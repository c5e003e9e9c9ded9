import Verif.Lemmas.Put
import Verif.Lemmas.ReadOnly
/-! Inverting successful runs. -/
namespace S3
open Spec

variable {cfg : Cfg} {ext : Ext} {α β : Type}

theorem run_bind_ok {p : Prog α} {f : α → Prog β} {fs fs' : FS} {b : β} (h : run cfg (p.bind f) fs = (.ok b, fs')) :
    ∃ a fs1, run cfg p fs = (.ok a, fs1) ∧ run cfg (f a) fs1 = (.ok b, fs') := by
  rw [run_bind] at h
  generalize run cfg p fs = x at h
  obtain ⟨o, fs1⟩ := x
  cases o with
  | ok a => exact ⟨a, fs1, rfl, h⟩
  | err e => cases h
  | panic => cases h
  | diverge => cases h

theorem run_map_fst {p : Prog α} {f : α → β} {fs : FS} {b : β} :
    (run cfg (p.bind fun x => .ret (f x)) fs).1 = .ok b ↔ ∃ a, (run cfg p fs).1 = .ok a ∧ f a = b := by
  rw [run_bind]
  generalize run cfg p fs = x
  obtain ⟨o, fs1⟩ := x
  cases o <;> simp [Outcome.andThen]

theorem run_map_err {p : Prog α} {f : α → β} {fs : FS} {e : S3ErrorCode} :
    (run cfg (p.bind fun x => .ret (f x)) fs).1 = .err e ↔ (run cfg p fs).1 = .err e := by
  rw [run_bind]
  generalize run cfg p fs = x
  obtain ⟨o, fs1⟩ := x
  cases o <;> simp [Outcome.andThen]

theorem run_map_snd {p : Prog α} {f : α → β} {fs : FS} :
    (run cfg (p.bind fun x => .ret (f x)) fs).2 = (run cfg p fs).2 := by
  rw [run_bind]
  generalize run cfg p fs = x
  obtain ⟨o, fs1⟩ := x
  cases o <;> rfl

theorem answer_put {i : PutInput} {fs : FS} {a : Answer} :
    answer cfg ext (.putObject i) fs = .ok a ↔ ∃ e, (run cfg (putObject cfg ext i) fs).1 = .ok e ∧ .etag e = a :=
  run_map_fst
theorem after_put {i : PutInput} {fs : FS} : after cfg ext (.putObject i) fs = (run cfg (putObject cfg ext i) fs).2 :=
  run_map_snd

theorem answer_get {b k : Bytes} {r : Option Bytes} {w : Nat → Nat} {fs : FS} {a : Answer} :
    answer cfg ext (.getObject b k r w) fs = .ok a ↔ ∃ o, (run cfg (getObjectFull cfg ext b k r w) fs).1 = .ok o ∧
      .object o.1.contentLength o.1.metadata o.1.etag o.2 = a := run_map_fst
theorem answer_head {b k : Bytes} {fs : FS} {a : Answer} :
    answer cfg ext (.headObject b k) fs = .ok a ↔ ∃ o, (run cfg (headObject cfg ext b k) fs).1 = .ok o ∧
      .head o.1 o.2 = a := run_map_fst

theorem wf_after {o : Op} {fs : FS} (h : WF fs) : WF (after cfg ext o fs) := run_wf cfg _ h

/-- a stored object is what GET and HEAD answer -/
theorem get_stored {fs : FS} {b k c : Bytes} {md : Option Meta} (hs : stored cfg fs b k = some c)
    (hm : storedMeta cfg ext fs b k = some md) (hc : c.length ≤ i64Max) (w : Nat → Nat) :
    answer cfg ext (.getObject b k none w) fs = .ok (.object c.length md (quoted (ext.md5hex c)) (some c)) ∧
    answer cfg ext (.headObject b k) fs = .ok (.head c.length md) := by
  simp only [stored] at hs
  split at hs
  · rename_i p hp
    split at hs
    · cases hs
    · rename_i hsl
      simp only [contentAt] at hs
      split at hs
      · rename_i i hi
        cases hs
        have ha : fs.at p = some (.file i) := by simp [FS.at, hi, hsl]
        constructor
        · rw [answer_get]
          refine ⟨_, by rw [get_run_file hp ha (x := none) rfl]; simp only [rangeSlice]; rw [show metaAt ext fs (cfg.root ++ [metadataName b k]) = some md from hm]; simp only [if_pos hc]; rfl, ?_⟩
          simp
        · rw [answer_head]
          refine ⟨((fs.data i).length, md), ?_, rfl⟩
          rw [head_run hp, ha]
          simp only []
          rw [show metaAt ext fs (cfg.root ++ [metadataName b k]) = some md from hm]
          simp only [if_pos hc]
      · cases hs
  · cases hs

theorem metaAt_same {a b : FS} {m : Path} (h : SameAt a b m) (hw : WF b) : metaAt ext a m = metaAt ext b m := by
  simp only [metaAt, h.1]
  split
  · rfl
  · rfl
  · rename_i i hi
    rw [h.2 i (hw.ino _ _ hi).1]

end S3
