import Verif.Lemmas.FoldersAtOnce
/-! C140: folder keys put at the same time, broken off, on a failing disk. -/
namespace S3
open Spec

variable {cfg : Cfg} {ext : Ext} {A : Bytes → Bytes → Prop} {place : Bytes → Bytes → List Bytes} {s t : Machine} {fs : FS}

/-- **C140** (at any moment) PUTs of folder keys, any number of them at the same time and in any order of their steps, on a disk that
may fail, cut off at any moment: the file tree shows the state of the machine from before, with further folders; each one is asked
for or on the way, and stands in its parent. The folders of requests that were answered with success are there, with all those on the
way; such an answer has no ETag. -/
theorem C140_moment (hS : Spelled cfg.root A place) (h : Tree cfg ext A place s fs) (e : Epoch)
    (hos : ∀ o ∈ e.requests, ∃ q, FolderPut A place q o) :
    ∃ t, Further A place e.requests s t ∧ Tree cfg ext A place t (e.leaves cfg ext fs) ∧
      ∀ (n : Nat) o q a, e.requests[n]? = some o → FolderPut A place q o → e.answered cfg ext fs n = some (.ok a) →
        a = .etag none ∧ ∀ r, r <+: q → t.folder r = true := by
  have hw := h.shown.wf
  have hw' : WF (e.leaves cfg ext fs) := runParF_wf hw
  have hf := putting_frame (cfg := cfg) (ext := ext) (steps := e.steps) hos hw
  have hkeep : KeepsDirs fs (e.leaves cfg ext fs) := keepsDirs_frame hf
  classical
  let f : List Bytes → Bool := fun r => s.folder r || decide (AskedFor A place e.requests r ∧ IsDir (e.leaves cfg ext fs) (cfg.root ++ r))
  have hroot : IsDir (e.leaves cfg ext fs) cfg.root := hkeep _ h.shown.root
  have hup : ∀ {r r' : List Bytes}, IsDir (e.leaves cfg ext fs) (cfg.root ++ r) → r' <+: r → IsDir (e.leaves cfg ext fs) (cfg.root ++ r') := by
    intro r r' hd hr
    by_cases e' : r' = r
    · rw [e']; exact hd
    · exact hw'.above hd ((List.prefix_append_right_inj _).mpr hr) (fun x => e' (List.append_cancel_left x))
  refine ⟨{ s with folder := f }, ⟨rfl, rfl, rfl, ?_, ?_, ?_⟩, ?_, ?_⟩
  · intro r hr
    simp only [f, hr, Bool.true_or]
  · intro r hr
    simp only [f, Bool.or_eq_true, decide_eq_true_eq] at hr
    exact hr.imp_right And.left
  · intro r r' hr hn hr'
    simp only [f, Bool.or_eq_true, decide_eq_true_eq, hn, Bool.false_eq_true, false_or] at hr ⊢
    obtain ⟨⟨o, ho, q, hq, hrq⟩, hd⟩ := hr
    exact .inr ⟨⟨o, ho, q, hq, hr'.trans hrq⟩, hup hd hr'⟩
  · refine tree_grow hS h hw' hf ?_ ?_ ?_
    · rintro p ⟨o, _, q, ⟨i, cs, rfl, hk, rfl⟩, hp⟩
      exact ⟨_, _, _, hk, hp⟩
    · intro h0
      simp only [f, h0, Bool.true_or]
    · intro b cs hb
      simp only [f, Bool.or_eq_true, decide_eq_true_eq]
      rw [← h.folders b cs hb]
      constructor
      · intro hd
        rcases hf.node (cfg.root ++ b :: cs) (fun h => h) with e' | ⟨⟨o, ho, q, hq, hx⟩, _⟩
        · exact .inl (e'.symm.trans hd)
        · exact .inr ⟨⟨o, ho, q, hq, (List.prefix_append_right_inj _).mp hx⟩, hd⟩
      · rintro (hd | hd)
        · exact hkeep _ hd
        · exact hd.2
  · intro n o q a hn hq ha
    obtain ⟨i, cs, rfl, hk, rfl⟩ := hq
    have key := epoch_wp (cfg := cfg) (ext := ext) rely_keepsDirs
      (Q := fun a fs' => a = .etag none ∧ fs'.lookup (cfg.root ++ i.bucket :: cs) = some .dir) hn
      (fun j o' _ hj a c f hwa hc => by
        obtain ⟨q', hq'⟩ := hos o' (List.mem_of_getElem? hj)
        exact keepsDirs_frame (execF_frame hwa (folderPut_ok hq' hc) f)) hw ?_ ha
    · refine ⟨key.1, fun r hr => ?_⟩
      simp only [f, Bool.or_eq_true, decide_eq_true_eq]
      exact .inr ⟨⟨_, List.mem_of_getElem? hn, _, ⟨i, cs, rfl, hk, rfl⟩, hr⟩, hup key.2 hr⟩
    · exact folderPut_wpF hk hw

/-- **C140** (each as if alone) A request among them whose own system calls do not fail is answered as when it is served alone, whatever
becomes of the others. -/
theorem C140_alone (h : Tree cfg ext A place s fs) (e : Epoch) (hos : ∀ o ∈ e.requests, ∃ q, FolderPut A place q o) {n : Nat} {o : Op}
    (hn : e.requests[n]? = some o) (hok : ∀ f, (n, f) ∈ e.steps → f = .none) {r : Outcome Answer}
    (hr : e.answered cfg ext fs n = some r) : r = answer cfg ext o fs := by
  have hw := h.shown.wf
  obtain ⟨q, i, cs, rfl, hk, rfl⟩ := hos o (List.mem_of_getElem? hn)
  have hget : ∀ j : Nat, (e.requests.map (opProg cfg ext))[j]? = (e.requests[j]?).map (opProg cfg ext) := fun j => List.getElem?_map
  simp only [Epoch.answered, Option.bind_eq_some_iff] at hr
  obtain ⟨p, hpp, ho⟩ := hr
  have key := runParF_wp_clean (cfg := cfg) rely_growing (Q := fun o _ => o = (run cfg (opProg cfg ext (.putObject i)) fs).1)
    (ok := fun _ c => ∃ o' ∈ e.requests, (opPerm cfg o').ok c) (i := n)
    (fun j a c f _ hwa hc => by
      obtain ⟨o', ho', hc⟩ := hc
      obtain ⟨q', hq'⟩ := hos o' ho'
      exact (execF_frame hwa (folderPut_ok hq' hc) f).mono (fun _ h => h) (fun _ _ => trivial)) hok hw
    (by
      intro j p hj
      rw [hget, Option.map_eq_some_iff] at hj
      obtain ⟨o', ho', rfl⟩ := hj
      exact (op_safe cfg ext o').mono (fun c hc => ⟨o', List.mem_of_getElem? ho', hc⟩) (fun _ h => h))
    (by
      intro p hj
      rw [hget, hn] at hj
      cases hj
      exact folderPut_wp h hk) hpp
  rw [answer]
  cases p <;> simp [Prog.outcome] at ho
  all_goals
    subst ho
    exact key _ (rely_growing.refl _) (runParF_wf hw)

theorem proper_answer (hS : Spelled cfg.root A place) (h : Tree cfg ext A place s fs) {q : List Bytes} {o : Op} (hq : FolderPut A place q o)
    (ho : ProperPut o) : answer cfg ext o fs = .ok (.etag none) ∧
      Tree cfg ext A place { s with folder := fun r => s.folder r || decide (r <+: q) } (after cfg ext o fs) := by
  obtain ⟨i, cs, rfl, hk, rfl⟩ := hq
  obtain ⟨i', hi, hc, hb, hl⟩ := ho
  cases hi
  obtain ⟨t, h1, h2⟩ := folder_put hS h hk
  generalize answer cfg ext (.putObject i) fs = a at h1
  cases h1 with
  | badClass h => rw [hc] at h; cases h
  | noBody _ h => exact absurd h hb
  | content _ _ h => exact absurd hl h
  | made _ _ _ => exact ⟨rfl, h2⟩

/-- **C140** (all of them) When the disk does not fail, all are proper and all have been answered, then all have been answered with success,
and the folders of the machine are those from before, those asked for and those on the way. -/
theorem C140_all (hS : Spelled cfg.root A place) (h : Tree cfg ext A place s fs) (e : Epoch)
    (hos : ∀ o ∈ e.requests, (∃ q, FolderPut A place q o) ∧ ProperPut o) (hok : ∀ x ∈ e.steps, x.2 = .none)
    (hall : ∀ n, n < e.requests.length → e.answered cfg ext fs n ≠ none) :
    (∀ n, n < e.requests.length → e.answered cfg ext fs n = some (.ok (.etag none))) ∧
    ∃ t, Further A place e.requests s t ∧ (∀ r, t.folder r = true ↔ s.folder r = true ∨ AskedFor A place e.requests r) ∧
      Tree cfg ext A place t (e.leaves cfg ext fs) := by
  have hans : ∀ n, n < e.requests.length → e.answered cfg ext fs n = some (.ok (.etag none)) := by
    intro n hn
    have hget : e.requests[n]? = some e.requests[n] := List.getElem?_eq_getElem hn
    obtain ⟨⟨q, hq⟩, hp⟩ := hos _ (List.mem_of_getElem? hget)
    cases hr : e.answered cfg ext fs n with
    | none => exact absurd hr (hall n hn)
    | some r =>
      rw [C140_alone h e (fun o ho => (hos o ho).1) hget (fun f hf => hok _ hf) hr, (proper_answer hS h hq hp).1]
  obtain ⟨t, h1, h2, h3⟩ := C140_moment hS h e (fun o ho => (hos o ho).1)
  refine ⟨hans, t, h1, fun r => ⟨h1.asked r, ?_⟩, h2⟩
  rintro (hr | ⟨o, ho, q, hq, hr⟩)
  · exact h1.keeps r hr
  · obtain ⟨n, hn, rfl⟩ := List.getElem_of_mem ho
    exact (h3 n _ q _ (List.getElem?_eq_getElem hn) hq (hans n hn)).2 r hr

theorem put_all (hS : Spelled cfg.root A place) (os : List Op) : ∀ {s : Machine} {fs : FS}, Tree cfg ext A place s fs →
    (∀ o ∈ os, (∃ q, FolderPut A place q o) ∧ ProperPut o) →
    (∀ x ∈ answered cfg ext os fs, x.2 = .ok (.etag none)) ∧
    ∃ t, t.bytes = s.bytes ∧ t.record = s.record ∧ t.parts = s.parts ∧
      (∀ r, t.folder r = true ↔ s.folder r = true ∨ AskedFor A place os r) ∧ Tree cfg ext A place t (afterAll cfg ext os fs) := by
  induction os with
  | nil =>
    intro s fs h _
    refine ⟨(fun x hx => nomatch hx), s, rfl, rfl, rfl, fun r => ⟨.inl, ?_⟩, h⟩
    rintro (hr | ⟨o, ho, _⟩)
    · exact hr
    · cases ho
  | cons o os ih =>
    intro s fs h hos
    obtain ⟨⟨q, hq⟩, hp⟩ := hos o (by simp)
    obtain ⟨h1, h2⟩ := proper_answer hS h hq hp
    obtain ⟨h3, t, t1, t2, t3, t4, t5⟩ := ih h2 (fun o' ho' => hos o' (List.mem_cons_of_mem _ ho'))
    refine ⟨?_, t, t1, t2, t3, fun r => ?_, t5⟩
    · intro x hx
      rcases List.mem_cons.mp hx with rfl | hx
      · exact h1
      · exact h3 x hx
    · rw [t4]
      simp only [Bool.or_eq_true, decide_eq_true_eq, or_assoc]
      refine or_congr_right ⟨?_, ?_⟩
      · rintro (hr | ⟨o', ho', hr⟩)
        · exact ⟨o, by simp, q, hq, hr⟩
        · exact ⟨o', List.mem_cons_of_mem _ ho', hr⟩
      · rintro ⟨o', ho', q', hq', hr⟩
        rcases List.mem_cons.mp ho' with rfl | ho'
        · refine .inl ?_
          obtain ⟨i, cs, rfl, hk, rfl⟩ := hq
          obtain ⟨i', cs', hi, hk', rfl⟩ := hq'
          cases hi
          obtain ⟨x, hx⟩ := folderPath (cfg := cfg) hk
          obtain ⟨y, hy⟩ := folderPath (cfg := cfg) hk'
          rw [hx] at hy
          simp only [Option.some.injEq, OsPath.mk.injEq, List.append_cancel_left_eq] at hy
          rw [hy.1]; exact hr
        · exact .inr ⟨o', ho', q', hq', hr⟩

/-- **C140** (again) Whatever became of them, it is enough to send them again, one after the other: all are answered with success, and
then the folders of the machine are those from before, those asked for and those on the way; nothing else is different. -/
theorem C140_again (hS : Spelled cfg.root A place) (h : Tree cfg ext A place s fs) (e : Epoch)
    (hos : ∀ o ∈ e.requests, (∃ q, FolderPut A place q o) ∧ ProperPut o) :
    (∀ x ∈ answered cfg ext e.requests (e.leaves cfg ext fs), x.2 = .ok (.etag none)) ∧
    ∃ t, t.bytes = s.bytes ∧ t.record = s.record ∧ t.parts = s.parts ∧
      (∀ r, t.folder r = true ↔ s.folder r = true ∨ AskedFor A place e.requests r) ∧
      Tree cfg ext A place t (afterAll cfg ext e.requests (e.leaves cfg ext fs)) := by
  obtain ⟨t, h1, h2, _⟩ := C140_moment hS h e (fun o ho => (hos o ho).1)
  obtain ⟨h3, u, u1, u2, u3, u4, u5⟩ := put_all hS e.requests h2 hos
  refine ⟨h3, u, u1.trans h1.bytes, u2.trans h1.record, u3.trans h1.parts, fun r => ?_, u5⟩
  rw [u4]
  constructor
  · rintro (hr | hr)
    · exact h1.asked r hr
    · exact .inr hr
  · rintro (hr | hr)
    · exact .inl (h1.keeps r hr)
    · exact .inr hr

/-- **C140** (DELETE) A DELETE of a folder key on a disk that may fail, cut off after any number of system calls, has changed nothing, or
has removed the folder, which was empty. When it has been answered with success, the answer and the state are those of the machine. -/
theorem C140_delete (hS : Spelled cfg.root A place) (h : Tree cfg ext A place s fs) {b k : Bytes} {cs : List Bytes}
    (hk : FolderKey A place b k cs) (g : Nat → Fault) (n : Nat) :
    ∃ t, Tree cfg ext A place t (runFN cfg g n (opProg cfg ext (.deleteObject b k)) fs).2 ∧
      (t = s ∨ (s.folder (b :: cs) = true ∧ s.Empty (b :: cs) ∧ t = { s with folder := fun r => s.folder r && decide (r ≠ b :: cs) })) ∧
      ∀ a, (runFN cfg g n (opProg cfg ext (.deleteObject b k)) fs).1 = .ret a → FolderStep s (b :: cs) (.deleteObject b k) (.ok a) t := by
  rcases folderDelete_cut (cfg := cfg) (ext := ext) (fs := fs) hk g n with ⟨h1, h2⟩ | ⟨hd, hch, h1, h2⟩
  · refine ⟨s, by rw [h1]; exact h, .inl rfl, fun a ha => ?_⟩
    obtain ⟨rfl, hd, hch⟩ := h2 a ha
    exact .full ((h.folders b cs hk.legal).mp hd) (fun hem => hch ((folder_empty h hk.legal).mpr hem))
  · obtain ⟨hf, hem, ht⟩ := tree_removed hS h hk hd hch
    refine ⟨_, by rw [h1]; exact ht, .inr ⟨hf, hem, rfl⟩, fun a ha => ?_⟩
    obtain rfl := h2 a ha
    exact .removed hf hem

theorem Sample.folderPut_proper : (∃ q, FolderPut Sample.spellings Sample.placeOf q (.putObject Sample.folderPut)) ∧
    ProperPut (.putObject Sample.folderPut) :=
  ⟨⟨_, _, _, rfl, Sample.folderKey, rfl⟩, _, rfl, by decide, by decide, rfl⟩

def Sample.foldersTwice : List Op := [.putObject Sample.folderPut, .putObject Sample.folderPut]

theorem Sample.foldersTwice_proper : ∀ o ∈ Sample.foldersTwice, (∃ q, FolderPut Sample.spellings Sample.placeOf q o) ∧ ProperPut o := by
  intro o ho
  simp only [Sample.foldersTwice, List.mem_cons, List.not_mem_nil, or_false, or_self] at ho
  subst ho
  exact Sample.folderPut_proper

/-- `C140_moment`, `C140_again`: in a bucket that is not there, the first of two PUTs of `d/` cannot make the bucket and is answered with
an error; the other one makes the bucket and is cut off. When it goes on, it has success. -/
example : Spelled Sample.cfg.root Sample.spellings Sample.placeOf ∧
    Tree Sample.cfg (realExt id) Sample.spellings Sample.placeOf Machine.fresh Sample.emptyStore ∧
    (∀ o ∈ Sample.foldersTwice, (∃ q, FolderPut Sample.spellings Sample.placeOf q o) ∧ ProperPut o) ∧
    (let e : Epoch := ⟨Sample.foldersTwice, [(0, .none), (1, .none), (0, .before), (0, .none), (1, .none)]⟩;
      e.answered Sample.cfg (realExt id) Sample.emptyStore 0 = some (.err .InternalError) ∧
      e.answered Sample.cfg (realExt id) Sample.emptyStore 1 = none ∧
      IsDir (e.leaves Sample.cfg (realExt id) Sample.emptyStore) (Sample.cfg.root ++ [b!"bbb"]) ∧
      ¬ IsDir (e.leaves Sample.cfg (realExt id) Sample.emptyStore) (Sample.cfg.root ++ [b!"bbb", b!"d"])) ∧
    (let e : Epoch := ⟨Sample.foldersTwice, [(0, .none), (1, .none), (0, .before), (0, .none), (1, .none), (1, .none), (1, .none)]⟩;
      e.answered Sample.cfg (realExt id) Sample.emptyStore 1 = some (.ok (.etag none))) :=
  ⟨Sample.spelled, tree_fresh Sample.spelled Sample.emptyStore_wf Sample.emptyStore_root Sample.emptyStore_bare, Sample.foldersTwice_proper,
    by unfold IsDir; decide +kernel, by decide +kernel⟩

/-- `C140_alone`, `C140_all`: both at the same time, each one finds the bucket missing, one makes it, the other finds it there, and both
have success -/
example : let e : Epoch := ⟨Sample.foldersTwice, [(0, .none), (1, .none), (0, .none), (1, .none), (0, .none), (1, .none), (0, .none),
      (1, .none), (0, .none), (1, .none)]⟩
    (∀ x ∈ e.steps, x.2 = .none) ∧ (∀ n, n < e.requests.length → e.answered Sample.cfg (realExt id) Sample.emptyStore n ≠ none) := by
  refine ⟨?_, ?_⟩
  · intro x hx
    simp only [List.mem_cons, List.not_mem_nil, or_false] at hx
    rcases hx with rfl | rfl | rfl | rfl | rfl | rfl | rfl | rfl | rfl | rfl <;> rfl
  · decide +kernel

/-- `C140_delete`: of the folder just made; cut off before its last system call, it has changed nothing; when that call is done, the
folder is gone -/
example : FolderKey Sample.spellings Sample.placeOf b!"bbb" b!"d/" [b!"d"] ∧
    Tree Sample.cfg (realExt id) Sample.spellings Sample.placeOf
      { Machine.fresh with folder := fun r => Machine.fresh.folder r || decide (r <+: [b!"bbb", b!"d"]) }
      (after Sample.cfg (realExt id) (.putObject Sample.folderPut) Sample.emptyStore) ∧
    (let fs := after Sample.cfg (realExt id) (.putObject Sample.folderPut) Sample.emptyStore;
      IsDir (runFN Sample.cfg (fun _ => .none) 1 (opProg Sample.cfg (realExt id) (.deleteObject b!"bbb" b!"d/")) fs).2
        (Sample.cfg.root ++ [b!"bbb", b!"d"]) ∧
      ¬ IsDir (runFN Sample.cfg (fun _ => .none) 9 (opProg Sample.cfg (realExt id) (.deleteObject b!"bbb" b!"d/")) fs).2
        (Sample.cfg.root ++ [b!"bbb", b!"d"])) :=
  ⟨Sample.folderKey, (proper_answer Sample.spelled
      (tree_fresh Sample.spelled Sample.emptyStore_wf Sample.emptyStore_root Sample.emptyStore_bare)
      ⟨_, _, rfl, Sample.folderKey, rfl⟩ Sample.folderPut_proper.2).2, by unfold IsDir; decide +kernel⟩

end S3
