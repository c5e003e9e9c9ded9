import Verif.Lemmas.FaultCrash
import Verif.Lemmas.Put
import Verif.Props.Isolated
import Verif.Spec.Life
/-! Concurrent requests on a disk that may fail. -/
namespace S3
open Spec

variable {cfg : Cfg} {ext : Ext} {α β : Type} {R : FS → FS → Prop}

theorem stepProgF_wf {p : Prog α} {f : Fault} {fs : FS} (h : WF fs) : WF (stepProgF cfg p f fs).2 := by
  cases p with
  | sys c k => exact execF_wf h c f
  | _ => exact h

theorem runParF_wf {steps : List (Nat × Fault)} {ps : List (Prog α)} {fs : FS} (h : WF fs) : WF (runParF cfg steps ps fs).2 := by
  induction steps generalizing ps fs with
  | nil => exact h
  | cons x s ih =>
    simp only [runParF]
    split
    · exact ih h
    · exact ih (stepProgF_wf h)

/-- an invariant of all calls -/
theorem runParF_inv {ok : Call → Prop} {J : FS → Prop} (hJ : ∀ fs c f, WF fs → J fs → ok c → J (execF cfg fs c f).2)
    {steps : List (Nat × Fault)} {ps : List (Prog α)} (hs : ∀ p ∈ ps, Safe ok (fun _ => True) p) {fs : FS} (hw : WF fs) (h : J fs) :
    J (runParF cfg steps ps fs).2 := by
  induction steps generalizing ps fs with
  | nil => exact h
  | cons x s ih =>
    obtain ⟨i, f⟩ := x
    simp only [runParF]
    split
    · exact ih hs hw h
    · rename_i p hi
      have hp := hs p (List.mem_of_getElem? hi)
      refine ih ?_ (stepProgF_wf hw) ?_
      · intro q hq
        rcases List.mem_or_eq_of_mem_set hq with hq | rfl
        · exact hs q hq
        · cases p with
          | sys c k => exact hp.2 _ (execF_respOk hw c f)
          | _ => exact hp
      · cases p with
        | sys c k => exact hJ _ _ _ hw h hp.1
        | _ => exact h

/-- `wpF cfg R Q p fs`: if `p`, started on `fs` on a disk that may fail while others change the tree between its calls as `R` allows,
ends with a result, then `Q` holds of it -/
def wpF (cfg : Cfg) (R : FS → FS → Prop) (Q : α → FS → Prop) : Prog α → FS → Prop
  | .ret a, fs => ∀ fs', R fs fs' → WF fs' → Q a fs'
  | .sys c k, fs => ∀ fs' f, R fs fs' → WF fs' → wpF cfg R Q (k (execF cfg fs' c f).1) (execF cfg fs' c f).2
  | _, _ => True

theorem wpF_rely (hR : Rely R) {Q : α → FS → Prop} {p : Prog α} {a b : FS} (h : wpF cfg R Q p a) (hab : R a b) : wpF cfg R Q p b := by
  cases p with
  | ret a => exact fun fs' h' hw => h fs' (hR.trans _ _ _ hab h') hw
  | sys c k => exact fun fs' f h' hw => h fs' f (hR.trans _ _ _ hab h') hw
  | _ => trivial

theorem wpF_mono {Q Q' : α → FS → Prop} (hq : ∀ a fs, WF fs → Q a fs → Q' a fs) {p : Prog α} {fs : FS} (h : wpF cfg R Q p fs) :
    wpF cfg R Q' p fs := by
  induction p generalizing fs with
  | ret a => exact fun fs' h' hw => hq _ _ hw (h fs' h' hw)
  | sys c k ih => exact fun fs' f h' hw => ih _ (h fs' f h' hw)
  | _ => trivial

theorem wpF_true (p : Prog α) (fs : FS) {Q : α → FS → Prop} (h : ∀ a fs, WF fs → Q a fs) : wpF cfg R Q p fs := by
  induction p generalizing fs with
  | ret a => exact fun fs' _ hw => h _ _ hw
  | sys c k ih => exact fun fs' f _ _ => ih _ _
  | _ => trivial

theorem wpF_never {p : Prog α} (h : Never p) {Q : α → FS → Prop} (fs : FS) : wpF cfg R Q p fs := by
  induction p generalizing fs with
  | ret a => exact h.elim
  | sys c k ih => exact fun fs' f _ _ => ih _ (h _) _
  | _ => trivial

theorem wpF_bind (hR : Rely R) {Q : β → FS → Prop} {p : Prog α} {f : α → Prog β} {fs : FS} (hw : WF fs)
    (h : wpF cfg R (fun a fs => wpF cfg R Q (f a) fs) p fs) : wpF cfg R Q (p.bind f) fs := by
  induction p generalizing fs with
  | ret a => exact h fs (hR.refl _) hw
  | sys c k ih => exact fun fs' g h' hw' => ih _ (execF_wf hw' c g) (h fs' g h' hw')
  | _ => trivial

/-- a call whose failure is noticed -/
theorem wpF_call {c : Call} {k : Resp c → Prog β} {Q : β → FS → Prop} {fs : FS} (hn : Never (k (failed c)))
    (h : ∀ fs', R fs fs' → WF fs' → wpF cfg R Q (k (exec cfg fs' c).1) (exec cfg fs' c).2) :
    wpF cfg R Q ((call c).bind k) fs := by
  intro fs' f hr hw
  cases f with
  | none => exact h fs' hr hw
  | before => exact wpF_never hn _
  | after => exact wpF_never hn _
  | during n rs => exact wpF_never hn _

theorem wpF_orInternal {o : Option α} {f : α → Prog β} {Q : β → FS → Prop} {fs : FS}
    (h : ∀ a, o = some a → wpF cfg R Q (f a) fs) : wpF cfg R Q ((orInternal o).bind f) fs := by
  cases o with
  | none => trivial
  | some a => exact h a rfl

/-- one request among others: what it promises when it has been answered -/
theorem runParF_wp (hR : Rely R) {Q : α → FS → Prop} {ok : Nat → Call → Prop} {i : Nat}
    (hg : ∀ j fs c f, j ≠ i → WF fs → ok j c → R fs (execF cfg fs c f).2)
    {steps : List (Nat × Fault)} {ps : List (Prog α)} {fs : FS} (hw : WF fs)
    (hs : ∀ (j : Nat) p, ps[j]? = some p → Safe (ok j) (fun _ => True) p)
    (hp : ∀ p, ps[i]? = some p → wpF cfg R Q p fs) {p : Prog α} (h : (runParF cfg steps ps fs).1[i]? = some p) :
    wpF cfg R Q p (runParF cfg steps ps fs).2 := by
  induction steps generalizing ps fs with
  | nil => exact hp p h
  | cons x s ih =>
    obtain ⟨j, f⟩ := x
    revert h
    simp only [runParF]
    split
    · exact fun h => ih hw hs hp h
    · rename_i q hj
      have hlt : j < ps.length := (List.getElem?_eq_some_iff.mp hj).1
      refine fun h => ih (stepProgF_wf hw) ?_ ?_ h
      · intro m r hr
        by_cases hm : m = j
        · subst hm
          rw [List.getElem?_set_self hlt] at hr
          cases hr
          have := hs m q hj
          cases q with
          | sys c k => exact this.2 _ (execF_respOk hw c f)
          | _ => exact this
        · rw [List.getElem?_set_ne (fun e => hm e.symm)] at hr
          exact hs m r hr
      · intro r hr
        by_cases hm : i = j
        · subst hm
          rw [List.getElem?_set_self hlt] at hr
          cases hr
          have := hp q hj
          cases q with
          | sys c k => exact this fs f (hR.refl _) hw
          | _ => exact this
        · rw [List.getElem?_set_ne (fun e => hm e.symm)] at hr
          refine wpF_rely hR (hp r hr) ?_
          have := hs j q hj
          cases q with
          | sys c k => exact hg j fs c f (fun e => hm e.symm) hw this.1
          | _ => exact hR.refl _

/-- the same for a run of the server -/
theorem epoch_wp (hR : Rely R) {Q : Answer → FS → Prop} {e : Epoch} {i : Nat} {o : Op} (hi : e.requests[i]? = some o)
    (hg : ∀ (j : Nat) o', j ≠ i → e.requests[j]? = some o' → ∀ fs c f, WF fs → (opPerm cfg o').ok c → R fs (execF cfg fs c f).2)
    {fs : FS} (hw : WF fs) (hp : wpF cfg R Q (opProg cfg ext o) fs) {a : Answer}
    (h : e.answered cfg ext fs i = some (.ok a)) : Q a (e.leaves cfg ext fs) := by
  have hget : ∀ j : Nat, (e.requests.map (opProg cfg ext))[j]? = (e.requests[j]?).map (opProg cfg ext) := fun j => List.getElem?_map
  simp only [Epoch.answered, Option.bind_eq_some_iff] at h
  obtain ⟨p, hpp, ho⟩ := h
  have key := runParF_wp hR (Q := Q) (ok := fun j c => ∃ o', e.requests[j]? = some o' ∧ (opPerm cfg o').ok c) (i := i)
    (fun j fs c f hj hwf hok => by obtain ⟨o', ho', hok⟩ := hok; exact hg j o' hj ho' fs c f hwf hok) hw
    (by
      intro j p hj
      rw [hget, Option.map_eq_some_iff] at hj
      obtain ⟨o', ho', rfl⟩ := hj
      exact (op_safe cfg ext o').mono (fun c hc => ⟨o', ho', hc⟩) (fun _ h => h))
    (by
      intro p hj
      rw [hget, hi] at hj
      cases hj
      exact hp) hpp
  cases p <;> simp [Prog.outcome] at ho
  subst ho
  exact key _ (hR.refl _) (runParF_wf hw)

/-! ### the operations that write -/

theorem wpF_copyBytes (hR : Rely R) {own : Path → Prop} (hk : ∀ a b, WF a → WF b → R a b → KeepFiles own a b)
    {P : Path} (hP : own P) {i : Ino} (body : Body) :
    ∀ {fs : FS} {c : Bytes}, WF fs → Has fs P i c →
      wpF cfg R (fun a fs' => Has fs' P i (c ++ received body) ∧ unbroken body ∧ a = received body) (copyBytes i c.length body) fs := by
  induction body with
  | nil =>
    intro fs c hw h fs' hr hw'
    exact ⟨by simpa [received] using hk _ _ hw hw' hr _ _ _ hP h, by simp [unbroken], rfl⟩
  | cons x rest ih =>
    intro fs c hw h
    cases x with
    | none => trivial
    | some b =>
      simp only [copyBytes, received, not_unbroken_cons]
      split
      · rename_i hb
        subst hb
        simpa using ih hw h
      · simp only [bind_eq, pure_eq]
        refine wpF_call trivial fun fs' hr hw' => ?_
        have h1 := (hk _ _ hw hw' hr _ _ _ hP h).write (cfg := cfg) c.length b
        rw [splice_end] at h1
        have hw1 := exec_wf cfg hw' (.writeAt i c.length b)
        refine wpF_bind hR hw1 ?_
        have h2 := ih hw1 h1
        rw [List.length_append] at h2
        refine wpF_mono ?_ h2
        rintro a fs2 hw2 ⟨h3, h4, rfl⟩
        rw [List.append_assoc] at h3
        exact fun fs3 hr3 hw3 => ⟨hk _ _ hw2 hw3 hr3 _ _ _ hP h3, h4, rfl⟩

theorem wpF_saveMetadata {own : Path → Prop} (hk : ∀ a b, WF a → WF b → R a b → KeepFiles own a b) {P : Path} (hP : own P)
    {b k : Bytes} (hM : own (metaFile cfg b k)) (hne : P ≠ metaFile cfg b k) (m : Meta) {fs : FS} (hw : WF fs) {i : Ino} {c : Bytes}
    (h : Has fs P i c) :
    wpF cfg R (fun _ fs' => Has fs' P i c ∧ contentAt fs' (metaFile cfg b k) = some (ext.metaEnc m)) (saveMetadata cfg ext b k m) fs := by
  simp only [saveMetadata, metadataPath_eq, bind_eq, pure_eq]
  show wpF _ _ _ ((call _).bind _) _
  refine wpF_call trivial fun fs' hr hw' => ?_
  have h1 := hk _ _ hw hw' hr _ _ _ hP h
  have h2 : Has (exec cfg fs' (.create ⟨cfg.root ++ [metadataName b k], false⟩)).2 P i c :=
    exec_write_keep hw' hne (c := .create _) rfl h1
  have hw2 := exec_wf cfg hw' (.create ⟨cfg.root ++ [metadataName b k], false⟩)
  cases hc : (exec cfg fs' (.create ⟨cfg.root ++ [metadataName b k], false⟩)).1 with
  | none => trivial
  | some j =>
    have hj := (exec_create_snd hc).1
    show wpF _ _ _ ((call _).bind _) _
    refine wpF_call trivial fun fs3 hr3 hw3 => ?_
    have h3 := hk _ _ hw2 hw3 hr3 _ _ _ hP h2
    have hj3 := hk _ _ hw2 hw3 hr3 _ _ _ hM hj
    have hjp := (hw3.ino _ _ hj3.node).1
    have h4 : Has (exec cfg fs3 (.writeAt j 0 (ext.metaEnc m))).2 P i c :=
      exec_write_keep hw3 hne (c := .writeAt j 0 _) hjp h3
    have hj4 := hj3.write (cfg := cfg) 0 (ext.metaEnc m)
    rw [splice_nil] at hj4
    have hw4 := exec_wf cfg hw3 (.writeAt j 0 (ext.metaEnc m))
    intro fs5 hr5 hw5
    exact ⟨hk _ _ hw4 hw5 hr5 _ _ _ hP h4, (hk _ _ hw4 hw5 hr5 _ _ _ hM hj4).content⟩

theorem wpF_putObject (hR : Rely R) {own : Path → Prop} (hk : ∀ a b, WF a → WF b → R a b → KeepFiles own a b) (i : PutInput)
    (hkey : endsWithByte i.key 47 = false) (hb : checkBucketName i.bucket = true)
    (hP : ∀ q, objP cfg i.bucket i.key q → own q) (hM : own (metaFile cfg i.bucket i.key)) {fs : FS} (hw : WF fs) :
    wpF cfg R (fun e fs' => PutDone cfg ext i e fs') (putObject cfg ext i) fs := by
  simp only [putObject, bind_eq, pure_eq]
  split
  · trivial
  split
  · trivial
  rename_i body hbody
  simp only [hkey, Bool.false_eq_true, if_false]
  cases hp : objectPath cfg i.bucket i.key with
  | none => trivial
  | some p =>
    have hPp : own p.comps := hP _ ⟨p, hp, rfl⟩
    have hne : p.comps ≠ metaFile cfg i.bucket i.key := objectPath_ne_meta hb hp
    have rest : ∀ fs, WF fs → wpF cfg R (fun e fs' => PutDone cfg ext i e fs')
        ((call (.create p)).bind fun r => (orInternal r).bind fun ino =>
          (copyBytes ino 0 body).bind fun content =>
            (saveOptional cfg ext i.bucket i.key i.metadata).bind fun _ =>
              .ret (some (quoted (ext.md5hex content)))) fs := by
      intro fs hw
      refine wpF_call trivial fun fs1 hr1 hw1 => ?_
      have hw2 := exec_wf cfg hw1 (.create p)
      cases hc : (exec cfg fs1 (.create p)).1 with
      | none => trivial
      | some ino =>
        obtain ⟨h0, hs⟩ := exec_create_snd hc
        simp only [orInternal]
        show wpF _ _ _ ((copyBytes ino 0 body).bind _) _
        refine wpF_bind hR hw2 ?_
        refine wpF_mono ?_ (wpF_copyBytes hR hk hPp body hw2 h0)
        rintro a fs3 hw3 ⟨h3, hu, rfl⟩
        rw [List.nil_append] at h3
        have hst : ∀ {fs}, Has fs p.comps ino (received body) → stored cfg fs i.bucket i.key = some (received body) := by
          intro fs h
          simp [stored, hp, hs, h.content]
        cases hm : i.metadata with
        | none =>
          intro fs4 hr4 hw4
          refine ⟨⟨body, hbody, hu, hst (hk _ _ hw3 hw4 hr4 _ _ _ hPp h3), rfl⟩, ?_⟩
          intro m h; rw [hm] at h; cases h
        | some m =>
          refine wpF_bind hR hw3 ?_
          refine wpF_mono ?_ (wpF_saveMetadata hk hPp hM hne m hw3 h3)
          rintro _ fs4 hw4 ⟨h5, h6⟩ fs5 hr5 hw5
          refine ⟨⟨body, hbody, hu, hst (hk _ _ hw4 hw5 hr5 _ _ _ hPp h5), rfl⟩, ?_⟩
          intro m' h
          rw [hm] at h; cases h
          simp only [contentAt] at h6
          split at h6
          · rename_i j hj
            exact (hk _ _ hw4 hw5 hr5 _ _ _ hM ⟨hj, Option.some.inj h6⟩).content
          · cases h6
    show wpF _ _ _ (if p.comps ≠ [] then _ else _) _
    split
    · refine wpF_bind hR hw ?_
      exact wpF_true _ _ fun _ fs' hw' => rest fs' hw'
    · exact rest fs hw

/-! ### isolation -/

theorem failed_match (Z : Path → Prop) {a b : FS} (h : Match Z a b) {c : Call} (hc : localCall Z c) (n : Nat) (rs : List Path) :
    Match Z (partialEffect a n rs c) (partialEffect b n rs c) := by
  cases c with
  | writeAt i off x =>
    simp only [partialEffect]
    split
    · exact h
    · rw [h.data i hc]; exact h.setData _ _
  | rmtree p => exact hc.elim
  | _ => exact h

theorem execF_match {Z : Path → Prop} {a b : FS} (hw : WF b) (h : Match Z a b) {c : Call} (hc : localCall Z c) (f : Fault) :
    (execF cfg a c f).1 = (execF cfg b c f).1 ∧ Match Z (execF cfg a c f).2 (execF cfg b c f).2 := by
  cases f with
  | none => exact exec_match cfg hw h hc
  | before => exact ⟨rfl, h⟩
  | after => exact ⟨rfl, (exec_match cfg hw h hc).2⟩
  | during n rs => exact ⟨rfl, failed_match Z h hc n rs⟩

theorem execF_dirs {U Z : Path → Prop} {fs : FS} {c : Call} (hc : localCall Z c) (h : Dirs U fs) (f : Fault) :
    Dirs U (execF cfg fs c f).2 := by
  cases f with
  | none => exact exec_dirs cfg hc h
  | before => exact h
  | after => exact exec_dirs cfg hc h
  | during n rs =>
    cases c with
    | writeAt i off x =>
      show Dirs U (partialEffect _ _ _ _)
      simp only [partialEffect]
      split
      · exact h
      · exact h
    | rmtree p => exact hc.elim
    | _ => exact h

theorem runFN_done (p : Prog α) : ∀ (d : Nat → Fault) (m : Nat) (fs : FS) {r : Outcome α}, (runFN cfg d m p fs).1.outcome = some r →
    runF cfg d p fs = (r, (runFN cfg d m p fs).2) := by
  induction p with
  | sys c k ih =>
    intro d m fs r h
    cases m with
    | zero => simp [runFN, Prog.outcome] at h
    | succ m => exact ih _ _ m _ h
  | _ => intro d m fs r h; cases m <;> simp [runFN, Prog.outcome] at h <;> subst h <;> rfl

/-- A program that stays in a region others keep: whatever the schedule and the faults, it is where it would be alone, on a disk with
some faults, stopped after some number of calls. -/
theorem isolatedF {U Z : Path → Prop} {n : Nat} {ok : Nat → Call → Prop}
    (hg : ∀ j fs c f, j ≠ n → WF fs → ok j c → RegionRely U Z fs (execF cfg fs c f).2) (steps : List (Nat × Fault)) :
    ∀ {ps : List (Prog α)} {p : Prog α} {a b : FS}, WF a → WF b → Dirs U a → Match Z a b →
      (∀ (j : Nat) q, j ≠ n → ps[j]? = some q → Safe (ok j) (fun _ => True) q) → ps[n]? = some p → Safe (localCall Z) (fun _ => True) p →
      ∃ d m, (∀ i, d i = .none ∨ (n, d i) ∈ steps) ∧ (runParF cfg steps ps a).1[n]? = some (runFN cfg d m p b).1 ∧
        Match Z (runParF cfg steps ps a).2 (runFN cfg d m p b).2 := by
  induction steps with
  | nil =>
    intro ps p a b _ _ _ hm _ hp _
    exact ⟨fun _ => .none, 0, fun _ => .inl rfl, by cases p <;> exact hp, by cases p <;> exact hm⟩
  | cons x steps ih =>
    obtain ⟨j, f⟩ := x
    intro ps p a b hwa hwb hd hm hs hp hl
    have more : ∀ {d : Nat → Fault}, (∀ i, d i = .none ∨ (n, d i) ∈ steps) → ∀ i, d i = .none ∨ (n, d i) ∈ (j, f) :: steps :=
      fun h i => (h i).imp id (List.mem_cons_of_mem _)
    simp only [runParF]
    split
    · obtain ⟨d, m, h0, h⟩ := ih hwa hwb hd hm hs hp hl
      exact ⟨d, m, more h0, h⟩
    · rename_i q hj
      have hlt : j < ps.length := (List.getElem?_eq_some_iff.mp hj).1
      by_cases e : j = n
      · subst e
        rw [hp] at hj
        cases hj
        have hs' : ∀ (i : Nat) r, i ≠ j → (ps.set j (stepProgF cfg p f a).1)[i]? = some r → Safe (ok i) (fun _ => True) r := by
          intro i r hi hr
          rw [List.getElem?_set_ne (fun e => hi e.symm)] at hr
          exact hs i r hi hr
        have hp' : (ps.set j (stepProgF cfg p f a).1)[j]? = some (stepProgF cfg p f a).1 := List.getElem?_set_self hlt
        cases p with
        | sys c k =>
          obtain ⟨h1, h2⟩ := execF_match (cfg := cfg) hwb hm hl.1 f
          obtain ⟨d, m, h0, h3, h4⟩ := ih (b := (execF cfg b c f).2) (execF_wf (cfg := cfg) hwa c f) (execF_wf hwb c f)
            (execF_dirs hl.1 hd f) h2 hs' hp' (hl.2 _ (execF_respOk hwa c f))
          have e : (stepProgF cfg (.sys c k) f a).1 = k (execF cfg b c f).1 := by simp only [stepProgF, h1]
          refine ⟨fun i => i.casesOn f d, m + 1, ?_, ?_, ?_⟩
          · intro i
            cases i with
            | zero => exact .inr (List.mem_cons_self ..)
            | succ i => exact more h0 i
          · rw [e] at h3; simp only [stepProgF, h1]; exact h3
          · rw [e] at h4; simp only [stepProgF, h1]; exact h4
        | _ =>
          obtain ⟨d, m, h0, h⟩ := ih hwa hwb hd hm hs' hp' hl
          exact ⟨d, m, more h0, h⟩
      · have hq := hs j q e hj
        have hr : RegionRely U Z a (stepProgF cfg q f a).2 := by
          cases q with
          | sys c k => exact hg j a c f e hwa hq.1
          | _ => exact (rely_region U Z).refl _
        obtain ⟨hd', hm'⟩ := hr hd
        have hs' : ∀ (i : Nat) r, i ≠ n → (ps.set j (stepProgF cfg q f a).1)[i]? = some r → Safe (ok i) (fun _ => True) r := by
          intro i r hi hr
          by_cases hij : i = j
          · subst hij
            rw [List.getElem?_set_self hlt] at hr
            cases hr
            cases q with
            | sys c k => exact hq.2 _ (execF_respOk hwa c f)
            | _ => exact hq
          · rw [List.getElem?_set_ne (fun e => hij e.symm)] at hr
            exact hs i r hi hr
        obtain ⟨d, m, h0, h⟩ := ih (stepProgF_wf hwa) hwb hd' (hm'.symm.trans hm) hs' (by rw [List.getElem?_set_ne e]; exact hp) hl
        exact ⟨d, m, more h0, h⟩

theorem runFN_moment (d : Nat → Fault) (m : Nat) (o : Op) (fs : FS) :
    Moment cfg ext d o fs (runFN cfg d m (opProg cfg ext o) fs).2 := .inl ⟨m, rfl⟩

theorem runF_sound (p : Prog α) : ∀ {d : Nat → Fault}, (∀ i, d i = .none) → ∀ fs, runF cfg d p fs = run cfg p fs := by
  induction p with
  | sys c k ih =>
    intro d h fs
    simp only [runF, h 0, execF, run]
    exact ih _ (fun i => h (i + 1)) _
  | _ => exact fun _ _ => rfl

/-! ### requests elsewhere keep an object, a part -/

theorem life_inv {J : FS → Prop} {P : Op → Prop} (hJ : ∀ o, P o → ∀ fs c f, WF fs → J fs → (opPerm cfg o).ok c → J (execF cfg fs c f).2)
    {es : List Epoch} (h : ∀ e ∈ es, ∀ o ∈ e.requests, P o) : ∀ {fs : FS}, WF fs → J fs → J (life cfg ext es fs) ∧ WF (life cfg ext es fs) := by
  induction es with
  | nil => exact fun hw h => ⟨h, hw⟩
  | cons e es ih =>
    intro fs hw h0
    refine ih (fun e' he' => h e' (List.mem_cons_of_mem _ he')) (runParF_wf hw) ?_
    refine runParF_inv (ok := fun c => ∃ o, P o ∧ (opPerm cfg o).ok c) (fun fs c f hw hj hc => ?_) ?_ hw h0
    · obtain ⟨o, ho, hc⟩ := hc
      exact hJ o ho fs c f hw hj hc
    · intro p hp
      obtain ⟨o, ho, rfl⟩ := List.mem_map.mp hp
      exact (op_safe cfg ext o).mono (fun c hc => ⟨o, h e (List.mem_cons_self ..) o ho, hc⟩) (fun _ h => h)

end S3
