import Verif.Lemmas.Life
import Verif.Spec.Clock
/-! Times: what system calls, requests and lives of the server do to them. -/
namespace S3
open Spec

variable {cfg : Cfg} {ext : Ext} {α β : Type}

/-! ### the run without the times -/

theorem runParT_fs (steps : List (Nat × Fault × Time)) : ∀ (ps : List (Prog α)) (s : FS × Stamps),
    (runParT cfg steps ps s).1 = (runParF cfg (steps.map fun x => (x.1, x.2.1)) ps s.1).1 ∧
    (runParT cfg steps ps s).2.1 = (runParF cfg (steps.map fun x => (x.1, x.2.1)) ps s.1).2 := by
  induction steps with
  | nil => exact fun _ _ => ⟨rfl, rfl⟩
  | cons x steps ih =>
    obtain ⟨i, f, now⟩ := x
    intro ps ⟨fs, t⟩
    simp only [runParT, List.map_cons, runParF]
    cases ps[i]? with
    | none => exact ih _ _
    | some p => exact ih _ _

theorem timed_leaves (e : TimedEpoch) (s : FS × Stamps) : (e.leaves cfg ext s).1 = e.epoch.leaves cfg ext s.1 := (runParT_fs _ _ _).2

theorem timed_answered (e : TimedEpoch) (s : FS × Stamps) (n : Nat) : e.answered cfg ext s n = e.epoch.answered cfg ext s.1 n := by
  rw [TimedEpoch.answered, (runParT_fs _ _ _).1]; rfl

theorem timed_life (es : List TimedEpoch) : ∀ s : FS × Stamps, (timedLife cfg ext es s).1 = life cfg ext (es.map (·.epoch)) s.1 := by
  induction es with
  | nil => exact fun _ => rfl
  | cons e es ih => intro s; rw [timedLife, ih, timed_leaves]; rfl

/-! ### an invariant of all steps -/

/-- what a step of a thread does to the file tree and the times -/
def stepT (cfg : Cfg) (s : FS × Stamps) (c : Call) (f : Fault) (now : Time) : FS × Stamps :=
  ((execF cfg s.1 c f).2, stampF cfg s.1 c now s.2 f)

theorem runParT_joint {steps : List (Nat × Fault × Time)} {J : List (Prog α) → FS × Stamps → Prop}
    (hJ : ∀ i f now, (i, f, now) ∈ steps → ∀ ps s c k, WF s.1 → J ps s → ps[i]? = some (.sys c k) →
      J (ps.set i (k (execF cfg s.1 c f).1)) (stepT cfg s c f now)) :
    ∀ {ps : List (Prog α)} {s : FS × Stamps}, WF s.1 → J ps s → J (runParT cfg steps ps s).1 (runParT cfg steps ps s).2 := by
  induction steps with
  | nil => exact fun _ h => h
  | cons x steps ih =>
    obtain ⟨i, f, now⟩ := x
    intro ps ⟨fs, t⟩ hw h
    have ih := @ih fun i f now hm => hJ i f now (List.mem_cons_of_mem _ hm)
    simp only [runParT]
    cases hp : ps[i]? with
    | none => exact ih hw h
    | some p =>
      cases p with
      | sys c k => exact ih (execF_wf hw c f) (hJ i f now (List.mem_cons_self ..) ps (fs, t) c k hw h hp)
      | _ =>
        dsimp only [stepProgF, stampProg]
        rw [show ps.set i _ = ps from by
          obtain ⟨hlt, he⟩ := List.getElem?_eq_some_iff.mp hp
          rw [← he]; exact List.set_getElem_self hlt]
        exact ih hw h

/-- an invariant of the file tree and the times -/
theorem runParT_inv {steps : List (Nat × Fault × Time)} {ok : Nat → Call → Prop} {J : FS × Stamps → Prop}
    (hJ : ∀ i f now, (i, f, now) ∈ steps → ∀ s c, WF s.1 → J s → ok i c → J (stepT cfg s c f now))
    {ps : List (Prog α)} (hs : ∀ (i : Nat) p, ps[i]? = some p → Safe (ok i) (fun _ => True) p) {s : FS × Stamps} (hw : WF s.1) (h : J s) :
    J (runParT cfg steps ps s).2 := by
  refine (runParT_joint (steps := steps) (J := fun ps s => (∀ (i : Nat) p, ps[i]? = some p → Safe (ok i) (fun _ => True) p) ∧ J s) ?_ hw ⟨hs, h⟩).2
  intro i f now hm ps s c k hw ⟨hs, h⟩ hp
  have hsp := hs i _ hp
  have hlt : i < ps.length := (List.getElem?_eq_some_iff.mp hp).1
  refine ⟨?_, hJ i f now hm s c hw h hsp.1⟩
  intro m r hr
  by_cases e : m = i
  · subst e
    rw [List.getElem?_set_self hlt] at hr
    cases hr
    exact hsp.2 _ (execF_respOk hw c f)
  · rw [List.getElem?_set_ne (fun h => e h.symm)] at hr
    exact hs m r hr

/-! ### one call: a file stays as it is, or is stamped -/

/-- the file at `P`, if there is one, is the same, with the same content and time -/
structure SameFile (P : Path) (s s' : FS × Stamps) : Prop where
  node : s'.1.lookup P = s.1.lookup P
  data : ∀ i, s.1.lookup P = some (.file i) → s'.1.data i = s.1.data i ∧ s'.2.modified i = s.2.modified i

/-- the file at `P`, if there is one, has a time in `T` -/
def Stamped (T : Time → Prop) (P : Path) (s : FS × Stamps) : Prop := ∀ i, s.1.lookup P = some (.file i) → T (s.2.modified i)

theorem SameFile.refl (P : Path) (s : FS × Stamps) : SameFile P s s := ⟨rfl, fun _ _ => ⟨rfl, rfl⟩⟩

theorem SameFile.trans {P : Path} {a b c : FS × Stamps} (h1 : SameFile P a b) (h2 : SameFile P b c) : SameFile P a c :=
  ⟨h2.node.trans h1.node, fun i hi => by
    obtain ⟨d1, m1⟩ := h1.data i hi
    obtain ⟨d2, m2⟩ := h2.data i (h1.node.trans hi)
    exact ⟨d2.trans d1, m2.trans m1⟩⟩

theorem Stamped.same {T : Time → Prop} {P : Path} {a b : FS × Stamps} (h : Stamped T P a) (hs : SameFile P a b) : Stamped T P b := by
  intro i hi
  have hi' := hs.node.symm.trans hi
  rw [(hs.data i hi').2]
  exact h i hi'

/-- only nodes have gone -/
theorem gone_effect {P : Path} {fs fs' : FS} {t : Stamps} (hn : fs'.lookup P = fs.lookup P ∨ fs'.lookup P = none) (hd : fs'.data = fs.data)
    (T : Time → Prop) : SameFile P (fs, t) (fs', t) ∨ Stamped T P (fs', t) := by
  rcases hn with h | h
  · exact .inl ⟨h, fun _ _ => ⟨by rw [hd], rfl⟩⟩
  · exact .inr fun i hi => by rw [show fs'.lookup P = none from h] at hi; cases hi

theorem write_effect {P : Path} {fs : FS} {t : Stamps} {i : Ino} {d : Bytes} {now : Time} :
    SameFile P (fs, t) (fs.setData i d, t.touch i now) ∨ Stamped (· = now) P (fs.setData i d, t.touch i now) := by
  by_cases h : fs.lookup P = some (.file i)
  · refine .inr fun j hj => ?_
    have hj : fs.lookup P = some (.file j) := hj
    rw [h] at hj
    cases hj
    simp [Stamps.touch]
  · refine .inl ⟨rfl, fun j hj => ?_⟩
    have : j ≠ i := by rintro rfl; exact h hj
    exact ⟨by simp [FS.setData, this], by simp [Stamps.touch, this]⟩

theorem erase_lookup {fs : FS} {p P : Path} : (fs.erase p).lookup P = fs.lookup P ∨ (fs.erase p).lookup P = none := by
  rw [lookup_erase]
  by_cases h : P = []
  · left; simp [h, FS.lookup]
  · rw [if_neg h]; split <;> simp

theorem eraseTree_lookup {fs : FS} {p P : Path} : (fs.eraseTree p).lookup P = fs.lookup P ∨ (fs.eraseTree p).lookup P = none := by
  rw [lookup_eraseTree]
  by_cases h : P = []
  · left; simp [h, FS.lookup]
  · rw [if_neg h]; split <;> simp

theorem foldl_lookup {p P : Path} (rs : List Path) : ∀ {fs : FS},
    ((rs.foldl (fun fs q => if p.isPrefixOf q then fs.eraseTree q else fs) fs).lookup P = fs.lookup P ∨
      (rs.foldl (fun fs q => if p.isPrefixOf q then fs.eraseTree q else fs) fs).lookup P = none) ∧
    (rs.foldl (fun fs q => if p.isPrefixOf q then fs.eraseTree q else fs) fs).data = fs.data := by
  induction rs with
  | nil => exact ⟨.inl rfl, rfl⟩
  | cons r rs ih =>
    intro fs
    simp only [List.foldl_cons]
    by_cases h : p.isPrefixOf r = true
    · rw [if_pos h]
      obtain ⟨h1, h2⟩ := ih (fs := fs.eraseTree r)
      refine ⟨?_, h2⟩
      rcases h1 with h1 | h1
      · rcases eraseTree_lookup (fs := fs) (p := r) (P := P) with e | e
        · exact .inl (h1.trans e)
        · exact .inr (h1.trans e)
      · exact .inr h1
    · rw [if_neg h]; exact ih

theorem exec_effect (P : Path) {s : FS × Stamps} (hw : WF s.1) (c : Call) (now : Time) :
    SameFile P s ((exec cfg s.1 c).2, stamp cfg s.1 c now s.2) ∨ Stamped (· = now) P ((exec cfg s.1 c).2, stamp cfg s.1 c now s.2) := by
  obtain ⟨fs, t⟩ := s
  cases c with
  | mkdir p =>
    have hf := exec_frame cfg (own := fun _ => False) (up := fun _ => True) hw (c := .mkdir p) (.inl trivial)
    have hm : (stamp cfg fs (.mkdir p) now t).modified = t.modified := by
      simp only [stamp]; split <;> rfl
    rcases hf.node P (fun h => h) with h | ⟨_, _, h⟩
    · exact .inl ⟨h, fun i _ => ⟨hf.data i (fun h => h), by rw [hm]⟩⟩
    · exact .inr fun i hi => by rw [show (exec cfg fs (.mkdir p)).2.lookup P = some .dir from h] at hi; cases hi
  | create p =>
    by_cases hp : p.comps = P
    · subst hp
      simp only [stamp]
      simp only [exec]
      split; · exact .inl (.refl ..)
      split; · exact .inl (.refl ..)
      split
      · exact .inl (.refl ..)
      · exact write_effect
      · rename_i hne _ _
        have hne : p.comps ≠ [] := by rintro e; rw [e] at hne; cases hne
        split
        · split
          · right
            intro j hj
            dsimp only at hj
            rw [lookup_bump, lookup_setData, lookup_set, if_neg hne, if_pos rfl] at hj
            cases hj
            simp [Stamps.touch]
          · exact .inl (.refl ..)
        · exact .inl (.refl ..)
    · have hf := exec_frame cfg (own := fun q => q = p.comps) (up := fun _ => False) hw (c := .create p) rfl
      left
      refine ⟨(hf.node P (fun e => hp e.symm)).elim (fun h => h) (fun h => h.1.elim), fun i hi => ?_⟩
      have hip : i.path = P := (hw.ino _ _ hi).1
      refine ⟨hf.data i (by rw [hip]; exact fun e => hp e.symm), ?_⟩
      simp only [stamp]
      cases hr : (exec cfg fs (.create p)).1 with
      | none => rfl
      | some j =>
        have hj : j.path = p.comps := exec_respOk cfg hw (.create p) j hr
        have : i ≠ j := by rintro rfl; exact hp (hj.symm.trans hip)
        simp [Stamps.touch, this]
  | writeAt i off b =>
    by_cases hb : b = []
    · left
      refine ⟨rfl, fun j _ => ⟨?_, ?_⟩⟩
      · simp only [exec, FS.setData, splice, hb, if_true]
        split
        · rename_i e; rw [e]
        · rfl
      · simp [stamp, hb]
    · rw [show stamp cfg fs (.writeAt i off b) now t = t.touch i now from if_neg hb]
      exact write_effect
  | unlink p =>
    simp only [exec, stamp]
    split
    · exact gone_effect erase_lookup rfl _
    · exact .inl (.refl ..)
  | rmdir p =>
    simp only [exec, stamp]
    split
    · split
      · exact gone_effect erase_lookup rfl _
      · exact .inl (.refl ..)
    · exact .inl (.refl ..)
  | rmtree p =>
    simp only [exec, stamp]
    split
    · split
      · exact gone_effect eraseTree_lookup rfl _
      · exact .inl (.refl ..)
    · exact .inl (.refl ..)
  | readDir p =>
    simp only [exec, stamp]
    split <;> exact .inl (.refl ..)
  | _ => exact .inl (.refl ..)

/-- a call leaves the file at `P` as it is, or stamps or removes it -/
theorem step_effect (P : Path) {s : FS × Stamps} (hw : WF s.1) (c : Call) (f : Fault) (now : Time) :
    SameFile P s (stepT cfg s c f now) ∨ Stamped (· = now) P (stepT cfg s c f now) := by
  cases f with
  | none => exact exec_effect P hw c now
  | before => exact .inl (.refl ..)
  | after => exact exec_effect P hw c now
  | during n rs =>
    obtain ⟨fs, t⟩ := s
    cases c with
    | writeAt i off b =>
      simp only [stepT, execF, partialEffect, stampF]
      split
      · exact .inl (.refl ..)
      · exact write_effect
    | rmtree p =>
      simp only [stepT, execF, partialEffect, stampF]
      split
      · split
        · exact gone_effect (foldl_lookup rs).1 (foldl_lookup (P := P) rs).2 _
        · exact .inl (.refl ..)
      · exact .inl (.refl ..)
    | _ => exact .inl (.refl ..)

theorem Stamped.step {T : Time → Prop} {P : Path} {s : FS × Stamps} (h : Stamped T P s) (hw : WF s.1) (c : Call) (f : Fault) {now : Time}
    (ht : T now) : Stamped T P (stepT cfg s c f now) := by
  rcases step_effect (cfg := cfg) P hw c f now with hs | hs
  · exact h.same hs
  · intro i hi
    have : (stepT cfg s c f now).2.modified i = now := hs i hi
    rw [this]; exact ht

/-- the time of a file that a call does not write -/
theorem stamp_other {P : Path} {s : FS × Stamps} (hw : WF s.1) {c : Call} {up : Path → Prop} (h : writeOk (· ≠ P) up c) (f : Fault) (now : Time)
    {i : Ino} (hip : i.path = P) : (stampF cfg s.1 c now s.2 f).modified i = s.2.modified i := by
  have hst : (stamp cfg s.1 c now s.2).modified i = s.2.modified i := by
    cases c with
    | create p =>
      simp only [stamp]
      cases hr : (exec cfg s.1 (.create p)).1 with
      | none => rfl
      | some j =>
        have hj : j.path = p.comps := exec_respOk cfg hw (.create p) j hr
        have : i ≠ j := by rintro rfl; exact h (hj.symm.trans hip)
        simp [Stamps.touch, this]
    | writeAt j off b =>
      have : i ≠ j := by rintro rfl; exact h hip
      simp only [stamp]
      split
      · rfl
      · simp [Stamps.touch, this]
    | mkdir p => simp only [stamp]; split <;> rfl
    | _ => rfl
  cases f with
  | none => exact hst
  | before => rfl
  | after => exact hst
  | during n rs =>
    cases c with
    | writeAt j off b =>
      have : i ≠ j := by rintro rfl; exact h hip
      simp only [stampF]
      split
      · rfl
      · simp [Stamps.touch, this]
    | _ => rfl

theorem modifiedAt_step {P : Path} {s : FS × Stamps} (hw : WF s.1) {c : Call} {up : Path → Prop} (h : writeOk (· ≠ P) up c) (f : Fault)
    (now : Time) : modifiedAt (stepT cfg s c f now) P = modifiedAt s P := by
  rcases (execF_frame (cfg := cfg) hw h f).node P (fun h => h rfl) with e | ⟨_, e1, e2⟩
  · simp only [modifiedAt, stepT, e]
    split
    · rename_i i hi
      rw [stamp_other hw h f now (hw.ino _ _ hi).1]
    · rfl
  · simp only [modifiedAt, stepT, e1, e2]

/-- the call does not remove what is at `P` -/
def Spares (P : Path) : Call → Prop
  | .unlink p => p.comps ≠ P
  | .rmdir p => p.comps ≠ P
  | .rmtree p => ¬ p <+: P
  | _ => True

/-- a file stays a file unless it is removed -/
theorem file_stays {P : Path} {fs : FS} (hw : WF fs) {c : Call} (h : Spares P c) (f : Fault) {i : Ino} (hi : fs.lookup P = some (.file i)) :
    (execF cfg fs c f).2.lookup P = some (.file i) := by
  have byFrame : writeOk (· ≠ P) (fun _ => True) c → (execF cfg fs c f).2.lookup P = some (.file i) := by
    intro hc
    rcases (execF_frame (cfg := cfg) hw hc f).node P (fun h => h rfl) with e | ⟨_, e, _⟩
    · rw [e, hi]
    · rw [hi] at e; cases e
  cases c with
  | mkdir p => exact byFrame (.inl trivial)
  | create p =>
    by_cases hp : p.comps = P
    · have : (exec cfg fs (.create p)).2.lookup P = some (.file i) := by
        simp only [exec, hp, hi]
        split; · exact hi
        split; · exact hi
        exact hi
      cases f with
      | none => exact this
      | before => exact hi
      | after => exact this
      | during n rs => exact hi
    · exact byFrame hp
  | writeAt j off b =>
    cases f with
    | during n rs =>
      simp only [execF, partialEffect]
      split <;> exact hi
    | _ => exact hi
  | unlink p => exact byFrame h
  | rmdir p => exact byFrame h
  | rmtree p => exact byFrame fun q hq e => h (e ▸ hq)
  | _ => exact byFrame trivial

/-- there is a file at `P`, and its time is in `T` -/
def Fresh (T : Time → Prop) (P : Path) (s : FS × Stamps) : Prop := ∃ now, modifiedAt s P = some now ∧ T now

theorem Fresh.step {T : Time → Prop} {P : Path} {s : FS × Stamps} (h : Fresh T P s) (hw : WF s.1) {c : Call} (hc : Spares P c) (f : Fault)
    {now : Time} (ht : T now) : Fresh T P (stepT cfg s c f now) := by
  obtain ⟨t0, h1, h2⟩ := h
  simp only [modifiedAt] at h1
  split at h1
  · rename_i i hi
    cases h1
    have hi' := file_stays (cfg := cfg) hw hc f hi
    refine ⟨(stepT cfg s c f now).2.modified i, ?_, ?_⟩
    · simp only [modifiedAt, stepT, hi']
    · exact Stamped.step (T := T) (P := P) (fun j hj => by rw [hi] at hj; cases hj; exact h2) hw c f ht i hi'
  · cases h1

/-! ### a life -/

theorem timed_wf {e : TimedEpoch} {s : FS × Stamps} (h : WF s.1) : WF (e.leaves cfg ext s).1 := by
  rw [timed_leaves]; exact runParF_wf h

theorem timed_inv {J : FS × Stamps → Prop} {P : Op → Prop} {es : List TimedEpoch}
    (hJ : ∀ o, P o → ∀ now, InLife es now → ∀ s c f, WF s.1 → J s → (opPerm cfg o).ok c → J (stepT cfg s c f now))
    (h : ∀ e ∈ es, ∀ o ∈ e.requests, P o) : ∀ {s : FS × Stamps}, WF s.1 → J s → J (timedLife cfg ext es s) ∧ WF (timedLife cfg ext es s).1 := by
  induction es with
  | nil => exact fun hw h => ⟨h, hw⟩
  | cons e es ih =>
    intro s hw h0
    refine ih (fun o ho now ⟨e', he', hn⟩ => hJ o ho now ⟨e', List.mem_cons_of_mem _ he', hn⟩)
      (fun e' he' => h e' (List.mem_cons_of_mem _ he')) (timed_wf hw) ?_
    refine runParT_inv (ok := fun _ c => ∃ o, P o ∧ (opPerm cfg o).ok c) (fun i f now hm s c hw hj hc => ?_) ?_ hw h0
    · obtain ⟨o, ho, hc⟩ := hc
      exact hJ o ho now ⟨e, List.mem_cons_self .., i, f, hm⟩ s c f hw hj hc
    · intro i p hp
      obtain ⟨o, ho, rfl⟩ := List.mem_map.mp (List.mem_of_getElem? hp)
      exact (op_safe cfg ext o).mono (fun c hc => ⟨o, h e (List.mem_cons_self ..) o ho, hc⟩) (fun _ h => h)

/-! ### programs that do not end without a certain call -/

/-- the program only comes to its end after a call with a response in `M` -/
def Makes (M : (c : Call) → Resp c → Prop) : Prog α → Prop
  | .ret _ => False
  | .sys c k => ∀ r, M c r ∨ Makes M (k r)
  | _ => True

theorem Makes.left {M : (c : Call) → Resp c → Prop} {p : Prog α} (h : Makes M p) (g : α → Prog β) : Makes M (p.bind g) := by
  induction p with
  | ret a => exact h.elim
  | sys c k ih => exact fun r => (h r).imp id (ih r)
  | _ => trivial

theorem Makes.right {M : (c : Call) → Resp c → Prop} (p : Prog α) {g : α → Prog β} (h : ∀ a, Makes M (g a)) : Makes M (p.bind g) := by
  induction p with
  | ret a => exact h a
  | sys c k ih => exact fun r => .inr (ih r)
  | _ => trivial

theorem Makes.orInternal {M : (c : Call) → Resp c → Prop} {o : Option α} {g : α → Prog β} (h : ∀ a, o = some a → Makes M (g a)) :
    Makes M ((S3.orInternal o).bind g) := by
  cases o with
  | none => trivial
  | some a => exact h a rfl

/-- the program of thread `n` has made its call, or is still about to -/
theorem runParT_makes {M : (c : Call) → Resp c → Prop} {G : FS × Stamps → Prop} {n : Nat} {steps : List (Nat × Fault × Time)}
    {ok : Nat → Call → Prop}
    (hM : ∀ f now, (n, f, now) ∈ steps → ∀ s c, WF s.1 → M c (execF cfg s.1 c f).1 → G (stepT cfg s c f now))
    (hG : ∀ i f now, (i, f, now) ∈ steps → ∀ s c, WF s.1 → ok i c → G s → G (stepT cfg s c f now))
    {ps : List (Prog α)} (hs : ∀ (i : Nat) p, ps[i]? = some p → Safe (ok i) (fun _ => True) p)
    (hm : ∀ p, ps[n]? = some p → Makes M p) {s : FS × Stamps} (hw : WF s.1) {a : α}
    (h : (runParT cfg steps ps s).1[n]? = some (.ret a)) : G (runParT cfg steps ps s).2 := by
  have key := runParT_joint (cfg := cfg) (steps := steps)
    (J := fun ps s => (∀ (i : Nat) p, ps[i]? = some p → Safe (ok i) (fun _ => True) p) ∧ (G s ∨ ∀ p, ps[n]? = some p → Makes M p)) ?_
    hw ⟨hs, .inr hm⟩
  · rcases key.2 with hg | hg
    · exact hg
    · exact (hg _ h).elim
  intro i f now hmem ps s c k hw ⟨hs, hg⟩ hp
  have hsp := hs i _ hp
  have hlt : i < ps.length := (List.getElem?_eq_some_iff.mp hp).1
  refine ⟨?_, ?_⟩
  · intro m r hr
    by_cases e : m = i
    · subst e
      rw [List.getElem?_set_self hlt] at hr
      cases hr
      exact hsp.2 _ (execF_respOk hw c f)
    · rw [List.getElem?_set_ne (fun h => e h.symm)] at hr
      exact hs m r hr
  rcases hg with hg | hg
  · exact .inl (hG i f now hmem s c hw hsp.1 hg)
  by_cases e : i = n
  · subst e
    rcases hg _ hp (execF cfg s.1 c f).1 with hM' | hr
    · exact .inl (hM f now hmem s c hw hM')
    · right
      intro p hp'
      rw [List.getElem?_set_self hlt] at hp'
      cases hp'
      exact hr
  · right
    intro p hp'
    rw [List.getElem?_set_ne e] at hp'
    exact hg p hp'

/-- an answered request of an epoch has made its call -/
theorem timed_makes {M : (c : Call) → Resp c → Prop} {G : FS × Stamps → Prop} {e : TimedEpoch} {n : Nat} {o : Op} (hn : e.requests[n]? = some o)
    (hM : ∀ f now, e.During n now → ∀ s c, WF s.1 → M c (execF cfg s.1 c f).1 → G (stepT cfg s c f now))
    (hG : ∀ (j : Nat) o', e.requests[j]? = some o' → ∀ f now, e.During j now → ∀ s c, WF s.1 → (opPerm cfg o').ok c → G s → G (stepT cfg s c f now))
    (hm : Makes M (opProg cfg ext o)) {s : FS × Stamps} (hw : WF s.1) {a : Answer} (h : e.answered cfg ext s n = some (.ok a)) :
    G (e.leaves cfg ext s) := by
  have hget : ∀ j : Nat, (e.requests.map (opProg cfg ext))[j]? = (e.requests[j]?).map (opProg cfg ext) := fun j => List.getElem?_map
  simp only [TimedEpoch.answered, Option.bind_eq_some_iff] at h
  obtain ⟨p, hpp, ho⟩ := h
  cases p <;> simp [Prog.outcome] at ho
  subst ho
  refine runParT_makes (M := M) (G := G) (ok := fun j c => ∃ o', e.requests[j]? = some o' ∧ (opPerm cfg o').ok c)
    (fun f now hmem => hM f now ⟨f, hmem⟩) (fun i f now hmem s c hw hok hg => ?_) ?_ ?_ hw hpp
  · obtain ⟨o', ho', hok⟩ := hok
    exact hG i o' ho' f now ⟨f, hmem⟩ s c hw hok hg
  · intro j p hj
    rw [hget, Option.map_eq_some_iff] at hj
    obtain ⟨o', ho', rfl⟩ := hj
    exact (op_safe cfg ext o').mono (fun c hc => ⟨o', ho', hc⟩) (fun _ h => h)
  · intro p hj
    rw [hget, hn] at hj
    cases hj
    exact hm

/-! ### the requests that write objects, and CreateBucket -/

/-- the call opens the file at `P` for writing -/
def Opens (P : Path) : (c : Call) → Resp c → Prop
  | .create p, r => p.comps = P ∧ r ≠ none
  | _, _ => False

/-- the call makes the directory at `P` -/
def MakesDir (P : Path) : (c : Call) → Resp c → Prop
  | .mkdir p, r => p = P ∧ r = .ok
  | _, _ => False

theorem makes_create {p : OsPath} {g : Ino → Prog β} : Makes (Opens p.comps) ((call (.create p)).bind fun r => (orInternal r).bind g) := by
  intro r
  cases r with
  | none => exact .inr trivial
  | some i => exact .inl ⟨rfl, fun h => nomatch h⟩

theorem makes_put {i : PutInput} {p : OsPath} (hp : objectPath cfg i.bucket i.key = some p) (hk : endsWithByte i.key 47 = false) :
    Makes (Opens p.comps) (putObject cfg ext i) := by
  simp only [putObject, bind_eq, pure_eq]
  split
  · trivial
  split
  · trivial
  simp only [hk, Bool.false_eq_true, if_false]
  refine Makes.orInternal fun p' h => ?_
  rw [hp] at h
  cases h
  show Makes _ (if p.comps ≠ [] then _ else _)
  split
  · exact Makes.right _ fun _ => makes_create
  · exact makes_create

theorem makes_copyFile {src dst : OsPath} : Makes (Opens dst.comps) (copyFile src dst) := by
  simp only [copyFile, bind_eq, pure_eq]
  refine Makes.right _ fun r => Makes.orInternal fun h _ => ?_
  split
  · trivial
  · exact makes_create

theorem makes_copy {b k s : Bytes} {p : OsPath} (hp : objectPath cfg b k = some p) : Makes (Opens p.comps) (copyObject cfg ext b k s) := by
  simp only [copyObject, bind_eq, pure_eq]
  split
  · trivial
  refine Makes.orInternal fun src _ => Makes.orInternal fun dst hd => ?_
  rw [hp] at hd
  cases hd
  refine Makes.right _ fun r => Makes.orInternal fun _ _ => ?_
  exact makes_copyFile.left _

theorem makes_complete {b k u : Bytes} {ps : Option (List (Option Int))} {p : OsPath} (hp : objectPath cfg b k = some p) :
    Makes (Opens p.comps) (completeMultipartUpload cfg ext b k u ps) := by
  simp only [completeMultipartUpload, bind_eq, pure_eq]
  split
  · trivial
  refine Makes.orInternal fun p' h => ?_
  rw [hp] at h
  cases h
  exact makes_create

theorem makes_createBucket {b : Bytes} {p : OsPath} (hp : bucketPath cfg b = some p) : Makes (MakesDir p.comps) (createBucket cfg b) := by
  simp only [createBucket, bind_eq]
  refine Makes.orInternal fun p' h => ?_
  rw [hp] at h
  cases h
  refine Makes.right _ fun x => ?_
  split
  · trivial
  · intro r
    by_cases hr : r = .ok
    · exact .inl ⟨rfl, hr⟩
    · right
      cases r <;> first | exact absurd rfl hr | trivial

end S3
