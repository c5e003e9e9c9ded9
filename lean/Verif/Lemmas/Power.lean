import Verif.Spec.Power
import Verif.Props.Life
import Verif.Props.Racing
import Verif.Lemmas.Mix
/-! Failures of the power. -/
namespace S3
open Spec

variable {cfg : Cfg} {ext : Ext} {α : Type}

/-- an invariant of all calls holds at all times of a run -/
theorem upTo_inv {J : FS → Prop} {P : Op → Prop} (hJ : ∀ o, P o → ∀ fs c f, WF fs → J fs → (opPerm cfg o).ok c → J (execF cfg fs c f).2)
    {e : Epoch} (h : ∀ o ∈ e.requests, P o) {fs : FS} (hw : WF fs) (h0 : J fs) (n : Nat) : J (e.upTo cfg ext fs n) :=
  (life_inv (ext := ext) hJ (es := [⟨e.requests, e.steps.take n⟩])
    (fun e' he' o ho => by cases List.mem_singleton.mp he'; exact h o ho) hw h0).1

theorem upTo_wf {e : Epoch} {fs : FS} (hw : WF fs) (n : Nat) : WF (e.upTo cfg ext fs n) := runParF_wf hw

theorem runParF_length (steps : List (Nat × Fault)) (ps : List (Prog α)) (fs : FS) : (runParF cfg steps ps fs).1.length = ps.length := by
  induction steps generalizing ps fs with
  | nil => rfl
  | cons s steps ih =>
    obtain ⟨i, f⟩ := s
    simp only [runParF]
    split
    · exact ih ..
    · rw [ih, List.length_set]

theorem runParF_append (s t : List (Nat × Fault)) (ps : List (Prog α)) (fs : FS) :
    runParF cfg (s ++ t) ps fs = runParF cfg t (runParF cfg s ps fs).1 (runParF cfg s ps fs).2 := by
  induction s generalizing ps fs with
  | nil => rfl
  | cons x s ih =>
    obtain ⟨i, f⟩ := x
    simp only [List.cons_append, runParF]
    split
    · exact ih _ _
    · exact ih _ _

theorem runParF_safe {ok : Call → Prop} {steps : List (Nat × Fault)} {ps : List (Prog α)} (hs : ∀ p ∈ ps, Safe ok (fun _ => True) p)
    {fs : FS} (hw : WF fs) : ∀ p ∈ (runParF cfg steps ps fs).1, Safe ok (fun _ => True) p := by
  induction steps generalizing ps fs with
  | nil => exact hs
  | cons x s ih =>
    obtain ⟨i, f⟩ := x
    simp only [runParF]
    split
    · exact ih hs hw
    · rename_i p hi
      refine ih ?_ (stepProgF_wf hw)
      intro q hq
      rcases List.mem_or_eq_of_mem_set hq with h | rfl
      · exact hs q h
      · have := hs p (List.mem_of_getElem? hi)
        cases p with
        | sys c k => exact this.2 _ (execF_respOk hw c f)
        | _ => exact this

theorem upTo_zero (e : Epoch) (fs : FS) : e.upTo cfg ext fs 0 = fs := rfl

theorem upTo_end (e : Epoch) (fs : FS) : e.upTo cfg ext fs e.steps.length = e.leaves cfg ext fs := by
  simp [Epoch.upTo]

/-- what the disk holds may be what the run left -/
theorem power_last {e : Epoch} {fs : FS} (hw : WF fs) : PowerLoss cfg ext e fs (e.leaves cfg ext fs) where
  tree := runParF_wf hw
  name := fun _ => ⟨e.steps.length, by rw [upTo_end]⟩
  kept := fun i h => by rw [← upTo_end]; exact h _
  byte := fun i j x h hx => .inr ⟨e.steps.length, e.steps.length, Nat.le_refl _, by rw [upTo_end]; exact h, by rw [upTo_end]; exact hx⟩
  length := fun i h => ⟨e.steps.length, e.steps.length, Nat.le_refl _, by rw [upTo_end]; exact h, by rw [upTo_end]; exact Nat.le_refl _⟩

/-- or what was there before it -/
theorem power_first {e : Epoch} {fs : FS} (hw : WF fs) : PowerLoss cfg ext e fs fs where
  tree := hw
  name := fun _ => ⟨0, by rw [upTo_zero]⟩
  kept := fun _ _ => rfl
  byte := fun i j x h hx => .inr ⟨0, 0, Nat.le_refl _, by rw [upTo_zero]; exact h, by rw [upTo_zero]; exact hx⟩
  length := fun i h => ⟨0, 0, Nat.le_refl _, by rw [upTo_zero]; exact h, by rw [upTo_zero]; exact Nat.le_refl _⟩

/-- a frame that holds at all times holds for what the disk may hold -/
theorem power_frame {own up : Path → Prop} {e : Epoch} {fs fs' : FS} (hp : PowerLoss cfg ext e fs fs')
    (h : ∀ n, Frame own up fs (e.upTo cfg ext fs n)) :
    (∀ q, ¬ own q → fs'.lookup q = fs.lookup q ∨ (up q ∧ fs.lookup q = none ∧ fs'.lookup q = some .dir)) ∧
    ∀ i : Ino, ¬ own i.path → fs'.data i = fs.data i := by
  refine ⟨fun q hq => ?_, fun i hi => hp.kept i fun n => (h n).data i hi⟩
  obtain ⟨n, hn⟩ := hp.name q
  rw [hn]
  exact (h n).node q hq

/-! ### which bytes a file can hold -/

/-- writes to `P` write pieces of `bodies`; anything else is allowed -/
def PiecesOnly (P : Path) (bodies : List Bytes) : Call → Prop
  | .writeAt i off x => i.path = P → x ≠ [] ∧ ∃ w ∈ bodies, PieceAt w off x
  | _ => True

/-- no call but `open` with create gives a path a file it did not have, and no call but a write and `open` with create writes -/
structure Unwritten (P : Path) (a b : FS) : Prop where
  node : ∀ i, b.lookup P = some (.file i) → a.lookup P = some (.file i)
  data : ∀ i : Ino, i.path = P → b.data i = a.data i
  gen : b.gen P = a.gen P

theorem Unwritten.refl (P : Path) (a : FS) : Unwritten P a a := ⟨fun _ h => h, fun _ _ => rfl, rfl⟩

theorem Unwritten.trans {P : Path} {a b c : FS} (h : Unwritten P a b) (h' : Unwritten P b c) : Unwritten P a c :=
  ⟨fun i hi => h.node i (h'.node i hi), fun i hi => (h'.data i hi).trans (h.data i hi), h'.gen.trans h.gen⟩

theorem unwritten_eraseTree (P : Path) (fs : FS) (q : Path) : Unwritten P fs (fs.eraseTree q) := by
  refine ⟨fun i hi => ?_, fun _ _ => rfl, rfl⟩
  rw [lookup_eraseTree] at hi
  split at hi
  · cases hi
  · split at hi
    · cases hi
    · exact hi

theorem unwritten_erase (P : Path) (fs : FS) (q : Path) : Unwritten P fs (fs.erase q) := by
  refine ⟨fun i hi => ?_, fun _ _ => rfl, rfl⟩
  rw [lookup_erase] at hi
  split at hi
  · cases hi
  · split at hi
    · cases hi
    · exact hi

theorem unwritten_foldl (P : Path) (p : Path) (rs : List Path) :
    ∀ fs : FS, Unwritten P fs (rs.foldl (fun fs q => if p.isPrefixOf q then fs.eraseTree q else fs) fs) := by
  induction rs with
  | nil => exact fun fs => .refl ..
  | cons r rs ih =>
    intro fs
    refine Unwritten.trans ?_ (ih _)
    show Unwritten P fs (if p.isPrefixOf r then _ else _)
    split
    · exact unwritten_eraseTree ..
    · exact .refl ..

theorem unwritten_frame {P : Path} {a b : FS} (h : Frame (· ≠ P) (fun _ => True) a b) : Unwritten P a b := by
  refine ⟨fun i hi => ?_, fun i hi => h.data i (fun h => h hi), h.gen P (fun h => h rfl)⟩
  rcases h.node P (fun h => h rfl) with e | ⟨_, _, e⟩
  · rw [← e]; exact hi
  · rw [hi] at e; cases e

/-- a file of the run: it was there at the beginning or has been made since -/
def Born (P : Path) (fs₀ : FS) (i : Ino) : Prop := fs₀.lookup P = some (.file i) ∨ fs₀.gen P ≤ i.gen

/-- all files that the run has had at `P` are mixtures -/
structure AllMixed (P : Path) (bodies : List Bytes) (fs₀ fs : FS) : Prop where
  gen : fs₀.gen P ≤ fs.gen P
  node : ∀ i, fs.lookup P = some (.file i) → Born P fs₀ i
  data : ∀ i : Ino, i.path = P → Born P fs₀ i → i.gen < fs.gen P → Mixed bodies (fs.data i)

theorem AllMixed.unwritten {P : Path} {bodies : List Bytes} {fs₀ a b : FS} (h : AllMixed P bodies fs₀ a) (hq : Unwritten P a b) :
    AllMixed P bodies fs₀ b :=
  ⟨by rw [hq.gen]; exact h.gen, fun i hi => h.node i (hq.node i hi), fun i hp hb hg => by
    rw [hq.data i hp]; exact h.data i hp hb (by rw [← hq.gen]; exact hg)⟩

theorem allMixed_exec {P : Path} {bodies : List Bytes} {fs₀ fs : FS} (hw : WF fs) (h : AllMixed P bodies fs₀ fs) {c : Call}
    (hc : PiecesOnly P bodies c) : AllMixed P bodies fs₀ (exec cfg fs c).2 := by
  have frame : writeOk (· ≠ P) (fun _ => True) c → AllMixed P bodies fs₀ (exec cfg fs c).2 :=
    fun hok => h.unwritten (unwritten_frame (exec_frame cfg hw hok))
  cases c with
  | mkdir p => exact frame (.inl trivial)
  | create p =>
    by_cases hp : p.comps = P
    · have hset : ∀ i, fs.lookup P = some (.file i) → AllMixed P bodies fs₀ (fs.setData i []) := by
        intro i hi
        refine ⟨h.gen, h.node, fun j hj hb hg => ?_⟩
        rw [data_setData]
        split
        · exact Mixed.nil _
        · exact h.data j hj hb hg
      simp only [exec]
      split
      · exact h
      split
      · exact h
      rename_i c hcl
      split
      · exact h
      · rename_i i hi
        rw [hp] at hi
        exact hset i hi
      · split
        · split
          · rw [hp]
            have hne : P ≠ [] := by intro e; rw [hp, e] at hcl; cases hcl
            refine ⟨by rw [gen_bump, if_pos rfl]; exact Nat.le_succ_of_le h.gen, ?_, ?_⟩
            · intro i hi
              rw [lookup_bump, lookup_setData, lookup_set, if_neg hne, if_pos rfl] at hi
              cases hi
              exact .inr h.gen
            · intro j hj hb hg
              rw [gen_bump, if_pos rfl] at hg
              rw [data_bump, data_setData]
              split
              · exact Mixed.nil _
              · rename_i hne'
                refine h.data j hj hb (Nat.lt_of_le_of_ne (Nat.le_of_lt_succ hg) fun e => hne' ?_)
                obtain ⟨jp, jg⟩ := j
                simp only at e hj
                rw [e, hj]
          · exact h
        · exact h
    · exact frame hp
  | writeAt i off x =>
    by_cases hp : i.path = P
    · obtain ⟨hne, w, hwm, hpc⟩ := hc hp
      refine ⟨h.gen, h.node, fun j hj hb hg => ?_⟩
      show Mixed bodies ((fs.setData i (splice (fs.data i) off x)).data j)
      rw [data_setData]
      split
      · rename_i e
        subst e
        exact (h.data j hj hb hg).splice hwm hpc hne
      · exact h.data j hj hb hg
    · exact frame hp
  | unlink p =>
    refine h.unwritten ?_
    simp only [exec]
    split
    · exact unwritten_erase ..
    · exact .refl ..
  | rmdir p =>
    refine h.unwritten ?_
    simp only [exec]
    split
    · split
      · exact unwritten_erase ..
      · exact .refl ..
    · exact .refl ..
  | rmtree p =>
    refine h.unwritten ?_
    simp only [exec]
    split
    · split
      · exact unwritten_eraseTree ..
      · exact .refl ..
    · exact .refl ..
  | _ => exact frame trivial

theorem allMixed_execF {P : Path} {bodies : List Bytes} {fs₀ fs : FS} (hw : WF fs) (h : AllMixed P bodies fs₀ fs) {c : Call}
    (hc : PiecesOnly P bodies c) (f : Fault) : AllMixed P bodies fs₀ (execF cfg fs c f).2 := by
  cases f with
  | none => exact allMixed_exec hw h hc
  | before => exact h
  | after => exact allMixed_exec hw h hc
  | during n rs =>
    show AllMixed P bodies fs₀ (partialEffect fs n rs c)
    cases c with
    | writeAt i off x =>
      simp only [partialEffect]
      split
      · exact h
      · rename_i hne
        refine allMixed_exec (cfg := cfg) (c := .writeAt i off (x.take n)) hw h fun hp => ⟨hne, ?_⟩
        obtain ⟨_, w, hwm, t, ht⟩ := hc hp
        exact ⟨w, hwm, x.drop n ++ t, by rw [ht, ← List.append_assoc, List.take_append_drop]⟩
    | rmtree p =>
      simp only [partialEffect]
      split
      · split
        · exact h.unwritten (unwritten_foldl ..)
        · exact h
      · exact h
    | _ => exact h

/-- the bodies of uploads, deletions, and requests on other addresses -/
theorem upTo_mixed {b k : Bytes} {cs : List Bytes} (hb : checkBucketName b = true) (hk : PlainKey k cs) {bodies : List Bytes} {e : Epoch}
    (ho : ∀ o ∈ e.requests, (∃ i, o = .putObject i ∧ i.bucket = b ∧ i.key = k ∧ ∀ body, i.body = some body → received body ∈ bodies) ∨
      Deletes b k o ∨ OnOthers b (Away b k) o)
    {fs : FS} (hw : WF fs) (hold : ∀ c, contentAt fs (cfg.root ++ b :: cs) = some c → c ∈ bodies) (n : Nat) :
    AllMixed (cfg.root ++ b :: cs) bodies fs (e.upTo cfg ext fs n) := by
  refine runParF_inv (ok := PiecesOnly (cfg.root ++ b :: cs) bodies) (fun fs c f hw hj hc => allMixed_execF hw hj hc f) ?_ hw ?_
  · intro p hp
    obtain ⟨o, hmem, rfl⟩ := List.mem_map.mp hp
    rcases ho o hmem with ⟨i, rfl, rfl, rfl, h3⟩ | h | h
    · refine Safe.bind (Q := fun _ => True) ((safe_mixPut (cfg := cfg) (ext := ext) hb hk h3).mono ?_ fun _ h => h) fun _ _ => trivial
      intro c hc
      cases c <;> first | exact hc | trivial
    · refine (op_safe cfg ext o).mono ?_ fun _ h => h
      intro c hc
      have := deletes_shrink (cfg := cfg) hb hk (.inl h) hc
      cases c with
      | writeAt i off x => exact fun e => absurd e this.1
      | _ => trivial
    · refine (op_safe cfg ext o).mono ?_ fun _ h => h
      intro c hc
      have := away_ok (cfg := cfg) hb hk h hc
      cases c with
      | writeAt j off x => exact fun e => absurd (.inl e) this
      | _ => trivial
  · refine ⟨Nat.le_refl _, fun i hi => .inl hi, fun i hp hb hg => ?_⟩
    rcases hb with hb | hb
    · have : contentAt fs (cfg.root ++ b :: cs) = some (fs.data i) := by simp [contentAt, hb]
      exact ⟨fun n x hx => .inr ⟨_, hold _ this, hx⟩, .inr ⟨_, hold _ this, Nat.le_refl _⟩⟩
    · exact absurd hg (Nat.not_lt.mpr hb)

theorem foldl_gen (p : Path) (rs : List Path) :
    ∀ fs : FS, (rs.foldl (fun fs q => if p.isPrefixOf q then fs.eraseTree q else fs) fs).gen = fs.gen := by
  induction rs with
  | nil => exact fun _ => rfl
  | cons r rs ih =>
    intro fs
    rw [List.foldl_cons, ih]
    split <;> rfl

theorem exec_gen (fs : FS) (c : Call) (P : Path) : fs.gen P ≤ (exec cfg fs c).2.gen P := by
  cases c with
  | mkdir p => simp only [exec]; repeat' split
               all_goals exact Nat.le_refl _
  | create p =>
    simp only [exec]
    repeat' split
    all_goals first | exact Nat.le_refl _ | skip
    rw [gen_bump]
    split
    · exact Nat.le_succ _
    · exact Nat.le_refl _
  | writeAt i off x => exact Nat.le_refl _
  | unlink p => simp only [exec]; repeat' split
                all_goals exact Nat.le_refl _
  | rmdir p => simp only [exec]; repeat' split
               all_goals exact Nat.le_refl _
  | rmtree p => simp only [exec]; repeat' split
                all_goals exact Nat.le_refl _
  | readDir p => simp only [exec]; repeat' split
                 all_goals exact Nat.le_refl _
  | _ => exact Nat.le_refl _

theorem execF_gen (fs : FS) (c : Call) (f : Fault) (P : Path) : fs.gen P ≤ (execF cfg fs c f).2.gen P := by
  cases f with
  | none => exact exec_gen ..
  | before => exact Nat.le_refl _
  | after => exact exec_gen ..
  | during n rs =>
    show fs.gen P ≤ (partialEffect fs n rs c).gen P
    cases c with
    | writeAt i off x => simp only [partialEffect]; split <;> exact Nat.le_refl _
    | rmtree p =>
      simp only [partialEffect]
      split
      · split
        · rw [foldl_gen]; exact Nat.le_refl _
        · exact Nat.le_refl _
      · exact Nat.le_refl _
    | _ => exact Nat.le_refl _

theorem runParF_gen (steps : List (Nat × Fault)) (P : Path) : ∀ (ps : List (Prog α)) (fs : FS), fs.gen P ≤ (runParF cfg steps ps fs).2.gen P := by
  induction steps with
  | nil => exact fun _ _ => Nat.le_refl _
  | cons x s ih =>
    intro ps fs
    obtain ⟨i, f⟩ := x
    simp only [runParF]
    split
    · exact ih _ _
    · refine Nat.le_trans ?_ (ih _ _)
      rename_i p _
      cases p with
      | sys c k => exact execF_gen ..
      | _ => exact Nat.le_refl _

theorem upTo_gen (e : Epoch) (fs : FS) (P : Path) {n m : Nat} (h : n ≤ m) :
    (e.upTo cfg ext fs n).gen P ≤ (e.upTo cfg ext fs m).gen P := by
  have : e.steps.take m = e.steps.take n ++ (e.steps.take m).drop n := by
    have h1 := List.take_append_drop n (e.steps.take m)
    rw [List.take_take, Nat.min_eq_left h] at h1
    exact h1.symm
  simp only [Epoch.upTo, Epoch.leaves]
  rw [this, runParF_append]
  exact runParF_gen ..

/-- calls that do not write the file at `P` -/
def NoWrite (P : Path) : Call → Prop
  | .create p => p.comps ≠ P
  | .writeAt i _ _ => i.path ≠ P
  | _ => True

theorem unwritten_exec {P : Path} {fs : FS} (hw : WF fs) {c : Call} (hc : NoWrite P c) : Unwritten P fs (exec cfg fs c).2 := by
  have frame : writeOk (· ≠ P) (fun _ => True) c → Unwritten P fs (exec cfg fs c).2 := fun hok => unwritten_frame (exec_frame cfg hw hok)
  cases c with
  | mkdir p => exact frame (.inl trivial)
  | create p => exact frame hc
  | writeAt i off x => exact frame hc
  | unlink p =>
    simp only [exec]
    split
    · exact unwritten_erase ..
    · exact .refl ..
  | rmdir p =>
    simp only [exec]
    split
    · split
      · exact unwritten_erase ..
      · exact .refl ..
    · exact .refl ..
  | rmtree p =>
    simp only [exec]
    split
    · split
      · exact unwritten_eraseTree ..
      · exact .refl ..
    · exact .refl ..
  | _ => exact frame trivial

theorem unwritten_execF {P : Path} {fs : FS} (hw : WF fs) {c : Call} (hc : NoWrite P c) (f : Fault) : Unwritten P fs (execF cfg fs c f).2 := by
  cases f with
  | none => exact unwritten_exec hw hc
  | before => exact .refl ..
  | after => exact unwritten_exec hw hc
  | during n rs =>
    show Unwritten P fs (partialEffect fs n rs c)
    cases c with
    | writeAt i off x =>
      simp only [partialEffect]
      split
      · exact .refl ..
      · exact unwritten_exec (cfg := cfg) (c := .writeAt i off (x.take n)) hw hc
    | rmtree p =>
      simp only [partialEffect]
      split
      · split
        · exact unwritten_foldl ..
        · exact .refl ..
      · exact .refl ..
    | _ => exact .refl ..

/-- a file that was written may come back full of zeros -/
theorem power_zeros {e : Epoch} {fs : FS} (hw : WF fs) {i : Ino} (hi : (e.leaves cfg ext fs).lookup i.path = some (.file i))
    (hd : (e.leaves cfg ext fs).data i ≠ fs.data i) :
    PowerLoss cfg ext e fs ((e.leaves cfg ext fs).setData i (List.replicate ((e.leaves cfg ext fs).data i).length 0)) := by
  have h := power_last (cfg := cfg) (ext := ext) (e := e) hw
  have hdj : ∀ j, j ≠ i → ((e.leaves cfg ext fs).setData i (List.replicate ((e.leaves cfg ext fs).data i).length 0)).data j
      = (e.leaves cfg ext fs).data j := fun j hj => by rw [data_setData, if_neg hj]
  have hdi : ((e.leaves cfg ext fs).setData i (List.replicate ((e.leaves cfg ext fs).data i).length 0)).data i
      = List.replicate ((e.leaves cfg ext fs).data i).length 0 := by rw [data_setData, if_pos rfl]
  refine ⟨⟨h.tree.nodup, h.tree.names, h.tree.parent, h.tree.ino⟩, h.name, fun j hj => ?_, fun j n x hl hx => ?_, fun j hl => ?_⟩
  · by_cases e' : j = i
    · subst e'
      have := hj e.steps.length
      rw [upTo_end] at this
      exact absurd this hd
    · rw [hdj j e']; exact h.kept j hj
  · by_cases e' : j = i
    · subst e'
      rw [hdi, List.getElem?_replicate] at hx
      split at hx
      · exact .inl (Option.some.inj hx).symm
      · cases hx
    · rw [hdj j e'] at hx; exact h.byte j n x hl hx
  · by_cases e' : j = i
    · subst e'
      rw [hdi, List.length_replicate]
      exact h.length j hl
    · rw [hdj j e']; exact h.length j hl

/-- a name that was made may be lost -/
theorem power_lost {e : Epoch} {fs : FS} (hw : WF fs) {P : Path} {i : Ino} (h0 : fs.lookup P = none)
    (hi : (e.leaves cfg ext fs).lookup P = some (.file i)) : PowerLoss cfg ext e fs ((e.leaves cfg ext fs).erase P) := by
  have h := power_last (cfg := cfg) (ext := ext) (e := e) hw
  have he : (exec cfg (e.leaves cfg ext fs) (.unlink ⟨P, false⟩)).2 = (e.leaves cfg ext fs).erase P := by
    simp [exec, FS.at, hi]
  have hback : ∀ q j, ((e.leaves cfg ext fs).erase P).lookup q = some (.file j) → (e.leaves cfg ext fs).lookup q = some (.file j) :=
    fun q j hj => (unwritten_erase q _ P).node j hj
  refine ⟨he ▸ exec_wf cfg h.tree _, fun q => ?_, h.kept, fun j n x hl hx => h.byte j n x (hback _ _ hl) hx, fun j hl => h.length j (hback _ _ hl)⟩
  rw [lookup_erase]
  split
  · rename_i e; exact ⟨0, by rw [e, lookup_nil]⟩
  · split
    · rename_i e; exact ⟨0, by rw [e, upTo_zero, h0]⟩
    · exact h.name q

end S3
