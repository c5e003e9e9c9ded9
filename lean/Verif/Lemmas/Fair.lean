import Verif.Spec.Fair
import Verif.Lemmas.Served
import Verif.Props.Racing
/-! Programs under unending schedules: every program comes to an end, listings with enough fuel do not run out of it. -/
namespace S3
open Spec

variable {cfg : Cfg} {ext : Ext} {α β : Type}

/-! ### one thread and the trees it meets -/

def Prog.done : Prog α → Bool
  | .sys _ _ => false
  | _ => true

def shift {γ : Type} (f : Nat → γ) : Nat → γ := fun n => f (n + 1)

/-- the thread `i` after `t` steps of the schedule when the tree before step `s` is `G s` -/
def adv (cfg : Cfg) (i : Nat) : Nat → (Nat → Nat) → (Nat → FS) → Prog α → Prog α
  | 0, _, _, p => p
  | t + 1, σ, G, p => adv cfg i t (shift σ) (shift G) (if σ 0 = i then (stepProg cfg p (G 0)).1 else p)

theorem firstSteps_succ (σ : Nat → Nat) (t : Nat) : firstSteps σ (t + 1) = σ 0 :: firstSteps (shift σ) t := by
  simp only [firstSteps, List.range_succ_eq_map, List.map_cons, List.map_map]
  rfl

/-- the tree before step `t` -/
def trees (cfg : Cfg) (σ : Nat → Nat) (ps : List (Prog α)) (fs : FS) (t : Nat) : FS := (runPar cfg (firstSteps σ t) ps fs).2

theorem adv_par {σ : Nat → Nat} {ps : List (Prog α)} {fs : FS} {i : Nat} {p : Prog α} (hi : ps[i]? = some p) (t : Nat) :
    (runPar cfg (firstSteps σ t) ps fs).1[i]? = some (adv cfg i t σ (trees cfg σ ps fs) p) := by
  induction t generalizing σ ps fs p with
  | zero => exact hi
  | succ t ih =>
    have h0 : trees cfg σ ps fs 0 = fs := rfl
    rw [firstSteps_succ]
    simp only [runPar, adv]
    cases hj : ps[σ 0]? with
    | none =>
      have hne : σ 0 ≠ i := by rintro rfl; rw [hi] at hj; cases hj
      have hs : shift (trees cfg σ ps fs) = trees cfg (shift σ) ps fs := by
        funext s; simp only [shift, trees, firstSteps_succ, runPar, hj]
      simp only [if_neg hne, hs]
      exact ih hi
    | some q =>
      have hs : shift (trees cfg σ ps fs) = trees cfg (shift σ) (ps.set (σ 0) (stepProg cfg q fs).1) (stepProg cfg q fs).2 := by
        funext s; simp only [shift, trees, firstSteps_succ, runPar, hj]
      simp only [hs]
      by_cases he : σ 0 = i
      · subst he
        rw [hi] at hj; cases hj
        rw [if_pos rfl, h0]
        refine ih ?_
        obtain ⟨hlt, _⟩ := List.getElem?_eq_some_iff.mp hi
        rw [List.getElem?_set, if_pos rfl, if_pos hlt]
      · rw [if_neg he]
        exact ih (by rw [List.getElem?_set, if_neg he]; exact hi)

theorem step_done {p : Prog α} (h : p.done = true) (fs : FS) : stepProg cfg p fs = (p, fs) := by
  cases p with
  | sys c k => cases h
  | _ => rfl

theorem adv_done {p : Prog α} (h : p.done = true) (i t : Nat) (σ : Nat → Nat) (G : Nat → FS) : adv cfg i t σ G p = p := by
  induction t generalizing σ G with
  | zero => rfl
  | succ t ih =>
    simp only [adv, step_done h, ite_self]
    exact ih _ _

/-- a thread that comes up again and again comes to an end -/
theorem adv_ends (p : Prog α) {i : Nat} {σ : Nat → Nat} (hσ : ∀ t, ∃ s, t ≤ s ∧ σ s = i) (G : Nat → FS) :
    ∃ t, ∀ t', t ≤ t' → (adv cfg i t' σ G p).done = true := by
  induction p generalizing σ G with
  | sys c k ih =>
    obtain ⟨s, -, hs⟩ := hσ 0
    induction s generalizing σ G with
    | zero =>
      obtain ⟨t, ht⟩ := ih (exec cfg (G 0) c).1 (σ := shift σ)
        (fun t => by obtain ⟨s, h1, h2⟩ := hσ (t + 1); exact ⟨s - 1, by omega, by simp only [shift]; rw [Nat.sub_add_cancel (by omega)]; exact h2⟩) (shift G)
      refine ⟨t + 1, fun t' h => ?_⟩
      obtain ⟨u, rfl⟩ : ∃ u, t' = u + 1 := ⟨t' - 1, by omega⟩
      simp only [adv, if_pos hs, stepProg]
      exact ht u (by omega)
    | succ s ihs =>
      have hσ' : ∀ t, ∃ s, t ≤ s ∧ shift σ s = i :=
        fun t => by obtain ⟨s, h1, h2⟩ := hσ (t + 1); exact ⟨s - 1, by omega, by simp only [shift]; rw [Nat.sub_add_cancel (by omega)]; exact h2⟩
      by_cases h0 : σ 0 = i
      · obtain ⟨t, ht⟩ := ih (exec cfg (G 0) c).1 hσ' (shift G)
        refine ⟨t + 1, fun t' h => ?_⟩
        obtain ⟨u, rfl⟩ : ∃ u, t' = u + 1 := ⟨t' - 1, by omega⟩
        simp only [adv, if_pos h0, stepProg]
        exact ht u (by omega)
      · obtain ⟨t, ht⟩ := ihs hσ' (shift G) hs
        refine ⟨t + 1, fun t' h => ?_⟩
        obtain ⟨u, rfl⟩ : ∃ u, t' = u + 1 := ⟨t' - 1, by omega⟩
        simp only [adv, if_neg h0]
        exact ht u (by omega)
  | _ => exact ⟨0, fun t' _ => by rw [adv_done rfl]; rfl⟩

/-- a thread that cannot run out of fuel does not -/
theorem adv_ne_diverge {E : S3ErrorCode → Prop} {p : Prog α} (h : Ends False E p) (i t : Nat) (σ : Nat → Nat) (G : Nat → FS) :
    adv cfg i t σ G p ≠ .diverge := by
  induction t generalizing σ G p with
  | zero => intro hp; simp only [adv] at hp; rw [hp] at h; exact h
  | succ t ih =>
    simp only [adv]
    split
    · exact ih (Ends.step _ _ h) _ _
    · exact ih h _ _

/-! ### programs that change nothing -/

def Quiet (cfg : Cfg) : Prog α → Prop
  | .sys c k => (∀ fs, (exec cfg fs c).2 = fs) ∧ ∀ r, Quiet cfg (k r)
  | _ => True

theorem Quiet.bind {p : Prog α} {f : α → Prog β} (h : Quiet cfg p) (hf : ∀ a, Quiet cfg (f a)) : Quiet cfg (p.bind f) := by
  induction p with
  | ret a => exact hf a
  | sys c k ih => exact ⟨h.1, fun r => ih r (h.2 r)⟩
  | _ => trivial

theorem Quiet.step {p : Prog α} (h : Quiet cfg p) (fs : FS) : Quiet cfg (stepProg cfg p fs).1 ∧ (stepProg cfg p fs).2 = fs := by
  cases p with
  | sys c k => exact ⟨h.2 _, h.1 _⟩
  | _ => exact ⟨trivial, rfl⟩

theorem Quiet.run {p : Prog α} (h : Quiet cfg p) (fs : FS) : (run cfg p fs).2 = fs := by
  induction p generalizing fs with
  | sys c k ih => rw [S3.run, h.1]; exact ih _ (h.2 _) _
  | _ => rfl

theorem quiet_orInternal {o : Option α} {f : α → Prog β} (h : ∀ a, Quiet cfg (f a)) : Quiet cfg ((orInternal o).bind f) := by
  cases o with
  | none => trivial
  | some a => exact h a

theorem exec_stat (fs : FS) (p : OsPath) : (exec cfg fs (.stat p)).2 = fs := by
  simp only [exec]

theorem exec_readDir_tree (fs : FS) (p : OsPath) : (exec cfg fs (.readDir p)).2 = fs := by
  simp only [exec]; split <;> rfl

theorem quiet_listEntries (base : Path) (pfx : Option Bytes) (dir : Path) (l : List (Bytes × Bool)) : Quiet cfg (listEntries cfg base pfx dir l) := by
  induction l with
  | nil => trivial
  | cons p l ih =>
    obtain ⟨n, d⟩ := p
    simp only [listEntries]
    split
    · exact Quiet.bind ih fun _ => trivial
    · split
      · exact ih
      · refine ⟨fun fs => exec_stat fs _, fun r => quiet_orInternal fun _ => ?_⟩
        split
        · exact Quiet.bind ih fun _ => trivial
        · trivial

theorem quiet_listLoop (base : Path) (pfx : Option Bytes) (n : Nat) (q : List Path) : Quiet cfg (listLoop cfg base pfx n q) := by
  induction n generalizing q with
  | zero => cases q <;> trivial
  | succ n ih =>
    cases q with
    | nil => trivial
    | cons d q =>
      exact ⟨fun fs => exec_readDir_tree fs _, fun r => quiet_orInternal fun _ => Quiet.bind (quiet_listEntries ..) fun _ =>
        Quiet.bind (ih _) fun _ => trivial⟩

/-- a thread that changes nothing, in a tree that nothing changes -/
theorem adv_quiet {p : Prog α} (h : Quiet cfg p) {F : FS} {G : Nat → FS} (hG : ∀ t, G t = F) (hr : (run cfg p F).1 ≠ .diverge)
    (i t : Nat) (σ : Nat → Nat) : adv cfg i t σ G p ≠ .diverge := by
  induction t generalizing σ G p with
  | zero => rintro hp; simp only [adv] at hp; rw [hp] at hr; exact hr rfl
  | succ t ih =>
    simp only [adv]
    split
    · refine ih (h.step _).1 (fun t => hG _) ?_ _
      cases p with
      | sys c k =>
        rw [hG]
        have := hr
        rw [run, h.1] at this
        exact this
      | _ => exact hr
    · exact ih h (fun t => hG _) hr _

theorem quiet_bind {p : Prog α} {f : α → Prog β} {F : FS} (h : Quiet cfg p) (he : Ends False (fun _ => True) p ∨ (run cfg p F).1 ≠ .diverge)
    (hf : ∀ a, (run cfg p F).1 = .ok a → (run cfg (f a) F).1 ≠ .diverge) : (run cfg (p.bind f) F).1 ≠ .diverge := by
  induction p with
  | ret a => exact hf a rfl
  | sys c k ih =>
    simp only [Prog.bind, run, h.1] at hf he ⊢
    exact ih _ (h.2 _) (he.imp (fun h => h _) id) hf
  | diverge => exact (he.elim id fun h => h rfl).elim
  | _ => intro h; cases h

/-! ### a listing in a tree that nothing changes -/

theorem length_le_sum {F : FS} {e : Path × Node} (h : e ∈ F.nodes) : e.1.length ≤ (F.nodes.map (·.1.length)).sum := by
  generalize F.nodes = l at h
  induction l with
  | nil => cases h
  | cons a l ih =>
    simp only [List.map_cons, List.sum_cons]
    rcases List.mem_cons.mp h with rfl | h
    · omega
    · have := ih h; omega

/-- bound on the number of directories visited below a directory -/
def visits (F : FS) (d : Path) : Nat := (F.nodes.length + 1) ^ ((F.nodes.map (·.1.length)).sum + 1 - d.length)

theorem visits_pos (F : FS) (d : Path) : 0 < visits F d := Nat.pow_pos (by omega)

/-- every answer the program can give satisfies `Q` -/
def Gives (Q : α → Prop) : Prog α → Prop
  | .ret a => Q a
  | .sys _ k => ∀ r, Gives Q (k r)
  | _ => True

theorem Gives.bind {P : α → Prop} {Q : β → Prop} {p : Prog α} {f : α → Prog β} (h : Gives P p) (hf : ∀ a, P a → Gives Q (f a)) : Gives Q (p.bind f) := by
  induction p with
  | ret a => exact hf a h
  | sys c k ih => exact fun r => ih r (h r)
  | _ => trivial

theorem Gives.mono {P Q : α → Prop} (hPQ : ∀ a, P a → Q a) {p : Prog α} (h : Gives P p) : Gives Q p := by
  induction p with
  | ret a => exact hPQ a h
  | sys c k ih => exact fun r => ih r (h r)
  | _ => trivial

theorem Gives.run {Q : α → Prop} {p : Prog α} (h : Gives Q p) {fs : FS} {a : α} (hr : (run cfg p fs).1 = .ok a) : Q a := by
  induction p generalizing fs with
  | ret a => cases hr; exact h
  | sys c k ih => exact ih _ (h _) hr
  | _ => cases hr

theorem gives_orInternal {Q : β → Prop} {o : Option α} {f : α → Prog β} (h : ∀ a, Gives Q (f a)) : Gives Q ((orInternal o).bind f) := by
  cases o with
  | none => trivial
  | some a => exact h a

theorem listEntries_dirs (base : Path) (pfx : Option Bytes) (dir : Path) (es : List (Bytes × Bool)) :
    Gives (fun x => x.1.length ≤ es.length ∧ ∀ d ∈ x.1, d.length = dir.length + 1) (listEntries cfg base pfx dir es) := by
  induction es with
  | nil => exact ⟨Nat.le_refl _, fun d h => nomatch h⟩
  | cons p l ih =>
    obtain ⟨n, d⟩ := p
    simp only [listEntries]
    split
    · refine Gives.bind ih fun x hx => ⟨Nat.succ_le_succ hx.1, fun d hd => ?_⟩
      rcases List.mem_cons.mp hd with rfl | hd
      · simp
      · exact hx.2 d hd
    · have hw : Gives (fun x => x.1.length ≤ l.length + 1 ∧ ∀ d ∈ x.1, d.length = dir.length + 1) (listEntries cfg base pfx dir l) :=
        Gives.mono (fun x hx => ⟨Nat.le_succ_of_le hx.1, hx.2⟩) ih
      split
      · exact hw
      · refine fun r => gives_orInternal fun _ => ?_
        split
        · exact Gives.bind hw fun x hx => hx
        · trivial

theorem sum_le_mul {l : List Path} {f : Path → Nat} {m : Nat} (h : ∀ d ∈ l, f d = m) : (l.map f).sum = l.length * m := by
  induction l with
  | nil => simp
  | cons a l ih =>
    rw [List.map_cons, List.sum_cons, ih fun d hd => h d (List.mem_cons_of_mem _ hd), h a List.mem_cons_self, List.length_cons, Nat.succ_mul, Nat.add_comm]

/-- the directories found in a directory weigh less than it -/
theorem visits_children {F : FS} {d : Path} {ds : List Path} (hl : ds.length ≤ (F.children d).length) (hd : ∀ e ∈ ds, e.length = d.length + 1) :
    (ds.map (visits F)).sum < visits F d := by
  rw [sum_le_mul (m := (F.nodes.length + 1) ^ ((F.nodes.map (·.1.length)).sum + 1 - (d.length + 1))) fun e he => by simp only [visits, hd e he]]
  cases hc : F.children d with
  | nil =>
    rw [hc] at hl
    have : ds.length = 0 := by simpa using hl
    rw [this, Nat.zero_mul]
    exact visits_pos F d
  | cons c cs =>
    have hm : c ∈ F.children d := by rw [hc]; exact List.mem_cons_self
    obtain ⟨e, he, hce⟩ := List.mem_filterMap.mp hm
    have hlen : e.1.length = d.length + 1 := by
      simp only [childOf] at hce
      cases hg : e.1.getLast? with
      | none => rw [hg] at hce; cases hce
      | some a =>
        rw [hg] at hce
        simp only at hce
        split at hce
        · rename_i h
          have hne : e.1 ≠ [] := by rintro h0; rw [h0] at hg; cases hg
          rw [← h, List.length_dropLast]
          have := List.length_pos_iff.mpr hne
          omega
        · cases hce
    have hs := length_le_sum he
    have hn : ds.length ≤ F.nodes.length := Nat.le_trans hl (List.length_filterMap_le ..)
    simp only [visits]
    rw [show (F.nodes.map (·.1.length)).sum + 1 - d.length = ((F.nodes.map (·.1.length)).sum + 1 - (d.length + 1)) + 1 by omega, Nat.pow_succ, Nat.mul_comm]
    refine Nat.mul_lt_mul_of_pos_left (by omega) (Nat.pow_pos (by omega))

/-- a listing of a tree that nothing changes comes to its end -/
theorem listLoop_static (F : FS) (base : Path) (pfx : Option Bytes) (n : Nat) (queue : List Path) (h : (queue.map (visits F)).sum ≤ n) :
    (run cfg (listLoop cfg base pfx n queue) F).1 ≠ .diverge := by
  induction n generalizing queue with
  | zero =>
    cases queue with
    | nil => intro h; cases h
    | cons d q =>
      have := visits_pos F d
      simp only [List.map_cons, List.sum_cons] at h
      omega
  | succ n ih =>
    cases queue with
    | nil => intro h; cases h
    | cons d q =>
      simp only [List.map_cons, List.sum_cons] at h
      simp only [listLoop, bind_eq, pure_eq, call, Prog.bind, run, exec_readDir_tree]
      cases he : (exec cfg F (.readDir ⟨d, false⟩)).1 with
      | none => intro h; cases h
      | some es =>
        have hes : es.length = (F.children d).length := by
          simp only [exec] at he
          split at he
          · cases he; simp
          · cases he
        simp only [orInternal, Prog.bind]
        refine quiet_bind (quiet_listEntries ..) (.inl (fails_listEntries (E := fun _ => True) trivial ..)) fun x hx => ?_
        have hg := (listEntries_dirs base pfx d es).run hx
        have hv := visits_children (by rw [← hes]; exact hg.1) hg.2
        exact quiet_bind (quiet_listLoop ..) (.inr (ih (q ++ x.1) (by rw [List.map_append, List.sum_append]; omega))) fun _ _ h => by cases h

/-! ### a listing in a tree that comes to rest -/

theorem adv_listing {F : FS} {base : Path} {pfx : Option Bytes} (i T : Nat) : ∀ {σ : Nat → Nat} {G : Nat → FS}, (∀ t, T ≤ t → G t = F) →
    ∀ {P : Prog (List Path × List (Bytes × Nat))} {ds : List Path × List (Bytes × Nat) → List Path}
      {K : List Path × List (Bytes × Nat) → List (Bytes × Nat) → Prog β}, Quiet cfg P → Ends False (fun _ => True) P →
    (∀ x l, Quiet cfg (K x l)) → (∀ x l, Ends False (fun _ => True) (K x l)) → ∃ N, ∀ n, N ≤ n → ∀ t,
      adv cfg i t σ G (P.bind fun x => (listLoop cfg base pfx n (ds x)).bind (K x)) ≠ .diverge := by
  induction T with
  | zero =>
    intro σ G hG P ds K hq he hKq hKe
    have hG' : ∀ t, G t = F := fun t => hG t (Nat.zero_le t)
    have hquiet : ∀ n, Quiet cfg (P.bind fun x => (listLoop cfg base pfx n (ds x)).bind (K x)) := fun n =>
      Quiet.bind hq fun x => Quiet.bind (quiet_listLoop ..) fun l => hKq x l
    have hK : ∀ x l fs, (run cfg (K x l) fs).1 ≠ .diverge := by
      intro x l fs
      have := hKe x l
      revert this
      generalize K x l = p
      intro this
      induction p generalizing fs with
      | sys c k ih => exact ih _ _ (this _)
      | diverge => exact this.elim
      | _ => intro h; cases h
    refine ⟨match (run cfg P F).1 with | .ok x => ((ds x).map (visits F)).sum | _ => 0, fun n hn t => ?_⟩
    refine adv_quiet (hquiet n) hG' ?_ i t σ
    refine quiet_bind hq (.inl he) fun x hx => ?_
    rw [hx] at hn
    exact quiet_bind (quiet_listLoop ..) (.inr (listLoop_static F base pfx n _ hn)) fun l _ => hK x l F
  | succ T ih =>
    intro σ G hG P ds K hq he hKq hKe
    have hG' : ∀ t, T ≤ t → shift G t = F := fun t h => hG _ (Nat.succ_le_succ h)
    by_cases h0 : σ 0 = i
    · cases P with
      | ret x =>
        cases hd : ds x with
        | nil =>
          refine ⟨0, fun n _ t => ?_⟩
          simp only [Prog.bind, hd, listLoop, pure_eq]
          exact adv_ne_diverge (hKe x []) i t σ G
        | cons d q =>
          cases hes : (exec cfg (G 0) (.readDir ⟨d, false⟩)).1 with
          | none =>
            refine ⟨1, fun n hn t => ?_⟩
            obtain ⟨m, rfl⟩ : ∃ m, n = m + 1 := ⟨n - 1, by omega⟩
            cases t with
            | zero => intro h; simp only [adv, Prog.bind, hd, listLoop, bind_eq, pure_eq, call] at h; cases h
            | succ t =>
              simp only [adv, if_pos h0, Prog.bind, hd, listLoop, bind_eq, pure_eq, call, stepProg, hes, orInternal]
              rw [adv_done rfl]
              intro h; cases h
          | some es =>
            obtain ⟨N, hN⟩ := ih (σ := shift σ) hG' (P := listEntries cfg base pfx d es) (ds := fun y => q ++ y.1)
              (K := fun y l => K x (y.2 ++ l)) (quiet_listEntries ..) (fails_listEntries (E := fun _ => True) trivial ..)
              (fun _ _ => hKq _ _) (fun _ _ => hKe _ _)
            refine ⟨N + 1, fun n hn t => ?_⟩
            obtain ⟨m, rfl⟩ : ∃ m, n = m + 1 := ⟨n - 1, by omega⟩
            cases t with
            | zero => intro h; simp only [adv, Prog.bind, hd, listLoop, bind_eq, pure_eq, call] at h; cases h
            | succ t =>
              simp only [adv, if_pos h0, Prog.bind, hd, listLoop, bind_eq, pure_eq, call, stepProg, hes, orInternal, prog_bind_assoc]
              exact hN m (by omega) t
      | fail e => exact ⟨0, fun n _ t h => by rw [Prog.bind, adv_done rfl] at h; cases h⟩
      | panic => exact ⟨0, fun n _ t h => by rw [Prog.bind, adv_done rfl] at h; cases h⟩
      | diverge => exact he.elim
      | sys c k =>
        obtain ⟨N, hN⟩ := ih (σ := shift σ) hG' (P := k (exec cfg (G 0) c).1) (ds := ds) (K := K) (hq.2 _) (he _) hKq hKe
        refine ⟨N, fun n hn t => ?_⟩
        cases t with
        | zero => intro h; cases h
        | succ t =>
          simp only [adv, if_pos h0, Prog.bind, stepProg]
          exact hN n hn t
    · obtain ⟨N, hN⟩ := ih (σ := shift σ) hG' (ds := ds) (K := K) hq he hKq hKe
      refine ⟨N, fun n hn t => ?_⟩
      cases t with
      | zero =>
        intro h
        exact hN n hn 0 h
      | succ t =>
        simp only [adv, if_neg h0]
        exact hN n hn t

/-! ### the trees do not depend on the listings -/

/-- threads that are the same or both change nothing -/
def Alike (cfg : Cfg) (p q : Prog α) : Prop := p = q ∨ Quiet cfg p ∧ Quiet cfg q

theorem trees_alike {σ : Nat → Nat} (t : Nat) {ps qs : List (Prog α)} {fs : FS} (hl : ps.length = qs.length)
    (h : ∀ (i : Nat) p q, ps[i]? = some p → qs[i]? = some q → Alike cfg p q) : trees cfg σ ps fs t = trees cfg σ qs fs t := by
  induction t generalizing σ ps qs fs with
  | zero => rfl
  | succ t ih =>
    simp only [trees, firstSteps_succ, runPar]
    cases hp : ps[σ 0]? with
    | none =>
      have hq : qs[σ 0]? = none := by rw [List.getElem?_eq_none_iff] at hp ⊢; omega
      rw [hq]
      exact ih hl h
    | some p =>
      obtain ⟨hlt, _⟩ := List.getElem?_eq_some_iff.mp hp
      have hq : qs[σ 0]? = some (qs[σ 0]'(by omega)) := List.getElem?_eq_getElem _
      generalize qs[σ 0]'(by omega) = q at hq
      rw [hq]
      have hpq := h _ _ _ hp hq
      have h2 : (stepProg cfg p fs).2 = (stepProg cfg q fs).2 := by
        rcases hpq with rfl | ⟨h1, h2⟩
        · rfl
        · rw [(h1.step fs).2, (h2.step fs).2]
      have h1 : Alike cfg (stepProg cfg p fs).1 (stepProg cfg q fs).1 := by
        rcases hpq with rfl | ⟨h1, h2⟩
        · exact .inl rfl
        · exact .inr ⟨(h1.step fs).1, (h2.step fs).1⟩
      simp only [h2]
      refine ih (by simp [hl]) fun i a b ha hb => ?_
      rw [List.getElem?_set] at ha hb
      by_cases hi : σ 0 = i
      · subst hi
        rw [if_pos rfl, if_pos (by omega)] at ha hb
        cases ha; cases hb
        exact h1
      · rw [if_neg hi] at ha hb
        exact h i a b ha hb

theorem runPar_two (a b : List Nat) (ps : List (Prog α)) (fs : FS) :
    runPar cfg (a ++ b) ps fs = runPar cfg b (runPar cfg a ps fs).1 (runPar cfg a ps fs).2 := by
  induction a generalizing ps fs with
  | nil => rfl
  | cons i a ih =>
    simp only [List.cons_append, runPar]
    split <;> exact ih _ _

theorem runPar_count (a : List Nat) (ps : List (Prog α)) (fs : FS) : (runPar cfg a ps fs).1.length = ps.length := by
  induction a generalizing ps fs with
  | nil => rfl
  | cons i a ih =>
    simp only [runPar]
    split
    · exact ih _ _
    · rw [ih, List.length_set]

theorem all_of_each {n : Nat} {P : Nat → Nat → Prop} (h : ∀ i, i < n → ∃ N, ∀ m, N ≤ m → P i m) : ∃ N, ∀ m, N ≤ m → ∀ i, i < n → P i m := by
  induction n with
  | zero => exact ⟨0, fun m _ i hi => absurd hi (by omega)⟩
  | succ n ih =>
    obtain ⟨N, hN⟩ := ih fun i hi => h i (by omega)
    obtain ⟨M, hM⟩ := h n (by omega)
    refine ⟨max N M, fun m hm i hi => ?_⟩
    by_cases hin : i = n
    · subst hin; exact hM m (by omega)
    · exact hN m (by omega) i (by omega)

theorem firstSteps_last (σ : Nat → Nat) (t : Nat) : firstSteps σ (t + 1) = firstSteps σ t ++ [σ t] := by
  simp only [firstSteps, List.range_succ, List.map_append, List.map_cons, List.map_nil]

/-- a thread that comes up again and again ends -/
theorem thread_ends {σ : Nat → Nat} {ps : List (Prog α)} {i : Nat} (hi : i < ps.length) (hσ : ∀ t, ∃ s, t ≤ s ∧ σ s = i) (fs : FS) :
    ∃ T, ∀ t, T ≤ t → ∃ p, (runPar cfg (firstSteps σ t) ps fs).1[i]? = some p ∧ p.done = true := by
  obtain ⟨t, ht⟩ := adv_ends (cfg := cfg) ps[i] hσ (trees cfg σ ps fs)
  exact ⟨t, fun t' h => ⟨_, adv_par (List.getElem?_eq_getElem hi) t', ht t' h⟩⟩

/-- the tree comes to rest -/
theorem trees_rest (σ : Nat → Nat) (ps : List (Prog α)) (fs : FS) : ∃ T, ∀ t, T ≤ t → trees cfg σ ps fs t = trees cfg σ ps fs T := by
  obtain ⟨T, hT⟩ := all_of_each (n := ps.length)
    (P := fun i t => σ t = i → ∃ p, (runPar cfg (firstSteps σ t) ps fs).1[i]? = some p ∧ p.done = true) (by
    intro i hi
    by_cases h : ∀ t, ∃ s, t ≤ s ∧ σ s = i
    · obtain ⟨T, hT⟩ := thread_ends (cfg := cfg) hi h fs
      exact ⟨T, fun t ht _ => hT t ht⟩
    · obtain ⟨T, hT⟩ := Classical.not_forall.mp h
      exact ⟨T, fun t ht hs => absurd ⟨t, ht, hs⟩ hT⟩)
  refine ⟨T, fun t ht => ?_⟩
  induction ht with
  | refl => rfl
  | step ht ih =>
    rename_i t
    rw [← ih]
    simp only [trees, firstSteps_last, runPar_two]
    simp only [runPar]
    split
    · rfl
    · rename_i p hp
      have hlt : σ t < ps.length := by
        obtain ⟨h, _⟩ := List.getElem?_eq_some_iff.mp hp
        rwa [runPar_count] at h
      obtain ⟨p', h1, h2⟩ := hT t ht _ hlt rfl
      rw [hp] at h1; cases h1
      rw [step_done h2]

/-- a thread that has ended stays as it is -/
theorem thread_stays {σ : Nat → Nat} {ps : List (Prog α)} {fs : FS} {i T : Nat} {p : Prog α}
    (h : (runPar cfg (firstSteps σ T) ps fs).1[i]? = some p) (hp : p.done = true) {t : Nat} (ht : T ≤ t) :
    (runPar cfg (firstSteps σ t) ps fs).1[i]? = some p := by
  obtain ⟨s, rfl⟩ : ∃ s, t = T + s := ⟨t - T, by omega⟩
  rw [show firstSteps σ (T + s) = firstSteps σ T ++ (List.range s).map fun n => σ (T + n) by
    simp only [firstSteps, List.range_add, List.map_append, List.map_map]; rfl, runPar_two]
  obtain ⟨q, h3, rfl⟩ := par_thread (cfg := cfg) (P := fun q => q = p) (fun q fs h => by rw [h, step_done hp])
    ((List.range s).map fun n => σ (T + n)) _ (runPar cfg (firstSteps σ T) ps fs).2 h rfl
  exact h3

/-! ### a larger bound changes nothing but the running out of fuel -/

/-- `q` does what `p` does as far as `p` does not run out of fuel -/
inductive Extends : Prog α → Prog α → Prop
  | diverge (q : Prog α) : Extends .diverge q
  | refl (p : Prog α) : Extends p p
  | sys (c : Call) {k k' : Resp c → Prog α} (h : ∀ r, Extends (k r) (k' r)) : Extends (.sys c k) (.sys c k')

theorem Extends.step {p q : Prog α} (h : Extends p q) (fs : FS) : Extends (stepProg cfg p fs).1 (stepProg cfg q fs).1 := by
  cases h with
  | diverge => exact .diverge _
  | refl => exact .refl _
  | sys c h => exact h _

theorem Extends.done {p q : Prog α} (h : Extends p q) (hp : p.done = true) (hd : p ≠ .diverge) : q = p := by
  cases h with
  | diverge => exact absurd rfl hd
  | refl => rfl
  | sys c h => cases hp

theorem Extends.bind {p q : Prog α} {f g : α → Prog β} (h : Extends p q) (hf : ∀ a, Extends (f a) (g a)) : Extends (p.bind f) (q.bind g) := by
  induction h with
  | diverge => exact .diverge _
  | refl p =>
    induction p with
    | ret a => exact hf a
    | sys c k ih => exact .sys c ih
    | fail e => exact .refl _
    | panic => exact .refl _
    | diverge => exact .refl _
  | sys c h ih => exact .sys c ih

theorem extends_listLoop {base : Path} {pfx : Option Bytes} {m n : Nat} (h : m ≤ n) (q : List Path) :
    Extends (listLoop cfg base pfx m q) (listLoop cfg base pfx n q) := by
  induction m generalizing n q with
  | zero =>
    cases q with
    | nil => simp only [listLoop]; exact .refl _
    | cons d q => exact .diverge _
  | succ m ih =>
    cases q with
    | nil => simp only [listLoop]; exact .refl _
    | cons d q =>
      obtain ⟨l, rfl⟩ : ∃ l, n = l + 1 := ⟨n - 1, by omega⟩
      simp only [listLoop, bind_eq, pure_eq, call, Prog.bind]
      exact .sys _ fun r => Extends.bind (.refl (orInternal _)) fun es => Extends.bind (.refl (listEntries ..)) fun x =>
        Extends.bind (ih (by omega) _) fun _ => .refl _

theorem Extends.adv {p q : Prog α} (h : Extends p q) (i t : Nat) (σ : Nat → Nat) (G : Nat → FS) : Extends (adv cfg i t σ G p) (adv cfg i t σ G q) := by
  induction t generalizing σ G p q with
  | zero => exact h
  | succ t ih =>
    simp only [S3.adv]
    split
    · exact ih (h.step _) _ _
    · exact ih h _ _

end S3
