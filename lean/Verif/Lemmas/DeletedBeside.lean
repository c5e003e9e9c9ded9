import Verif.Props.FoldersBeside
/-! Deletions while others make and remove folders. -/
namespace S3
open Spec

variable {cfg : Cfg} {ext : Ext} {α : Type} {R : FS → FS → Prop}

/-- one request among others, on a disk that fails for the others only: what it promises when it has been answered, with whatever outcome -/
theorem runParF_wp_quiet (hR : Rely R) {Q : Outcome α → FS → Prop} {ok : Nat → Call → Prop} {i : Nat}
    (hg : ∀ j fs c f, j ≠ i → WF fs → ok j c → R fs (execF cfg fs c f).2)
    {steps : List (Nat × Fault)} (hq : ∀ f, (i, f) ∈ steps → f = .none) {ps : List (Prog α)} {fs : FS} (hw : WF fs)
    (hs : ∀ (j : Nat) p, ps[j]? = some p → Safe (ok j) (fun _ => True) p)
    (hp : ∀ p, ps[i]? = some p → wp cfg R Q p fs) {p : Prog α} (h : (runParF cfg steps ps fs).1[i]? = some p) :
    wp cfg R Q p (runParF cfg steps ps fs).2 := by
  induction steps generalizing ps fs with
  | nil => exact hp p h
  | cons x s ih =>
    obtain ⟨j, f⟩ := x
    have hq' : ∀ f, (i, f) ∈ s → f = .none := fun f h => hq f (List.mem_cons_of_mem _ h)
    revert h
    simp only [runParF]
    split
    · exact fun h => ih hq' hw hs hp h
    · rename_i q hj
      have hlt : j < ps.length := (List.getElem?_eq_some_iff.mp hj).1
      refine fun h => ih hq' (stepProgF_wf hw) ?_ ?_ h
      · intro m r hr
        by_cases hm : m = j
        · subst hm
          rw [List.getElem?_set_self hlt] at hr
          cases hr
          have := hs m q hj
          cases q with
          | sys c k => exact this.2 _ (execF_respOk hw c f)
          | _ => exact this
        · rw [List.getElem?_set_ne (fun e => hm e.symm)] at hr
          exact hs m r hr
      · intro r hr
        by_cases hm : i = j
        · subst hm
          rw [List.getElem?_set_self hlt] at hr
          cases hr
          obtain rfl := hq f (List.mem_cons_self ..)
          have := hp q hj
          cases q with
          | sys c k => exact this fs (hR.refl _) hw
          | _ => exact this
        · rw [List.getElem?_set_ne (fun e => hm e.symm)] at hr
          refine wp_rely hR (hp r hr) ?_
          have := hs j q hj
          cases q with
          | sys c k => exact hg j fs c f (fun e => hm e.symm) hw this.1
          | _ => exact hR.refl _

/-- the same for a run of the server -/
theorem epoch_wp_quiet (hR : Rely R) {Q : Outcome Answer → FS → Prop} {e : Epoch} {i : Nat} {o : Op} (hi : e.requests[i]? = some o)
    (hg : ∀ (j : Nat) o', j ≠ i → e.requests[j]? = some o' → ∀ fs c f, WF fs → (opPerm cfg o').ok c → R fs (execF cfg fs c f).2)
    (hq : ∀ f, (i, f) ∈ e.steps → f = .none)
    {fs : FS} (hw : WF fs) (hp : wp cfg R Q (opProg cfg ext o) fs) {r : Outcome Answer}
    (h : e.answered cfg ext fs i = some r) : Q r (e.leaves cfg ext fs) := by
  have hget : ∀ j : Nat, (e.requests.map (opProg cfg ext))[j]? = (e.requests[j]?).map (opProg cfg ext) := fun j => List.getElem?_map
  simp only [Epoch.answered, Option.bind_eq_some_iff] at h
  obtain ⟨p, hpp, ho⟩ := h
  have key := runParF_wp_quiet hR (Q := Q) (ok := fun j c => ∃ o', e.requests[j]? = some o' ∧ (opPerm cfg o').ok c) (i := i)
    (fun j fs c f hj hwf hok => by obtain ⟨o', ho', hok⟩ := hok; exact hg j o' hj ho' fs c f hwf hok) hq hw
    (by
      intro j p hj
      rw [hget, Option.map_eq_some_iff] at hj
      obtain ⟨o', ho', rfl⟩ := hj
      exact (op_safe cfg ext o').mono (fun c hc => ⟨o', ho', hc⟩) (fun _ h => h))
    (by
      intro p hj
      rw [hget, hi] at hj
      cases hj
      exact hp) hpp
  exact wp_done hR (runParF_wf hw) key ho

/-! ### one removal -/

/-- a file that was removed is gone; and only a file can be removed -/
theorem unlink_gone {fs : FS} {b k : Bytes} {p : OsPath} (hp : objectPath cfg b k = some p) :
    ((exec cfg fs (.unlink p)).1 = true ↔ stored cfg fs b k ≠ none) ∧ stored cfg (exec cfg fs (.unlink p)).2 b k = none := by
  cases hx : fs.at p with
  | none =>
    have : stored cfg fs b k = none := by rw [stored_none hp]; intro i h; rw [hx] at h; cases h
    simp only [exec, hx]
    exact ⟨⟨fun h => (nomatch h), fun h => absurd this h⟩, this⟩
  | some x =>
    cases x with
    | dir =>
      have : stored cfg fs b k = none := by rw [stored_none hp]; intro i h; rw [hx] at h; cases h
      simp only [exec, hx]
      exact ⟨⟨fun h => (nomatch h), fun h => absurd this h⟩, this⟩
    | file i =>
      simp only [exec, hx]
      refine ⟨⟨fun _ => ?_, fun _ => trivial⟩, ?_⟩
      · rw [stored_some.mpr ⟨p, i, hp, hx, rfl⟩]; simp
      · rw [stored_none hp]
        intro j hj
        rw [at_none (erase_gone hx)] at hj
        cases hj

/-- the others stay -/
theorem unlink_other {fs : FS} {b k : Bytes} {p p' : OsPath} (hp : objectPath cfg b k = some p') (hne : p'.comps ≠ p.comps) :
    stored cfg (exec cfg fs (.unlink p)).2 b k = stored cfg fs b k := by
  simp only [exec]
  split
  · have hl : (fs.erase p.comps).lookup p'.comps = fs.lookup p'.comps := by
      rw [lookup_erase, if_neg hne]
      split
      · rename_i h0; rw [h0, lookup_nil]
      · rfl
    simp only [stored, hp, contentAt, hl]
    rfl
  · rfl

/-- the paths of the keys -/
def Paths (cfg : Cfg) (b : Bytes) (l : List (OsPath × Bytes)) : Prop := ∀ x ∈ l, objectPath cfg b x.2 = some x.1

/-- what the others leave alone -/
def SameStored (cfg : Cfg) (b : Bytes) (ks : List Bytes) (x y : FS) : Prop := ∀ k ∈ ks, stored cfg y b k = stored cfg x b k

theorem rely_same (b : Bytes) (ks : List Bytes) : Rely (SameStored cfg b ks) :=
  ⟨fun _ _ _ => rfl, fun _ _ _ h1 h2 k hk => (h2 k hk).trans (h1 k hk)⟩

/-! ### several removals, nothing fails -/

theorem wp_deleteCollect {b : Bytes} {all : List Bytes} (ks : List Bytes) (hsub : ∀ k ∈ ks, k ∈ all) {fs0 : FS}
    (hth : ∀ k ∈ ks, stored cfg fs0 b k ≠ none) {fs : FS} (hw : WF fs) (h0 : SameStored cfg b all fs0 fs) :
    wp cfg (SameStored cfg b all) (fun r fs' => SameStored cfg b all fs0 fs' ∧ ∃ l, r = .ok l ∧ l.map Prod.snd = ks ∧ Paths cfg b l)
      (deleteCollect cfg b ks) fs := by
  have hR := rely_same (cfg := cfg) b all
  induction ks generalizing fs with
  | nil => exact fun fs' hr _ => ⟨hR.trans _ _ _ h0 hr, [], rfl, rfl, fun _ h => by cases h⟩
  | cons k ks ih =>
    have hk := hth k (List.mem_cons_self ..)
    obtain ⟨c, hc⟩ := Option.ne_none_iff_exists'.mp hk
    obtain ⟨p, i, hp, hat, -⟩ := stored_some.mp hc
    simp only [deleteCollect, hp, orInternal, exists_, bind_eq, pure_eq, Prog.bind]
    refine wp_call fun fs1 hr1 hw1 => ?_
    have h1 : SameStored cfg b all fs0 fs1 := hR.trans _ _ _ h0 hr1
    have hst : ∃ x, (exec cfg fs1 (.stat p)).1 = some x := by
      have hs : stored cfg fs1 b k ≠ none := by rw [h1 k (hsub k (List.mem_cons_self ..))]; exact hk
      obtain ⟨c', hc'⟩ := Option.ne_none_iff_exists'.mp hs
      obtain ⟨p', i', hp', hat', -⟩ := stored_some.mp hc'
      rw [hp] at hp'
      cases hp'
      simp [exec, hat']
    obtain ⟨x, hx⟩ := hst
    have hfs : (exec cfg fs1 (.stat p)).2 = fs1 := rfl
    rw [hx, hfs]
    simp only
    refine wp_bind hR hw1 (wp_mono ?_ (ih (fun k h => hsub k (List.mem_cons_of_mem _ h)) (fun k h => hth k (List.mem_cons_of_mem _ h)) hw1 h1))
    rintro o fs2 hw2 ⟨h2, l, rfl, hl, hpl⟩
    intro fs3 hr3 _
    refine ⟨hR.trans _ _ _ h2 hr3, (p, k) :: l, rfl, by simp [hl], ?_⟩
    intro y hy
    rcases List.mem_cons.mp hy with rfl | hy
    · exact hp
    · exact hpl y hy

theorem wp_deleteAll {b : Bytes} {all : List Bytes} (hplain : ∀ k ∈ all, ∀ k' ∈ all, ∀ p p', objectPath cfg b k = some p →
      objectPath cfg b k' = some p' → k ≠ k' → p.comps ≠ p'.comps) (l : List (OsPath × Bytes)) (hl : Paths cfg b l) (hsub : ∀ x ∈ l, x.2 ∈ all)
    (hnd : (l.map Prod.snd).Nodup) {fs : FS} (hw : WF fs) (hth : ∀ x ∈ l, stored cfg fs b x.2 ≠ none)
    (hgone : ∀ k ∈ all, k ∉ l.map Prod.snd → stored cfg fs b k = none) :
    wp cfg (SameStored cfg b all) (fun r fs' => r = .ok (l.map Prod.snd) ∧ ∀ k ∈ all, stored cfg fs' b k = none) (deleteAll l) fs := by
  have hR := rely_same (cfg := cfg) b all
  induction l generalizing fs with
  | nil => exact fun fs' hr _ => ⟨rfl, fun k hk => (hr k hk).trans (hgone k hk (by simp))⟩
  | cons x l ih =>
    obtain ⟨p, k⟩ := x
    have hp : objectPath cfg b k = some p := hl (p, k) (List.mem_cons_self ..)
    have hka : k ∈ all := hsub (p, k) (List.mem_cons_self ..)
    simp only [List.map_cons, List.nodup_cons] at hnd
    simp only [deleteAll, bind_eq, pure_eq]
    refine wp_call fun fs1 hr1 hw1 => ?_
    obtain ⟨hu1, hu2⟩ := unlink_gone (fs := fs1) hp
    rw [hu1.mpr (by rw [hr1 k hka]; exact hth (p, k) (List.mem_cons_self ..))]
    simp only [if_true]
    have hoth : ∀ k' ∈ all, k' ≠ k → stored cfg (exec cfg fs1 (.unlink p)).2 b k' = stored cfg fs1 b k' := by
      intro k' hk' hne
      cases hop : objectPath cfg b k' with
      | none => simp [stored, hop]
      | some p' => exact unlink_other hop (hplain k' hk' k hka p' p hop hp hne)
    have hw2 := exec_wf cfg hw1 (.unlink p)
    refine wp_bind hR hw2 (wp_mono ?_ (ih (fun x h => hl x (List.mem_cons_of_mem _ h)) (fun x h => hsub x (List.mem_cons_of_mem _ h)) hnd.2 hw2 ?_ ?_))
    · rintro o fs3 _ ⟨rfl, h3⟩ fs4 hr4 _
      exact ⟨rfl, fun k' hk' => (hr4 k' hk').trans (h3 k' hk')⟩
    · intro x hx
      have hne : x.2 ≠ k := fun e => hnd.1 (e ▸ List.mem_map_of_mem hx)
      have hxa := hsub x (List.mem_cons_of_mem _ hx)
      rw [hoth _ hxa hne, hr1 _ hxa]
      exact hth x (List.mem_cons_of_mem _ hx)
    · intro k' hk' hn
      by_cases e : k' = k
      · subst e; exact hu2
      · rw [hoth _ hk' e, hr1 _ hk']
        exact hgone k' hk' (by simp only [List.map_cons, List.mem_cons, not_or]; exact ⟨e, hn⟩)

theorem wp_deleteObjects {b : Bytes} {ks : List Bytes} (hplain : ∀ k ∈ ks, ∀ k' ∈ ks, ∀ p p', objectPath cfg b k = some p →
      objectPath cfg b k' = some p' → k ≠ k' → p.comps ≠ p'.comps) (hnd : ks.Nodup) {fs : FS} (hw : WF fs)
    (hth : ∀ k ∈ ks, stored cfg fs b k ≠ none) :
    wp cfg (SameStored cfg b ks) (fun r fs' => r = .ok ks ∧ ∀ k ∈ ks, stored cfg fs' b k = none) (deleteObjects cfg b ks) fs := by
  have hR := rely_same (cfg := cfg) b ks
  simp only [deleteObjects, bind_eq]
  refine wp_bind hR hw (wp_mono ?_ (wp_deleteCollect ks (fun _ h => h) hth hw (fun _ _ => rfl)))
  rintro o fs1 hw1 ⟨h1, l, rfl, rfl, hl⟩
  refine wp_deleteAll hplain l hl (fun x hx => List.mem_map_of_mem hx) hnd hw1 ?_ (fun k hk hn => absurd hk hn)
  intro x hx
  have := List.mem_map_of_mem (f := Prod.snd) hx
  rw [h1 _ this]
  exact hth _ this

/-! ### several removals, anything may fail -/

theorem wpF_deleteCollect {b : Bytes} {all : List Bytes} (ks : List Bytes) {fs0 : FS} {fs : FS} (hw : WF fs) (h0 : SameStored cfg b all fs0 fs) :
    wpF cfg (SameStored cfg b all) (fun l fs' => SameStored cfg b all fs0 fs' ∧ (l.map Prod.snd).Sublist ks ∧ Paths cfg b l)
      (deleteCollect cfg b ks) fs := by
  have hR := rely_same (cfg := cfg) b all
  induction ks generalizing fs with
  | nil => exact fun fs' hr _ => ⟨hR.trans _ _ _ h0 hr, .slnil, fun _ h => by cases h⟩
  | cons k ks ih =>
    simp only [deleteCollect, bind_eq, pure_eq]
    refine wpF_orInternal fun p hp => ?_
    simp only [exists_, bind_eq, pure_eq, call, Prog.bind]
    intro fs1 f hr1 hw1
    have h1 : SameStored cfg b all fs0 fs1 := hR.trans _ _ _ h0 hr1
    have hfs : (execF cfg fs1 (.stat p) f).2 = fs1 := by
      cases f <;> simp only [execF, exec] <;> first | rfl | (split <;> rfl)
    rw [hfs]
    refine wpF_bind hR hw1 (wpF_mono ?_ (ih hw1 h1))
    rintro l fs2 hw2 ⟨h2, hl, hpl⟩ fs3 hr3 _
    refine ⟨hR.trans _ _ _ h2 hr3, ?_, ?_⟩
    · split
      · exact hl.cons_cons k
      · exact hl.cons k
    · split
      · intro y hy
        rcases List.mem_cons.mp hy with rfl | hy
        · exact hp
        · exact hpl y hy
      · exact hpl

theorem wpF_deleteAll {b : Bytes} {all : List Bytes} (hplain : ∀ k ∈ all, ∀ k' ∈ all, ∀ p p', objectPath cfg b k = some p →
      objectPath cfg b k' = some p' → k ≠ k' → p.comps ≠ p'.comps) (l : List (OsPath × Bytes)) (hl : Paths cfg b l) (hsub : ∀ x ∈ l, x.2 ∈ all)
    {fs : FS} (hw : WF fs) :
    wpF cfg (SameStored cfg b all) (fun r fs' => r = l.map Prod.snd ∧ (∀ k ∈ r, stored cfg fs b k ≠ none ∧ stored cfg fs' b k = none) ∧
      ∀ k ∈ all, k ∉ r → stored cfg fs' b k = stored cfg fs b k) (deleteAll l) fs := by
  have hR := rely_same (cfg := cfg) b all
  induction l generalizing fs with
  | nil => exact fun fs' hr _ => ⟨rfl, by simp, fun k hk _ => hr k hk⟩
  | cons x l ih =>
    obtain ⟨p, k⟩ := x
    have hp : objectPath cfg b k = some p := hl (p, k) (List.mem_cons_self ..)
    have hka : k ∈ all := hsub (p, k) (List.mem_cons_self ..)
    simp only [deleteAll, bind_eq, pure_eq]
    refine wpF_call trivial fun fs1 hr1 hw1 => ?_
    obtain ⟨hu1, hu2⟩ := unlink_gone (fs := fs1) hp
    cases ha : (exec cfg fs1 (.unlink p)).1 with
    | false => trivial
    | true =>
      simp only [if_true]
      have hth := hu1.mp ha
      have hoth : ∀ k' ∈ all, k' ≠ k → stored cfg (exec cfg fs1 (.unlink p)).2 b k' = stored cfg fs1 b k' := by
        intro k' hk' hne
        cases hop : objectPath cfg b k' with
        | none => simp [stored, hop]
        | some p' => exact unlink_other hop (hplain k' hk' k hka p' p hop hp hne)
      have hw2 := exec_wf cfg hw1 (.unlink p)
      refine wpF_bind hR hw2 (wpF_mono ?_ (ih (fun x h => hl x (List.mem_cons_of_mem _ h)) (fun x h => hsub x (List.mem_cons_of_mem _ h)) hw2))
      rintro r fs3 _ ⟨rfl, h3, h3'⟩ fs4 hr4 _
      have hkl : k ∉ l.map Prod.snd := fun hk => (h3 k hk).1 hu2
      refine ⟨rfl, ?_, ?_⟩
      · intro k' hk'
        rcases List.mem_cons.mp hk' with rfl | hk'
        · refine ⟨by rw [← hr1 _ hka]; exact hth, ?_⟩
          rw [hr4 _ hka, h3' _ hka hkl, hu2]
        · have hne : k' ≠ k := fun e => hkl (e ▸ hk')
          have hka' : k' ∈ all := by
            obtain ⟨x, hx, rfl⟩ := List.mem_map.mp hk'
            exact hsub x (List.mem_cons_of_mem _ hx)
          obtain ⟨g1, g2⟩ := h3 k' hk'
          exact ⟨by rw [← hr1 _ hka', ← hoth _ hka' hne]; exact g1, (hr4 _ hka').trans g2⟩
      · intro k' hk' hn
        simp only [List.mem_cons, not_or] at hn
        rw [hr4 _ hk', h3' _ hk' hn.2, hoth _ hk' hn.1, hr1 _ hk']

theorem wpF_deleteObjects {b : Bytes} {ks : List Bytes} (hplain : ∀ k ∈ ks, ∀ k' ∈ ks, ∀ p p', objectPath cfg b k = some p →
      objectPath cfg b k' = some p' → k ≠ k' → p.comps ≠ p'.comps) {fs : FS} (hw : WF fs) :
    wpF cfg (SameStored cfg b ks) (fun r fs' => r.Sublist ks ∧ (∀ k ∈ r, stored cfg fs b k ≠ none ∧ stored cfg fs' b k = none) ∧
      ∀ k ∈ ks, k ∉ r → stored cfg fs' b k = stored cfg fs b k) (deleteObjects cfg b ks) fs := by
  have hR := rely_same (cfg := cfg) b ks
  simp only [deleteObjects, bind_eq]
  refine wpF_bind hR hw (wpF_mono ?_ (wpF_deleteCollect ks hw (fun _ _ => rfl)))
  rintro l fs1 hw1 ⟨h1, hsub, hl⟩
  refine wpF_mono ?_ (wpF_deleteAll hplain l hl (fun x hx => hsub.subset (List.mem_map_of_mem hx)) hw1)
  rintro r fs2 _ ⟨rfl, h2, h3⟩
  refine ⟨hsub, fun k hk => ?_, fun k hk hn => (h3 k hk hn).trans (h1 k hk)⟩
  rw [← h1 k (hsub.subset hk)]
  exact h2 k hk

end S3
