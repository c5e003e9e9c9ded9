import Verif.Spec.Undisturbed
import Verif.Lemmas.FoldersBeside
/-! Lemmas for C142: requests about objects that are there, beside folders that are made and removed. -/
namespace S3
open Spec
variable {cfg : Cfg} {ext : Ext} {α : Type}

/-- `isolatedF` with an invariant `J` that others need to keep the region, and that the own calls keep -/
theorem isolatedJ {J : FS → Prop} {Z : Path → Prop} {own : Call → Prop} {n : Nat} {ok : Nat → Call → Prop}
    (hg : ∀ j fs c f, j ≠ n → WF fs → ok j c → J fs → J (execF cfg fs c f).2 ∧ Match Z fs (execF cfg fs c f).2)
    (hown : ∀ fs c f, WF fs → own c → J fs → J (execF cfg fs c f).2) (hloc : ∀ c, own c → localCall Z c) (steps : List (Nat × Fault)) :
    ∀ {ps : List (Prog α)} {p : Prog α} {a b : FS}, WF a → WF b → J a → Match Z a b →
      (∀ (j : Nat) q, j ≠ n → ps[j]? = some q → Safe (ok j) (fun _ => True) q) → ps[n]? = some p → Safe own (fun _ => True) p →
      ∃ d m, (∀ i, d i = .none ∨ (n, d i) ∈ steps) ∧ (runParF cfg steps ps a).1[n]? = some (runFN cfg d m p b).1 ∧
        Match Z (runParF cfg steps ps a).2 (runFN cfg d m p b).2 := by
  induction steps with
  | nil =>
    intro ps p a b _ _ _ hm _ hp _
    exact ⟨fun _ => .none, 0, fun _ => .inl rfl, by cases p <;> exact hp, by cases p <;> exact hm⟩
  | cons x steps ih =>
    obtain ⟨j, f⟩ := x
    intro ps p a b hwa hwb hd hm hs hp hl
    have more : ∀ {d : Nat → Fault}, (∀ i, d i = .none ∨ (n, d i) ∈ steps) → ∀ i, d i = .none ∨ (n, d i) ∈ (j, f) :: steps :=
      fun h i => (h i).imp id (List.mem_cons_of_mem _)
    simp only [runParF]
    split
    · obtain ⟨d, m, h0, h⟩ := ih hwa hwb hd hm hs hp hl
      exact ⟨d, m, more h0, h⟩
    · rename_i q hj
      have hlt : j < ps.length := (List.getElem?_eq_some_iff.mp hj).1
      by_cases e : j = n
      · subst e
        rw [hp] at hj
        cases hj
        have hs' : ∀ (i : Nat) r, i ≠ j → (ps.set j (stepProgF cfg p f a).1)[i]? = some r → Safe (ok i) (fun _ => True) r := by
          intro i r hi hr
          rw [List.getElem?_set_ne (fun e => hi e.symm)] at hr
          exact hs i r hi hr
        have hp' : (ps.set j (stepProgF cfg p f a).1)[j]? = some (stepProgF cfg p f a).1 := List.getElem?_set_self hlt
        cases p with
        | sys c k =>
          obtain ⟨h1, h2⟩ := execF_match (cfg := cfg) hwb hm (hloc _ hl.1) f
          obtain ⟨d, m, h0, h3, h4⟩ := ih (b := (execF cfg b c f).2) (execF_wf (cfg := cfg) hwa c f) (execF_wf hwb c f)
            (hown _ _ f hwa hl.1 hd) h2 hs' hp' (hl.2 _ (execF_respOk hwa c f))
          have e : (stepProgF cfg (.sys c k) f a).1 = k (execF cfg b c f).1 := by simp only [stepProgF, h1]
          refine ⟨fun i => i.casesOn f d, m + 1, ?_, ?_, ?_⟩
          · intro i
            cases i with
            | zero => exact .inr (List.mem_cons_self ..)
            | succ i => exact more h0 i
          · rw [e] at h3; simp only [stepProgF, h1]; exact h3
          · rw [e] at h4; simp only [stepProgF, h1]; exact h4
        | _ =>
          obtain ⟨d, m, h0, h⟩ := ih hwa hwb hd hm hs' hp' hl
          exact ⟨d, m, more h0, h⟩
      · have hq := hs j q e hj
        have hr : J (stepProgF cfg q f a).2 ∧ Match Z a (stepProgF cfg q f a).2 := by
          cases q with
          | sys c k => exact hg j a c f e hwa hq.1 hd
          | _ => exact ⟨hd, .refl _ _⟩
        obtain ⟨hd', hm'⟩ := hr
        have hs' : ∀ (i : Nat) r, i ≠ n → (ps.set j (stepProgF cfg q f a).1)[i]? = some r → Safe (ok i) (fun _ => True) r := by
          intro i r hi hr
          by_cases hij : i = j
          · subst hij
            rw [List.getElem?_set_self hlt] at hr
            cases hr
            cases q with
            | sys c k => exact hq.2 _ (execF_respOk hwa c f)
            | _ => exact hq
          · rw [List.getElem?_set_ne (fun e => hij e.symm)] at hr
            exact hs i r hi hr
        obtain ⟨d, m, h0, h⟩ := ih (stepProgF_wf hwa) hwb hd' (hm'.symm.trans hm) hs' (by rw [List.getElem?_set_ne e]; exact hp) hl
        exact ⟨d, m, more h0, h⟩

/-! ### what the calls for a folder key do -/

/-- the contents of all files, and all nodes but empty folders under buckets, stay -/
structure FolderEffect (cfg : Cfg) (a b : FS) : Prop where
  data : ∀ i, b.data i = a.data i
  gen : ∀ q, b.gen q = a.gen q
  node : ∀ q, b.lookup q = a.lookup q ∨
    ((a.lookup q = none ∧ b.lookup q = some .dir ∨ a.lookup q = some .dir ∧ ∃ b' cs, LegalBucket b' ∧ q = cfg.root ++ b' :: cs) ∧
      ∃ b' cs, LegalBucket b' ∧ q <+: cfg.root ++ b' :: cs)

theorem folder_effect {o : Op} (ho : OnFolder o) {fs : FS} (hw : WF fs) {c : Call} (hc : (opPerm cfg o).ok c) (f : Fault) :
    FolderEffect cfg fs (execF cfg fs c f).2 := by
  have slash : ∀ {b' k'}, FolderName b' k' → endsWithByte k' 47 = true := by
    rintro b' k' ⟨_, k'', _, _, rfl⟩
    exact endsWithByte_iff.mpr ⟨k'', rfl⟩
  have refl : FolderEffect cfg fs fs := ⟨fun _ => rfl, fun _ => rfl, fun _ => .inl rfl⟩
  have quiet : writeOk (fun _ => False) (fun q => ∃ b' cs, LegalBucket b' ∧ q <+: cfg.root ++ b' :: cs) c →
      FolderEffect cfg fs (execF cfg fs c f).2 := by
    intro h
    have hf := execF_frame (cfg := cfg) hw h f
    refine ⟨fun i => hf.data i (fun h => h), fun q => hf.gen q (fun h => h), fun q => ?_⟩
    rcases hf.node q (fun h => h) with e | ⟨h1, h2, h3⟩
    · exact .inl e
    · exact .inr ⟨.inl ⟨h2, h3⟩, h1⟩
  cases o with
  | putObject i =>
    have he := slash ho
    obtain ⟨hl, k', cs, hk, ek⟩ := ho
    obtain ⟨x, hp⟩ := objectPath_folder (cfg := cfg) ((C02_bucket_name_rule _).mpr hl) hk
    rw [← ek] at hp
    have hwr : ∀ p, ¬ (opPerm cfg (.putObject i)).wr p := by
      intro p h
      have := h.1
      rw [he] at this; cases this
    refine quiet ?_
    cases c with
    | mkdir p =>
      obtain ⟨p', ⟨y, hy, hyp⟩, hq⟩ := hc
      rw [hp] at hy
      cases hy
      rw [he, if_pos rfl, hyp] at hq
      exact .inl ⟨_, _, hl, hq⟩
    | create p => exact hwr _ hc
    | writeAt i => exact hwr _ hc
    | unlink p => exact (hc : False).elim
    | rmdir p => exact (hc : False).elim
    | rmtree p => exact (hc : False).elim
    | _ => trivial
  | deleteObject b' k' =>
    have he := slash ho
    obtain ⟨hl, k'', cs, hk, ek⟩ := ho
    obtain ⟨x, hp⟩ := objectPath_folder (cfg := cfg) ((C02_bucket_name_rule _).mpr hl) hk
    rw [← ek] at hp
    cases c with
    | rmdir p =>
      obtain ⟨_, y, hy, hyp⟩ := hc
      rw [hp] at hy
      cases hy
      have key : FolderEffect cfg fs (exec cfg fs (.rmdir p)).2 := by
        simp only [exec]
        split
        · rename_i hd
          split
          · rename_i hne
            refine ⟨fun _ => rfl, fun _ => rfl, fun q => ?_⟩
            by_cases e : q = p.comps
            · subst e
              exact .inr ⟨.inr ⟨hd, _, _, hl, hyp⟩, _, _, hl, by rw [hyp]; exact List.prefix_refl _⟩
            · refine .inl ?_
              rw [lookup_erase]
              split
              · rename_i e'; subst e'; simp [FS.lookup]
              · rfl
          · exact refl
        · exact refl
      cases f with
      | none => exact key
      | before => exact refl
      | after => exact key
      | during n rs => exact refl
    | mkdir p => exact (hc : False).elim
    | create p => exact (hc : False).elim
    | writeAt i => exact (hc : False).elim
    | unlink p =>
      have := (show endsWithByte k' 47 = false from hc.1)
      rw [he] at this; cases this
    | rmtree p => exact (hc : False).elim
    | _ => exact quiet trivial
  | _ => exact ho.elim

/-! ### objects that are there -/

/-- the root is a directory, and the objects the request is about are files -/
structure Stands (cfg : Cfg) (o : Op) (fs : FS) : Prop where
  root : fs.lookup cfg.root = some .dir
  file : ∀ b k cs, Uses o b k → PlainKey k cs → ∃ i, fs.lookup (cfg.root ++ b :: cs) = some (.file i)

theorem standing_stands {o : Op} (ho : AboutObjects o) {fs : FS} (h : Standing cfg o fs) : Stands cfg o fs := by
  refine ⟨h.root, fun b k cs hu hk => ?_⟩
  have := h.objects b k hu
  rw [stored_plain (cfg := cfg) ((C02_bucket_name_rule _).mpr (ho.2.1 b k hu).1) hk, contentAt] at this
  split at this
  · rename_i i hi; exact ⟨i, hi⟩
  · exact absurd rfl this

theorem Stands.dirs {o : Op} {fs : FS} (hw : WF fs) (h : Stands cfg o fs) : Dirs (upRegion cfg o) fs := by
  rintro q (hq | ⟨b, k, cs, hu, hk, hq, hne⟩)
  · by_cases e : q = cfg.root
    · exact e ▸ h.root
    · exact hw.above h.root hq e
  · obtain ⟨i, hi⟩ := h.file b k cs (writes_uses hu) hk
    exact hw.above hi hq hne

theorem Stands.of_match {o : Op} {a b : FS} (h : Stands cfg o a) (hm : Match (region cfg o) a b) : Stands cfg o b := by
  refine ⟨by rw [← hm.look _ (region_root o)]; exact h.root, fun bu k cs hu hk => ?_⟩
  obtain ⟨i, hi⟩ := h.file bu k cs hu hk
  exact ⟨i, by rw [← hm.look _ (.inr (.inl ⟨bu, k, cs, hu, hk, .inl rfl⟩))]; exact hi⟩

theorem folder_match {o o' : Op} (ho : AboutObjects o) (ho' : OnFolder o') {fs : FS} (hw : WF fs) (h : Stands cfg o fs) {c : Call}
    (hc : (opPerm cfg o').ok c) (f : Fault) : Match (region cfg o) fs (execF cfg fs c f).2 := by
  have he := folder_effect (cfg := cfg) ho' hw hc f
  have hw' := execF_wf (cfg := cfg) hw c f
  have file : ∀ {q i}, fs.lookup q = some (.file i) → (execF cfg fs c f).2.lookup q = some (.file i) := by
    intro q i hq
    rcases he.node q with e | ⟨⟨e, _⟩ | ⟨e, _⟩, _⟩
    · exact e.trans hq
    · rw [hq] at e; cases e
    · rw [hq] at e; cases e
  have long : ∀ {x : Bytes} {l : List Bytes}, ¬ cfg.root ++ x :: l <+: cfg.root := by
    intro x l h; have := h.length_le; simp at this; omega
  refine ⟨?_, fun i _ => (he.data i).symm, fun q _ => (he.gen q).symm⟩
  rintro q ((hq | ⟨b, k, cs, hu, hk, hq, hne⟩) | ⟨b, k, cs, hu, hk, rfl | rfl⟩ | ⟨u, n, hu, rfl⟩)
  · have hd := h.dirs hw q (.inl hq)
    rcases he.node q with e | ⟨⟨e, _⟩ | ⟨_, b', cs', _, rfl⟩, _⟩
    · exact e.symm
    · rw [hd] at e; cases e
    · exact absurd hq long
  · obtain ⟨i, hi⟩ := h.file b k cs (writes_uses hu) hk
    rw [hw.above hi hq hne, hw'.above (file hi) hq hne]
  · obtain ⟨i, hi⟩ := h.file b k cs hu hk
    rw [hi, file hi]
  · rcases he.node (metaFile cfg b k) with e | ⟨_, b', cs', hl, hp⟩
    · exact e.symm
    · exact absurd hp (meta_not_above hl)
  · rcases he.node (partFile cfg u n) with e | ⟨_, b', cs', hl, hp⟩
    · exact e.symm
    · exact absurd hp (part_not_prefix ((C02_bucket_name_rule _).mpr hl))

/-- a file stays a file, if it is not unlinked -/
theorem execF_file {Z : Path → Prop} {P : Path} {fs : FS} {i : Ino} (h : fs.lookup P = some (.file i)) {c : Call} (hl : localCall Z c)
    (hc : ∀ p, c = .unlink p → p.comps ≠ P) (f : Fault) : ∃ j, (execF cfg fs c f).2.lookup P = some (.file j) := by
  have key : ∃ j, (exec cfg fs c).2.lookup P = some (.file j) := by
    cases c with
    | mkdir p =>
      simp only [exec]
      split; · exact ⟨i, h⟩
      split; · exact ⟨i, h⟩
      split
      · exact ⟨i, h⟩
      · exact ⟨i, h⟩
      · split
        · exact ⟨i, h⟩
        · split
          · rename_i hn _
            refine ⟨i, ?_⟩
            rw [lookup_set]
            split
            · rename_i e; subst e; simp [FS.lookup] at h
            · split
              · rename_i e; subst e; rw [hn] at h; cases h
              · exact h
          · exact ⟨i, h⟩
    | create p =>
      simp only [exec]
      split; · exact ⟨i, h⟩
      split; · exact ⟨i, h⟩
      split
      · exact ⟨i, h⟩
      · exact ⟨i, h⟩
      · rename_i hn
        split
        · split
          · refine ⟨i, ?_⟩
            show (fs.set p.comps _).lookup P = _
            rw [lookup_set]
            split
            · rename_i e; subst e; simp [FS.lookup] at h
            · split
              · rename_i e; subst e; rw [hn] at h; cases h
              · exact h
          · exact ⟨i, h⟩
        · exact ⟨i, h⟩
    | writeAt => exact ⟨i, h⟩
    | unlink p =>
      simp only [exec]
      split
      · refine ⟨i, ?_⟩
        show (fs.erase p.comps).lookup P = _
        rw [lookup_erase]
        split
        · rename_i e; subst e; simp [FS.lookup] at h
        · rw [if_neg (fun e => hc p rfl e.symm)]; exact h
      · exact ⟨i, h⟩
    | rmdir p => exact hl.elim
    | rmtree p => exact hl.elim
    | readDir p => exact hl.elim
    | _ => exact ⟨i, h⟩
  cases f with
  | none => exact key
  | before => exact ⟨i, h⟩
  | after => exact key
  | during n rs =>
    cases c with
    | writeAt j off x =>
      show ∃ j, (partialEffect _ _ _ _).lookup P = _
      simp only [partialEffect]
      split <;> exact ⟨i, h⟩
    | rmtree p => exact hl.elim
    | _ => exact ⟨i, h⟩

theorem own_stands {o : Op} (ho : AboutObjects o) (hd : ¬ Unlinks o) {fs : FS} (h : Stands cfg o fs) {c : Call} (hc : (opPerm cfg o).ok c)
    (f : Fault) : Stands cfg o (execF cfg fs c f).2 := by
  have hl := op_local (cfg := cfg) ho hc
  refine ⟨execF_dirs (U := (· = cfg.root)) hl (fun q hq => hq ▸ h.root) f _ rfl, fun b k cs hu hk => ?_⟩
  obtain ⟨i, hi⟩ := h.file b k cs hu hk
  refine execF_file hi hl ?_ f
  rintro p rfl e
  have hb := (C02_bucket_name_rule _).mpr (ho.2.1 b k hu).1
  have hx : (opPerm cfg o).del p.comps := hc
  cases o with
  | deleteObject => exact hd trivial
  | deleteObjects => exact hd trivial
  | completeMultipartUpload b' k' u l =>
    obtain ⟨l', n, _, _, p', hp', hq⟩ := hx
    rw [partPath_eq cfg ho.1.2] at hp'
    cases hp'
    exact plain_not_part (cfg := cfg) (u := u) (n := n) hb hk ((objP_plain hb hk).mpr rfl) (by rw [← e]; exact hq)
  | _ => exact hx.elim

end S3
