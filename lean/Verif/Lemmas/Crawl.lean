import Verif.Lemmas.Listing
import Verif.Lemmas.Wp
/-! The walk of the listing through a bucket while other requests change the tree: what it returns, in terms of what the
tree was at the moments it was looked at. -/
namespace S3
open Spec

variable {cfg : Cfg}

/-- the others preserve `J` -/
def Keeping (J : FS → Prop) (a b : FS) : Prop := J a → J b

theorem rely_keeping (J : FS → Prop) : Rely (Keeping J) := ⟨fun _ h => h, fun _ _ _ h h' x => h' (h x)⟩

/-- at some moment there was a file at `p` -/
def SeenFile (J : FS → Prop) (p : Path) : Prop := ∃ fs i, WF fs ∧ J fs ∧ fs.lookup p = some (.file i)

/-- at some moment the size of what was at `p` was `m` -/
def SeenSize (cfg : Cfg) (J : FS → Prop) (p : Path) (m : Nat) : Prop :=
  ∃ fs, WF fs ∧ J fs ∧ ((∃ i, fs.lookup p = some (.file i) ∧ m = (fs.data i).length) ∨ (fs.lookup p = some .dir ∧ m = cfg.dirLen))

/-- there is always the same file at `p` -/
def Fixed (J : FS → Prop) (p : Path) (c : Bytes) : Prop := ∀ fs, WF fs → J fs → ∃ i, fs.lookup p = some (.file i) ∧ fs.data i = c

/-- what the inner loop returns -/
structure Visited (cfg : Cfg) (J : FS → Prop) (base : Path) (pfx : Option Bytes) (dir : Path) (es : List (Bytes × Bool))
    (ds : List Path) (os : List (Bytes × Nat)) (ps : List (Path × Nat)) : Prop where
  dirs : ds = (es.filter (·.2)).map fun e => dir ++ [e.1]
  objs : os = ps.map fun x => (relKey base x.1, x.2)
  sub : (ps.map (·.1)).Sublist ((es.filter fun e => !e.2).map fun e => dir ++ [e.1])
  match_ : ∀ x ∈ ps, filteredOut pfx (relKey base x.1) = false ∧ SeenSize cfg J x.1 x.2
  fixed : ∀ n, (n, false) ∈ es → ∀ c, Fixed J (dir ++ [n]) c → filteredOut pfx (relKey base (dir ++ [n])) = false →
    (dir ++ [n], c.length) ∈ ps

theorem wp_listEntries {J : FS → Prop} {base dir : Path} {pfx : Option Bytes} (es : List (Bytes × Bool)) :
    ∀ {fs : FS}, WF fs → J fs → wp cfg (Keeping J)
      (fun o fs' => J fs' ∧ ∀ r, o = .ok r → ∃ ps, Visited cfg J base pfx dir es r.1 r.2 ps)
      (listEntries cfg base pfx dir es) fs := by
  have hR := rely_keeping J
  induction es with
  | nil =>
    intro fs hw hj fs' hr hw'
    refine ⟨hr hj, fun r hr => ?_⟩
    cases hr
    exact ⟨[], rfl, rfl, .slnil, (fun _ h => nomatch h), (fun _ h => nomatch h)⟩
  | cons e es ih =>
    obtain ⟨n, d⟩ := e
    intro fs hw hj
    cases d with
    | true =>
      simp only [listEntries, if_true, bind_eq, pure_eq]
      refine wp_bind hR hw (wp_mono ?_ (ih hw hj))
      rintro (⟨ds, os⟩ | e | _ | _) fs₁ hw₁ ⟨hj₁, h⟩
      · obtain ⟨ps, hv⟩ := h _ rfl
        dsimp only at hv
        intro fs₂ hr hw₂
        refine ⟨hr hj₁, fun r e => ?_⟩
        cases e
        refine ⟨ps, ?_, hv.objs, ?_, hv.match_, ?_⟩
        · simp [hv.dirs]
        · simpa using hv.sub
        · intro n' hn
          exact hv.fixed n' (by simpa using hn)
      all_goals exact ⟨hj₁, fun r e => nomatch e⟩
    | false =>
      simp only [listEntries, Bool.false_eq_true, if_false, bind_eq, pure_eq]
      split
      · rename_i hf
        refine wp_mono ?_ (ih hw hj)
        rintro o fs₁ hw₁ ⟨hj₁, h⟩
        refine ⟨hj₁, fun r e => ?_⟩
        obtain ⟨ps, hv⟩ := h _ e
        refine ⟨ps, ?_, hv.objs, ?_, hv.match_, ?_⟩
        · simp [hv.dirs]
        · simpa using hv.sub.trans (List.sublist_cons_self _ _)
        · intro n' hn c hc hf'
          rcases List.mem_cons.mp hn with e | hn
          · cases e; rw [hf] at hf'; cases hf'
          · exact hv.fixed n' hn c hc hf'
      · rename_i hf
        refine wp_call fun fs₁ hr₁ hw₁ => ?_
        have hj₁ := hr₁ hj
        refine wp_orInternal hR (fun st hst => ?_) (fun _ fs₂ hr hw₂ => ⟨hr hj₁, fun r e => nomatch e⟩)
        have hsee : SeenSize cfg J (dir ++ [n]) (statLen cfg st) := by
          refine ⟨fs₁, hw₁, hj₁, ?_⟩
          simp only [exec, FS.at, Bool.false_eq_true, if_false] at hst
          revert hst
          rcases fs₁.lookup (dir ++ [n]) with _ | _ | i <;> intro hst
          · cases hst
          · cases hst; exact .inr ⟨rfl, rfl⟩
          · cases hst; exact .inl ⟨i, rfl, rfl⟩
        have hfix : ∀ c, Fixed J (dir ++ [n]) c → statLen cfg st = c.length := by
          intro c hc
          obtain ⟨i, h1, h2⟩ := hc fs₁ hw₁ hj₁
          simp only [exec, FS.at, Bool.false_eq_true, if_false, h1] at hst
          cases hst
          rw [← h2]; rfl
        split
        · refine wp_bind hR hw₁ (wp_mono ?_ (ih hw₁ hj₁))
          rintro (⟨ds, os⟩ | e | _ | _) fs₂ hw₂ ⟨hj₂, h⟩
          · obtain ⟨ps, hv⟩ := h _ rfl
            dsimp only at hv
            intro fs₃ hr hw₃
            refine ⟨hr hj₂, fun r e => ?_⟩
            cases e
            refine ⟨(dir ++ [n], statLen cfg st) :: ps, ?_, ?_, ?_, ?_, ?_⟩
            · simp [hv.dirs]
            · simp [hv.objs]
            · simpa using hv.sub
            · intro x hx
              rcases List.mem_cons.mp hx with rfl | hx
              · exact ⟨by simpa using hf, hsee⟩
              · exact hv.match_ x hx
            · intro n' hn c hc hf'
              rcases List.mem_cons.mp hn with e | hn
              · cases e; rw [hfix c hc]; exact List.mem_cons_self
              · exact List.mem_cons_of_mem _ (hv.fixed n' hn c hc hf')
          all_goals exact ⟨hj₂, fun r e => nomatch e⟩
        · exact fun fs₂ hr hw₂ => ⟨hr hj₁, fun r e => nomatch e⟩

/-- no path of the list lies at or above another -/
def Unrelated (ds : List Path) : Prop := ds.Pairwise fun a b => ¬ a <+: b ∧ ¬ b <+: a

/-- the file at `P` never changes, and the folders above it, from `base` down, are always there -/
def Held (base P : Path) (c : Bytes) (J : FS → Prop) : Prop :=
  Fixed J P c ∧ ∀ fs, WF fs → J fs → ∀ q, base <+: q → q <+: P → q ≠ P → fs.lookup q = some .dir

/-- what the walk returns -/
structure Walked (cfg : Cfg) (J : FS → Prop) (base : Path) (pfx : Option Bytes) (queue : List Path) (l : List (Bytes × Nat))
    (ps : List (Path × Nat)) : Prop where
  objs : l = ps.map fun x => (relKey base x.1, x.2)
  once : (ps.map (·.1)).Nodup
  below : ∀ x ∈ ps, ∃ d ∈ queue, d <+: x.1 ∧ d ≠ x.1
  match_ : ∀ x ∈ ps, filteredOut pfx (relKey base x.1) = false ∧ SeenFile J x.1 ∧ SeenSize cfg J x.1 x.2
  held : ∀ P c, Held base P c J → (∃ d ∈ queue, d <+: P ∧ d ≠ P) → filteredOut pfx (relKey base P) = false → (P, c.length) ∈ ps

theorem readDir_names {fs : FS} (hw : WF fs) (d : Path) : ((dirEntries (fs.kids d)).map fun e => d ++ [e.1]).Nodup := by
  have : ((dirEntries (fs.kids d)).map fun e => d ++ [e.1]) = (fs.kids d).map (·.1) := by
    simp only [dirEntries, List.map_map]
    refine List.map_congr_left fun e he => ?_
    obtain ⟨_, c, hc⟩ := mem_kids.mp he
    simp [hc]
  rw [this]
  exact hw.nodup.sublist (List.Sublist.map _ List.filter_sublist)

theorem mem_readDir {fs : FS} (hw : WF fs) {d : Path} {n : Bytes} {t : Bool} :
    (n, t) ∈ dirEntries (fs.kids d) ↔ ∃ nd, fs.lookup (d ++ [n]) = some nd ∧ t = (nd == .dir) := by
  simp only [dirEntries, List.mem_map, Prod.mk.injEq]
  constructor
  · rintro ⟨e, he, rfl, rfl⟩
    obtain ⟨h1, c, hc⟩ := mem_kids.mp he
    refine ⟨e.2, ?_, rfl⟩
    have := (lookup_iff_mem hw.nodup (hw.names e h1).1 e.2).mpr h1
    rw [hc] at this ⊢
    simpa using this
  · rintro ⟨nd, h1, rfl⟩
    exact ⟨(d ++ [n], nd), mem_kids.mpr ⟨mem_of_lookup (by simp) h1, n, rfl⟩, by simp, rfl⟩

theorem prefix_snoc {a d : Path} {n : Bytes} (h : a <+: d ++ [n]) (hne : a ≠ d ++ [n]) : a <+: d := by
  rcases List.prefix_concat_iff.mp h with h | h
  · exact absurd h hne
  · exact h

theorem wp_listLoop {J : FS → Prop} {base : Path} {pfx : Option Bytes} :
    ∀ (fuel : Nat) (queue : List Path) {fs : FS}, Unrelated queue → (∀ d ∈ queue, base <+: d) → WF fs → J fs →
      wp cfg (Keeping J) (fun o fs' => J fs' ∧ ∀ l, o = .ok l → ∃ ps, Walked cfg J base pfx queue l ps)
        (listLoop cfg base pfx fuel queue) fs := by
  have hR := rely_keeping J
  intro fuel
  induction fuel with
  | zero =>
    intro queue fs _ _ hw hj
    cases queue with
    | nil =>
      intro fs' hr hw'
      refine ⟨hr hj, fun l e => ?_⟩
      cases e
      exact ⟨[], rfl, .nil, (fun _ h => nomatch h), (fun _ h => nomatch h), fun _ _ _ ⟨_, h, _⟩ => nomatch h⟩
    | cons d q => exact fun fs' hr hw' => ⟨hr hj, fun l e => nomatch e⟩
  | succ fuel ih =>
    intro queue fs hq hb hw hj
    cases queue with
    | nil =>
      intro fs' hr hw'
      refine ⟨hr hj, fun l e => ?_⟩
      cases e
      exact ⟨[], rfl, .nil, (fun _ h => nomatch h), (fun _ h => nomatch h), fun _ _ _ ⟨_, h, _⟩ => nomatch h⟩
    | cons d queue =>
      simp only [listLoop, bind_eq, pure_eq]
      refine wp_call fun fs₁ hr₁ hw₁ => ?_
      have hj₁ := hr₁ hj
      refine wp_orInternal hR (fun es hes => ?_) (fun _ fs₂ hr hw₂ => ?_)
      case refine_2 =>
        refine ⟨?_, fun r e => nomatch e⟩
        have : (exec cfg fs₁ (.readDir ⟨d, false⟩)).2 = fs₁ := by simp only [exec]; split <;> rfl
        rw [this] at hr
        exact hr hj₁
      have hdir : fs₁.lookup d = some .dir := by
        simp only [exec] at hes
        split at hes
        · assumption
        · cases hes
      rw [exec_readDir hdir] at hes ⊢
      simp only [Option.some.injEq] at hes
      subst hes
      have hnd := readDir_names hw₁ d
      rw [Unrelated, List.pairwise_cons] at hq
      refine wp_bind hR hw₁ (wp_mono ?_ (wp_listEntries (dirEntries (fs₁.kids d)) hw₁ hj₁))
      rintro (⟨ds, os⟩ | e | _ | _) fs₂ hw₂ ⟨hj₂, h⟩
      case ok =>
        obtain ⟨ps, hv⟩ := h _ rfl
        dsimp only at hv
        have hds : ∀ p ∈ ds, ∃ n, p = d ++ [n] ∧ (n, true) ∈ dirEntries (fs₁.kids d) := by
          intro p hp
          rw [hv.dirs] at hp
          obtain ⟨e, he, rfl⟩ := List.mem_map.mp hp
          obtain ⟨he1, he2⟩ := List.mem_filter.mp he
          exact ⟨e.1, rfl, by rwa [← he2]⟩
        have hps : ∀ x ∈ ps, ∃ n, x.1 = d ++ [n] ∧ (n, false) ∈ dirEntries (fs₁.kids d) := by
          intro x hx
          have := hv.sub.subset (List.mem_map.mpr ⟨x, hx, rfl⟩)
          obtain ⟨e, he, h2⟩ := List.mem_map.mp this
          obtain ⟨he1, he2⟩ := List.mem_filter.mp he
          exact ⟨e.1, h2.symm, by rw [← (by simpa using he2 : e.2 = false)]; exact he1⟩
        have hun : Unrelated (queue ++ ds) := by
          refine List.pairwise_append.mpr ⟨hq.2, ?_, ?_⟩
          · rw [hv.dirs]
            refine List.Pairwise.imp (R := fun a b => a ≠ b ∧ (∃ n, a = d ++ [n]) ∧ ∃ n, b = d ++ [n]) ?_ ?_
            · rintro a b ⟨hne, ⟨n, rfl⟩, n', rfl⟩
              exact ⟨fun h => hne (h.eq_of_length (by simp)), fun h => hne (h.eq_of_length (by simp)).symm⟩
            · have h1 : ((dirEntries (fs₁.kids d)).filter (·.2) |>.map fun e => d ++ [e.1]).Nodup :=
                hnd.sublist (List.Sublist.map _ List.filter_sublist)
              refine List.Pairwise.imp_of_mem ?_ h1
              intro a b ha hb hne
              obtain ⟨e, _, rfl⟩ := List.mem_map.mp ha
              obtain ⟨e', _, rfl⟩ := List.mem_map.mp hb
              exact ⟨hne, ⟨_, rfl⟩, _, rfl⟩
          · intro a ha p hp
            obtain ⟨n, rfl, _⟩ := hds p hp
            have := hq.1 a ha
            refine ⟨fun h => ?_, fun h => this.1 ((List.prefix_append _ _).trans h)⟩
            by_cases e : a = d ++ [n]
            · exact this.1 (e ▸ List.prefix_append _ _)
            · exact this.2 (prefix_snoc h e)
        refine wp_bind hR hw₂ (wp_mono ?_ (ih (queue ++ ds) hun ?_ hw₂ hj₂))
        · rintro (l | e | _ | _) fs₃ hw₃ ⟨hj₃, h'⟩
          case ok =>
            obtain ⟨ps', hk⟩ := h' _ rfl
            intro fs₄ hr hw₄
            refine ⟨hr hj₃, fun r e => ?_⟩
            cases e
            refine ⟨ps ++ ps', ?_, ?_, ?_, ?_, ?_⟩
            · simp [hv.objs, hk.objs]
            · rw [List.map_append, List.nodup_append]
              refine ⟨(hnd.sublist (List.Sublist.map _ List.filter_sublist)).sublist hv.sub, hk.once, ?_⟩
              rintro a ha b hb' rfl
              obtain ⟨x, hx, rfl⟩ := List.mem_map.mp ha
              obtain ⟨y, hy, hxy⟩ := List.mem_map.mp hb'
              obtain ⟨n, hn, hn'⟩ := hps x hx
              obtain ⟨e, he, hpre, hne⟩ := hk.below y hy
              rw [hxy, hn] at hpre hne
              rcases List.mem_append.mp he with he | he
              · exact (hq.1 e he).2 (prefix_snoc hpre hne)
              · obtain ⟨n', rfl, _⟩ := hds e he
                exact hne (hpre.eq_of_length (by simp))
            · intro x hx
              rcases List.mem_append.mp hx with hx | hx
              · obtain ⟨n, hn, _⟩ := hps x hx
                exact ⟨d, List.mem_cons_self, by rw [hn]; exact List.prefix_append _ _, by rw [hn]; simp⟩
              · obtain ⟨e, he, hpre, hne⟩ := hk.below x hx
                rcases List.mem_append.mp he with he | he
                · exact ⟨e, List.mem_cons_of_mem _ he, hpre, hne⟩
                · obtain ⟨n', rfl, _⟩ := hds e he
                  refine ⟨d, List.mem_cons_self, (List.prefix_append _ _).trans hpre, ?_⟩
                  intro e1
                  rw [← e1] at hpre
                  have := hpre.length_le
                  rw [List.length_append, List.length_singleton] at this
                  omega
            · intro x hx
              rcases List.mem_append.mp hx with hx | hx
              · obtain ⟨h1, h2⟩ := hv.match_ x hx
                refine ⟨h1, ?_, h2⟩
                obtain ⟨n, hn, hn'⟩ := hps x hx
                obtain ⟨nd, h3, h4⟩ := (mem_readDir hw₁).mp hn'
                cases nd with
                | dir => simp at h4
                | file i => exact ⟨fs₁, i, hw₁, hj₁, by rw [hn]; exact h3⟩
              · exact hk.match_ x hx
            · rintro P c hP ⟨e, he, hpre, hne⟩ hf
              refine List.mem_append.mpr ?_
              rcases List.mem_cons.mp he with rfl | he
              · obtain ⟨t, rfl⟩ := hpre
                cases t with
                | nil => simp at hne
                | cons n t =>
                  by_cases ht : t = []
                  · subst ht
                    obtain ⟨i, h1, h2⟩ := hP.1 fs₁ hw₁ hj₁
                    exact .inl (hv.fixed n ((mem_readDir hw₁).mpr ⟨_, h1, rfl⟩) c hP.1 hf)
                  · have hpre' : e ++ [n] <+: e ++ n :: t := ⟨t, by simp⟩
                    have hne' : e ++ [n] ≠ e ++ n :: t := by
                      intro e1
                      have := congrArg List.length e1
                      simp at this
                      exact ht this
                    have hd' := hP.2 fs₁ hw₁ hj₁ (e ++ [n]) ((hb e List.mem_cons_self).trans (List.prefix_append _ _)) hpre' hne'
                    refine .inr (hk.held _ c hP ⟨e ++ [n], List.mem_append.mpr (.inr ?_), hpre', hne'⟩ hf)
                    rw [hv.dirs]
                    exact List.mem_map.mpr ⟨(n, true), List.mem_filter.mpr ⟨(mem_readDir hw₁).mpr ⟨_, hd', rfl⟩, rfl⟩, rfl⟩
              · exact .inr (hk.held P c hP ⟨e, List.mem_append.mpr (.inl he), hpre, hne⟩ hf)
          all_goals exact ⟨hj₃, fun r e => nomatch e⟩
        · intro p hp
          rcases List.mem_append.mp hp with hp | hp
          · exact hb p (List.mem_cons_of_mem _ hp)
          · obtain ⟨n, rfl, _⟩ := hds p hp
            exact (hb d List.mem_cons_self).trans (List.prefix_append _ _)
      all_goals exact ⟨hj₂, fun r e => nomatch e⟩

end S3
