import Verif.Lemmas.Get
import Verif.Lemmas.Run
/-! What the listing loops return, as functions of the file tree. -/
namespace S3
open Spec

variable {cfg : Cfg} {ext : Ext}

/-- the node sits in a directory below `d` or in `d` itself -/
def isBelow (d : Path) (e : Path × Node) : Bool := d.isPrefixOf e.1 && e.1 != d

/-- everything strictly below `d` -/
def FS.sub (fs : FS) (d : Path) : List (Path × Node) := fs.nodes.filter (isBelow d)

/-- directly in `d` -/
def isChild (d : Path) (e : Path × Node) : Bool := e.1 != [] && e.1.dropLast == d

/-- the nodes directly in `d` -/
def FS.kids (fs : FS) (d : Path) : List (Path × Node) := fs.nodes.filter (isChild d)

/-- is it a directory -/
def isDirNode (e : Path × Node) : Bool := e.2 == .dir

theorem isBelow_iff {d : Path} {e : Path × Node} : isBelow d e = true ↔ d <+: e.1 ∧ e.1 ≠ d := by
  simp [isBelow]

theorem isChild_iff {d : Path} {e : Path × Node} : isChild d e = true ↔ ∃ c, e.1 = d ++ [c] := by
  simp only [isChild, Bool.and_eq_true, bne_iff_ne, ne_eq, beq_iff_eq]
  constructor
  · rintro ⟨h1, h2⟩
    exact ⟨e.1.getLast h1, by rw [← h2, List.dropLast_concat_getLast]⟩
  · rintro ⟨c, h⟩
    rw [h]; simp

theorem nodes_nodup {fs : FS} (hw : WF fs) : fs.nodes.Nodup := by
  have := hw.nodup
  generalize fs.nodes = l at this
  induction l with
  | nil => exact List.nodup_nil
  | cons a l ih =>
    rw [List.map_cons, List.nodup_cons] at this
    rw [List.nodup_cons]
    exact ⟨fun h => this.1 (List.mem_map_of_mem h), ih this.2⟩

theorem nodup_flatMap_of {α β : Type} {l : List α} {f : α → List β} (hl : l.Nodup) (hf : ∀ a ∈ l, (f a).Nodup)
    (hd : ∀ a ∈ l, ∀ b ∈ l, a ≠ b → ∀ x, x ∈ f a → x ∉ f b) : (l.flatMap f).Nodup := by
  induction l with
  | nil => exact List.nodup_nil
  | cons a l ih =>
    rw [List.nodup_cons] at hl
    rw [List.flatMap_cons, List.nodup_append]
    refine ⟨hf a (by simp), ih hl.2 (fun b hb => hf b (by simp [hb]))
      (fun b hb c hc => hd b (by simp [hb]) c (by simp [hc])), ?_⟩
    intro x hx y hy hxy
    subst hxy
    obtain ⟨b, hb, hxb⟩ := List.mem_flatMap.mp hy
    exact hd a (by simp) b (by simp [hb]) (fun e => hl.1 (e ▸ hb)) x hx hxb

/-- the subdirectories of `d` -/
def FS.subdirs (fs : FS) (d : Path) : List Path := ((fs.kids d).filter isDirNode).map (·.1)

theorem mem_sub {fs : FS} {d : Path} {e : Path × Node} : e ∈ fs.sub d ↔ e ∈ fs.nodes ∧ d <+: e.1 ∧ e.1 ≠ d := by
  rw [FS.sub, List.mem_filter, isBelow_iff]

theorem mem_kids {fs : FS} {d : Path} {e : Path × Node} : e ∈ fs.kids d ↔ e ∈ fs.nodes ∧ ∃ c, e.1 = d ++ [c] := by
  rw [FS.kids, List.mem_filter, isChild_iff]

theorem mem_subdirs {fs : FS} {d p : Path} : p ∈ fs.subdirs d ↔ (p, Node.dir) ∈ fs.nodes ∧ ∃ c, p = d ++ [c] := by
  simp only [FS.subdirs, List.mem_map, List.mem_filter, mem_kids, isDirNode, beq_iff_eq]
  constructor
  · rintro ⟨⟨p', n⟩, ⟨⟨h1, h2⟩, h3⟩, rfl⟩
    simp only at h3; subst h3
    exact ⟨h1, h2⟩
  · rintro ⟨h1, h2⟩
    exact ⟨(p, .dir), ⟨⟨h1, h2⟩, rfl⟩, rfl⟩

theorem subdirs_nodup {fs : FS} (hw : WF fs) (d : Path) : (fs.subdirs d).Nodup := by
  refine List.Nodup.sublist ?_ hw.nodup
  exact List.Sublist.map _ (List.filter_sublist.trans List.filter_sublist)

/-- what lies below a directory: its entries, and what lies below its subdirectories -/
theorem sub_perm {fs : FS} (hw : WF fs) (d : Path) :
    (fs.sub d).Perm (fs.kids d ++ (fs.subdirs d).flatMap fs.sub) := by
  have hn := nodes_nodup hw
  rw [List.perm_ext_iff_of_nodup]
  · intro e
    rw [List.mem_append, mem_sub, mem_kids, List.mem_flatMap]
    constructor
    · rintro ⟨he, ⟨t, ht⟩, hne⟩
      cases t with
      | nil => simp at ht; exact absurd ht.symm hne
      | cons c t =>
        by_cases h0 : t = []
        · subst h0; exact Or.inl ⟨he, c, ht.symm⟩
        · right
          have hl : fs.lookup e.1 = some e.2 :=
            (lookup_iff_mem hw.nodup (hw.names e he).1 e.2).mpr he
          have hd : fs.lookup (d ++ [c]) = some .dir := by
            refine hw.above hl ⟨t, by rw [← ht]; simp⟩ ?_
            intro e1
            rw [← ht] at e1
            have := congrArg List.length e1
            simp at this
            exact h0 this
          refine ⟨d ++ [c], mem_subdirs.mpr ⟨mem_of_lookup (by simp) hd, c, rfl⟩, ?_⟩
          refine mem_sub.mpr ⟨he, ⟨t, by rw [← ht]; simp⟩, ?_⟩
          intro e1
          rw [← ht] at e1
          have := congrArg List.length e1
          simp at this
          exact h0 this
    · rintro (⟨he, c, hc⟩ | ⟨p, hp, hx⟩)
      · exact ⟨he, ⟨[c], hc.symm⟩, by rw [hc]; simp⟩
      · obtain ⟨he, hpre, hne⟩ := mem_sub.mp hx
        obtain ⟨_, c, rfl⟩ := mem_subdirs.mp hp
        refine ⟨he, (List.prefix_append _ _).trans hpre, ?_⟩
        intro e1
        rw [e1] at hpre
        have := hpre.length_le
        rw [List.length_append, List.length_singleton] at this
        omega
  · exact hn.sublist List.filter_sublist
  · rw [List.nodup_append]
    refine ⟨hn.sublist List.filter_sublist, ?_, ?_⟩
    · refine nodup_flatMap_of (subdirs_nodup hw d) (fun _ _ => hn.sublist List.filter_sublist) ?_
      intro a ha b hb hab x hx hy
      obtain ⟨_, c, rfl⟩ := mem_subdirs.mp ha
      obtain ⟨_, c', rfl⟩ := mem_subdirs.mp hb
      have h1 := (mem_sub.mp hx).2.1
      have h2 := (mem_sub.mp hy).2.1
      refine hab ?_
      have := List.prefix_of_prefix_length_le h1 h2 (by simp)
      exact this.eq_of_length (by simp)
    · intro x hx y hy hxy
      subst hxy
      obtain ⟨_, c, hc⟩ := mem_kids.mp hx
      obtain ⟨p, hp, hy⟩ := List.mem_flatMap.mp hy
      obtain ⟨_, c', rfl⟩ := mem_subdirs.mp hp
      obtain ⟨_, hpre, hne⟩ := mem_sub.mp hy
      rw [hc] at hpre hne
      exact hne (hpre.eq_of_length (by simp)).symm

/-- what the listing makes of a node -/
def entryOf (fs : FS) (base : Path) (pfx : Option Bytes) (e : Path × Node) : Option (Bytes × Nat) :=
  match e.2 with
  | .dir => none
  | .file i => if filteredOut pfx (relKey base e.1) then none else some (relKey base e.1, (fs.data i).length)

theorem children_eq (fs : FS) (d : Path) :
    fs.children d = (fs.kids d).map fun e => (e.1.getLastD [], e.2) := by
  simp only [FS.children, FS.kids]
  induction fs.nodes with
  | nil => rfl
  | cons e l ih =>
    rw [List.filterMap_cons, List.filter_cons, ih]
    by_cases hc : isChild d e = true
    · obtain ⟨c, h⟩ := isChild_iff.mp hc
      simp only [hc, if_true, List.map_cons, childOf, h]
      simp
    · have : childOf d e = none := by
        simp only [childOf]
        split
        · rename_i c hl
          split
          · rename_i hd
            exfalso; refine hc (isChild_iff.mpr ⟨c, ?_⟩)
            rw [← hd]; exact getLast?_some hl
          · rfl
        · rfl
      simp [this, hc]

/-- the entries of a directory as `readdir` gives them -/
def dirEntries (ks : List (Path × Node)) : List (Bytes × Bool) := ks.map fun e => (e.1.getLastD [], e.2 == .dir)

theorem listEntries_run {fs : FS} {base dir : Path} {pfx : Option Bytes} (ks : List (Path × Node))
    (hk : ∀ e ∈ ks, (∃ c, e.1 = dir ++ [c]) ∧ fs.lookup e.1 = some e.2)
    (hlen : ∀ e ∈ ks, ∀ i, e.2 = .file i → (fs.data i).length ≤ i64Max) :
    run cfg (listEntries cfg base pfx dir (dirEntries ks)) fs =
      (.ok ((ks.filter isDirNode).map (·.1), ks.filterMap (entryOf fs base pfx)), fs) := by
  induction ks with
  | nil => rfl
  | cons e ks ih =>
    have ih := ih (fun e he => hk e (by simp [he])) (fun e he => hlen e (by simp [he]))
    obtain ⟨⟨c, hc⟩, hl⟩ := hk e (by simp)
    obtain ⟨p, n⟩ := e
    simp only at hc hl
    subst hc
    have hg : (dir ++ [c]).getLastD [] = c := by simp
    cases n with
    | dir =>
      simp only [dirEntries, List.map_cons, listEntries, hg, beq_self_eq_true, if_true, bind_eq, pure_eq]
      rw [run_bind, show (List.map (fun e : Path × Node => (e.1.getLastD [], e.2 == Node.dir)) ks) = dirEntries ks from rfl, ih]
      simp [Outcome.andThen, isDirNode, List.filterMap_cons, entryOf]
    | file i =>
      have hf : (Node.file i == Node.dir) = false := beq_false_of_ne (by simp)
      simp only [dirEntries, List.map_cons, listEntries, hg, hf, bind_eq, pure_eq, Bool.false_eq_true, if_false]
      rw [show (List.map (fun e : Path × Node => (e.1.getLastD [], e.2 == Node.dir)) ks) = dirEntries ks from rfl]
      have hlen := hlen (dir ++ [c], .file i) (by simp) i rfl
      by_cases hfo : filteredOut pfx (relKey base (dir ++ [c])) = true
      · simp only [hfo, if_true, Bool.false_eq_true, if_false, ih]
        simp [isDirNode, entryOf, List.filterMap_cons, hfo]
      · simp only [hfo, if_false, Bool.false_eq_true]
        rw [run_stat_bind, at_false, hl]
        simp only [Option.map_some, Node.stat, run_orInternal_some, statLen, hlen, if_true]
        rw [run_bind, ih]
        simp [Outcome.andThen, isDirNode, entryOf, List.filterMap_cons, hfo]

theorem exec_readDir {fs : FS} {d : Path} (h : fs.lookup d = some .dir) :
    exec cfg fs (.readDir ⟨d, false⟩) = (some (dirEntries (fs.kids d)), fs) := by
  simp only [exec, h, children_eq, List.map_map]
  rfl

theorem mem_filterMap_perm {α β : Type} {f : α → Option β} {a b : List α} (h : a.Perm b) :
    (a.filterMap f).Perm (b.filterMap f) := h.filterMap f

/-- **the listing loop**: with enough fuel it returns an entry for every file below the queued directories -/
theorem listLoop_run {fs : FS} (hw : WF fs) {base : Path} {pfx : Option Bytes}
    (hlen : ∀ q i, base <+: q → fs.lookup q = some (.file i) → (fs.data i).length ≤ i64Max) :
    ∀ (fuel : Nat) (queue : List Path), (∀ d ∈ queue, base <+: d ∧ fs.lookup d = some .dir) →
      queue.length + ((queue.flatMap fs.sub).filter isDirNode).length ≤ fuel →
      ∃ l, run cfg (listLoop cfg base pfx fuel queue) fs = (.ok l, fs) ∧
        l.Perm ((queue.flatMap fs.sub).filterMap (entryOf fs base pfx)) := by
  intro fuel
  induction fuel with
  | zero =>
    intro queue _ hf
    cases queue with
    | nil => exact ⟨[], rfl, List.Perm.refl _⟩
    | cons d q => simp at hf
  | succ fuel ih =>
    intro queue hq hf
    cases queue with
    | nil => exact ⟨[], rfl, List.Perm.refl _⟩
    | cons d q =>
      obtain ⟨hbd, hd⟩ := hq d (by simp)
      have hkid : ∀ e ∈ fs.kids d, (∃ c, e.1 = d ++ [c]) ∧ fs.lookup e.1 = some e.2 := by
        intro e he
        obtain ⟨h1, h2⟩ := mem_kids.mp he
        exact ⟨h2, (lookup_iff_mem hw.nodup (hw.names e h1).1 e.2).mpr h1⟩
      have hE := listEntries_run (cfg := cfg) (base := base) (dir := d) (pfx := pfx) (fs.kids d) hkid (by
        intro e he i hi
        obtain ⟨⟨c, hc⟩, hl⟩ := hkid e he
        refine hlen e.1 i ?_ (by rw [hl, hi])
        rw [hc]; exact hbd.trans (List.prefix_append _ _))
      have hp := sub_perm hw d
      have hnew : ∀ d' ∈ q ++ fs.subdirs d, base <+: d' ∧ fs.lookup d' = some .dir := by
        intro d' hd'
        rcases List.mem_append.mp hd' with h | h
        · exact hq d' (by simp [h])
        · obtain ⟨h1, c, rfl⟩ := mem_subdirs.mp h
          exact ⟨hbd.trans (List.prefix_append _ _), (lookup_iff_mem hw.nodup (by simp) _).mpr h1⟩
      have hperm : ((d :: q).flatMap fs.sub).Perm (fs.kids d ++ ((q ++ fs.subdirs d).flatMap fs.sub)) := by
        rw [List.flatMap_cons, List.flatMap_append]
        refine (hp.append_right _).trans ?_
        rw [List.append_assoc]
        exact List.Perm.append_left _ List.perm_append_comm
      have hfuel : (q ++ fs.subdirs d).length + (((q ++ fs.subdirs d).flatMap fs.sub).filter isDirNode).length ≤ fuel := by
        have h1 := (hperm.filter isDirNode).length_eq
        rw [List.filter_append, List.length_append] at h1
        have h2 : (fs.subdirs d).length = ((fs.kids d).filter isDirNode).length := by simp [FS.subdirs]
        simp only [List.length_cons, List.length_append] at hf ⊢
        omega
      obtain ⟨l, hl, hlp⟩ := ih _ hnew hfuel
      refine ⟨(fs.kids d).filterMap (entryOf fs base pfx) ++ l, ?_, ?_⟩
      · simp only [listLoop, bind_eq, pure_eq]
        rw [run_call_bind, exec_readDir hd]
        simp only [run_orInternal_some]
        rw [run_bind, hE]
        simp only [Outcome.andThen]
        rw [run_bind, show ((fs.kids d).filter isDirNode).map (·.1) = fs.subdirs d from rfl, hl]
        rfl
      · refine (List.Perm.append_left _ hlp).trans ?_
        rw [← List.filterMap_append]
        exact (hperm.symm).filterMap _

end S3
