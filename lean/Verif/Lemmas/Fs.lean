import Verif.Model.Storage
import Verif.Spec.Fs
/-! Lemmas about file trees, system calls and programs. -/
namespace S3
open Spec

theorem lookup_nil (fs : FS) : fs.lookup [] = some .dir := by simp [FS.lookup]

theorem find_filter_ne {l : List (Path × Node)} {p q : Path} (h : q ≠ p) :
    (l.filter fun e => e.1 != p).find? (fun e => e.1 == q) = l.find? (fun e => e.1 == q) := by
  induction l with
  | nil => rfl
  | cons e l ih =>
    by_cases hp : e.1 = p
    · have : ¬ e.1 = q := fun hq => h (hq.symm.trans hp)
      simp [hp, ih, show ¬ p = q from fun e => h e.symm]
    · simp only [List.filter_cons, bne_iff_ne, ne_eq, hp, not_false_eq_true, if_true,
        List.find?_cons, ih]

theorem find_filter_eq {l : List (Path × Node)} {p : Path} :
    (l.filter fun e => e.1 != p).find? (fun e => e.1 == p) = none := by
  induction l with
  | nil => rfl
  | cons e l ih =>
    by_cases hp : e.1 = p
    · simp [hp, ih]
    · simp [hp, ih]

theorem lookup_set (fs : FS) (p q : Path) (n : Node) :
    (fs.set p n).lookup q = if q = [] then some .dir else if q = p then some n else fs.lookup q := by
  by_cases hq : q = []
  · simp [FS.lookup, hq]
  · simp only [FS.lookup, FS.set, hq, if_false]
    by_cases h : q = p
    · subst h; simp
    · simp [h, show ¬ p = q from fun e => h e.symm, find_filter_ne h]

theorem lookup_erase (fs : FS) (p q : Path) :
    (fs.erase p).lookup q = if q = [] then some .dir else if q = p then none else fs.lookup q := by
  by_cases hq : q = []
  · simp [FS.lookup, hq]
  · simp only [FS.lookup, FS.erase, hq, if_false]
    by_cases h : q = p
    · subst h; simp
    · simp [h, find_filter_ne h]

theorem find_filter_tree {l : List (Path × Node)} {p q : Path} :
    (l.filter fun e => !p.isPrefixOf e.1).find? (fun e => e.1 == q)
      = if p.isPrefixOf q then none else l.find? (fun e => e.1 == q) := by
  induction l with
  | nil => simp
  | cons e l ih =>
    by_cases hp : p.isPrefixOf e.1
    · by_cases hq : e.1 = q
      · subst hq; simp [hp] at ih ⊢; exact ih
      · simp [hp, ih, hq]
    · by_cases hq : e.1 = q
      · subst hq; simp [hp]
      · simp [hp, ih, hq]

theorem lookup_eraseTree (fs : FS) (p q : Path) :
    (fs.eraseTree p).lookup q
      = if q = [] then some .dir else if p.isPrefixOf q then none else fs.lookup q := by
  by_cases hq : q = []
  · simp [FS.lookup, hq]
  · simp only [FS.lookup, FS.eraseTree, hq, if_false, find_filter_tree]
    split <;> simp

@[simp] theorem lookup_setData (fs : FS) (i : Ino) (b : Bytes) (q : Path) :
    (fs.setData i b).lookup q = fs.lookup q := rfl
@[simp] theorem lookup_bump (fs : FS) (p q : Path) : (fs.bump p).lookup q = fs.lookup q := rfl
@[simp] theorem data_set (fs : FS) (p : Path) (n : Node) : (fs.set p n).data = fs.data := rfl
@[simp] theorem data_erase (fs : FS) (p : Path) : (fs.erase p).data = fs.data := rfl
@[simp] theorem data_eraseTree (fs : FS) (p : Path) : (fs.eraseTree p).data = fs.data := rfl
@[simp] theorem data_bump (fs : FS) (p : Path) : (fs.bump p).data = fs.data := rfl
theorem data_setData (fs : FS) (i j : Ino) (b : Bytes) :
    (fs.setData i b).data j = if j = i then b else fs.data j := rfl
@[simp] theorem gen_set (fs : FS) (p : Path) (n : Node) : (fs.set p n).gen = fs.gen := rfl
@[simp] theorem gen_erase (fs : FS) (p : Path) : (fs.erase p).gen = fs.gen := rfl
@[simp] theorem gen_eraseTree (fs : FS) (p : Path) : (fs.eraseTree p).gen = fs.gen := rfl
@[simp] theorem gen_setData (fs : FS) (i : Ino) (b : Bytes) : (fs.setData i b).gen = fs.gen := rfl
theorem gen_bump (fs : FS) (p q : Path) :
    (fs.bump p).gen q = if q = p then fs.gen q + 1 else fs.gen q := rfl
@[simp] theorem nodes_setData (fs : FS) (i : Ino) (b : Bytes) :
    (fs.setData i b).nodes = fs.nodes := rfl
@[simp] theorem nodes_bump (fs : FS) (p : Path) : (fs.bump p).nodes = fs.nodes := rfl

/-- with every path listed once, `lookup` and membership agree -/
theorem lookup_iff_mem {fs : FS} (h : (fs.nodes.map (·.1)).Nodup) {p : Path} (hp : p ≠ []) (n : Node) :
    fs.lookup p = some n ↔ (p, n) ∈ fs.nodes := by
  simp only [FS.lookup, hp, if_false]
  generalize fs.nodes = l at h
  induction l with
  | nil => simp
  | cons e l ih =>
    rw [List.map_cons, List.nodup_cons] at h
    by_cases he : e.1 = p
    · subst he
      simp only [List.find?_cons, beq_self_eq_true, Option.map_some, Option.some.injEq,
        List.mem_cons]
      constructor
      · rintro rfl; left; rfl
      · rintro (h1 | h1)
        · rw [← h1]
        · exact absurd (List.mem_map_of_mem (f := (·.1)) h1) h.1
    · simp only [List.find?_cons, List.mem_cons]
      have : (e.1 == p) = false := by simp [he]
      rw [this, ih h.2]
      constructor
      · exact Or.inr
      · rintro (rfl | h1)
        · exact absurd rfl he
        · exact h1

theorem mem_of_lookup {fs : FS} {p : Path} (hp : p ≠ []) {n : Node} (h : fs.lookup p = some n) :
    (p, n) ∈ fs.nodes := by
  simp only [FS.lookup, hp, if_false, Option.map_eq_some_iff] at h
  obtain ⟨e, he, rfl⟩ := h
  have := List.find?_some he
  have hm := List.mem_of_find?_eq_some he
  simp at this
  rw [← this]; exact hm

theorem dropLast_eq_of_prefix {p : Path} {q : Path} (hq : q ≠ []) (h : p <+: q) (hne : p ≠ q) :
    p <+: q.dropLast := by
  obtain ⟨t, rfl⟩ := h
  have ht : t ≠ [] := by rintro rfl; simp at hne
  rw [List.dropLast_append_of_ne_nil ht]
  exact ⟨_, rfl⟩

theorem isPrefixOf_iff {p q : Path} : p.isPrefixOf q = true ↔ p <+: q := List.isPrefixOf_iff_prefix

theorem snoc_induction {α : Type} {P : List α → Prop} (h0 : P [])
    (h1 : ∀ l a, P l → P (l ++ [a])) (l : List α) : P l := by
  have : ∀ r : List α, P r.reverse := by
    intro r
    induction r with
    | nil => exact h0
    | cons a r ih => rw [List.reverse_cons]; exact h1 _ _ ih
  simpa using this l.reverse

/-- In a well-formed tree every ancestor of an existing path is a directory. -/
theorem Spec.WF.above {fs : FS} (h : WF fs) {q : Path} {n : Node} (hq : fs.lookup q = some n)
    {p : Path} (hp : p <+: q) (hne : p ≠ q) : fs.lookup p = some .dir := by
  obtain ⟨t, rfl⟩ := hp
  induction t using snoc_induction generalizing n with
  | h0 => simp at hne
  | h1 t c ih =>
    have hne0 : p ++ (t ++ [c]) ≠ [] := by simp
    have hpar := h.parent _ (mem_of_lookup hne0 hq)
    rw [← List.append_assoc, List.dropLast_concat] at hpar
    by_cases ht : t = []
    · subst ht; simpa using hpar
    · exact ih hpar (by simpa using fun e => ht (by simpa using e))

theorem getLast?_some {p : Path} {c : Bytes} (h : p.getLast? = some c) : p = p.dropLast ++ [c] := by
  have hne : p ≠ [] := by rintro rfl; simp at h
  rw [List.getLast?_eq_some_getLast hne] at h
  have := List.dropLast_concat_getLast hne
  simp at h; rw [h] at this; exact this.symm

theorem nodup_filter_keys {l : List (Path × Node)} (h : (l.map (·.1)).Nodup)
    (f : Path × Node → Bool) : ((l.filter f).map (·.1)).Nodup :=
  h.sublist (List.Sublist.map _ List.filter_sublist)

/-- adding a node with a fresh storable name in an existing directory -/
theorem Spec.WF.set {fs : FS} (h : WF fs) {p : Path} {c : Bytes} (hc : p.getLast? = some c)
    (hn : nameOk c = true) (hd : fs.lookup p.dropLast = some .dir)
    (n : Node) (hfree : fs.lookup p = none)
    (g : Path → Nat) (hg : ∀ q, fs.gen q ≤ g q)
    (hi : ∀ i, n = .file i → i.path = p ∧ i.gen < g p) (d : Ino → Bytes) :
    WF { (fs.set p n) with gen := g, data := d } := by
  have hp : p ≠ [] := by rintro rfl; simp at hc
  have hlk : ∀ q, FS.lookup { (fs.set p n) with gen := g, data := d } q = (fs.set p n).lookup q :=
    fun _ => rfl
  refine ⟨?_, ?_, ?_, ?_⟩
  · simp only [FS.set, List.map_cons, List.nodup_cons]
    refine ⟨?_, nodup_filter_keys h.nodup _⟩
    intro hm
    obtain ⟨e, he, rfl⟩ := List.mem_map.mp hm
    simp at he
  · intro e he
    simp only [FS.set, List.mem_cons] at he
    rcases he with rfl | he
    · refine ⟨hp, ?_⟩
      intro x hx
      have hsplit := getLast?_some hc
      rw [hsplit] at hx
      rcases List.mem_append.mp hx with hx | hx
      · by_cases hdl : p.dropLast = []
        · rw [hdl] at hx; simp at hx
        · exact (h.names _ (mem_of_lookup hdl hd)).2 _ hx
      · simp at hx; rw [hx]; exact hn
    · exact h.names _ ((List.mem_filter.mp he).1)
  · intro e he
    simp only [FS.set, List.mem_cons] at he
    rw [hlk, lookup_set]
    split
    · rfl
    · rename_i hne
      rcases he with rfl | he
      · have : p.dropLast ≠ p := by
          intro e
          have := congrArg List.length e
          have hl : 0 < p.length := List.length_pos_iff.mpr hp
          simp at this; omega
        simp only [this, if_false]
        exact hd
      · have hpar := h.parent e ((List.mem_filter.mp he).1)
        split
        · rename_i e1
          rw [e1, hfree] at hpar; cases hpar
        · exact hpar
  · intro q i hq
    rw [hlk, lookup_set] at hq
    split at hq
    · cases hq
    · split at hq
      · rename_i e1; subst e1
        cases hq
        exact hi i rfl
      · have := h.ino q i hq
        exact ⟨this.1, Nat.lt_of_lt_of_le this.2 (hg q)⟩

theorem Spec.WF.data {fs : FS} (h : WF fs) (d : Ino → Bytes) : WF { fs with data := d } :=
  ⟨h.nodup, h.names, h.parent, h.ino⟩

theorem no_children_iff {fs : FS} {p : Path} :
    fs.children p = [] ↔ ∀ e ∈ fs.nodes, e.1 ≠ [] → e.1.dropLast ≠ p := by
  simp only [FS.children, List.filterMap_eq_nil_iff]
  constructor
  · intro h e he hne hd
    have := h e he
    rw [childOf] at this
    rw [List.getLast?_eq_some_getLast hne] at this
    simp [hd] at this
  · intro h e he
    rw [childOf]
    cases hl : e.1.getLast? with
    | none => rfl
    | some c =>
      have hne : e.1 ≠ [] := by intro e1; simp [e1] at hl
      simp [h e he hne]

/-- removing a file, or an empty directory -/
theorem Spec.WF.erase {fs : FS} (h : WF fs) {p : Path}
    (hno : ∀ e ∈ fs.nodes, e.1 ≠ [] → e.1.dropLast ≠ p) : WF (fs.erase p) := by
  refine ⟨nodup_filter_keys h.nodup _, fun e he => h.names e ((List.mem_filter.mp he).1), ?_, ?_⟩
  · intro e he
    have hm := (List.mem_filter.mp he).1
    rw [lookup_erase]
    split
    · rfl
    · split
      · rename_i e1; exact absurd e1 (hno e hm (h.names e hm).1)
      · exact h.parent e hm
  · intro q i hq
    rw [lookup_erase] at hq
    split at hq
    · cases hq
    · split at hq
      · cases hq
      · exact h.ino q i hq

theorem Spec.WF.eraseTree {fs : FS} (h : WF fs) {p : Path} : WF (fs.eraseTree p) := by
  refine ⟨nodup_filter_keys h.nodup _, fun e he => h.names e ((List.mem_filter.mp he).1), ?_, ?_⟩
  · intro e he
    have hm := (List.mem_filter.mp he).1
    have hnp := (List.mem_filter.mp he).2
    rw [lookup_eraseTree]
    split
    · rfl
    · split
      · rename_i hpre
        exfalso
        have : p <+: e.1 := (isPrefixOf_iff.mp hpre).trans (List.dropLast_prefix _)
        rw [isPrefixOf_iff.mpr this] at hnp
        simp at hnp
      · exact h.parent e hm
  · intro q i hq
    rw [lookup_eraseTree] at hq
    split at hq
    · cases hq
    · split at hq
      · cases hq
      · exact h.ino q i hq

theorem Spec.WF.file_no_children {fs : FS} (h : WF fs) {p : Path} {i : Ino}
    (hp : fs.lookup p = some (.file i)) : ∀ e ∈ fs.nodes, e.1 ≠ [] → e.1.dropLast ≠ p := by
  intro e he _ hd
  have := h.parent e he
  rw [hd, hp] at this; cases this

theorem at_file {fs : FS} {p : OsPath} {i : Ino} (h : fs.at p = some (.file i)) :
    fs.lookup p.comps = some (.file i) ∧ p.slash = false := by
  unfold FS.at at h
  split at h
  · split at h
    · cases h
    · rename_i hs
      cases h
      refine ⟨by assumption, by simpa using hs⟩
  · rename_i hne
    exact absurd h (hne i)

/-- every system call keeps the tree well-formed -/
theorem exec_wf (cfg : Cfg) {fs : FS} (h : WF fs) (c : Call) : WF (exec cfg fs c).2 := by
  cases c with
  | stat p => exact h
  | openRead p => exact h
  | fstat p => exact h
  | readAll p => exact h
  | readAt p => exact h
  | mkdir p =>
    simp only [exec]
    split; · exact h
    split; · exact h
    rename_i c hc
    split
    · exact h
    · exact h
    · rename_i hd
      split
      · exact h
      · rename_i hf
        split
        · rename_i hn
          exact h.set hc hn hd .dir hf fs.gen (fun _ => Nat.le_refl _) (fun i hi => by cases hi)
            fs.data
        · exact h
  | create p =>
    simp only [exec]
    split; · exact h
    split; · exact h
    rename_i c hc
    split
    · exact h
    · exact h.data _
    · rename_i hf
      split
      · rename_i hd
        split
        · rename_i hn
          refine h.set hc hn hd _ hf _ ?_ ?_ _
          · intro q
            show fs.gen q ≤ if q = p.comps then fs.gen q + 1 else fs.gen q
            split <;> omega
          · rintro i hi
            cases hi
            refine ⟨rfl, ?_⟩
            show fs.gen p.comps < if p.comps = p.comps then fs.gen p.comps + 1 else fs.gen p.comps
            simp
        · exact h
      · exact h
  | writeAt i off b => exact h.data _
  | unlink p =>
    simp only [exec]
    split
    · rename_i i hi
      exact h.erase (h.file_no_children (at_file hi).1)
    · exact h
  | rmdir p =>
    simp only [exec]
    split
    · split
      · rename_i hc
        exact h.erase (no_children_iff.mp hc.2)
      · exact h
    · exact h
  | rmtree p =>
    simp only [exec]
    split
    · split
      · exact h.eraseTree
      · exact h
    · exact h
  | readDir p =>
    simp only [exec]
    split <;> exact h

theorem run_wf (cfg : Cfg) {α : Type} (p : Prog α) {fs : FS} (h : WF fs) : WF (run cfg p fs).2 := by
  induction p generalizing fs with
  | sys c k ih => exact ih _ (exec_wf cfg h c)
  | _ => exact h

/-! ### programs -/

@[simp] theorem bind_eq {α β : Type} (p : Prog α) (f : α → Prog β) : (p >>= f) = p.bind f := rfl
@[simp] theorem pure_eq {α : Type} (a : α) : (pure a : Prog α) = .ret a := rfl

@[simp] theorem run_ret (cfg : Cfg) {α : Type} (a : α) (fs : FS) :
    run cfg (.ret a) fs = (.ok a, fs) := rfl
@[simp] theorem run_fail (cfg : Cfg) {α : Type} (e : S3ErrorCode) (fs : FS) :
    run cfg (.fail e : Prog α) fs = (.err e, fs) := rfl

/-- continue after a result -/
def Outcome.andThen {α β : Type} (o : Outcome α × FS) (f : α → FS → Outcome β × FS) :
    Outcome β × FS :=
  match o with
  | (.ok a, fs) => f a fs
  | (.err e, fs) => (.err e, fs)
  | (.panic, fs) => (.panic, fs)
  | (.diverge, fs) => (.diverge, fs)

theorem run_bind (cfg : Cfg) {α β : Type} (p : Prog α) (f : α → Prog β) (fs : FS) :
    run cfg (p.bind f) fs = Outcome.andThen (run cfg p fs) fun a fs' => run cfg (f a) fs' := by
  induction p generalizing fs with
  | sys c k ih => exact ih _ _
  | _ => rfl

@[simp] theorem run_call_bind (cfg : Cfg) {β : Type} (c : Call) (f : Resp c → Prog β) (fs : FS) :
    run cfg (@Prog.bind (no_index (Resp c)) β (call c) f) fs = run cfg (f (exec cfg fs c).1) (exec cfg fs c).2 := rfl

end S3
