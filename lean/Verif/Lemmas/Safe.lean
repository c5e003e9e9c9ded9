import Verif.Lemmas.Fs
/-! Which system calls a program can issue, and what follows for the file tree. -/
namespace S3
open Spec

/-- what an answer of the kernel always satisfies: a file opened or created at a path is the file
of that path -/
def respOk : (c : Call) → Resp c → Prop
  | .openRead p, r => ∀ i, r = some (.file i) → i.path = p.comps
  | .create p, r => ∀ i, r = some i → i.path = p.comps
  | _, _ => True

theorem exec_respOk (cfg : Cfg) {fs : FS} (h : WF fs) (c : Call) : respOk c (exec cfg fs c).1 := by
  cases c with
  | openRead p =>
    intro i hi
    simp only [exec] at hi
    split at hi
    · cases hi
    · rename_i j hj
      cases hi
      exact (h.ino _ _ (at_file hj).1).1
    · cases hi
  | create p =>
    intro i hi
    simp only [exec] at hi
    split at hi; · cases hi
    split at hi; · cases hi
    split at hi
    · cases hi
    · rename_i j hj
      cases hi
      exact (h.ino _ _ hj).1
    · split at hi
      · split at hi
        · cases hi; rfl
        · cases hi
      · cases hi
  | _ => trivial

/-- every call the program can issue satisfies `ok`, and every result satisfies `Q` -/
def Safe {α : Type} (ok : Call → Prop) (Q : α → Prop) : Prog α → Prop
  | .ret a => Q a
  | .sys c k => ok c ∧ ∀ r, respOk c r → Safe ok Q (k r)
  | _ => True

theorem Safe.mono {α : Type} {ok ok' : Call → Prop} {Q Q' : α → Prop} (hc : ∀ c, ok c → ok' c)
    (hq : ∀ a, Q a → Q' a) {p : Prog α} (h : Safe ok Q p) : Safe ok' Q' p := by
  induction p with
  | ret a => exact hq a h
  | sys c k ih => exact ⟨hc c h.1, fun r hr => ih r (h.2 r hr)⟩
  | _ => trivial

theorem Safe.bind {α β : Type} {ok : Call → Prop} {Q : α → Prop} {R : β → Prop} {p : Prog α}
    {f : α → Prog β} (h : Safe ok Q p) (hf : ∀ a, Q a → Safe ok R (f a)) : Safe ok R (p.bind f) := by
  induction p with
  | ret a => exact hf a h
  | sys c k ih => exact ⟨h.1, fun r hr => ih r (h.2 r hr)⟩
  | _ => trivial

theorem Safe.callBind {β : Type} {ok : Call → Prop} {R : β → Prop} {c : Call} {f : Resp c → Prog β}
    (h : ok c) (hf : ∀ r, respOk c r → Safe ok R (f r)) : Safe ok R ((call c).bind f) :=
  ⟨h, fun r hr => hf r hr⟩

theorem Safe.orInternal {α β : Type} {ok : Call → Prop} {R : β → Prop} {o : Option α}
    {f : α → Prog β} (hf : ∀ a, o = some a → Safe ok R (f a)) :
    Safe ok R ((S3.orInternal o).bind f) := by
  cases o with
  | none => trivial
  | some a => exact hf a rfl

/-- an invariant of all allowed calls is an invariant of the program -/
theorem Safe.inv {α : Type} (cfg : Cfg) {ok : Call → Prop} {Q : α → Prop} {p : Prog α}
    (h : Safe ok Q p) {J : FS → Prop} (hJ : ∀ fs c, WF fs → J fs → ok c → J (exec cfg fs c).2)
    {fs : FS} (hw : WF fs) (h0 : J fs) : J (run cfg p fs).2 := by
  induction p generalizing fs with
  | sys c k ih =>
    exact ih _ (h.2 _ (exec_respOk cfg hw c)) (exec_wf cfg hw c) (hJ _ _ hw h0 h.1)
  | _ => exact h0

theorem Safe.result {α : Type} (cfg : Cfg) {ok : Call → Prop} {Q : α → Prop} {p : Prog α}
    (h : Safe ok Q p) {fs : FS} (hw : WF fs) {a : α} (hr : (run cfg p fs).1 = .ok a) : Q a := by
  induction p generalizing fs with
  | ret b => cases hr; exact h
  | sys c k ih => exact ih _ (h.2 _ (exec_respOk cfg hw c)) (exec_wf cfg hw c) hr
  | _ => cases hr

/-- at every crash point too -/
theorem Safe.invN {α : Type} (cfg : Cfg) {ok : Call → Prop} {Q : α → Prop} {p : Prog α}
    (h : Safe ok Q p) {J : FS → Prop} (hJ : ∀ fs c, WF fs → J fs → ok c → J (exec cfg fs c).2)
    {fs : FS} (hw : WF fs) (h0 : J fs) (n : Nat) : J (runN cfg n p fs).2 := by
  induction n generalizing p fs with
  | zero => cases p <;> exact h0
  | succ n ih =>
    cases p with
    | sys c k =>
      exact ih (h.2 _ (exec_respOk cfg hw c)) (exec_wf cfg hw c) (hJ _ _ hw h0 h.1)
    | _ => exact h0

/-! ### changes confined to a set of paths -/

/-- `Frame own up fs fs'`: going from `fs` to `fs'` only paths in `own` changed, except that missing
paths in `up` may have become directories. -/
structure Frame (own up : Path → Prop) (fs fs' : FS) : Prop where
  node : ∀ q, ¬ own q → fs'.lookup q = fs.lookup q ∨
    (up q ∧ fs.lookup q = none ∧ fs'.lookup q = some .dir)
  data : ∀ i : Ino, ¬ own i.path → fs'.data i = fs.data i
  gen : ∀ q, ¬ own q → fs'.gen q = fs.gen q

theorem Frame.refl (own up : Path → Prop) (fs : FS) : Frame own up fs fs :=
  ⟨fun _ _ => Or.inl rfl, fun _ _ => rfl, fun _ _ => rfl⟩

theorem Frame.trans {own up : Path → Prop} {a b c : FS} (h1 : Frame own up a b)
    (h2 : Frame own up b c) : Frame own up a c := by
  refine ⟨?_, fun i hi => (h2.data i hi).trans (h1.data i hi),
    fun q hq => (h2.gen q hq).trans (h1.gen q hq)⟩
  intro q hq
  rcases h1.node q hq with e1 | ⟨u, n1, d1⟩
  · rcases h2.node q hq with e2 | ⟨u, n2, d2⟩
    · exact Or.inl (e2.trans e1)
    · exact Or.inr ⟨u, e1 ▸ n2, d2⟩
  · rcases h2.node q hq with e2 | ⟨_, n2, _⟩
    · exact Or.inr ⟨u, n1, e2.trans d1⟩
    · rw [d1] at n2; cases n2

/-- which calls change only `own` and create directories only in `up` -/
def writeOk (own up : Path → Prop) : Call → Prop
  | .mkdir p => up p ∨ own p
  | .create p => own p.comps
  | .writeAt i _ _ => own i.path
  | .unlink p => own p.comps
  | .rmdir p => own p.comps
  | .rmtree p => ∀ q, p <+: q → own q
  | _ => True

theorem exec_frame (cfg : Cfg) {own up : Path → Prop} {fs : FS} {c : Call} (_hw : WF fs)
    (h : writeOk own up c) : Frame own up fs (exec cfg fs c).2 := by
  cases c with
  | mkdir p =>
    simp only [exec]
    split; · exact .refl ..
    split; · exact .refl ..
    rename_i c hc
    split
    · exact .refl ..
    · exact .refl ..
    · split
      · exact .refl ..
      · rename_i hf
        split
        · refine ⟨?_, fun _ _ => rfl, fun _ _ => rfl⟩
          intro q hq
          rw [lookup_set]
          split
          · rename_i e; left; rw [e, lookup_nil]
          · split
            · rename_i e
              subst e
              exact Or.inr ⟨h.resolve_right hq, hf, rfl⟩
            · exact Or.inl rfl
        · exact .refl ..
  | create p =>
    simp only [exec]
    split; · exact .refl ..
    split; · exact .refl ..
    split
    · exact .refl ..
    · rename_i j hj
      refine ⟨fun _ _ => Or.inl rfl, ?_, fun _ _ => rfl⟩
      intro i hi
      rw [data_setData]
      split
      · rename_i e
        subst e
        have := (_hw.ino _ _ hj).1
        exact absurd (this ▸ h) hi
      · rfl
    · split
      · split
        · refine ⟨?_, ?_, ?_⟩
          · intro q hq
            left
            simp only [lookup_bump, lookup_setData, lookup_set]
            split
            · rename_i e; rw [e, lookup_nil]
            · split
              · rename_i e; subst e; exact absurd h hq
              · rfl
          · intro i hi
            simp only [data_bump, data_setData, data_set]
            split
            · rename_i e; subst e; exact absurd h hi
            · rfl
          · intro q hq
            simp only [gen_bump, gen_setData, gen_set]
            split
            · rename_i e; subst e; exact absurd h hq
            · rfl
        · exact .refl ..
      · exact .refl ..
  | writeAt i off b =>
    refine ⟨fun _ _ => Or.inl rfl, ?_, fun _ _ => rfl⟩
    intro j hj
    simp only [exec, data_setData]
    split
    · rename_i e; subst e; exact absurd h hj
    · rfl
  | unlink p =>
    simp only [exec]
    split
    · refine ⟨?_, fun _ _ => rfl, fun _ _ => rfl⟩
      intro q hq
      left
      rw [lookup_erase]
      split
      · rename_i e; rw [e, lookup_nil]
      · split
        · rename_i e; subst e; exact absurd h hq
        · rfl
    · exact .refl ..
  | rmdir p =>
    simp only [exec]
    split
    · split
      · refine ⟨?_, fun _ _ => rfl, fun _ _ => rfl⟩
        intro q hq
        left
        rw [lookup_erase]
        split
        · rename_i e; rw [e, lookup_nil]
        · split
          · rename_i e; subst e; exact absurd h hq
          · rfl
      · exact .refl ..
    · exact .refl ..
  | rmtree p =>
    simp only [exec]
    split
    · split
      · refine ⟨?_, fun _ _ => rfl, fun _ _ => rfl⟩
        intro q hq
        left
        rw [lookup_eraseTree]
        split
        · rename_i e; rw [e, lookup_nil]
        · split
          · rename_i e; exact absurd (h q (isPrefixOf_iff.mp e)) hq
          · rfl
      · exact .refl ..
    · exact .refl ..
  | readDir p => simp only [exec]; split <;> exact .refl ..
  | _ => exact .refl ..

theorem Safe.frame {α : Type} (cfg : Cfg) {own up : Path → Prop} {Q : α → Prop} {p : Prog α}
    (h : Safe (writeOk own up) Q p) {fs : FS} (hw : WF fs) : Frame own up fs (run cfg p fs).2 :=
  h.inv cfg (J := Frame own up fs) (fun _ _ hw' hj hc => hj.trans (exec_frame cfg hw' hc)) hw (.refl ..)

/-! ### programs confined to a region -/

/-- a path of the region, or a directory above one -/
def InOrAbove (Z : Path → Bool) (p : Path) : Prop := Z p = true ∨ ∃ z, Z z = true ∧ p <+: z

/-- calls that only concern the region -/
def regionOk (Z : Path → Bool) : Call → Prop
  | .stat p => InOrAbove Z p.comps
  | .mkdir p => InOrAbove Z p
  | .openRead p => InOrAbove Z p.comps
  | .create p => InOrAbove Z p.comps
  | .unlink p => InOrAbove Z p.comps
  | .fstat (.file i) => Z i.path = true
  | .readAll (.file i) => Z i.path = true
  | .readAt (.file i) .. => Z i.path = true
  | .writeAt i .. => Z i.path = true
  | .rmdir p => Z p.comps = true ∧ ∀ c, Z (p.comps ++ [c]) = true
  | .rmtree p => ∀ q, p <+: q → Z q = true
  | .readDir p => InOrAbove Z p.comps ∧ ∀ c, Z (p.comps ++ [c]) = true
  | _ => True

/-- everything above the region, outside it, is a directory -/
def RegionRooted (Z : Path → Bool) (fs : FS) : Prop :=
  ∀ q, Z q = false → (∃ z, Z z = true ∧ q <+: z) → fs.lookup q = some .dir

theorem Spec.Agree.refl (Z : Path → Bool) (fs : FS) : Agree Z fs fs := ⟨rfl, fun _ _ => rfl, fun _ _ => rfl⟩

theorem find_of_filter {l : List (Path × Node)} {Z : Path → Bool} {p : Path} (h : Z p = true) :
    (l.filter fun e => Z e.1).find? (fun e => e.1 == p) = l.find? (fun e => e.1 == p) := by
  induction l with
  | nil => rfl
  | cons e l ih =>
    by_cases he : e.1 = p
    · subst he; simp [h]
    · by_cases hz : Z e.1 = true
      · simp [hz, he, ih]
      · simp [hz, he, ih]

theorem Spec.Agree.lookup {Z : Path → Bool} {a b : FS} (h : Agree Z a b) {p : Path} (hp : Z p = true) :
    a.lookup p = b.lookup p := by
  simp only [FS.lookup]
  split
  · rfl
  · rw [← find_of_filter (l := a.nodes) hp, h.nodes, find_of_filter hp]

theorem Spec.Agree.lookupIA {Z : Path → Bool} {a b : FS} (h : Agree Z a b) (ha : RegionRooted Z a)
    (hb : RegionRooted Z b) {p : Path} (hp : InOrAbove Z p) : a.lookup p = b.lookup p := by
  rcases hp with hp | hp
  · exact h.lookup hp
  · cases hz : Z p with
    | true => exact h.lookup hz
    | false => rw [ha p hz hp, hb p hz hp]

theorem InOrAbove.up {Z : Path → Bool} {p q : Path} (h : InOrAbove Z p) (hq : q <+: p) :
    InOrAbove Z q := by
  rcases h with h | ⟨z, hz, h⟩
  · exact Or.inr ⟨p, h, hq⟩
  · exact Or.inr ⟨z, hz, hq.trans h⟩

theorem filter_ne_comm (l : List (Path × Node)) (Z : Path → Bool) (p : Path) :
    (l.filter fun e => e.1 != p).filter (fun e => Z e.1)
      = (l.filter fun e => Z e.1).filter (fun e => e.1 != p) := by
  rw [List.filter_filter, List.filter_filter]
  congr 1; funext e; rw [Bool.and_comm]

theorem filter_tree_comm (l : List (Path × Node)) (Z : Path → Bool) (p : Path) :
    (l.filter fun e => !p.isPrefixOf e.1).filter (fun e => Z e.1)
      = (l.filter fun e => Z e.1).filter (fun e => !p.isPrefixOf e.1) := by
  rw [List.filter_filter, List.filter_filter]
  congr 1; funext e; rw [Bool.and_comm]

theorem Spec.Agree.setNode {Z : Path → Bool} {a b : FS} (h : Agree Z a b) (p : Path) (n : Node) :
    Agree Z (a.set p n) (b.set p n) := by
  refine ⟨?_, h.data, h.gen⟩
  simp only [FS.set, List.filter_cons, filter_ne_comm, h.nodes]

theorem Spec.Agree.eraseNode {Z : Path → Bool} {a b : FS} (h : Agree Z a b) (p : Path) :
    Agree Z (a.erase p) (b.erase p) := by
  refine ⟨?_, h.data, h.gen⟩
  simp only [FS.erase, filter_ne_comm, h.nodes]

theorem Spec.Agree.eraseTree {Z : Path → Bool} {a b : FS} (h : Agree Z a b) (p : Path) :
    Agree Z (a.eraseTree p) (b.eraseTree p) := by
  refine ⟨?_, h.data, h.gen⟩
  simp only [FS.eraseTree, filter_tree_comm, h.nodes]

theorem Spec.Agree.setData {Z : Path → Bool} {a b : FS} (h : Agree Z a b) (i : Ino) (x : Bytes) :
    Agree Z (a.setData i x) (b.setData i x) := by
  refine ⟨h.nodes, ?_, h.gen⟩
  intro j hj
  simp only [data_setData, h.data j hj]

theorem Spec.Agree.bump {Z : Path → Bool} {a b : FS} (h : Agree Z a b) (p : Path) :
    Agree Z (a.bump p) (b.bump p) := by
  refine ⟨h.nodes, h.data, ?_⟩
  intro q hq
  simp only [gen_bump, h.gen q hq]

theorem children_filter (fs : FS) (Z : Path → Bool) (p : Path) (h : ∀ c, Z (p ++ [c]) = true) :
    fs.children p = (fs.nodes.filter fun e => Z e.1).filterMap (childOf p) := by
  simp only [FS.children]
  generalize fs.nodes = l
  induction l with
  | nil => rfl
  | cons e l ih =>
    by_cases hz : Z e.1 = true
    · simp only [List.filter_cons, hz, if_true, List.filterMap_cons, ih]
    · have : childOf p e = none := by
        simp only [childOf]
        cases hl : e.1.getLast? with
        | none => rfl
        | some c =>
          by_cases hd : e.1.dropLast = p
          · have := getLast?_some hl
            rw [hd] at this
            rw [this] at hz
            exact absurd (h c) hz
          · simp [hd]
      simp only [List.filter_cons, hz, List.filterMap_cons, ih, this]
      rfl

theorem Spec.Agree.children {Z : Path → Bool} {a b : FS} (h : Agree Z a b) {p : Path}
    (hp : ∀ c, Z (p ++ [c]) = true) : a.children p = b.children p := by
  rw [children_filter a Z p hp, children_filter b Z p hp, h.nodes]

theorem Spec.Agree.at {Z : Path → Bool} {a b : FS} (h : Agree Z a b) (ha : RegionRooted Z a)
    (hb : RegionRooted Z b) {p : OsPath} (hp : InOrAbove Z p.comps) : a.at p = b.at p := by
  simp only [FS.at, h.lookupIA ha hb hp]

/-- a file found at a path in or above the region lies in the region -/
theorem file_in_region {Z : Path → Bool} {a : FS} (hw : WF a) (ha : RegionRooted Z a) {p : Path}
    {i : Ino} (hp : InOrAbove Z p) (hf : a.lookup p = some (.file i)) : Z i.path = true := by
  rw [(hw.ino _ _ hf).1]
  rcases hp with hp | hp
  · exact hp
  · cases hz : Z p with
    | true => rfl
    | false => rw [ha p hz hp] at hf; cases hf

/-- calls confined to the region answer the same on trees that agree there, and keep them so -/
theorem exec_agree (cfg : Cfg) {Z : Path → Bool} {a b : FS} (hw : WF a) (h : Agree Z a b)
    (ha : RegionRooted Z a) (hb : RegionRooted Z b) {c : Call} (hc : regionOk Z c) :
    (exec cfg a c).1 = (exec cfg b c).1 ∧ Agree Z (exec cfg a c).2 (exec cfg b c).2 := by
  cases c with
  | stat p =>
    have e := h.at ha hb (p := p) hc
    refine ⟨?_, h⟩
    simp only [exec, ← e]
    split
    · rfl
    · rename_i i hi
      rw [h.data i (file_in_region hw ha hc (at_file hi).1)]
    · rfl
  | openRead p =>
    refine ⟨?_, h⟩
    simp only [exec, h.at ha hb (p := p) hc]
  | fstat x =>
    refine ⟨?_, h⟩
    cases x with
    | dir => rfl
    | file i => simp only [exec, h.data i hc]
  | readAll x =>
    refine ⟨?_, h⟩
    cases x with
    | dir => rfl
    | file i => simp only [exec, h.data i hc]
  | readAt x off n want =>
    refine ⟨?_, h⟩
    cases x with
    | dir => rfl
    | file i => simp only [exec, h.data i hc]
  | mkdir p =>
    have e1 := h.lookupIA ha hb hc
    have e2 := h.lookupIA ha hb (InOrAbove.up hc (List.dropLast_prefix p))
    simp only [exec, ← e1, ← e2]
    split; · exact ⟨rfl, h⟩
    split; · exact ⟨rfl, h⟩
    split
    · exact ⟨rfl, h⟩
    · exact ⟨rfl, h⟩
    · split
      · exact ⟨rfl, h⟩
      · split
        · exact ⟨rfl, h.setNode _ _⟩
        · exact ⟨rfl, h⟩
  | create p =>
    have e1 := h.lookupIA ha hb hc
    have e2 := h.lookupIA ha hb (InOrAbove.up hc (List.dropLast_prefix p.comps))
    simp only [exec, ← e1, ← e2]
    split; · exact ⟨rfl, h⟩
    split; · exact ⟨rfl, h⟩
    split
    · exact ⟨rfl, h⟩
    · exact ⟨rfl, h.setData _ _⟩
    · rename_i hn
      split
      · split
        · have hz : Z p.comps = true := by
            cases hz : Z p.comps with
            | true => rfl
            | false =>
              rcases hc with hc | hc
              · rw [hz] at hc; exact hc
              · rw [ha _ hz hc] at hn; cases hn
          rw [h.gen _ hz]
          exact ⟨rfl, ((h.setNode _ _).setData _ _).bump _⟩
        · exact ⟨rfl, h⟩
      · exact ⟨rfl, h⟩
  | writeAt i off x =>
    refine ⟨rfl, ?_⟩
    simp only [exec, h.data i hc]
    exact h.setData _ _
  | unlink p =>
    simp only [exec, ← h.at ha hb (p := p) hc]
    split
    · exact ⟨rfl, h.eraseNode _⟩
    · exact ⟨rfl, h⟩
  | rmdir p =>
    simp only [exec, ← h.lookup hc.1, ← h.children hc.2]
    split
    · split
      · exact ⟨rfl, h.eraseNode _⟩
      · exact ⟨rfl, h⟩
    · exact ⟨rfl, h⟩
  | rmtree p =>
    simp only [exec, ← h.lookup (hc p (List.prefix_refl _))]
    split
    · split
      · exact ⟨rfl, h.eraseTree _⟩
      · exact ⟨rfl, h⟩
    · exact ⟨rfl, h⟩
  | readDir p =>
    simp only [exec, ← h.lookupIA ha hb hc.1, ← h.children hc.2]
    split <;> exact ⟨rfl, h⟩

/-- calls confined to the region leave everything outside alone -/
theorem exec_outside (cfg : Cfg) {Z : Path → Bool} {a : FS} (hw : WF a) (ha : RegionRooted Z a)
    {c : Call} (hc : regionOk Z c) :
    Agree (fun q => !Z q) a (exec cfg a c).2 := by
  have hset : ∀ (p : Path) (n : Node), Z p = true →
      Agree (fun q => !Z q) a (a.set p n) := by
    intro p n hp
    refine ⟨?_, fun _ _ => rfl, fun _ _ => rfl⟩
    simp only [FS.set, List.filter_cons, hp, Bool.not_true, Bool.false_eq_true, if_false]
    rw [filter_ne_comm a.nodes (fun q => !Z q) p]
    symm; apply List.filter_eq_self.mpr
    intro e he
    have := (List.mem_filter.mp he).2
    simp only [Bool.not_eq_true'] at this
    simp only [bne_iff_ne, ne_eq]
    intro e1; rw [e1, hp] at this; cases this
  have herase : ∀ (p : Path), Z p = true → Agree (fun q => !Z q) a (a.erase p) := by
    intro p hp
    refine ⟨?_, fun _ _ => rfl, fun _ _ => rfl⟩
    simp only [FS.erase]
    rw [filter_ne_comm a.nodes (fun q => !Z q) p]
    symm; apply List.filter_eq_self.mpr
    intro e he
    have := (List.mem_filter.mp he).2
    simp only [Bool.not_eq_true'] at this
    simp only [bne_iff_ne, ne_eq]
    intro e1; rw [e1, hp] at this; cases this
  have hin : ∀ p, InOrAbove Z p → a.lookup p ≠ some .dir → Z p = true := by
    intro p hp hn
    cases hz : Z p with
    | true => rfl
    | false =>
      rcases hp with hp | hp
      · rw [hz] at hp; exact hp
      · exact absurd (ha p hz hp) hn
  cases c with
  | stat p => exact .refl ..
  | openRead p => exact .refl ..
  | fstat x => exact .refl ..
  | readAll x => exact .refl ..
  | readAt x => exact .refl ..
  | mkdir p =>
    simp only [exec]
    split; · exact .refl ..
    split; · exact .refl ..
    split
    · exact .refl ..
    · exact .refl ..
    · split
      · exact .refl ..
      · rename_i hn
        split
        · exact hset _ _ (hin p hc (by rw [hn]; simp))
        · exact .refl ..
  | create p =>
    simp only [exec]
    split; · exact .refl ..
    split; · exact .refl ..
    split
    · exact .refl ..
    · rename_i i hi
      have hz := file_in_region hw ha hc hi
      refine ⟨rfl, ?_, fun _ _ => rfl⟩
      intro j hj
      rw [data_setData]
      split
      · rename_i e; rw [e, hz] at hj; cases hj
      · rfl
    · rename_i hn
      split
      · split
        · have hz := hin p.comps hc (by rw [hn]; simp)
          refine ⟨(hset p.comps _ hz).nodes, ?_, ?_⟩
          · intro j hj
            simp only [data_bump, data_setData, data_set]
            split
            · rename_i e; rw [e, hz] at hj; cases hj
            · rfl
          · intro q hq
            simp only [gen_bump, gen_setData, gen_set]
            split
            · rename_i e; rw [e, hz] at hq; cases hq
            · rfl
        · exact .refl ..
      · exact .refl ..
  | writeAt i off x =>
    refine ⟨rfl, ?_, fun _ _ => rfl⟩
    intro j hj
    simp only [exec, data_setData]
    split
    · rename_i e; subst e
      have : Z j.path = true := hc
      rw [this] at hj; cases hj
    · rfl
  | unlink p =>
    simp only [exec]
    split
    · rename_i i hi
      exact herase _ (hin p.comps hc (by rw [(at_file hi).1]; simp))
    · exact .refl ..
  | rmdir p =>
    simp only [exec]
    split
    · split
      · exact herase _ hc.1
      · exact .refl ..
    · exact .refl ..
  | rmtree p =>
    simp only [exec]
    split
    · split
      · refine ⟨?_, fun _ _ => rfl, fun _ _ => rfl⟩
        simp only [FS.eraseTree]
        rw [filter_tree_comm a.nodes (fun q => !Z q) p]
        symm; apply List.filter_eq_self.mpr
        intro e he
        have := (List.mem_filter.mp he).2
        simp only [Bool.not_eq_true'] at this ⊢
        cases hp : p.isPrefixOf e.1 with
        | false => rfl
        | true =>
          have hzz := hc _ (isPrefixOf_iff.mp hp)
          rw [hzz] at this; cases this
      · exact .refl ..
    · exact .refl ..
  | readDir p => simp only [exec]; split <;> exact .refl ..

theorem Spec.Agree.trans {Z : Path → Bool} {a b c : FS} (h1 : Agree Z a b) (h2 : Agree Z b c) :
    Agree Z a c :=
  ⟨h1.nodes.trans h2.nodes, fun i hi => (h1.data i hi).trans (h2.data i hi),
    fun q hq => (h1.gen q hq).trans (h2.gen q hq)⟩

theorem RegionRooted.agree {Z : Path → Bool} {a b : FS} (ha : RegionRooted Z a)
    (h : Agree (fun q => !Z q) a b) : RegionRooted Z b := by
  intro q hq hz
  rw [← h.lookup (by simp [hq])]
  exact ha q hq hz

/-- A program confined to a region neither changes nor reads anything outside it. -/
theorem Safe.region {α : Type} (cfg : Cfg) {Z : Path → Bool} {Q : α → Prop} {p : Prog α}
    (h : Safe (regionOk Z) Q p) {a : FS} (hw : WF a) (ha : RegionRooted Z a) :
    Agree (fun q => !Z q) a (run cfg p a).2 ∧
    ∀ b, WF b → RegionRooted Z b → Agree Z a b →
      (run cfg p a).1 = (run cfg p b).1 ∧ Agree Z (run cfg p a).2 (run cfg p b).2 := by
  induction p generalizing a with
  | sys c k ih =>
    have h1 := exec_outside cfg hw ha h.1
    have ha' := ha.agree h1
    have hw' := exec_wf cfg hw c
    have := ih _ (h.2 _ (exec_respOk cfg hw c)) hw' ha'
    refine ⟨h1.trans this.1, ?_⟩
    intro b hwb hb hab
    have h2 := exec_agree cfg hw hab ha hb h.1
    have h1b := exec_outside cfg hwb hb h.1
    have := this.2 (exec cfg b c).2 (exec_wf cfg hwb c) (hb.agree h1b) h2.2
    simp only [run]
    rw [← h2.1]
    exact this
  | _ => exact ⟨.refl .., fun b _ _ hab => ⟨rfl, hab⟩⟩

end S3
