import Verif.Spec.Moved
import Verif.Lemmas.WebLife
import Verif.Lemmas.Resolve
import Verif.Lemmas.Place
/-! Two file trees that agree below two directories, and programs that make the same calls below them. -/
namespace S3
open Spec

/-- the entries at and below `r`, with relative names -/
def strip (r : Path) (l : List (Path × Node)) : List (Path × Node) :=
  l.filterMap fun e => if r.isPrefixOf e.1 then some (e.1.drop r.length, e.2) else none

theorem isPrefixOf_append (r q : Path) : r.isPrefixOf (r ++ q) = true := by
  rw [List.isPrefixOf_iff_prefix]
  exact List.prefix_append ..

theorem isPrefixOf_elim {r p : Path} (h : r.isPrefixOf p = true) : p = r ++ p.drop r.length := by
  obtain ⟨t, rfl⟩ := List.isPrefixOf_iff_prefix.mp h
  simp

theorem strip_cons_in (r q : Path) (n : Node) (l : List (Path × Node)) : strip r ((r ++ q, n) :: l) = (q, n) :: strip r l := by
  simp [strip, isPrefixOf_append]

theorem strip_cons_out {r p : Path} (h : r.isPrefixOf p = false) (n : Node) (l : List (Path × Node)) : strip r ((p, n) :: l) = strip r l := by
  rw [strip, List.filterMap_cons_none (by simp only [h]; rfl)]
  rfl

theorem strip_filter {r : Path} {P : Path × Node → Bool} {Q : Path × Node → Bool} (h : ∀ q n, P (r ++ q, n) = Q (q, n)) (l : List (Path × Node)) :
    strip r (l.filter P) = (strip r l).filter Q := by
  induction l with
  | nil => rfl
  | cons e l ih =>
    obtain ⟨p, n⟩ := e
    cases hp : r.isPrefixOf p with
    | false =>
      rw [strip_cons_out hp]
      by_cases hP : P (p, n) = true
      · rw [List.filter_cons_of_pos hP, strip_cons_out hp, ih]
      · rw [List.filter_cons_of_neg hP, ih]
    | true =>
      rw [isPrefixOf_elim hp, strip_cons_in]
      by_cases hP : P (r ++ p.drop r.length, n) = true
      · rw [List.filter_cons_of_pos hP, strip_cons_in, ih, List.filter_cons_of_pos (by rw [← h]; exact hP)]
      · rw [List.filter_cons_of_neg hP, ih, List.filter_cons_of_neg (by rw [← h]; exact hP)]

theorem strip_find (r q : Path) (l : List (Path × Node)) :
    (l.find? fun e => e.1 == r ++ q).map (·.2) = ((strip r l).find? fun e => e.1 == q).map (·.2) := by
  induction l with
  | nil => rfl
  | cons e l ih =>
    obtain ⟨p, n⟩ := e
    cases hp : r.isPrefixOf p with
    | false =>
      rw [strip_cons_out hp, List.find?_cons_of_neg, ih]
      simp only [beq_iff_eq]
      rintro rfl
      rw [isPrefixOf_append] at hp
      cases hp
    | true =>
      rw [isPrefixOf_elim hp, strip_cons_in]
      by_cases hq : p.drop r.length = q
      · rw [List.find?_cons_of_pos (by simp [hq]), List.find?_cons_of_pos (by simp [hq])]
        rfl
      · rw [List.find?_cons_of_neg (by simpa using hq), List.find?_cons_of_neg (by simpa using hq), ih]

theorem lookup_strip {r : Path} (hr : r ≠ []) (fs : FS) (q : Path) :
    fs.lookup (r ++ q) = ((strip r fs.nodes).find? fun e => e.1 == q).map (·.2) := by
  rw [FS.lookup, if_neg (by simp [hr]), strip_find]

theorem childOf_append {r : Path} (hr : r ≠ []) (q s : Path) (n : Node) : childOf (r ++ q) (r ++ s, n) = childOf q (s, n) := by
  rcases List.eq_nil_or_concat s with rfl | ⟨t, c, rfl⟩
  · simp only [childOf, List.append_nil, List.getLast?_nil]
    cases h : r.getLast? with
    | none => rfl
    | some c =>
      simp only [ite_eq_right_iff, reduceCtorEq, imp_false]
      intro h
      have := congrArg List.length h
      simp at this
      have : r.length ≠ 0 := by simpa using hr
      omega
  · simp [childOf, ← List.append_assoc]

theorem childOf_out {r q p : Path} (h : r.isPrefixOf p = false) (n : Node) : childOf (r ++ q) (p, n) = none := by
  rw [childOf]
  rcases List.eq_nil_or_concat p with rfl | ⟨t, c, rfl⟩
  · rfl
  · simp only [List.getLast?_append, List.getLast?_singleton, Option.some_or, List.dropLast_concat, List.concat_eq_append]
    rw [if_neg]
    rintro rfl
    simp only [List.concat_eq_append, List.append_assoc, isPrefixOf_append] at h
    cases h

theorem children_strip {r : Path} (hr : r ≠ []) (fs : FS) (q : Path) :
    fs.children (r ++ q) = (strip r fs.nodes).filterMap (childOf q) := by
  rw [FS.children]
  induction fs.nodes with
  | nil => rfl
  | cons e l ih =>
    obtain ⟨p, n⟩ := e
    cases hp : r.isPrefixOf p with
    | false => rw [strip_cons_out hp, List.filterMap_cons_none (childOf_out hp n), ih]
    | true =>
      rw [isPrefixOf_elim hp, strip_cons_in, List.filterMap_cons, List.filterMap_cons, ih, childOf_append hr]

/-- a correspondence of the files of two trees -/
structure World where
  r1 : Path
  r2 : Path
  name : Ino → Ino
  live : Ino → Prop
  inj : ∀ i j, live i → live j → name i = name j → i = j
  ok1 : r1 ≠ [] ∧ ∀ c ∈ r1, nameOk c = true
  ok2 : r2 ≠ [] ∧ ∀ c ∈ r2, nameOk c = true

/-- the corresponding node -/
def World.node (w : World) : Node → Node
  | .dir => .dir
  | .file i => .file (w.name i)

/-- the corresponding entry -/
def World.entry (w : World) (e : Path × Node) : Path × Node := (e.1, w.node e.2)

/-- the two trees agree below the two directories, and the directories above are there -/
structure Agree (w : World) (a b : FS) : Prop where
  view : (strip w.r1 a.nodes).map w.entry = strip w.r2 b.nodes
  alive : ∀ q i, (q, Node.file i) ∈ strip w.r1 a.nodes → w.live i
  data : ∀ i, w.live i → a.data i = b.data (w.name i)
  fresh : ∀ q k, w.live ⟨w.r1 ++ q, a.gen (w.r1 ++ q) + k⟩ ∧ w.name ⟨w.r1 ++ q, a.gen (w.r1 ++ q) + k⟩ = ⟨w.r2 ++ q, b.gen (w.r2 ++ q) + k⟩
  up1 : a.lookup w.r1.dropLast = some .dir
  up2 : b.lookup w.r2.dropLast = some .dir

variable {w : World} {a b : FS}

theorem find_entry (l : List (Path × Node)) (q : Path) :
    ((l.map w.entry).find? fun e => e.1 == q).map (·.2) = ((l.find? fun e => e.1 == q).map (·.2)).map w.node := by
  induction l with
  | nil => rfl
  | cons e l ih =>
    by_cases h : e.1 = q
    · rw [List.map_cons, List.find?_cons_of_pos (by simpa [World.entry] using h), List.find?_cons_of_pos (by simpa using h)]
      rfl
    · rw [List.map_cons, List.find?_cons_of_neg (by simpa [World.entry] using h), List.find?_cons_of_neg (by simpa using h), ih]

theorem Agree.lookup (h : Agree w a b) (q : Path) : b.lookup (w.r2 ++ q) = (a.lookup (w.r1 ++ q)).map w.node := by
  rw [lookup_strip w.ok1.1, lookup_strip w.ok2.1, ← h.view, find_entry]

theorem Agree.live_at (h : Agree w a b) {q : Path} {i : Ino} (hi : a.lookup (w.r1 ++ q) = some (.file i)) : w.live i := by
  rw [lookup_strip w.ok1.1] at hi
  obtain ⟨e, he, h2⟩ := Option.map_eq_some_iff.mp hi
  have h1 := List.find?_some he
  have hm := List.mem_of_find?_eq_some he
  obtain ⟨e1, e2⟩ := e
  subst h2
  exact h.alive e1 i hm

theorem childOf_entry (q : Path) (e : Path × Node) : childOf q (w.entry e) = (childOf q e).map fun c => (c.1, w.node c.2) := by
  simp only [childOf, World.entry]
  cases e.1.getLast? with
  | none => rfl
  | some c =>
    by_cases hq : e.1.dropLast = q
    · simp [hq]
    · simp [hq]

theorem Agree.children (h : Agree w a b) (q : Path) :
    b.children (w.r2 ++ q) = (a.children (w.r1 ++ q)).map fun c => (c.1, w.node c.2) := by
  rw [children_strip w.ok1.1, children_strip w.ok2.1, ← h.view, List.filterMap_map, List.map_filterMap]
  congr 1
  funext e
  exact childOf_entry q e

theorem noNul_append (r q : Path) (h : ∀ c ∈ r, nameOk c = true) : noNul (r ++ q) = noNul q := by
  have : noNul r = true := by
    simp only [noNul, List.all_eq_true]
    intro c hc
    have := h c hc
    simp only [nameOk, Bool.and_eq_true] at this
    exact this.1.1.1.2
  simp only [noNul, List.all_append] at this ⊢
  rw [this, Bool.true_and]

theorem up_ne {r q : Path} (hr : r ≠ []) : r ++ q ≠ r.dropLast := by
  intro h
  have := congrArg List.length h
  simp at this
  have : r.length ≠ 0 := by simpa using hr
  omega

theorem append_beq (r s q : Path) : (r ++ s == r ++ q) = (s == q) := by
  rw [Bool.eq_iff_iff]
  simp

theorem up_set {r : Path} (hr : r ≠ []) {fs : FS} (h : fs.lookup r.dropLast = some .dir) (q : Path) (n : Node) :
    (fs.set (r ++ q) n).lookup r.dropLast = some .dir := by
  rw [lookup_set]
  split
  · rfl
  · rw [if_neg (fun e => up_ne hr e.symm)]
    exact h

theorem up_erase {r : Path} (hr : r ≠ []) {fs : FS} (h : fs.lookup r.dropLast = some .dir) (q : Path) :
    (fs.erase (r ++ q)).lookup r.dropLast = some .dir := by
  rw [lookup_erase]
  split
  · rfl
  · rw [if_neg (fun e => up_ne hr e.symm)]
    exact h

theorem up_eraseTree {r : Path} (hr : r ≠ []) {fs : FS} (h : fs.lookup r.dropLast = some .dir) (q : Path) :
    (fs.eraseTree (r ++ q)).lookup r.dropLast = some .dir := by
  rw [lookup_eraseTree]
  split
  · rfl
  · rw [if_neg]
    · exact h
    · intro hp
      have := (List.isPrefixOf_iff_prefix.mp hp).length_le
      simp at this
      have : r.length ≠ 0 := by simpa using hr
      omega

theorem Agree.set (h : Agree w a b) (q : Path) (n : Node) (hn : ∀ i, n = .file i → w.live i) :
    Agree w (a.set (w.r1 ++ q) n) (b.set (w.r2 ++ q) (w.node n)) := by
  have e (r : Path) (fs : FS) (n : Node) : strip r (fs.set (r ++ q) n).nodes = (q, n) :: (strip r fs.nodes).filter (fun e => e.1 != q) := by
    rw [FS.set, strip_cons_in, strip_filter (Q := fun e => e.1 != q)]
    intro s m
    simp only [bne, append_beq]
  refine ⟨?_, ?_, h.data, h.fresh, up_set w.ok1.1 h.up1 .., up_set w.ok2.1 h.up2 ..⟩
  · rw [e, e, List.map_cons, ← h.view, List.filter_map]
    rfl
  · intro s i hi
    rw [e] at hi
    rcases List.mem_cons.mp hi with hi | hi
    · exact hn i (Prod.mk.inj hi).2.symm
    · exact h.alive s i (List.mem_filter.mp hi).1

theorem Agree.erase (h : Agree w a b) (q : Path) : Agree w (a.erase (w.r1 ++ q)) (b.erase (w.r2 ++ q)) := by
  have e (r : Path) (fs : FS) : strip r (fs.erase (r ++ q)).nodes = (strip r fs.nodes).filter (fun e => e.1 != q) := by
    rw [FS.erase, strip_filter (Q := fun e => e.1 != q)]
    intro s m
    simp only [bne, append_beq]
  refine ⟨?_, ?_, h.data, h.fresh, up_erase w.ok1.1 h.up1 .., up_erase w.ok2.1 h.up2 ..⟩
  · rw [e, e, ← h.view, List.filter_map]
    rfl
  · intro s i hi
    rw [e] at hi
    exact h.alive s i (List.mem_filter.mp hi).1

theorem isPrefixOf_cancel (r q s : Path) : (r ++ q).isPrefixOf (r ++ s) = q.isPrefixOf s := by
  rw [Bool.eq_iff_iff, List.isPrefixOf_iff_prefix, List.isPrefixOf_iff_prefix, List.prefix_append_right_inj]

theorem Agree.eraseTree (h : Agree w a b) (q : Path) : Agree w (a.eraseTree (w.r1 ++ q)) (b.eraseTree (w.r2 ++ q)) := by
  have e (r : Path) (fs : FS) : strip r (fs.eraseTree (r ++ q)).nodes = (strip r fs.nodes).filter (fun e => !q.isPrefixOf e.1) := by
    rw [FS.eraseTree, strip_filter (Q := fun e => !q.isPrefixOf e.1)]
    intro s m
    simp only [isPrefixOf_cancel]
  refine ⟨?_, ?_, h.data, h.fresh, up_eraseTree w.ok1.1 h.up1 .., up_eraseTree w.ok2.1 h.up2 ..⟩
  · rw [e, e, ← h.view, List.filter_map]
    rfl
  · intro s i hi
    rw [e] at hi
    exact h.alive s i (List.mem_filter.mp hi).1

theorem Agree.setData (h : Agree w a b) {i : Ino} (hi : w.live i) (c : Bytes) : Agree w (a.setData i c) (b.setData (w.name i) c) := by
  refine ⟨h.view, h.alive, fun j hj => ?_, h.fresh, h.up1, h.up2⟩
  simp only [FS.setData]
  by_cases hji : j = i
  · subst hji
    simp
  · rw [if_neg hji, if_neg (fun e => hji (w.inj j i hj hi e))]
    exact h.data j hj

theorem Agree.bump (h : Agree w a b) (q : Path) : Agree w (a.bump (w.r1 ++ q)) (b.bump (w.r2 ++ q)) := by
  refine ⟨h.view, h.alive, h.data, fun s k => ?_, h.up1, h.up2⟩
  simp only [FS.bump, List.append_cancel_left_eq]
  by_cases hs : s = q
  · subst hs
    simp only [if_true]
    have := h.fresh s (1 + k)
    simpa only [Nat.add_assoc] using this
  · simpa only [if_neg hs] using h.fresh s k

/-- corresponding handles -/
def HandleRel (w : World) : Handle → Handle → Prop
  | .dir, .dir => True
  | .file i, .file j => w.live i ∧ j = w.name i
  | _, _ => False

/-- corresponding results that may be errors -/
def OptRel {α β : Type} (R : α → β → Prop) : Option α → Option β → Prop
  | none, none => True
  | some x, some y => R x y
  | _, _ => False

/-- programs that make corresponding calls, and come to corresponding results -/
inductive Sim (w : World) {α β : Type} (R : α → β → Prop) : Prog α → Prog β → Prop where
  | ret {x y} : R x y → Sim w R (.ret x) (.ret y)
  | fail (e) : Sim w R (.fail e) (.fail e)
  | panic : Sim w R .panic .panic
  | diverge : Sim w R .diverge .diverge
  | stat (q s) {k k'} : (∀ x, Sim w R (k x) (k' x)) → Sim w R (.sys (.stat ⟨w.r1 ++ q, s⟩) k) (.sys (.stat ⟨w.r2 ++ q, s⟩) k')
  | mkdir (q) {k k'} : (∀ x, (q = [] → x ≠ .notFound) → Sim w R (k x) (k' x)) →
      Sim w R (.sys (.mkdir (w.r1 ++ q)) k) (.sys (.mkdir (w.r2 ++ q)) k')
  | openRead (q s) {k k'} : (∀ x y, OptRel (HandleRel w) x y → Sim w R (k x) (k' y)) →
      Sim w R (.sys (.openRead ⟨w.r1 ++ q, s⟩) k) (.sys (.openRead ⟨w.r2 ++ q, s⟩) k')
  | fstat {h h'} {k k'} : HandleRel w h h' → (∀ x, Sim w R (k x) (k' x)) → Sim w R (.sys (.fstat h) k) (.sys (.fstat h') k')
  | readAll {h h'} {k k'} : HandleRel w h h' → (∀ x, Sim w R (k x) (k' x)) → Sim w R (.sys (.readAll h) k) (.sys (.readAll h') k')
  | readAt {h h'} (off n want) {k k'} : HandleRel w h h' → (∀ x, Sim w R (k x) (k' x)) →
      Sim w R (.sys (.readAt h off n want) k) (.sys (.readAt h' off n want) k')
  | create (q s) {k k'} : (∀ x y, OptRel (fun i j => w.live i ∧ j = w.name i) x y → Sim w R (k x) (k' y)) →
      Sim w R (.sys (.create ⟨w.r1 ++ q, s⟩) k) (.sys (.create ⟨w.r2 ++ q, s⟩) k')
  | writeAt {i} (off c) {k k'} : w.live i → (∀ x, Sim w R (k x) (k' x)) →
      Sim w R (.sys (.writeAt i off c) k) (.sys (.writeAt (w.name i) off c) k')
  | unlink (q s) {k k'} : (∀ x, Sim w R (k x) (k' x)) → Sim w R (.sys (.unlink ⟨w.r1 ++ q, s⟩) k) (.sys (.unlink ⟨w.r2 ++ q, s⟩) k')
  | rmdir (q s) {k k'} : (∀ x, Sim w R (k x) (k' x)) → Sim w R (.sys (.rmdir ⟨w.r1 ++ q, s⟩) k) (.sys (.rmdir ⟨w.r2 ++ q, s⟩) k')
  | rmtree (q) {k k'} : (∀ x, Sim w R (k x) (k' x)) → Sim w R (.sys (.rmtree (w.r1 ++ q)) k) (.sys (.rmtree (w.r2 ++ q)) k')
  | readDir (q s) {k k'} : (∀ x, Sim w R (k x) (k' x)) → Sim w R (.sys (.readDir ⟨w.r1 ++ q, s⟩) k) (.sys (.readDir ⟨w.r2 ++ q, s⟩) k')

variable {α β γ δ : Type} {R : α → β → Prop} {S : γ → δ → Prop}

theorem Sim.bind {p : Prog α} {p' : Prog β} (h : Sim w R p p') {f : α → Prog γ} {f' : β → Prog δ}
    (hf : ∀ x y, R x y → Sim w S (f x) (f' y)) : Sim w S (p.bind f) (p'.bind f') := by
  induction h with
  | ret h => exact hf _ _ h
  | fail e => exact .fail e
  | panic => exact .panic
  | diverge => exact .diverge
  | stat q s _ ih => exact .stat q s ih
  | mkdir q _ ih => exact .mkdir q ih
  | openRead q s _ ih => exact .openRead q s ih
  | fstat hh _ ih => exact .fstat hh ih
  | readAll hh _ ih => exact .readAll hh ih
  | readAt o n x hh _ ih => exact .readAt o n x hh ih
  | create q s _ ih => exact .create q s ih
  | writeAt o c hi _ ih => exact .writeAt o c hi ih
  | unlink q s _ ih => exact .unlink q s ih
  | rmdir q s _ ih => exact .rmdir q s ih
  | rmtree q _ ih => exact .rmtree q ih
  | readDir q s _ ih => exact .readDir q s ih

theorem Sim.catch {p : Prog α} {p' : Prog β} (h : Sim w R p p') {f : S3ErrorCode → Prog α} {f' : S3ErrorCode → Prog β}
    (hf : ∀ e, Sim w R (f e) (f' e)) : Sim w R (p.catch f) (p'.catch f') := by
  induction h with
  | ret h => exact .ret h
  | fail e => exact hf e
  | panic => exact .panic
  | diverge => exact .diverge
  | stat q s _ ih => exact .stat q s ih
  | mkdir q _ ih => exact .mkdir q ih
  | openRead q s _ ih => exact .openRead q s ih
  | fstat hh _ ih => exact .fstat hh ih
  | readAll hh _ ih => exact .readAll hh ih
  | readAt o n x hh _ ih => exact .readAt o n x hh ih
  | create q s _ ih => exact .create q s ih
  | writeAt o c hi _ ih => exact .writeAt o c hi ih
  | unlink q s _ ih => exact .unlink q s ih
  | rmdir q s _ ih => exact .rmdir q s ih
  | rmtree q _ ih => exact .rmtree q ih
  | readDir q s _ ih => exact .readDir q s ih

theorem Sim.outcome {p p' : Prog α} (h : Sim w (· = ·) p p') : p.outcome = p'.outcome := by
  cases h <;> first | rfl | (rename_i h; cases h; rfl)

theorem Agree.at (h : Agree w a b) (q : Path) (s : Bool) : b.at ⟨w.r2 ++ q, s⟩ = (a.at ⟨w.r1 ++ q, s⟩).map w.node := by
  simp only [FS.at, h.lookup]
  cases a.lookup (w.r1 ++ q) with
  | none => rfl
  | some n =>
    cases n with
    | dir => rfl
    | file i => cases s <;> rfl

theorem Agree.live_at' (h : Agree w a b) {q : Path} {s : Bool} {i : Ino} (hi : a.at ⟨w.r1 ++ q, s⟩ = some (.file i)) : w.live i := by
  simp only [FS.at] at hi
  cases hl : a.lookup (w.r1 ++ q) with
  | none => rw [hl] at hi; cases hi
  | some n =>
    rw [hl] at hi
    cases n with
    | dir => cases hi
    | file j =>
      cases s with
      | true => cases hi
      | false =>
        cases hi
        exact h.live_at hl

theorem getLast_append {r : Path} (q : Path) (hq : q ≠ []) : (r ++ q).getLast? = q.getLast? := by
  rcases List.eq_nil_or_concat q with rfl | ⟨t, c, rfl⟩
  · exact absurd rfl hq
  · simp [← List.append_assoc]

theorem dropLast_append' {r : Path} (q : Path) (hq : q ≠ []) : (r ++ q).dropLast = r ++ q.dropLast := by
  rcases List.eq_nil_or_concat q with rfl | ⟨t, c, rfl⟩
  · exact absurd rfl hq
  · simp [← List.append_assoc]

/-- the directory above, in both trees -/
theorem Agree.above (h : Agree w a b) (q : Path) :
    b.lookup (w.r2 ++ q).dropLast = (a.lookup (w.r1 ++ q).dropLast).map w.node ∧ (q = [] → a.lookup (w.r1 ++ q).dropLast = some .dir) := by
  by_cases hq : q = []
  · subst hq
    simp only [List.append_nil, h.up1, h.up2]
    exact ⟨rfl, fun _ => trivial⟩
  · rw [dropLast_append' q hq, dropLast_append' q hq, h.lookup]
    exact ⟨rfl, fun e => absurd e hq⟩

/-- the last name, in both trees -/
theorem last_names (w : World) (q : Path) :
    ∃ c d, (w.r1 ++ q).getLast? = some c ∧ (w.r2 ++ q).getLast? = some d ∧ nameOk c = nameOk d := by
  by_cases hq : q = []
  · subst hq
    simp only [List.append_nil]
    refine ⟨_, _, List.getLast?_eq_some_getLast w.ok1.1, List.getLast?_eq_some_getLast w.ok2.1, ?_⟩
    rw [w.ok1.2 _ (List.getLast_mem ..), w.ok2.2 _ (List.getLast_mem ..)]
  · rw [getLast_append q hq, getLast_append q hq]
    exact ⟨_, _, List.getLast?_eq_some_getLast hq, List.getLast?_eq_some_getLast hq, rfl⟩

/-! ### system calls -/

variable {cfg cfg' : Cfg}

theorem moved_stat (h : Agree w a b) (q : Path) (s : Bool) :
    (exec cfg a (.stat ⟨w.r1 ++ q, s⟩)).1 = (exec cfg' b (.stat ⟨w.r2 ++ q, s⟩)).1 := by
  simp only [exec, h.at]
  cases hl : a.at ⟨w.r1 ++ q, s⟩ with
  | none => rfl
  | some n =>
    cases n with
    | dir => rfl
    | file i => simp only [Option.map_some, World.node, h.data i (h.live_at' hl)]

theorem moved_mkdir (h : Agree w a b) (q : Path) :
    (exec cfg a (.mkdir (w.r1 ++ q))).1 = (exec cfg' b (.mkdir (w.r2 ++ q))).1 ∧
      (q = [] → (exec cfg a (.mkdir (w.r1 ++ q))).1 ≠ .notFound) ∧
      Agree w (exec cfg a (.mkdir (w.r1 ++ q))).2 (exec cfg' b (.mkdir (w.r2 ++ q))).2 := by
  obtain ⟨c, d, hc, hd, hcd⟩ := last_names w q
  obtain ⟨hu, hu'⟩ := h.above q
  simp only [exec, hc, hd, noNul_append _ q w.ok1.2, noNul_append _ q w.ok2.2, hu, h.lookup, ← hcd]
  cases noNul q with
  | false => exact ⟨rfl, (by simp), h⟩
  | true =>
    cases hl : a.lookup (w.r1 ++ q).dropLast with
    | none => exact ⟨rfl, (fun hq => by rw [hu' hq] at hl; cases hl), h⟩
    | some n =>
      cases n with
      | file i => exact ⟨rfl, (by simp), h⟩
      | dir =>
        cases a.lookup (w.r1 ++ q) with
        | some m => exact ⟨rfl, (by simp), h⟩
        | none =>
          cases nameOk c with
          | false => exact ⟨rfl, (by simp), h⟩
          | true => exact ⟨rfl, (by simp), h.set q .dir (fun i hi => nomatch hi)⟩

theorem moved_openRead (h : Agree w a b) (q : Path) (s : Bool) :
    OptRel (HandleRel w) (exec cfg a (.openRead ⟨w.r1 ++ q, s⟩)).1 (exec cfg' b (.openRead ⟨w.r2 ++ q, s⟩)).1 := by
  simp only [exec, h.at]
  cases hl : a.at ⟨w.r1 ++ q, s⟩ with
  | none => trivial
  | some n =>
    cases n with
    | dir => trivial
    | file i => exact ⟨h.live_at' hl, rfl⟩

theorem moved_handle (h : Agree w a b) (hd : cfg.dirLen = cfg'.dirLen) {x y : Handle} (hx : HandleRel w x y) (off n want : Nat) :
    (exec cfg a (.fstat x)).1 = (exec cfg' b (.fstat y)).1 ∧ (exec cfg a (.readAll x)).1 = (exec cfg' b (.readAll y)).1 ∧
      (exec cfg a (.readAt x off n want)).1 = (exec cfg' b (.readAt y off n want)).1 := by
  cases x with
  | dir =>
    cases y with
    | dir => exact ⟨congrArg some hd, rfl, rfl⟩
    | file j => cases hx
  | file i =>
    cases y with
    | dir => cases hx
    | file j =>
      obtain ⟨hi, rfl⟩ := hx
      simp only [exec, h.data i hi]
      exact ⟨trivial, trivial, trivial⟩

theorem moved_create (h : Agree w a b) (q : Path) (s : Bool) :
    OptRel (fun i j => w.live i ∧ j = w.name i) (exec cfg a (.create ⟨w.r1 ++ q, s⟩)).1 (exec cfg' b (.create ⟨w.r2 ++ q, s⟩)).1 ∧
      Agree w (exec cfg a (.create ⟨w.r1 ++ q, s⟩)).2 (exec cfg' b (.create ⟨w.r2 ++ q, s⟩)).2 := by
  obtain ⟨c, d, hc, hd, hcd⟩ := last_names w q
  obtain ⟨hu, hu'⟩ := h.above q
  simp only [exec, hc, hd, noNul_append _ q w.ok1.2, noNul_append _ q w.ok2.2, hu, h.lookup, ← hcd]
  cases noNul q with
  | false => exact ⟨trivial, h⟩
  | true =>
    cases s with
    | true => exact ⟨trivial, h⟩
    | false =>
      cases hl : a.lookup (w.r1 ++ q) with
      | some n =>
        cases n with
        | dir => exact ⟨trivial, h⟩
        | file i => exact ⟨⟨h.live_at hl, rfl⟩, h.setData (h.live_at hl) []⟩
      | none =>
        cases a.lookup (w.r1 ++ q).dropLast with
        | none => exact ⟨trivial, h⟩
        | some n =>
          cases n with
          | file i => exact ⟨trivial, h⟩
          | dir =>
            cases nameOk c with
            | false => exact ⟨trivial, h⟩
            | true =>
              obtain ⟨h1, h2⟩ := h.fresh q 0
              simp only [Nat.add_zero] at h1 h2
              refine ⟨⟨h1, h2.symm⟩, ?_⟩
              have := ((h.set q (.file ⟨w.r1 ++ q, a.gen (w.r1 ++ q)⟩) (fun i hi => by cases hi; exact h1)).setData h1 []).bump q
              rw [World.node, h2] at this
              exact this

theorem moved_writeAt (h : Agree w a b) {i : Ino} (hi : w.live i) (off : Nat) (c : Bytes) :
    Agree w (exec cfg a (.writeAt i off c)).2 (exec cfg' b (.writeAt (w.name i) off c)).2 := by
  simp only [exec, ← h.data i hi]
  exact h.setData hi _

theorem moved_unlink (h : Agree w a b) (q : Path) (s : Bool) :
    (exec cfg a (.unlink ⟨w.r1 ++ q, s⟩)).1 = (exec cfg' b (.unlink ⟨w.r2 ++ q, s⟩)).1 ∧
      Agree w (exec cfg a (.unlink ⟨w.r1 ++ q, s⟩)).2 (exec cfg' b (.unlink ⟨w.r2 ++ q, s⟩)).2 := by
  simp only [exec, h.at]
  cases a.at ⟨w.r1 ++ q, s⟩ with
  | none => exact ⟨rfl, h⟩
  | some n =>
    cases n with
    | dir => exact ⟨rfl, h⟩
    | file i => exact ⟨rfl, h.erase q⟩

theorem moved_rmdir (h : Agree w a b) (q : Path) (s : Bool) :
    (exec cfg a (.rmdir ⟨w.r1 ++ q, s⟩)).1 = (exec cfg' b (.rmdir ⟨w.r2 ++ q, s⟩)).1 ∧
      Agree w (exec cfg a (.rmdir ⟨w.r1 ++ q, s⟩)).2 (exec cfg' b (.rmdir ⟨w.r2 ++ q, s⟩)).2 := by
  have e1 : w.r1 ++ q ≠ [] := by simp [w.ok1.1]
  have e2 : w.r2 ++ q ≠ [] := by simp [w.ok2.1]
  simp only [exec, h.lookup, h.children]
  cases a.lookup (w.r1 ++ q) with
  | none => exact ⟨rfl, h⟩
  | some n =>
    cases n with
    | file i => exact ⟨rfl, h⟩
    | dir =>
      simp only [Option.map_some, World.node, List.map_eq_nil_iff, ne_eq, e1, e2, not_false_eq_true, true_and]
      split
      · exact ⟨rfl, h.erase q⟩
      · exact ⟨rfl, h⟩

theorem moved_rmtree (h : Agree w a b) (q : Path) :
    (exec cfg a (.rmtree (w.r1 ++ q))).1 = (exec cfg' b (.rmtree (w.r2 ++ q))).1 ∧
      Agree w (exec cfg a (.rmtree (w.r1 ++ q))).2 (exec cfg' b (.rmtree (w.r2 ++ q))).2 := by
  have e1 : w.r1 ++ q ≠ [] := by simp [w.ok1.1]
  have e2 : w.r2 ++ q ≠ [] := by simp [w.ok2.1]
  simp only [exec, h.lookup, if_pos e1, if_pos e2]
  cases a.lookup (w.r1 ++ q) with
  | none => exact ⟨rfl, h⟩
  | some n =>
    cases n with
    | file i => exact ⟨rfl, h⟩
    | dir => exact ⟨rfl, h.eraseTree q⟩

theorem moved_readDir (h : Agree w a b) (q : Path) (s : Bool) :
    (exec cfg a (.readDir ⟨w.r1 ++ q, s⟩)).1 = (exec cfg' b (.readDir ⟨w.r2 ++ q, s⟩)).1 ∧
      Agree w (exec cfg a (.readDir ⟨w.r1 ++ q, s⟩)).2 (exec cfg' b (.readDir ⟨w.r2 ++ q, s⟩)).2 := by
  simp only [exec, h.lookup, h.children]
  cases a.lookup (w.r1 ++ q) with
  | none => exact ⟨rfl, h⟩
  | some n =>
    cases n with
    | file i => exact ⟨rfl, h⟩
    | dir =>
      refine ⟨?_, h⟩
      simp only [Option.map_some, World.node, List.map_map]
      congr 2
      funext e
      obtain ⟨c, n⟩ := e
      cases n <;> rfl

theorem Agree.removed (h : Agree w a b) (q : Path) (rs : List Path) :
    Agree w ((rs.map (w.r1 ++ ·)).foldl (fun fs p => if (w.r1 ++ q).isPrefixOf p then fs.eraseTree p else fs) a)
      ((rs.map (w.r2 ++ ·)).foldl (fun fs p => if (w.r2 ++ q).isPrefixOf p then fs.eraseTree p else fs) b) := by
  induction rs generalizing a b with
  | nil => exact h
  | cons r rs ih =>
    simp only [List.map_cons, List.foldl_cons, isPrefixOf_cancel]
    split
    · exact ih (h.eraseTree r)
    · exact ih h

/-- one system call of corresponding programs -/
theorem Sim.step (hr1 : cfg.dirLen = cfg'.dirLen) (h : Agree w a b) {p : Prog α} {p' : Prog β} (hp : Sim w R p p') (f : Fault) :
    Sim w R (stepProgF cfg p (faultAt w.r1 f) a).1 (stepProgF cfg' p' (faultAt w.r2 f) b).1 ∧
      Agree w (stepProgF cfg p (faultAt w.r1 f) a).2 (stepProgF cfg' p' (faultAt w.r2 f) b).2 := by
  cases hp with
  | ret hx => exact ⟨.ret hx, h⟩
  | fail e => exact ⟨.fail e, h⟩
  | panic => exact ⟨.panic, h⟩
  | diverge => exact ⟨.diverge, h⟩
  | stat q s hk =>
    cases f with
    | none => exact ⟨(by simp only [stepProgF, faultAt, execF]; rw [moved_stat (cfg' := cfg') h]; exact hk _), h⟩
    | before => exact ⟨hk _, h⟩
    | after => exact ⟨hk _, h⟩
    | during n rs => exact ⟨hk _, h⟩
  | mkdir q hk =>
    obtain ⟨h1, h2, h3⟩ := moved_mkdir (cfg := cfg) (cfg' := cfg') h q
    cases f with
    | none => exact ⟨(by simp only [stepProgF, faultAt, execF]; rw [← h1]; exact hk _ h2), h3⟩
    | before => exact ⟨hk _ (fun _ h => by cases h), h⟩
    | after => exact ⟨hk _ (fun _ h => by cases h), h3⟩
    | during n rs => exact ⟨hk _ (fun _ h => by cases h), h⟩
  | openRead q s hk =>
    cases f with
    | none => exact ⟨hk _ _ (moved_openRead (cfg := cfg) (cfg' := cfg') h q s), h⟩
    | before => exact ⟨hk _ _ trivial, h⟩
    | after => exact ⟨hk _ _ trivial, h⟩
    | during n rs => exact ⟨hk _ _ trivial, h⟩
  | fstat hh hk =>
    cases f with
    | none => exact ⟨(by simp only [stepProgF, faultAt, execF]; rw [(moved_handle h hr1 hh 0 0 0).1]; exact hk _), h⟩
    | before => exact ⟨hk _, h⟩
    | after => exact ⟨hk _, h⟩
    | during n rs => exact ⟨hk _, h⟩
  | readAll hh hk =>
    cases f with
    | none => exact ⟨(by simp only [stepProgF, faultAt, execF]; rw [(moved_handle h hr1 hh 0 0 0).2.1]; exact hk _), h⟩
    | before => exact ⟨hk _, h⟩
    | after => exact ⟨hk _, h⟩
    | during n rs => exact ⟨hk _, h⟩
  | readAt off n want hh hk =>
    cases f with
    | none => exact ⟨(by simp only [stepProgF, faultAt, execF]; rw [(moved_handle h hr1 hh off n want).2.2]; exact hk _), h⟩
    | before => exact ⟨hk _, h⟩
    | after => exact ⟨hk _, h⟩
    | during n rs => exact ⟨hk _, h⟩
  | create q s hk =>
    obtain ⟨h1, h2⟩ := moved_create (cfg := cfg) (cfg' := cfg') h q s
    cases f with
    | none => exact ⟨hk _ _ h1, h2⟩
    | before => exact ⟨hk _ _ trivial, h⟩
    | after => exact ⟨hk _ _ trivial, h2⟩
    | during n rs => exact ⟨hk _ _ trivial, h⟩
  | writeAt off c hi hk =>
    have h2 := moved_writeAt (cfg := cfg) (cfg' := cfg') h hi off c
    cases f with
    | none => exact ⟨hk _, h2⟩
    | before => exact ⟨hk _, h⟩
    | after => exact ⟨hk _, h2⟩
    | during n rs =>
      refine ⟨hk _, ?_⟩
      simp only [stepProgF, faultAt, execF, partialEffect]
      split
      · exact h
      · rw [← h.data _ hi]
        exact h.setData hi _
  | unlink q s hk =>
    obtain ⟨h1, h2⟩ := moved_unlink (cfg := cfg) (cfg' := cfg') h q s
    cases f with
    | none => exact ⟨(by simp only [stepProgF, faultAt, execF]; rw [h1]; exact hk _), h2⟩
    | before => exact ⟨hk _, h⟩
    | after => exact ⟨hk _, h2⟩
    | during n rs => exact ⟨hk _, h⟩
  | rmdir q s hk =>
    obtain ⟨h1, h2⟩ := moved_rmdir (cfg := cfg) (cfg' := cfg') h q s
    cases f with
    | none => exact ⟨(by simp only [stepProgF, faultAt, execF]; rw [h1]; exact hk _), h2⟩
    | before => exact ⟨hk _, h⟩
    | after => exact ⟨hk _, h2⟩
    | during n rs => exact ⟨hk _, h⟩
  | rmtree q hk =>
    obtain ⟨h1, h2⟩ := moved_rmtree (cfg := cfg) (cfg' := cfg') h q
    cases f with
    | none => exact ⟨(by simp only [stepProgF, faultAt, execF]; rw [h1]; exact hk _), h2⟩
    | before => exact ⟨hk _, h⟩
    | after => exact ⟨hk _, h2⟩
    | during n rs =>
      refine ⟨hk _, ?_⟩
      simp only [stepProgF, faultAt, execF, partialEffect, h.lookup]
      rw [if_pos (by simp [w.ok1.1]), if_pos (by simp [w.ok2.1])]
      cases a.lookup (w.r1 ++ q) with
      | none => exact h
      | some m =>
        cases m with
        | file i => exact h
        | dir => exact h.removed q rs
  | readDir q s hk =>
    obtain ⟨h1, h2⟩ := moved_readDir (cfg := cfg) (cfg' := cfg') h q s
    cases f with
    | none => exact ⟨(by simp only [stepProgF, faultAt, execF]; rw [h1]; exact hk _), h2⟩
    | before => exact ⟨hk _, h⟩
    | after => exact ⟨hk _, h2⟩
    | during n rs => exact ⟨hk _, h⟩

/-- corresponding programs, run under the same schedule -/
theorem Sim.runPar (hr1 : cfg.dirLen = cfg'.dirLen) (steps : List (Nat × Fault)) {ps ps' : List (Prog α)} (h : Agree w a b)
    (hl : ps.length = ps'.length) (hp : ∀ (n : Nat) p p', ps[n]? = some p → ps'[n]? = some p' → Sim w (· = ·) p p') :
    let x := runParF cfg (steps.map fun s => (s.1, faultAt w.r1 s.2)) ps a
    let y := runParF cfg' (steps.map fun s => (s.1, faultAt w.r2 s.2)) ps' b
    Agree w x.2 y.2 ∧ x.1.length = y.1.length ∧ ∀ (n : Nat) p p', x.1[n]? = some p → y.1[n]? = some p' → Sim w (· = ·) p p' := by
  induction steps generalizing a b ps ps' with
  | nil => exact ⟨h, hl, hp⟩
  | cons s steps ih =>
    obtain ⟨i, f⟩ := s
    simp only [List.map_cons, runParF]
    cases hi : ps[i]? with
    | none =>
      have : ps'[i]? = none := by
        rw [List.getElem?_eq_none_iff] at hi ⊢
        omega
      rw [this]
      exact ih h hl hp
    | some p =>
      cases hi' : ps'[i]? with
      | none =>
        rw [List.getElem?_eq_none_iff] at hi'
        rw [List.getElem?_eq_none (by omega)] at hi
        cases hi
      | some p' =>
        obtain ⟨h1, h2⟩ := (hp i p p' hi hi').step hr1 h f
        refine ih h2 (by simpa using hl) ?_
        intro n q q' hq hq'
        by_cases hn : i = n
        · subst hn
          have l1 : i < ps.length := (List.getElem?_eq_some_iff.mp hi).1
          have l2 : i < ps'.length := (List.getElem?_eq_some_iff.mp hi').1
          rw [List.getElem?_set_self l1] at hq
          rw [List.getElem?_set_self l2] at hq'
          cases hq
          cases hq'
          exact h1
        · rw [List.getElem?_set_ne hn] at hq hq'
          exact hp n q q' hq hq'

end S3
