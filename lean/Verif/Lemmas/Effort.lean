import Verif.Spec.Effort
import Verif.Props.RangeHeader
import Verif.Lemmas.Response
import Verif.Lemmas.Put
import Verif.Lemmas.Get
/-! Bounds on the number of system calls of a program, whatever the calls answer. -/
namespace S3
open Spec

/-- at most `n` system calls, and then a result or an error -/
def Within {α : Type} : Prog α → Nat → Prop
  | .sys _ k, n + 1 => ∀ r, Within (k r) n
  | .ret _, _ => True
  | .fail _, _ => True
  | _, _ => False

/-- at most `n` system calls, and then a result -/
def Answers {α : Type} : Prog α → Nat → Prop
  | .sys _ k, n + 1 => ∀ r, Answers (k r) n
  | .ret _, _ => True
  | _, _ => False

theorem within_ret {α : Type} (a : α) (n : Nat) : Within (.ret a) n := by cases n <;> trivial
theorem within_pure {α : Type} (a : α) (n : Nat) : Within (pure a : Prog α) n := within_ret a n
theorem within_fail {α : Type} (e : S3ErrorCode) (n : Nat) : Within (.fail e : Prog α) n := by cases n <;> trivial

theorem Within.mono {α : Type} {p : Prog α} {n m : Nat} (h : Within p n) (hm : n ≤ m) : Within p m := by
  induction p generalizing n m with
  | sys c k ih =>
    cases n with
    | zero => exact h.elim
    | succ n =>
      cases m with
      | zero => omega
      | succ m => exact fun r => ih r (h r) (by omega)
  | ret a => exact within_ret _ _
  | fail e => exact within_fail _ _
  | _ => cases n <;> exact h.elim

theorem Within.bind {α β : Type} {p : Prog α} {f : α → Prog β} {n m : Nat} (h : Within p n) (hf : ∀ a, Within (f a) m) : Within (p.bind f) (n + m) := by
  induction p generalizing n with
  | ret a => exact (hf a).mono (by omega)
  | sys c k ih =>
    cases n with
    | zero => exact h.elim
    | succ n => rw [show n + 1 + m = (n + m) + 1 by omega]; exact fun r => ih r (h r)
  | fail e => exact within_fail _ _
  | _ => cases n <;> exact h.elim

theorem answers_ret {α : Type} (a : α) (n : Nat) : Answers (.ret a) n := by cases n <;> trivial

theorem Answers.mono {α : Type} {p : Prog α} {n m : Nat} (h : Answers p n) (hm : n ≤ m) : Answers p m := by
  induction p generalizing n m with
  | sys c k ih =>
    cases n with
    | zero => exact h.elim
    | succ n =>
      cases m with
      | zero => omega
      | succ m => exact fun r => ih r (h r) (by omega)
  | ret a => exact answers_ret _ _
  | _ => cases n <;> exact h.elim

theorem Within.catch {α : Type} {p : Prog α} {k : S3ErrorCode → Prog α} {n : Nat} (h : Within p n) (hk : ∀ e, ∃ a, k e = .ret a) : Answers (p.catch k) n := by
  induction p generalizing n with
  | fail e => obtain ⟨a, ha⟩ := hk e; rw [Prog.catch, ha]; exact answers_ret _ _
  | sys c f ih =>
    cases n with
    | zero => exact h.elim
    | succ n => exact fun r => ih r (h r)
  | ret a => exact answers_ret _ _
  | _ => cases n <;> exact h.elim

theorem within_bind {α β : Type} {p : Prog α} {f : α → Prog β} {n m l : Nat} (h : Within p n) (hf : ∀ a, Within (f a) m) (hl : n + m ≤ l) :
    Within (p >>= f) l := (h.bind hf).mono hl

theorem within_call (c : Call) : Within (call c) 1 := fun r => within_ret r 0
theorem within_orInternal {α : Type} (a : Option α) (n : Nat) : Within (orInternal a) n := by
  cases a
  · exact within_fail _ _
  · exact within_ret _ _

/-- a step of a program that is not finished brings it nearer to the end -/
theorem Answers.step {α : Type} {cfg : Cfg} {p : Prog α} {n : Nat} (h : Answers p (n + 1)) (f : Fault) (fs : FS) : Answers (stepProgF cfg p f fs).1 n := by
  cases p with
  | sys c k => exact h _
  | ret a => exact answers_ret _ _
  | _ => exact h.elim

theorem turns_cons (i : Nat) (s : Nat × Fault) (steps : List (Nat × Fault)) :
    turns i (s :: steps) = turns i steps + if s.1 = i then 1 else 0 := by
  simp only [turns, List.map_cons, List.count_cons, beq_iff_eq]

theorem runParF_answers {α : Type} {cfg : Cfg} (steps : List (Nat × Fault)) {ps : List (Prog α)} {fs : FS} {i n : Nat} {p : Prog α} (hi : ps[i]? = some p)
    (h : Answers p n) : ∃ q, (runParF cfg steps ps fs).1[i]? = some q ∧ Answers q (n - turns i steps) := by
  induction steps generalizing ps fs n p with
  | nil => exact ⟨p, hi, h⟩
  | cons s steps ih =>
    obtain ⟨j, f⟩ := s
    simp only [runParF]
    by_cases hj : j = i
    · subst hj
      rw [hi]
      have hlt : j < ps.length := (List.getElem?_eq_some_iff.mp hi).1
      cases n with
      | zero =>
        obtain ⟨q, h1, h2⟩ := ih (ps := ps.set j (stepProgF cfg p f fs).1) (fs := (stepProgF cfg p f fs).2) (List.getElem?_set_self hlt)
          (show Answers (stepProgF cfg p f fs).1 0 from (h.mono (Nat.zero_le 1)).step f fs)
        exact ⟨q, h1, h2.mono (by omega)⟩
      | succ n =>
        obtain ⟨q, h1, h2⟩ := ih (ps := ps.set j (stepProgF cfg p f fs).1) (fs := (stepProgF cfg p f fs).2) (List.getElem?_set_self hlt) (h.step f fs)
        exact ⟨q, h1, h2.mono (by rw [turns_cons, if_pos rfl]; omega)⟩
    · have ht : turns i ((j, f) :: steps) = turns i steps := by rw [turns_cons, if_neg hj]; rfl
      rw [ht]
      split
      · exact ih hi h
      · exact ih (by rw [List.getElem?_set_ne hj]; exact hi) h

theorem Answers.done {α : Type} {p : Prog α} (h : Answers p 0) : ∃ a, p = .ret a := by
  cases p with
  | ret a => exact ⟨a, rfl⟩
  | _ => exact h.elim

/-! ### the parts of the requests -/

variable {cfg : Cfg} {ext : Ext}

theorem within_exists (p : OsPath) : Within (exists_ p) 1 := within_bind (within_call _) (fun _ => within_pure _ 0) (by omega)

theorem within_requireDir (p : Path) : Within (requireDir p) 1 :=
  within_bind (m := 0) (within_call _) (fun s => by split <;> first | exact within_pure _ _ | exact within_fail _ _) (by omega)

theorem within_createDirAllRev (l : List Bytes) : Within (createDirAllRev l) (3 * l.length + 1) := by
  induction l with
  | nil => exact within_bind (m := 0) (within_call _) (fun r => by split <;> exact within_pure _ _) (by simp)
  | cons c up ih =>
    refine within_bind (m := 3 * up.length + 3) (within_call _) (fun r => ?_) (by simp; omega)
    split
    · exact within_pure _ _
    · exact (within_requireDir _).mono (by omega)
    · refine within_bind ih (m := 2) (fun _ => within_bind (m := 1) (within_call _) (fun r => ?_) (by omega)) (by omega)
      split
      · exact within_pure _ _
      · exact within_requireDir _

theorem within_createDirAll (p : Path) : Within (createDirAll p) (3 * p.length + 1) := by
  have := within_createDirAllRev p.reverse
  rwa [List.length_reverse] at this

theorem within_copyBytes (ino : Ino) (off : Nat) (body : Body) : Within (copyBytes ino off body) body.length := by
  induction body generalizing off with
  | nil => exact within_pure _ _
  | cons b rest ih =>
    cases b with
    | none => exact within_fail _ _
    | some b =>
      simp only [copyBytes]
      split
      · exact (ih off).mono (by simp)
      · refine within_bind (m := rest.length) (within_call _) (fun r => ?_) (by simp; omega)
        split
        · exact within_bind (m := 0) (ih _) (fun _ => within_pure _ _) (by omega)
        · exact within_fail _ _

theorem within_readWhole (p : Option OsPath) {α : Type} {f : Bytes → Prog α} {n : Nat} (hf : ∀ b, Within (f b) n) :
    Within (do let p ← orInternal p; let h ← orInternal (← call (.openRead p)); let content ← orInternal (← call (.readAll h)); f content) (n + 2) :=
  within_bind (n := 0) (m := n + 2) (within_orInternal _ _) (fun _ => within_bind (m := n + 1) (within_call _) (fun _ =>
    within_bind (n := 0) (m := n + 1) (within_orInternal _ _) (fun _ => within_bind (m := n) (within_call _) (fun _ =>
      within_bind (n := 0) (m := n) (within_orInternal _ _) hf (by omega)) (by omega)) (by omega)) (by omega)) (by omega)

theorem within_getMd5Sum (b k : Bytes) : Within (getMd5Sum cfg ext b k) 2 := within_readWhole _ fun _ => within_pure _ 0

theorem within_loadMetadata (b k : Bytes) : Within (loadMetadata cfg ext b k) 3 := by
  refine within_bind (n := 0) (m := 3) (within_orInternal _ _) (fun p => within_bind (m := 2) (within_exists _) (fun e => ?_) (by omega)) (by omega)
  split
  · exact within_readWhole (some p) (fun _ => within_bind (n := 0) (m := 0) (within_orInternal _ _) (fun _ => within_pure _ _) (by omega))
  · exact within_pure _ _

theorem within_if {α : Type} {c : Prop} [Decidable c] {p q : Prog α} {n : Nat} (hp : Within p n) (hq : Within q n) : Within (if c then p else q) n := by
  split
  · exact hp
  · exact hq

theorem within_saveMetadata (b k : Bytes) (m : Meta) : Within (saveMetadata cfg ext b k m) 2 :=
  within_bind (n := 0) (m := 2) (within_orInternal _ _) (fun _ => within_bind (m := 1) (within_call _) (fun _ =>
    within_bind (n := 0) (m := 1) (within_orInternal _ _) (fun _ => within_bind (m := 0) (within_call _) (fun _ =>
      within_if (within_pure _ _) (within_fail _ _)) (by omega)) (by omega)) (by omega)) (by omega)

theorem within_copyFile (s d : OsPath) : Within (copyFile s d) 4 := by
  refine within_bind (m := 3) (within_call _) (fun _ => within_bind (n := 0) (m := 3) (within_orInternal _ _) (fun h => ?_) (by omega)) (by omega)
  split
  · exact within_fail _ _
  · exact within_bind (m := 2) (within_call _) (fun _ => within_bind (n := 0) (m := 2) (within_orInternal _ _) (fun _ =>
      within_bind (m := 1) (within_call _) (fun _ => within_bind (n := 0) (m := 1) (within_orInternal _ _) (fun _ =>
        within_bind (m := 0) (within_call _) (fun _ => within_if (within_pure _ _) (within_fail _ _)) (by omega)) (by omega)) (by omega)) (by omega)) (by omega)

theorem within_copyObject (b k s : Bytes) : Within (copyObject cfg ext b k s) 12 := by
  unfold copyObject
  split
  · exact within_fail _ _
  · refine within_bind (n := 0) (m := 12) (within_orInternal _ _) (fun _ => within_bind (n := 0) (m := 12) (within_orInternal _ _) (fun _ =>
      within_bind (m := 11) (within_call _) (fun _ => within_bind (n := 0) (m := 11) (within_orInternal _ _) (fun _ =>
        within_bind (m := 7) (within_copyFile _ _) (fun _ => within_bind (n := 0) (m := 7) (within_orInternal _ _) (fun _ =>
          within_bind (m := 6) (within_exists _) (fun e => ?_) (by omega)) (by omega)) (by omega)) (by omega)) (by omega)) (by omega)) (by omega)
    have tail : ∀ x y, Within (do let sum ← getMd5Sum cfg ext x y; return quoted sum) 2 := fun _ _ =>
      within_bind (m := 0) (within_getMd5Sum (cfg := cfg) (ext := ext) _ _) (fun _ => within_pure _ _) (by omega)
    split
    · exact within_bind (n := 0) (m := 6) (within_orInternal _ _) (fun _ => within_bind (m := 2) (within_copyFile _ _) (fun _ => tail _ _) (by omega)) (by omega)
    · exact (tail _ _).mono (by omega)

theorem within_deleteCollect (b : Bytes) (ks : List Bytes) : Within (deleteCollect cfg b ks) ks.length := by
  induction ks with
  | nil => exact within_pure _ _
  | cons k ks ih =>
    exact within_bind (n := 0) (m := ks.length + 1) (within_orInternal _ _) (fun _ => within_bind (m := ks.length) (within_exists _) (fun _ =>
      within_bind (m := 0) ih (fun _ => within_pure _ _) (by omega)) (by omega)) (by simp)

theorem within_deleteAll (l : List (OsPath × Bytes)) : Within (deleteAll l) l.length := by
  induction l with
  | nil => exact within_pure _ _
  | cons e l ih =>
    refine within_bind (m := l.length) (within_call _) (fun _ => within_if ?_ (within_fail _ _)) (by simp; omega)
    exact within_bind (m := 0) ih (fun _ => within_pure _ _) (by omega)

/-- what a program returns, whatever the calls answer -/
def Returns {α : Type} (P : α → Prop) : Prog α → Prop
  | .ret a => P a
  | .sys _ k => ∀ r, Returns P (k r)
  | _ => True

theorem Returns.bind {α β : Type} {P : α → Prop} {Q : β → Prop} {p : Prog α} {f : α → Prog β} (h : Returns P p) (hf : ∀ a, P a → Returns Q (f a)) :
    Returns Q (p.bind f) := by
  induction p with
  | ret a => exact hf a h
  | sys c k ih => exact fun r => ih r (h r)
  | _ => trivial

theorem Within.bindR {α β : Type} {P : α → Prop} {p : Prog α} {f : α → Prog β} {n m l : Nat} (h : Within p n) (hr : Returns P p) (hf : ∀ a, P a → Within (f a) m)
    (hl : n + m ≤ l) : Within (p >>= f) l := by
  refine Within.mono (n := n + m) ?_ hl
  show Within (p.bind f) (n + m)
  clear hl
  induction p generalizing n with
  | ret a => exact (hf a hr).mono (by omega)
  | sys c k ih =>
    cases n with
    | zero => exact h.elim
    | succ n => rw [show n + 1 + m = (n + m) + 1 by omega]; exact fun r => ih r (h r) (hr r)
  | fail e => exact within_fail _ _
  | _ => cases n <;> exact h.elim

theorem returns_true {α : Type} (p : Prog α) : Returns (fun _ => True) p := by
  induction p with
  | sys c k ih => exact ih
  | _ => trivial

theorem returns_deleteCollect (b : Bytes) (ks : List Bytes) : Returns (fun l => l.length ≤ ks.length) (deleteCollect cfg b ks) := by
  induction ks with
  | nil => exact Nat.le_refl 0
  | cons k ks ih =>
    refine (returns_true _).bind fun _ _ => (returns_true _).bind fun e _ => ih.bind fun l hl => ?_
    show (if e = true then _ else _ : List _).length ≤ _
    split <;> simp <;> omega

theorem within_completeLoop (u : Bytes) (ino : Ino) (cnt : Int) (off : Nat) (parts : List (Option Int)) :
    Within (completeLoop cfg u ino cnt off parts) (4 * parts.length) := by
  induction parts generalizing cnt off with
  | nil => exact within_pure _ _
  | cons n rest ih =>
    refine within_bind (n := 0) (m := 4 * rest.length + 4) (within_orInternal _ _) (fun n => within_if (within_fail _ _) ?_) (by simp; omega)
    refine within_bind (n := 0) (m := 4 * rest.length + 4) (within_orInternal _ _) (fun _ => within_bind (m := 4 * rest.length + 3) (within_call _) (fun _ =>
      within_bind (n := 0) (m := 4 * rest.length + 3) (within_orInternal _ _) (fun _ => within_bind (m := 4 * rest.length + 2) (within_call _) (fun _ =>
        within_bind (n := 0) (m := 4 * rest.length + 2) (within_orInternal _ _) (fun _ => within_bind (m := 4 * rest.length + 1) (within_call _) (fun _ => ?_)
          (by omega)) (by omega)) (by omega)) (by omega)) (by omega)) (by omega)
    split
    · refine within_bind (m := 4 * rest.length) (within_call _) (fun _ => ?_) (by omega)
      split
      · exact ih _ _
      · exact within_fail _ _
    · exact within_fail _ _

theorem within_drainBody (h : Handle) (w : Nat → Nat) (fuel i off limit : Nat) : Within (drainBody h w fuel i off limit) fuel := by
  induction fuel generalizing i off limit with
  | zero => exact within_pure _ _
  | succ fuel ih =>
    refine within_bind (m := fuel) (within_call _) (fun r => ?_) (by omega)
    split
    · exact within_pure _ _
    · refine within_if (within_pure _ _) (within_bind (m := 0) (ih _ _ _) (fun r => ?_) (by omega))
      split <;> exact within_pure _ _

theorem within_getObject (b k : Bytes) (range : Option Bytes) : Within (getObject cfg ext b k range) 7 := by
  refine within_bind (n := 0) (m := 7) (within_orInternal _ _) (fun _ => within_bind (n := 0) (m := 7) ?_ (fun _ =>
    within_bind (m := 6) (within_call _) (fun h => ?_) (by omega)) (by omega)) (by omega)
  · unfold parseRange
    split
    · exact within_ret _ _
    · split
      · exact within_ret _ _
      · exact within_fail _ _
  · split
    · exact within_fail _ _
    · refine within_bind (m := 5) (within_call _) (fun _ => within_bind (n := 0) (m := 5) (within_orInternal _ _) (fun _ => ?_) (by omega)) (by omega)
      split
      · exact within_fail _ _
      · exact within_bind (m := 2) (within_loadMetadata _ _) (fun _ => within_bind (m := 0) (within_getMd5Sum _ _) (fun _ =>
          within_if (within_pure _ _) (within_fail _ _)) (by omega)) (by omega)

/-- the limit of the body stream is at most the length of the range -/
theorem returns_getObject {b k h : Bytes} {n : Nat} (hr : ∀ v, Range.fromHeaderStr h = some v → ∀ len off l, rangeSlice len (some v) = some (off, l) → l ≤ n) :
    Returns (fun o => o.limit ≤ n) (getObject cfg ext b k (some h)) := by
  refine (returns_true _).bind fun _ _ => Returns.bind (P := fun r => ∀ len off l, rangeSlice len r = some (off, l) → l ≤ n) ?_ fun r hr' => (returns_true _).bind fun x _ => ?_
  · unfold parseRange
    split
    · next h => cases h
    · next h' e =>
      cases e
      split
      · next v hv => exact hr v hv
      · trivial
  · split
    · trivial
    · refine (returns_true _).bind fun _ _ => (returns_true _).bind fun len _ => ?_
      split
      · trivial
      · next off l e =>
        refine (returns_true _).bind fun _ _ => (returns_true _).bind fun _ _ => ?_
        split
        · exact hr' _ _ _ e
        · trivial

/-! ### depth of paths -/

theorem splitAll_slashes (s : Bytes) : (splitAll 47 s).length = slashes s + 1 := by
  induction s with
  | nil => rfl
  | cons x xs ih =>
    simp only [splitAll]
    split
    · next h => subst h; simp only [List.length_cons, ih, slashes, List.count_cons_self]
    · next h =>
      have : slashes (x :: xs) = slashes xs := by simp [slashes, List.count_cons, h]
      rw [this]
      cases hs : splitAll 47 xs with
      | nil => exact absurd hs (splitAll_ne_nil _ _)
      | cons a l => rw [hs] at ih; exact ih

theorem pathComps_slashes (s : Bytes) : (pathComps s).length ≤ slashes s + 1 := by
  rw [← splitAll_slashes]
  have h1 := List.length_filter_le (· ≠ []) (splitAll 47 s)
  simp only [pathComps]
  split
  · exact Nat.le_trans (List.length_filter_le _ _) h1
  · split
    · simp
    · next c r e =>
      rw [e] at h1
      exact Nat.le_trans (Nat.succ_le_succ (List.length_filter_le _ r)) h1

theorem foldl_dedot (l st : List Bytes) : (l.foldl dedotStep st).length ≤ st.length + l.length := by
  induction l generalizing st with
  | nil => simp
  | cons c l ih =>
    have : (dedotStep st c).length ≤ st.length + 1 := by
      unfold dedotStep
      split
      · simp; omega
      · simp
    have := ih (dedotStep st c)
    simp only [List.foldl_cons, List.length_cons]
    omega

theorem parseDot_length (s : Bytes) : ((parseDot cfg s).1 = true → (parseDot cfg s).2.length ≤ cfg.cwd.length + slashes s + 1) ∧
    ((parseDot cfg s).1 = false → (parseDot cfg s).2.length ≤ slashes s + 1) := by
  have hp := pathComps_slashes s
  unfold parseDot
  split
  · have := foldl_dedot (pathComps s) []
    simp only [List.length_nil] at this
    exact ⟨fun _ => by simp only; omega, fun h => nomatch h⟩
  · split
    · simp
    · next c r e =>
      rw [e, List.length_cons] at hp
      split
      · have := foldl_dedot r cfg.cwd
        exact ⟨fun _ => by simp only; omega, fun h => nomatch h⟩
      · split
        · have := foldl_dedot r cfg.cwd.dropLast
          rw [List.length_dropLast] at this
          exact ⟨fun _ => by simp only; omega, fun h => nomatch h⟩
        · have := foldl_dedot r [c]
          simp only [List.length_singleton] at this
          exact ⟨(fun h => nomatch h), fun _ => by simp only; omega⟩

theorem pathJoin_slashes (b k : Bytes) : slashes (pathJoin b k) ≤ slashes b + slashes k + 1 := by
  unfold pathJoin
  split
  · omega
  · split
    · simp [slashes, List.count_append]
    · simp only [slashes, List.count_append]
      have : List.count 47 b!"/" = 1 := by decide
      omega

theorem objectPath_depth {b k : Bytes} {p : OsPath} (h : objectPath cfg b k = some p) : p.comps.length ≤ depth cfg b k := by
  have h1 := parseDot_length (cfg := cfg) (pathJoin b k)
  have h2 := pathJoin_slashes b k
  unfold objectPath resolveVirtual at h
  simp only at h
  unfold depth
  split at h
  · next ha =>
    split at h
    · cases h
      have := h1.1 ha
      simp only; omega
    · cases h
  · next ha =>
    cases h
    have := h1.2 (by simpa using ha)
    simp only [List.length_append]; omega

/-! ### the requests -/

theorem Within.map {α β : Type} {p : Prog α} {f : α → β} {n : Nat} (h : Within p n) : Within (p.bind fun a => .ret (f a)) n :=
  (h.bind (m := 0) fun _ => within_ret _ _)

theorem slice_bound {h : Bytes} {r : ByteRange} {n : Nat} (hr : RangeHeader h r)
    (hn : match r with | .fromTo f l => l + 1 < 2 ^ 64 ∧ n = l + 1 - f | .lastN m => n = m | .from_ _ => False) :
    ∀ v, Range.fromHeaderStr h = some v → ∀ len off l, rangeSlice len (some v) = some (off, l) → l ≤ n := by
  intro v hv len off l hs
  obtain ⟨v', hv', rfl⟩ := (C07_range_grammar h r).mpr hr
  cases hv.symm.trans hv'
  cases v with
  | suffix m =>
    simp only [rangeSlice] at hs
    split at hs
    · cases hs; exact Nat.le_of_eq hn.symm
    · cases hs
  | normal f last =>
    cases last with
    | none => exact hn.elim
    | some l' =>
      simp only [rangeSlice] at hs
      split at hs
      · cases hs
      · obtain ⟨hl, rfl⟩ := hn
        cases hs
        rw [if_pos (by simp only [u64Max]; omega)]
        exact Nat.le_refl _

theorem effort_within {o : Op} {n : Nat} (h : Effort cfg o n) : Within (opProg cfg ext o) n := by
  cases h with
  | createBucket b =>
    refine Within.map (within_bind (n := 0) (m := 2) (within_orInternal _ _) (fun _ => within_bind (m := 1) (within_exists _) (fun _ => ?_) (by omega)) (by omega))
    split
    · exact within_fail _ _
    · refine within_bind (m := 0) (within_call _) (fun r => ?_) (by omega)
      cases r <;> first | exact within_ret _ _ | exact within_fail _ _
  | headBucket b =>
    exact Within.map (within_bind (n := 0) (m := 1) (within_orInternal _ _) (fun _ => within_bind (m := 0) (within_exists _) (fun _ =>
      within_if (within_pure _ _) (within_fail _ _)) (by omega)) (by omega))
  | getBucketLocation b =>
    exact Within.map (within_bind (n := 0) (m := 1) (within_orInternal _ _) (fun _ => within_bind (m := 0) (within_exists _) (fun _ =>
      within_if (within_pure _ _) (within_fail _ _)) (by omega)) (by omega))
  | deleteBucket b =>
    exact Within.map (within_bind (n := 0) (m := 1) (within_orInternal _ _) (fun _ => within_bind (m := 0) (within_call _) (fun _ =>
      within_if (within_pure _ _) (within_fail _ _)) (by omega)) (by omega))
  | headObject b k =>
    refine Within.map (within_bind (n := 0) (m := 5) (within_orInternal _ _) (fun _ => within_bind (m := 4) (within_exists _) (fun _ => ?_) (by omega)) (by omega))
    split
    · exact within_bind (m := 3) (within_call _) (fun _ => within_bind (n := 0) (m := 3) (within_orInternal _ _) (fun _ =>
        within_bind (m := 0) (within_loadMetadata _ _) (fun _ => within_if (within_pure _ _) (within_fail _ _)) (by omega)) (by omega)) (by omega)
    · exact within_fail _ _
  | deleteObject b k =>
    refine Within.map (within_bind (n := 0) (m := 2) (within_orInternal _ _) (fun _ => ?_) (by omega))
    split
    · refine within_bind (m := 1) (within_call _) (fun _ => within_bind (n := 0) (m := 1) (within_orInternal _ _) (fun _ => ?_) (by omega)) (by omega)
      split
      · exact within_bind (m := 0) (within_call _) (fun _ => within_if (within_pure _ _) (within_fail _ _)) (by omega)
      · exact within_pure _ _
    · exact within_bind (m := 0) (within_call _) (fun _ => within_if (within_pure _ _) (within_fail _ _)) (by omega)
  | copyObject b k s => exact Within.map (within_copyObject b k s)
  | deleteObjects b ks =>
    exact Within.map ((within_deleteCollect b ks).bindR (m := ks.length) (returns_deleteCollect b ks) (fun l hl => (within_deleteAll l).mono hl) (by omega))
  | getFromTo b k h f l w hr hl =>
    exact Within.map ((within_getObject b k (some h)).bindR (m := l + 1 - f + 1) (returns_getObject (slice_bound hr ⟨hl, rfl⟩)) (fun o ho =>
      within_bind (n := l + 1 - f + 1) (m := 0) ((within_drainBody _ _ _ _ _ _).mono (by omega)) (fun _ => within_pure _ _) (by omega)) (by omega))
  | getLast b k h m w hr =>
    exact Within.map ((within_getObject b k (some h)).bindR (m := m + 1) (returns_getObject (slice_bound hr rfl)) (fun o ho =>
      within_bind (n := m + 1) (m := 0) ((within_drainBody _ _ _ _ _ _).mono (by omega)) (fun _ => within_pure _ _) (by omega)) (by omega))
  | putObject i =>
    refine Within.map ?_
    unfold putObject
    split
    · exact within_fail _ _
    split
    · exact within_fail _ _
    · next body hb =>
      rw [hb, Option.getD_some]
      split
      · split
        · refine Within.bindR (n := 0) (m := 3 * depth cfg i.bucket i.key + 4 + body.length) (P := fun p => p.comps.length ≤ depth cfg i.bucket i.key)
            (within_orInternal _ _) ?_ (fun p hp => within_bind (n := 3 * depth cfg i.bucket i.key + 1) (m := 0)
              ((within_createDirAll _).mono (by omega)) (fun _ => within_pure _ _) (by omega)) (by omega)
          cases e : objectPath cfg i.bucket i.key with
          | none => trivial
          | some p => exact objectPath_depth e
        · exact within_fail _ _
      · refine Within.bindR (n := 0) (m := 3 * depth cfg i.bucket i.key + 4 + body.length) (P := fun p => p.comps.length ≤ depth cfg i.bucket i.key)
            (within_orInternal _ _) ?_ (fun p hp => ?_) (by omega)
        · cases e : objectPath cfg i.bucket i.key with
          | none => trivial
          | some p => exact objectPath_depth e
        · have tail : Within (do
              let ino ← orInternal (← call (.create p))
              let content ← copyBytes ino 0 body
              saveOptional cfg ext i.bucket i.key i.metadata
              return some (quoted (ext.md5hex content))) (3 + body.length) := by
            refine within_bind (m := 2 + body.length) (within_call _) (fun _ => within_bind (n := 0) (m := 2 + body.length) (within_orInternal _ _) (fun _ =>
              within_bind (m := 2) (within_copyBytes _ _ _) (fun _ => within_bind (n := 2) (m := 0) ?_ (fun _ => within_pure _ _) (by omega)) (by omega)) (by omega)) (by omega)
            unfold saveOptional
            split
            · exact within_saveMetadata _ _ _
            · exact within_ret _ _
          split
          · refine within_bind (n := 3 * depth cfg i.bucket i.key + 1) (m := 3 + body.length) ((within_createDirAll _).mono ?_) (fun _ => tail) (by omega)
            rw [List.length_dropLast]; omega
          · exact tail.mono (by omega)
  | createMultipartUpload u => exact Within.map (within_pure u 0)
  | uploadPart u n body =>
    refine Within.map ?_
    unfold uploadPart
    split
    · exact within_fail _ _
    · next body =>
      exact within_bind (n := 0) (m := 1 + body.length) (within_orInternal _ _) (fun _ => within_bind (m := body.length) (within_call _) (fun _ =>
        within_bind (n := 0) (m := body.length) (within_orInternal _ _) (fun _ => within_bind (m := 0) (within_copyBytes _ _ _) (fun _ => within_pure _ _)
          (by omega)) (by omega)) (by omega)) (by simp)
  | completeMultipartUpload b k u parts =>
    refine Within.map ?_
    unfold completeMultipartUpload
    split
    · exact within_fail _ _
    · next parts =>
      exact within_bind (n := 0) (m := 4 + 4 * parts.length) (within_orInternal _ _) (fun _ => within_bind (m := 3 + 4 * parts.length) (within_call _) (fun _ =>
        within_bind (n := 0) (m := 3 + 4 * parts.length) (within_orInternal _ _) (fun _ => within_bind (m := 3) (within_completeLoop _ _ _ _ _) (fun _ =>
          within_bind (m := 2) (within_call _) (fun _ => within_bind (n := 0) (m := 2) (within_orInternal _ _) (fun _ =>
            within_bind (m := 0) (within_getMd5Sum _ _) (fun _ => within_pure _ _) (by omega)) (by omega)) (by omega)) (by omega)) (by omega)) (by omega)) (by simp)

/-! ### bytes read -/

/-- if the program succeeds, it has read `n` bytes or more -/
def Reads (cfg : Cfg) {α : Type} (n : Nat) (p : Prog α) (fs : FS) : Prop := ∀ a, (run cfg p fs).1 = .ok a → n ≤ bytesRead cfg p fs

theorem reads_bind {α β : Type} {n : Nat} {p : Prog α} {f : α → Prog β} {fs : FS} (h : ∀ a fs', run cfg p fs = (.ok a, fs') → Reads cfg n (f a) fs') :
    Reads cfg n (p >>= f) fs := by
  show Reads cfg n (p.bind f) fs
  induction p generalizing fs with
  | ret a => exact h a fs rfl
  | sys c k ih => exact fun a ha => Nat.le_trans (ih _ (fun a fs' e => h a fs' e) a ha) (Nat.le_add_right _ _)
  | _ => intro a ha; cases ha

theorem reads_first {α β : Type} {n : Nat} {p : Prog α} {f : α → Prog β} {fs : FS} (h : Reads cfg n p fs) : Reads cfg n (p >>= f) fs := by
  show Reads cfg n (p.bind f) fs
  induction p generalizing fs n with
  | ret a =>
    intro b _
    exact Nat.le_trans (h a rfl) (Nat.zero_le _)
  | sys c k ih =>
    intro b hb
    simp only [bytesRead, Prog.bind]
    have := ih _ (n := n - delivers c (exec cfg fs c).1) (fs := (exec cfg fs c).2) (fun a ha => by
      have := h a ha
      simp only [bytesRead] at this
      omega) b hb
    omega
  | _ => intro a ha; cases ha

theorem run_orInternal_ok {α : Type} {x : Option α} {fs fs' : FS} {a : α} (h : run cfg (orInternal x) fs = (.ok a, fs')) : x = some a ∧ fs' = fs := by
  cases x with
  | none => cases h
  | some b => cases h; exact ⟨rfl, rfl⟩

theorem run_call_ok {c : Call} {fs fs' : FS} {r : Resp c} (h : run cfg (call c) fs = (.ok r, fs')) : r = (exec cfg fs c).1 ∧ fs' = (exec cfg fs c).2 := by
  cases h; exact ⟨rfl, rfl⟩

theorem reads_md5 (b k : Bytes) (fs : FS) {p : OsPath} {i : Ino} (hp : objectPath cfg b k = some p) (ha : fs.at p = some (.file i)) :
    Reads cfg (fs.data i).length (getMd5Sum cfg ext b k) fs := by
  intro a _
  simp only [getMd5Sum, hp, bind, Prog.bind, orInternal, call, bytesRead, exec, ha]
  simp [delivers]

theorem run_load_ok {b k : Bytes} {fs fs' : FS} {m : Option Meta} (h : run cfg (loadMetadata cfg ext b k) fs = (.ok m, fs')) : fs' = fs := by
  rw [loadMetadata_run] at h
  split at h <;> cases h; rfl

theorem reads_get (b k : Bytes) (range : Option Bytes) (w : Nat → Nat) (fs : FS) {p : OsPath} {i : Ino} (hp : objectPath cfg b k = some p)
    (ha : fs.at p = some (.file i)) : Reads cfg (fs.data i).length (opProg cfg ext (.getObject b k range w)) fs := by
  refine reads_first (reads_first ?_)
  unfold getObject
  refine reads_bind fun p' fs1 h1 => ?_
  obtain ⟨_, rfl⟩ := run_orInternal_ok h1
  refine reads_bind fun rg fs2 h2 => ?_
  have : fs2 = fs1 := by
    unfold parseRange at h2
    split at h2
    · cases h2; rfl
    · split at h2 <;> cases h2; rfl
  subst this
  refine reads_bind fun h fs3 h3 => ?_
  obtain ⟨_, rfl⟩ := run_call_ok h3
  split
  · intro a h; cases h
  · refine reads_bind fun l fs4 h4 => ?_
    obtain ⟨_, rfl⟩ := run_call_ok h4
    refine reads_bind fun n fs5 h5 => ?_
    obtain ⟨_, rfl⟩ := run_orInternal_ok h5
    split
    · intro a h; cases h
    · refine reads_bind fun md fs6 h6 => reads_first ?_
      obtain rfl := run_load_ok h6
      exact reads_md5 _ _ _ hp ha

end S3
