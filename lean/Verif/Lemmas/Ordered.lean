import Verif.Model.Ordered
import Verif.Lemmas.Bytes
namespace S3

theorem pairLe_total (a b : Bytes × Bytes) : (pairLe a b || pairLe b a) = true := by
  simp only [pairLe, bytesCmp_swap a.1 b.1]
  cases bytesCmp a.1 b.1
  · simp [Ordering.swap]
  · simpa [Ordering.swap] using bytesLe_total a.2 b.2
  · simp [Ordering.swap]

theorem pairLe_iff {a b : Bytes × Bytes} :
    pairLe a b = true ↔ bytesCmp a.1 b.1 = .lt ∨ (a.1 = b.1 ∧ bytesLe a.2 b.2 = true) := by
  rw [← bytesCmp_eq (a := a.1) (b := b.1)]
  simp only [pairLe]
  cases bytesCmp a.1 b.1 <;> simp

theorem pairLe_trans (a b c : Bytes × Bytes) (h1 : pairLe a b = true) (h2 : pairLe b c = true) :
    pairLe a c = true := by
  rw [pairLe_iff] at *
  rcases h1 with h1 | ⟨e1, h1⟩
  · rcases h2 with h2 | ⟨e2, h2⟩
    · exact .inl (bytesCmp_lt_trans h1 h2)
    · rw [← e2]; exact .inl h1
  · rcases h2 with h2 | ⟨e2, h2⟩
    · rw [e1]; exact .inl h2
    · exact .inr ⟨by rw [e1, e2], bytesLe_trans _ _ _ h1 h2⟩

theorem pairLe_antisymm {a b : Bytes × Bytes} (h1 : pairLe a b = true) (h2 : pairLe b a = true) : a = b := by
  rw [pairLe_iff] at *
  rcases h1 with h1 | ⟨e1, h1⟩
  · rcases h2 with h2 | ⟨e2, _⟩
    · have := bytesCmp_lt_trans h1 h2
      rw [bytesCmp_refl] at this; cases this
    · rw [e2, bytesCmp_refl] at h1; cases h1
  · rcases h2 with h2 | ⟨_, h2⟩
    · rw [e1, bytesCmp_refl] at h2; cases h2
    · exact Prod.ext e1 (bytesLe_antisymm h1 h2)

theorem sortPairs_perm (l) : (sortPairs l).Perm l := isort_perm pairLe l

theorem sortPairs_sorted (l) : (sortPairs l).Pairwise fun a b => pairLe a b = true :=
  isort_sorted pairLe_trans pairLe_total l

/-- sorting does not depend on the order of the input -/
theorem sortPairs_congr {l l' : List (Bytes × Bytes)} (h : l.Perm l') : sortPairs l = sortPairs l' := by
  apply List.Perm.eq_of_pairwise (le := fun a b => pairLe a b = true)
  · intro a b _ _; exact pairLe_antisymm
  · exact sortPairs_sorted l
  · exact sortPairs_sorted l'
  · exact (sortPairs_perm l).trans (h.trans (sortPairs_perm l').symm)

/-- the comparison with the target is monotone along the list -/
def Mono {α : Type} (l : List α) (f : α → Ordering) : Prop :=
  ∀ i j (hi : i < l.length) (hj : j < l.length), i ≤ j →
    (f l[i] = .gt → f l[j] = .gt) ∧ (f l[j] = .lt → f l[i] = .lt)

theorem binSearchLoop_some {α : Type} {l : List α} {f : α → Ordering} {fuel a b i : Nat}
    (h : binSearchLoop l f fuel a b = some i) : ∃ x, l[i]? = some x ∧ f x = .eq := by
  induction fuel generalizing a b with
  | zero => simp [binSearchLoop] at h
  | succ n ih =>
    simp only [binSearchLoop] at h
    split at h
    · split at h
      · cases h
      · rename_i x hx
        split at h
        · exact ih h
        · exact ih h
        · cases h; exact ⟨x, hx, ‹_›⟩
    · cases h

theorem binSearchLoop_none {α : Type} {l : List α} {f : α → Ordering} (hm : Mono l f)
    {fuel a b : Nat} (hb : b ≤ l.length) (hf : b - a < fuel)
    (hlo : ∀ i (hi : i < l.length), i < a → f l[i] = .lt)
    (hhi : ∀ i (hi : i < l.length), b ≤ i → f l[i] = .gt)
    (h : binSearchLoop l f fuel a b = none) : ∀ x ∈ l, f x ≠ .eq := by
  induction fuel generalizing a b with
  | zero => omega
  | succ n ih =>
    simp only [binSearchLoop] at h
    split at h
    · rename_i hab
      have hmid : a + (b - a) / 2 < l.length := by omega
      rw [List.getElem?_eq_getElem hmid] at h
      simp only at h
      split at h
      · rename_i hlt
        refine ih hb (by omega) ?_ hhi h
        intro i hi hia
        exact (hm i (a + (b - a) / 2) hi hmid (by omega)).2 hlt
      · rename_i hgt
        refine ih (by omega) (by omega) hlo ?_ h
        intro i hi hia
        exact (hm (a + (b - a) / 2) i hmid hi hia).1 hgt
      · cases h
    · intro x hx
      obtain ⟨i, hi, rfl⟩ := List.getElem_of_mem hx
      by_cases hia : i < a
      · rw [hlo i hi hia]; simp
      · rw [hhi i hi (by omega)]; simp

theorem binSearch_isSome {α : Type} {l : List α} {f : α → Ordering} (hm : Mono l f) :
    (binSearch l f).isSome = true ↔ ∃ x ∈ l, f x = .eq := by
  constructor
  · intro h
    obtain ⟨i, hi⟩ := Option.isSome_iff_exists.mp h
    obtain ⟨x, hx, hf⟩ := binSearchLoop_some hi
    exact ⟨x, List.mem_of_getElem? hx, hf⟩
  · rintro ⟨x, hx, hf⟩
    cases h : binSearch l f with
    | some i => rfl
    | none =>
      have := binSearchLoop_none hm (Nat.le_refl _) (by omega) (by intro i _ h; omega)
        (by intro i hi h; omega) h x hx
      exact absurd hf this

theorem bytesCmp_gt_iff {a b : Bytes} : bytesCmp a b = .gt ↔ bytesCmp b a = .lt := by
  rw [bytesCmp_swap b a]; cases bytesCmp b a <;> simp [Ordering.swap]

theorem mono_of_sorted {α : Type} {l : List α} {key : α → Bytes} {name : Bytes}
    (hs : l.Pairwise fun a b => bytesLe (key a) (key b) = true) :
    Mono l (fun p => bytesCmp (key p) name) := by
  intro i j hi hj hij
  have hle : bytesLe (key l[i]) (key l[j]) = true := by
    rcases Nat.lt_or_eq_of_le hij with h | h
    · exact List.pairwise_iff_getElem.mp hs i j hi hj h
    · subst h; exact bytesLe_refl _
  rw [bytesLe_iff] at hle
  constructor
  · intro h
    rw [bytesCmp_gt_iff] at h ⊢
    rcases hle with h' | h'
    · exact bytesCmp_lt_trans h h'
    · rw [← h']; exact h
  · intro h
    rcases hle with h' | h'
    · exact bytesCmp_lt_trans h' h
    · simp only [h']; exact h

theorem sorted_names {l : List (Bytes × Bytes)} (h : l.Pairwise fun a b => pairLe a b = true) :
    l.Pairwise fun a b => bytesLe a.1 b.1 = true := by
  refine h.imp ?_
  intro a b hab
  rw [pairLe_iff] at hab
  rw [bytesLe_iff]
  rcases hab with h | h
  · exact .inl h
  · exact .inr h.1

theorem orderedGet_some_mem {l : List (Bytes × Bytes)} {n v : Bytes}
    (h : orderedGet l n = some v) : (n, v) ∈ l := by
  simp only [orderedGet] at h
  split at h
  · cases h
  · rename_i i hi
    obtain ⟨x, hx, hf⟩ := binSearchLoop_some hi
    rw [hx] at h
    simp only [Option.map_some, Option.some.injEq] at h
    rw [bytesCmp_eq] at hf
    subst hf; subst h
    exact List.mem_of_getElem? hx

theorem orderedGet_none_iff {l : List (Bytes × Bytes)} {n : Bytes}
    (hs : l.Pairwise fun a b => pairLe a b = true) :
    orderedGet l n = none ↔ ∀ v, (n, v) ∉ l := by
  constructor
  · intro h v hm
    have : (binSearch l (fun p => bytesCmp p.1 n)).isSome = true :=
      (binSearch_isSome (mono_of_sorted (key := Prod.fst) (sorted_names hs))).mpr
        ⟨(n, v), hm, bytesCmp_refl n⟩
    obtain ⟨i, hi⟩ := Option.isSome_iff_exists.mp this
    obtain ⟨x, hx, _⟩ := binSearchLoop_some hi
    simp [orderedGet, hi, hx] at h
  · intro h
    cases hg : orderedGet l n with
    | none => rfl
    | some v => exact absurd (orderedGet_some_mem hg) (h v)

end S3
