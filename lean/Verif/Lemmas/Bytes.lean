import Verif.Base.Bytes
/-! Lemmas on byte strings. -/
namespace S3

theorem bytesCmp_refl (a : Bytes) : bytesCmp a a = .eq := by
  induction a with
  | nil => rfl
  | cons x xs ih => simp [bytesCmp, ih]

theorem bytesCmp_eq {a b : Bytes} : bytesCmp a b = .eq ↔ a = b := by
  constructor
  · intro h
    induction a generalizing b with
    | nil => cases b <;> simp_all [bytesCmp]
    | cons x xs ih =>
      cases b with
      | nil => simp [bytesCmp] at h
      | cons y ys =>
        simp only [bytesCmp] at h
        split at h <;> try contradiction
        split at h <;> try contradiction
        rename_i h1 h2
        have : x = y := UInt8.le_antisymm (UInt8.not_lt.mp h2) (UInt8.not_lt.mp h1)
        simp [this, ih h]
  · rintro rfl; exact bytesCmp_refl a

theorem bytesCmp_swap (a b : Bytes) : bytesCmp b a = (bytesCmp a b).swap := by
  induction a generalizing b with
  | nil => cases b <;> rfl
  | cons x xs ih =>
    cases b with
    | nil => rfl
    | cons y ys =>
      simp only [bytesCmp]
      by_cases h1 : x < y
      · simp [h1, UInt8.lt_asymm h1]
      · by_cases h2 : y < x
        · simp [h1, h2]
        · simp [h1, h2, ih]

theorem bytesCmp_lt_trans {a b c : Bytes} (h1 : bytesCmp a b = .lt) (h2 : bytesCmp b c = .lt) :
    bytesCmp a c = .lt := by
  induction a generalizing b c with
  | nil =>
    cases c with
    | nil => cases b <;> simp_all [bytesCmp]
    | cons z zs => rfl
  | cons x xs ih =>
    cases b with
    | nil => simp [bytesCmp] at h1
    | cons y ys =>
      cases c with
      | nil => simp [bytesCmp] at h2
      | cons z zs =>
        simp only [bytesCmp] at h1 h2 ⊢
        by_cases hxy : x < y
        · by_cases hyz : y < z
          · simp [UInt8.lt_trans hxy hyz]
          · by_cases hzy : z < y
            · simp [hyz, hzy] at h2
            · have : y = z := UInt8.le_antisymm (UInt8.not_lt.mp hzy) (UInt8.not_lt.mp hyz)
              subst this; simp [hxy]
        · by_cases hyx : y < x
          · simp [hxy, hyx] at h1
          · have : x = y := UInt8.le_antisymm (UInt8.not_lt.mp hyx) (UInt8.not_lt.mp hxy)
            subst this
            simp only [UInt8.lt_irrefl, if_false] at h1
            by_cases hyz : x < z
            · simp [hyz]
            · by_cases hzy : z < x
              · simp [hyz, hzy] at h2
              · simp only [hyz, hzy, if_false] at h2 ⊢
                exact ih h1 h2

theorem bytesLe_refl (a : Bytes) : bytesLe a a = true := by simp [bytesLe, bytesCmp_refl]

theorem bytesLe_total (a b : Bytes) : (bytesLe a b || bytesLe b a) = true := by
  simp only [bytesLe, bytesCmp_swap a b]
  cases bytesCmp a b <;> rfl

theorem bytesLe_iff {a b : Bytes} : bytesLe a b = true ↔ bytesCmp a b = .lt ∨ a = b := by
  rw [← bytesCmp_eq (a := a) (b := b)]
  simp only [bytesLe]
  cases bytesCmp a b <;> simp

theorem bytesLe_trans (a b c : Bytes) (h1 : bytesLe a b = true) (h2 : bytesLe b c = true) :
    bytesLe a c = true := by
  rw [bytesLe_iff] at *
  rcases h1 with h1 | rfl
  · rcases h2 with h2 | rfl
    · exact .inl (bytesCmp_lt_trans h1 h2)
    · exact .inl h1
  · exact h2

theorem bytesLe_antisymm {a b : Bytes} (h1 : bytesLe a b = true) (h2 : bytesLe b a = true) :
    a = b := by
  rw [bytesLe_iff] at *
  rcases h1 with h1 | rfl
  · rcases h2 with h2 | rfl
    · have := bytesCmp_lt_trans h1 h2
      simp [bytesCmp_refl] at this
    · rfl
  · rfl

/-! ### splitOnce -/

theorem splitOnce_some {c : UInt8} {s a b : Bytes} :
    splitOnce c s = some (a, b) ↔ s = a ++ c :: b ∧ c ∉ a := by
  induction s generalizing a b with
  | nil => simp [splitOnce]
  | cons x xs ih =>
    simp only [splitOnce]
    by_cases hx : x = c
    · subst hx
      simp only [if_true, Option.some.injEq, Prod.mk.injEq]
      constructor
      · rintro ⟨rfl, rfl⟩; simp
      · rintro ⟨h, hn⟩
        cases a with
        | nil => simpa using h
        | cons y ys =>
          simp only [List.cons_append, List.cons.injEq] at h
          exact absurd (List.mem_cons.mpr (.inl h.1)) hn
    · simp only [hx, if_false]
      cases hsp : splitOnce c xs with
      | none =>
        simp only [reduceCtorEq, false_iff]
        rintro ⟨h, hn⟩
        cases a with
        | nil => simp at h; exact hx h.1
        | cons y ys =>
          simp only [List.cons_append, List.cons.injEq] at h
          have := (ih (a := ys) (b := b)).mpr ⟨h.2, fun hm => hn (List.mem_cons_of_mem _ hm)⟩
          rw [hsp] at this; cases this
      | some p =>
        obtain ⟨p, q⟩ := p
        simp only [Option.some.injEq, Prod.mk.injEq]
        have := (ih (a := p) (b := q)).mp hsp
        constructor
        · rintro ⟨rfl, rfl⟩
          refine ⟨by simp [this.1], ?_⟩
          simp only [List.mem_cons, not_or]
          exact ⟨fun h => hx h.symm, this.2⟩
        · rintro ⟨h, hn⟩
          cases a with
          | nil => simp at h; exact absurd h.1 hx
          | cons y ys =>
            simp only [List.cons_append, List.cons.injEq] at h
            have h2 := (ih (a := ys) (b := b)).mpr ⟨h.2, fun hm => hn (List.mem_cons_of_mem _ hm)⟩
            rw [hsp] at h2
            simp only [Option.some.injEq, Prod.mk.injEq] at h2
            exact ⟨by rw [h.1, h2.1], h2.2⟩

theorem splitOnce_none {c : UInt8} {s : Bytes} : splitOnce c s = none ↔ c ∉ s := by
  constructor
  · intro h hm
    obtain ⟨a, b, hab⟩ := List.append_of_mem hm
    clear hm
    induction a generalizing s with
    | nil => subst hab; simp [splitOnce] at h
    | cons x xs ih =>
      subst hab
      simp only [List.cons_append, splitOnce] at h
      split at h
      · cases h
      · split at h
        · rename_i h2; exact ih h2 rfl
        · cases h
  · intro h
    cases hs : splitOnce c s with
    | none => rfl
    | some p =>
      obtain ⟨a, b⟩ := p
      have := (splitOnce_some.mp hs).1
      exact absurd (by rw [this]; simp) h

/-! ### splitAll / joinWith -/

theorem splitAll_ne_nil (c : UInt8) (s : Bytes) : splitAll c s ≠ [] := by
  cases s with
  | nil => simp [splitAll]
  | cons x xs =>
    simp only [splitAll]; split
    · simp
    · split <;> simp

theorem joinWith_splitAll (c : UInt8) (s : Bytes) : joinWith c (splitAll c s) = s := by
  induction s with
  | nil => rfl
  | cons x xs ih =>
    simp only [splitAll]
    split
    · rename_i h; subst h
      cases hsp : splitAll x xs with
      | nil => exact absurd hsp (splitAll_ne_nil _ _)
      | cons h t => rw [hsp] at ih; simp [joinWith, ih]
    · cases hsp : splitAll c xs with
      | nil => exact absurd hsp (splitAll_ne_nil _ _)
      | cons h t =>
        rw [hsp] at ih
        cases t with
        | nil => simpa [joinWith] using ih
        | cons h2 t2 => simp [joinWith] at ih ⊢; exact ih

theorem not_mem_of_mem_splitAll {c : UInt8} {s p : Bytes} (h : p ∈ splitAll c s) : c ∉ p := by
  induction s generalizing p with
  | nil => simp [splitAll] at h; simp [h]
  | cons x xs ih =>
    simp only [splitAll] at h
    split at h
    · rcases List.mem_cons.mp h with rfl | h
      · simp
      · exact ih h
    · rename_i hx
      cases hsp : splitAll c xs with
      | nil => exact absurd hsp (splitAll_ne_nil _ _)
      | cons hd tl =>
        rw [hsp] at h ih
        rcases List.mem_cons.mp h with rfl | h
        · have := ih (p := hd) (by simp)
          simp only [List.mem_cons, not_or]
          exact ⟨fun e => hx e.symm, this⟩
        · exact ih (List.mem_cons_of_mem _ h)

theorem splitAll_of_not_mem {c : UInt8} {s : Bytes} (h : c ∉ s) : splitAll c s = [s] := by
  induction s with
  | nil => rfl
  | cons x xs ih =>
    simp only [List.mem_cons, not_or] at h
    have hx : x ≠ c := fun e => h.1 e.symm
    simp [splitAll, hx, ih h.2]

theorem splitAll_append {c : UInt8} {a b : Bytes} (h : c ∉ a) :
    splitAll c (a ++ c :: b) = a :: splitAll c b := by
  induction a with
  | nil => simp [splitAll]
  | cons x xs ih =>
    simp only [List.mem_cons, not_or] at h
    have hx : x ≠ c := fun e => h.1 e.symm
    simp [splitAll, hx, ih h.2]

theorem splitAll_joinWith {c : UInt8} {ps : List Bytes} (hne : ps ≠ []) (h : ∀ p ∈ ps, c ∉ p) :
    splitAll c (joinWith c ps) = ps := by
  induction ps with
  | nil => exact absurd rfl hne
  | cons p r ih =>
    cases r with
    | nil => simp [joinWith, splitAll_of_not_mem (h p (by simp))]
    | cons q r =>
      simp only [joinWith]
      rw [splitAll_append (h p (by simp)), ih (by simp) (fun x hx => h x (List.mem_cons_of_mem _ hx))]

theorem startsWith_iff {s p : Bytes} : startsWith s p = true ↔ ∃ t, s = p ++ t := by
  simp only [startsWith, List.isPrefixOf_iff_prefix, List.IsPrefix]
  exact ⟨fun ⟨t, h⟩ => ⟨t, h.symm⟩, fun ⟨t, h⟩ => ⟨t, h.symm⟩⟩

theorem endsWithByte_iff {s : Bytes} {c : UInt8} : endsWithByte s c = true ↔ ∃ t, s = t ++ [c] := by
  simp only [endsWithByte, beq_iff_eq, List.getLast?_eq_some_iff]

/-- the first separator determines both sides -/
theorem sep_inj {c : UInt8} {a b a' b' : Bytes} (h : a ++ c :: b = a' ++ c :: b') (ha : c ∉ a)
    (ha' : c ∉ a') : a = a' ∧ b = b' := by
  have e0 : splitOnce c (a ++ c :: b) = some (a, b) := splitOnce_some.mpr ⟨rfl, ha⟩
  rw [h, splitOnce_some.mpr ⟨rfl, ha'⟩] at e0
  injection e0 with e0
  injection e0 with e1 e2
  exact ⟨e1.symm, e2.symm⟩

end S3
