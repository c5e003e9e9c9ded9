import Verif.Model.Nom
import Verif.Lemmas.Num
import Verif.Lemmas.Bytes
/-! Lemmas about the nom combinators. -/
namespace S3

theorem tag_some {t s r : Bytes} : tag t s = some r ↔ s = t ++ r := by
  simp only [tag]
  by_cases h : startsWith s t = true
  · simp only [h, if_true, Option.some.injEq]
    obtain ⟨u, rfl⟩ := startsWith_iff.mp h
    simp
  · simp only [h, Bool.false_eq_true, if_false, reduceCtorEq, false_iff]
    intro e; exact h (startsWith_iff.mpr ⟨r, e⟩)

theorem tag_append (t r : Bytes) : tag t (t ++ r) = some r := tag_some.mpr rfl

/-- head of `r` is not a digit -/
def NoDigitHead (r : Bytes) : Prop := ∀ c t, r = c :: t → isDigit c = false

theorem digit1_append {d r : Bytes} (hd : ∀ c ∈ d, isDigit c = true) (hne : d ≠ [])
    (hr : NoDigitHead r) : digit1 (d ++ r) = some (d, r) := by
  have : (d ++ r).takeWhile isDigit = d := by
    rw [List.takeWhile_append_of_pos hd]
    cases r with
    | nil => simp
    | cons c t => simp [hr c t rfl]
  simp [digit1, this, hne]

theorem drop_takeWhile_length {α} (s : List α) (p : α → Bool) :
    s.drop (s.takeWhile p).length = s.dropWhile p := by
  induction s with
  | nil => rfl
  | cons c t ih => by_cases h : p c = true <;> simp_all

theorem digit1_some {s d r : Bytes} (h : digit1 s = some (d, r)) :
    s = d ++ r ∧ d ≠ [] ∧ (∀ c ∈ d, isDigit c = true) ∧ NoDigitHead r := by
  simp only [digit1] at h
  split at h
  · cases h
  · rename_i hne
    simp only [Option.some.injEq, Prod.mk.injEq] at h
    obtain ⟨rfl, hr⟩ := h
    have hs : s = s.takeWhile isDigit ++ s.dropWhile isDigit := by simp
    have hr2 : r = s.dropWhile isDigit := by
      rw [← hr]; exact drop_takeWhile_length s isDigit
    refine ⟨by rw [hr2]; exact hs, hne, ?_, ?_⟩
    · intro c hc
      have := List.all_takeWhile (l := s) (p := isDigit)
      exact List.all_eq_true.mp this c hc
    · intro c t ht
      rw [hr2] at ht
      have h2 := List.head?_dropWhile_not isDigit s
      rw [ht] at h2; simpa using h2


theorem takeN_some {n : Nat} {s a b : Bytes} : takeN n s = some (a, b) ↔ s = a ++ b ∧ a.length = n := by
  simp only [takeN]
  split
  · rename_i h
    simp only [reduceCtorEq, false_iff, not_and]
    rintro rfl; simp at h; omega
  · rename_i h
    simp only [Option.some.injEq, Prod.mk.injEq]
    constructor
    · rintro ⟨rfl, rfl⟩; simp; omega
    · rintro ⟨rfl, hl⟩; subst hl; simp

theorem takeN_append {a b : Bytes} {n : Nat} (h : a.length = n) : takeN n (a ++ b) = some (a, b) :=
  takeN_some.mpr ⟨rfl, h⟩

/-- the head of `r`, if any, satisfies `p` -/
def HeadIs (p : UInt8 → Bool) (r : Bytes) : Prop := ∀ c t, r = c :: t → p c = true

theorem headIs_nil (p) : HeadIs p [] := by intro c t h; cases h
theorem headIs_cons {p c r} (h : p c = true) : HeadIs p (c :: r) := by intro _ _ e; cases e; exact h

theorem takeTill_some {p : UInt8 → Bool} {s a b : Bytes} :
    takeTill p s = (a, b) ↔ s = a ++ b ∧ (∀ c ∈ a, p c = false) ∧ HeadIs p b := by
  simp only [takeTill, Prod.mk.injEq, drop_takeWhile_length]
  constructor
  · rintro ⟨rfl, rfl⟩
    refine ⟨by simp, ?_, ?_⟩
    · intro c hc
      have := List.all_eq_true.mp (List.all_takeWhile (l := s) (p := fun c => !p c)) c hc
      simpa using this
    · intro c t ht
      have h2 := List.head?_dropWhile_not (fun c => !p c) s
      rw [ht] at h2; simpa using h2
  · rintro ⟨rfl, ha, hb⟩
    have ha' : ∀ c ∈ a, (fun c => !p c) c = true := by intro c hc; simp [ha c hc]
    rw [List.takeWhile_append_of_pos ha', List.dropWhile_append_of_pos ha']
    cases b with
    | nil => simp
    | cons c t => simp [hb c t rfl]

theorem takeTill1_some {p : UInt8 → Bool} {s a b : Bytes} :
    takeTill1 p s = some (a, b) ↔ s = a ++ b ∧ a ≠ [] ∧ (∀ c ∈ a, p c = false) ∧ HeadIs p b := by
  simp only [takeTill1]
  generalize h : takeTill p s = ab
  obtain ⟨a', b'⟩ := ab
  have hh := takeTill_some.mp h
  simp only
  split
  · rename_i hn; subst hn
    simp only [reduceCtorEq, false_iff]
    rintro ⟨h1, h2, h3, h4⟩
    have := takeTill_some.mpr ⟨h1, h3, h4⟩
    rw [h] at this; cases this; exact h2 rfl
  · simp only [Option.some.injEq, Prod.mk.injEq]
    constructor
    · rintro ⟨rfl, rfl⟩; exact ⟨hh.1, ‹_›, hh.2⟩
    · rintro ⟨h1, h2, h3, h4⟩
      have := takeTill_some.mpr ⟨h1, h3, h4⟩
      rw [h] at this; cases this; exact ⟨rfl, rfl⟩

theorem multispace0_append {w r : Bytes} (hw : ∀ c ∈ w, isMultispace c = true)
    (hr : HeadIs (fun c => !isMultispace c) r) : multispace0 (w ++ r) = r := by
  rw [multispace0, drop_takeWhile_length, List.dropWhile_append_of_pos hw]
  cases r with
  | nil => simp
  | cons c t => have := hr c t rfl; simp at this; simp [this]

theorem multispace0_spec (s : Bytes) :
    ∃ w, s = w ++ multispace0 s ∧ (∀ c ∈ w, isMultispace c = true) := by
  refine ⟨s.takeWhile isMultispace, by simp [multispace0, drop_takeWhile_length], ?_⟩
  intro c hc
  exact List.all_eq_true.mp (List.all_takeWhile (l := s) (p := isMultispace)) c hc

theorem multispace1_append {w r : Bytes} (hne : w ≠ []) (hw : ∀ c ∈ w, isMultispace c = true)
    (hr : HeadIs (fun c => !isMultispace c) r) : multispace1 (w ++ r) = some r := by
  rw [multispace1, multispace0_append hw hr, List.takeWhile_append_of_pos hw]
  simp [hne]

theorem multispace1_spec {s r : Bytes} (h : multispace1 s = some r) :
    ∃ w, s = w ++ r ∧ w ≠ [] ∧ (∀ c ∈ w, isMultispace c = true) := by
  simp only [multispace1] at h
  split at h
  · cases h
  · rename_i hne
    cases h
    refine ⟨s.takeWhile isMultispace, by simp [multispace0, drop_takeWhile_length], hne, ?_⟩
    intro c hc
    exact List.all_eq_true.mp (List.all_takeWhile (l := s) (p := isMultispace)) c hc

end S3
