import Verif.Model.CopySource
import Verif.Props.Path
/-! C62: the `x-amz-copy-source` header. -/
namespace S3
open Spec

theorem copySourceSplit_some {s b k : Bytes} :
    copySourceSplit s = some (b, k) ↔
      s = b ++ b!"/" ++ k ∧ k ≠ [] ∧ 10 ∉ s ∧ ∃ x t, b = x :: t ∧ 47 ∉ t := by
  unfold copySourceSplit
  by_cases h10 : s.contains 10 = true
  · simp only [h10, if_true, reduceCtorEq, false_iff]
    rintro ⟨_, _, h, _⟩; exact h (by simpa using h10)
  · have h10' : 10 ∉ s := by simpa using h10
    simp only [h10, Bool.false_eq_true, if_false]
    cases s with
    | nil => simp
    | cons x xs =>
      simp only
      split
      · rename_i hn
        rw [splitOnce_none] at hn
        simp only [reduceCtorEq, false_iff]
        rintro ⟨h, _, _, y, t, rfl, _⟩
        simp only [List.cons_append, List.cons.injEq] at h
        exact hn (by rw [h.2]; simp)
      · rename_i a ha
        rw [splitOnce_some] at ha
        simp only [reduceCtorEq, false_iff]
        rintro ⟨h, hk, _, y, t, rfl, ht⟩
        simp only [List.cons_append, List.cons.injEq] at h
        have : splitOnce 47 xs = some (t, k) := splitOnce_some.mpr ⟨by rw [h.2]; simp, ht⟩
        rw [splitOnce_some.mpr ha] at this
        cases this; exact hk rfl
      · rename_i a k' hk' ha
        have ha' := splitOnce_some.mp ha
        simp only [Option.some.injEq, Prod.mk.injEq]
        constructor
        · rintro ⟨rfl, rfl⟩
          refine ⟨by simp [ha'.1], ?_, h10', x, a, rfl, ha'.2⟩
          intro e; subst e; exact hk' rfl
        · rintro ⟨h, hk, _, y, t, rfl, ht⟩
          simp only [List.cons_append, List.cons.injEq] at h
          have : splitOnce 47 xs = some (t, k) := splitOnce_some.mpr ⟨by rw [h.2]; simp, ht⟩
          rw [ha] at this
          cases this; simp [h.1]

theorem legal_no_newline {b : Bytes} (h : LegalBucket b) : (10 : UInt8) ∉ b := by
  intro hm
  rcases h.chars 10 hm with (h | h) | h | h <;> revert h <;> decide

/-- **C62** A copy source is accepted as object `k` of bucket `b` iff it is literally `b/k`, with a
legal bucket name and a non-empty key of at most 1024 bytes (and no line feed, which no header
value contains). -/
theorem C62_copy_source (s b k : Bytes) :
    copySourceFromHeader s = .ok (b, k) ↔
      s = b ++ b!"/" ++ k ∧ LegalBucket b ∧ k ≠ [] ∧ k.length ≤ 1024 ∧ 10 ∉ k := by
  unfold copySourceFromHeader
  constructor
  · intro h
    split at h
    · cases h
    · rename_i b' k' hs
      obtain ⟨rfl, hk, hn, x, t, rfl, ht⟩ := copySourceSplit_some.mp hs
      split at h
      · cases h
      · rename_i hb
        split at h
        · cases h
        · rename_i hk'
          cases h
          refine ⟨rfl, (C02_bucket_name_rule _).mp (by simpa using hb), hk, ?_, ?_⟩
          · simpa [checkKey] using hk'
          · intro h; exact hn (by simp [h])
  · rintro ⟨rfl, hb, hk, hl, hn⟩
    have hns := legal_no_slash hb
    have hnn := legal_no_newline hb
    have hb' := (C02_bucket_name_rule _).mpr hb
    obtain ⟨x, t, rfl⟩ : ∃ x t, b = x :: t := by
      cases b with
      | nil => have := hb.len.1; simp at this
      | cons x t => exact ⟨x, t, rfl⟩
    have : copySourceSplit (x :: t ++ b!"/" ++ k) = some (x :: t, k) :=
      copySourceSplit_some.mpr ⟨rfl, hk, by
        simp only [List.mem_append, not_or]; exact ⟨⟨hnn, by decide⟩, hn⟩, x, t, rfl,
        fun h => hns (by simp [h])⟩
    rw [this]
    simp [hb', checkKey, hl]

theorem legal_nonempty {b : Bytes} (h : LegalBucket b) : b ≠ [] := by
  rintro rfl; exact absurd h.len.1 (by simp)

/-- **C62** (uniqueness) a copy source addresses at most one object. -/
theorem C62_copy_source_unique (b k b' k' : Bytes) (hb : LegalBucket b) (hb' : LegalBucket b')
    (h : b ++ b!"/" ++ k = b' ++ b!"/" ++ k') : b = b' ∧ k = k' := by
  have h1 : splitOnce 47 (b ++ b!"/" ++ k) = some (b, k) :=
    splitOnce_some.mpr ⟨by simp, legal_no_slash hb⟩
  have h2 : splitOnce 47 (b ++ b!"/" ++ k) = some (b', k') :=
    splitOnce_some.mpr ⟨by rw [h]; simp, legal_no_slash hb'⟩
  rw [h1] at h2; cases h2; exact ⟨rfl, rfl⟩

/-! Non-vacuity -/
example : copySourceFromHeader b!"abc/d/e" = .ok (b!"abc", b!"d/e") := by decide +kernel
example : copySourceFromHeader b!"/abc/d" = .error .invalidBucketName := by decide +kernel

end S3
