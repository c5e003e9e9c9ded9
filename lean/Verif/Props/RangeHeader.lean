import Verif.Model.Range
import Verif.Spec.Range
import Verif.Lemmas.Nom
import Verif.Lemmas.Bytes
/-! C07: the Range header grammar. -/
namespace S3
open Spec

theorem digitsU64_append {d r : Bytes} {n : Nat} (hn : IsNum64 d n) (hr : NoDigitHead r) :
    digitsU64 (d ++ r) = some (n, r) := by
  obtain ⟨⟨hne, hd, hv⟩, hlt⟩ := hn
  simp only [digitsU64, digit1_append hd hne hr]
  have : parseUnsigned u64Max d = some n :=
    (parseUnsigned_digits hd hne).mpr ⟨hv, by simp only [u64Max]; omega⟩
  simp [this]

theorem digitsU64_some {s r : Bytes} {n : Nat} (h : digitsU64 s = some (n, r)) :
    ∃ d, s = d ++ r ∧ IsNum64 d n ∧ NoDigitHead r := by
  simp only [digitsU64] at h
  split at h
  · cases h
  · rename_i d rest hd
    obtain ⟨hs, hne, hall, hnd⟩ := digit1_some hd
    split at h
    · cases h
    · rename_i m hm
      cases h
      have := (parseUnsigned_digits hall hne).mp hm
      refine ⟨d, hs, ⟨⟨hne, hall, this.1⟩, ?_⟩, hnd⟩
      have := this.2; simp only [u64Max] at this; omega

theorem digitsU64_none_of_head {s : Bytes} (h : NoDigitHead s) : digitsU64 s = none := by
  have : digit1 s = none := by
    cases s with
    | nil => rfl
    | cons c t => simp [digit1, h c t rfl]
  simp [digitsU64, this]

/-- the range a parsed header stands for -/
def Range.denotes : Range → ByteRange
  | .normal f (some l) => .fromTo f l
  | .normal f none => .from_ f
  | .suffix n => .lastN n

theorem noDigitHead_dash (r : Bytes) : NoDigitHead (45 :: r) := by
  intro c t h; cases h; decide
theorem noDigitHead_nil : NoDigitHead [] := by intro c t h; cases h

theorem dash_not_num {ns r : Bytes} {n : Nat} : ¬ (∃ d, 45 :: ns = d ++ r ∧ IsNum64 d n) := by
  rintro ⟨d, h, hd⟩
  cases d with
  | nil => exact hd.1.1 rfl
  | cons c t =>
    simp at h
    have := hd.1.2.1 c (by simp)
    rw [← h.1] at this
    exact absurd this (by decide)

/-- **C07** A Range header is accepted, with value `r`, iff it is a spelling of `r`. -/
theorem C07_range_grammar (s : Bytes) (r : ByteRange) :
    (∃ v, Range.fromHeaderStr s = some v ∧ v.denotes = r) ↔ RangeHeader s r := by
  constructor
  · rintro ⟨v, h, rfl⟩
    unfold Range.fromHeaderStr at h
    split at h; · cases h
    rename_i s1 hs1
    rw [tag_some] at hs1; subst hs1
    split at h
    · rename_i r' hm
      cases h
      split at hm
      · rename_i r hr
        cases hm
        unfold normalRange at hr
        split at hr; · cases hr
        rename_i f s2 hf
        obtain ⟨fs, rfl, hfn, _⟩ := digitsU64_some hf
        split at hr; · cases hr
        rename_i s3 hs3
        rw [tag_some] at hs3; subst hs3
        split at hr
        rename_i last rest hlr
        split at hr
        · rename_i l
          split at hr; · cases hr
          rename_i hle
          cases hr
          split at hlr
          · cases hlr
          · rename_i hl
            cases hlr
            obtain ⟨ls, hls, hln, _⟩ := digitsU64_some hl
            simp at hls; subst hls
            have := RangeHeader.closed f l fs s3 hfn hln (by omega)
            simpa [Range.denotes] using this
        · split at hlr
          · cases hlr; cases hr
            have := RangeHeader.from_ f fs hfn
            simpa [Range.denotes] using this
          · cases hlr
      · unfold suffixRange at hm
        split at hm; · cases hm
        rename_i s2 hs2
        rw [tag_some] at hs2; subst hs2
        split at hm; · cases hm
        rename_i n rest hn
        cases hm
        obtain ⟨ns, hns, hnn, _⟩ := digitsU64_some hn
        simp at hns; subst hns
        have := RangeHeader.lastN n s2 hnn
        simpa [Range.denotes] using this
    · cases h
  · intro h
    cases h with
    | closed f l fs ls hf hl hle =>
      refine ⟨.normal f (some l), ?_, rfl⟩
      have e : b!"bytes=" ++ fs ++ b!"-" ++ ls = b!"bytes=" ++ (fs ++ (45 :: ls)) := by simp
      have h1 := digitsU64_append hf (noDigitHead_dash ls)
      have h2 : tag b!"-" (45 :: ls) = some ls := tag_append b!"-" ls
      have h3 := digitsU64_append hl noDigitHead_nil
      simp only [List.append_nil] at h3
      rw [e, Range.fromHeaderStr, tag_append]
      simp only [normalRange, h1, h2, h3]
      have : ¬ f > l := by omega
      simp [this]
    | from_ f fs hf =>
      refine ⟨.normal f none, ?_, rfl⟩
      have e : b!"bytes=" ++ fs ++ b!"-" = b!"bytes=" ++ (fs ++ (45 :: [])) := by simp
      have h1 := digitsU64_append hf (noDigitHead_dash [])
      have h2 : tag b!"-" (45 :: []) = some [] := rfl
      have h3 : digitsU64 [] = none := rfl
      rw [e, Range.fromHeaderStr, tag_append]
      simp only [normalRange, h1, h2, h3]
    | lastN n ns hn =>
      refine ⟨.suffix n, ?_, rfl⟩
      have e : b!"bytes=-" ++ ns = b!"bytes=" ++ (45 :: ns) := by simp
      have h1 : digitsU64 (45 :: ns) = none := digitsU64_none_of_head (noDigitHead_dash ns)
      have h2 : tag b!"-" (45 :: ns) = some ns := tag_append b!"-" ns
      have h3 := digitsU64_append hn noDigitHead_nil
      simp only [List.append_nil] at h3
      rw [e, Range.fromHeaderStr, tag_append]
      simp only [normalRange, suffixRange, h1, h2, h3]

/-! Non-vacuity -/
example : RangeHeader b!"bytes=10-499" (.fromTo 10 499) :=
  (C07_range_grammar _ _).mp ⟨.normal 10 (some 499), by decide, rfl⟩
example : RangeHeader b!"bytes=-0500" (.lastN 500) :=
  (C07_range_grammar _ _).mp ⟨.suffix 500, by decide, rfl⟩
example : Range.fromHeaderStr b!"bytes=5-3" = none := by decide
example : Range.fromHeaderStr b!"bytes=0-18446744073709551616" = none := by decide

end S3
