import Verif.Lemmas.Date
/-! C60: the `x-amz-date` header. -/
namespace S3
open Spec

theorem groups_some {s y mo d h mi se : Bytes} :
    AmzDate.groups s = some (y, mo, d, h, mi, se) ↔
      s = y ++ mo ++ d ++ b!"T" ++ h ++ mi ++ se ++ b!"Z" ∧
      (y.length = 4 ∧ mo.length = 2 ∧ d.length = 2 ∧ h.length = 2 ∧ mi.length = 2 ∧ se.length = 2) ∧
      (∀ g ∈ [y, mo, d, h, mi, se], ∀ c ∈ g, isDigit c = true) := by
  constructor
  · intro hh
    simp only [AmzDate.groups, Option.bind_eq_bind, Option.bind_eq_some_iff, Prod.exists,
      takeN_some, tag_some] at hh
    obtain ⟨y', s1, ⟨rfl, hy⟩, mo', s2, ⟨rfl, hmo⟩, d', s3, ⟨rfl, hd⟩, s4, rfl, h', s5, ⟨rfl, hh'⟩,
      mi', s6, ⟨rfl, hmi⟩, se', s7, ⟨rfl, hse⟩, s8, rfl, hr⟩ := hh
    split at hr
    · cases hr
    · rename_i hs8
      split at hr
      · rename_i hall
        cases hr
        simp only [ne_eq, Decidable.not_not] at hs8
        subst hs8
        refine ⟨by simp, ⟨hy, hmo, hd, hh', hmi, hse⟩, ?_⟩
        simp only [List.all_eq_true] at hall
        exact fun g hg c hc => hall g hg c hc
      · cases hr
  · rintro ⟨rfl, ⟨hy, hmo, hd, hh, hmi, hse⟩, hall⟩
    have hall' : [y, mo, d, h, mi, se].all (fun g => g.all isDigit) = true := by
      simp only [List.all_eq_true]; exact hall
    have e : y ++ mo ++ d ++ b!"T" ++ h ++ mi ++ se ++ b!"Z"
        = y ++ (mo ++ (d ++ (b!"T" ++ (h ++ (mi ++ (se ++ (b!"Z" ++ []))))))) := by simp
    rw [e]
    simp only [AmzDate.groups, takeN_append hy, takeN_append hmo, takeN_append hd, tag_append,
      takeN_append hh, takeN_append hmi, takeN_append hse, Option.bind_eq_bind, Option.bind_some,
      hall']
    simp

/-- **C60** (acceptance) a date header is accepted with the field values `a` iff it is
`YYYYMMDDTHHMMSSZ` in ASCII digits with these values. -/
theorem C60_amz_date_grammar (s : Bytes) (a : AmzDate) :
    AmzDate.fromHeaderStr s = some a ↔
      Iso8601Basic s a.year a.month a.day a.hour a.minute a.second := by
  have b4 : 10 ^ 4 ≤ u32Max := by decide
  have b2 : 10 ^ 2 ≤ u32Max := by decide
  constructor
  · intro h
    simp only [AmzDate.fromHeaderStr, Option.bind_eq_bind, Option.bind_eq_some_iff, Prod.exists] at h
    obtain ⟨y, mo, d, hh, mi, se, hg, y', hy, mo', hmo, d', hd, h', hh', mi', hmi, se', hse, e⟩ := h
    simp only [Option.pure_def, Option.some.injEq] at e
    subst e
    obtain ⟨hs, ⟨l1, l2, l3, l4, l5, l6⟩, hall⟩ := groups_some.mp hg
    exact ⟨y, mo, d, hh, mi, se,
      (parse_fixed (by omega) l1 (hall y (by simp)) b4).mp hy,
      (parse_fixed (by omega) l2 (hall mo (by simp)) b2).mp hmo,
      (parse_fixed (by omega) l3 (hall d (by simp)) b2).mp hd,
      (parse_fixed (by omega) l4 (hall hh (by simp)) b2).mp hh',
      (parse_fixed (by omega) l5 (hall mi (by simp)) b2).mp hmi,
      (parse_fixed (by omega) l6 (hall se (by simp)) b2).mp hse, hs⟩
  · rintro ⟨y, mo, d, h, mi, se, f1, f2, f3, f4, f5, f6, hs⟩
    have hg : AmzDate.groups s = some (y, mo, d, h, mi, se) := by
      refine groups_some.mpr ⟨hs, ⟨f1.1, f2.1, f3.1, f4.1, f5.1, f6.1⟩, ?_⟩
      intro g hg
      simp only [List.mem_cons, List.not_mem_nil, or_false] at hg
      rcases hg with rfl | rfl | rfl | rfl | rfl | rfl
      · exact f1.2.1
      · exact f2.2.1
      · exact f3.2.1
      · exact f4.2.1
      · exact f5.2.1
      · exact f6.2.1
    simp only [AmzDate.fromHeaderStr, hg, Option.bind_eq_bind, Option.bind_some,
      (parse_fixed (by omega) f1.1 f1.2.1 b4).mpr f1, (parse_fixed (by omega) f2.1 f2.2.1 b2).mpr f2,
      (parse_fixed (by omega) f3.1 f3.2.1 b2).mpr f3, (parse_fixed (by omega) f4.1 f4.2.1 b2).mpr f4,
      (parse_fixed (by omega) f5.1 f5.2.1 b2).mpr f5, (parse_fixed (by omega) f6.1 f6.2.1 b2).mpr f6,
      Option.pure_def]

/-- **C60** (round trip) formatting an accepted date gives back the header, and its date part is
the first eight characters. -/
theorem C60_amz_date_round_trip (s : Bytes) (a : AmzDate) (h : AmzDate.fromHeaderStr s = some a) :
    a.toIso8601 = s ∧ a.toDate = s.take 8 := by
  obtain ⟨y, mo, d, hh, mi, se, f1, f2, f3, f4, f5, f6, hs⟩ := (C60_amz_date_grammar s a).mp h
  subst hs
  constructor
  · simp only [AmzDate.toIso8601, fixed_pad (by omega) f1, fixed_pad (by omega) f2,
      fixed_pad (by omega) f3, fixed_pad (by omega) f4, fixed_pad (by omega) f5,
      fixed_pad (by omega) f6]
  · simp only [AmzDate.toDate, fixed_pad (by omega) f1, fixed_pad (by omega) f2,
      fixed_pad (by omega) f3]
    have l : (y ++ mo ++ d).length = 8 := by simp [f1.1, f2.1, f3.1]
    rw [show y ++ mo ++ d ++ b!"T" ++ hh ++ mi ++ se ++ b!"Z"
      = (y ++ mo ++ d) ++ (b!"T" ++ hh ++ mi ++ se ++ b!"Z") by simp, ← l, List.take_left]

/-! Non-vacuity -/
example : AmzDate.fromHeaderStr b!"20130524T000000Z" =
    some { year := 2013, month := 5, day := 24, hour := 0, minute := 0, second := 0 } := by
  decide +kernel
example : AmzDate.fromHeaderStr b!"+0130524T000000Z" = none := by decide +kernel

end S3
