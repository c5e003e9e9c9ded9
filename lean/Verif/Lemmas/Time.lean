import Verif.Model.Time
import Verif.Spec.Time
import Verif.Lemmas.Date
namespace S3
open Spec

/-! ### the calendar -/

theorem isLeapYear_iff (y : Nat) : isLeapYear y = true ↔ Leap y := by
  simp [isLeapYear, Leap]

theorem yearDays_cases (y : Nat) : (Leap y ∧ yearDays y = 366) ∨ (¬ Leap y ∧ yearDays y = 365) := by
  by_cases h : Leap y
  · exact .inl ⟨h, if_pos h⟩
  · exact .inr ⟨h, if_neg h⟩

theorem yearDelta_succ (y : Nat) : 365 + yearDelta (y + 1) = yearDelta y + yearDays y := by
  rcases yearDays_cases y with ⟨h, e⟩ | ⟨h, e⟩ <;> rw [e] <;> simp only [yearDelta, Leap] at h ⊢ <;> omega

theorem yearDelta_cycle (q y : Nat) : yearDelta (q * 400 + y) = 97 * q + yearDelta y := by
  simp only [yearDelta]; omega

theorem yearDays_cycle (q y : Nat) : yearDays (q * 400 + y) = yearDays y := by
  rcases yearDays_cases y with ⟨h, e⟩ | ⟨h, e⟩ <;> rcases yearDays_cases (q * 400 + y) with ⟨h', e'⟩ | ⟨h', e'⟩ <;>
    rw [e, e'] <;> simp only [Leap] at h h' <;> omega

theorem sum_years (y : Nat) : ((List.range y).map yearDays).sum = 365 * y + yearDelta y := by
  induction y with
  | zero => rfl
  | succ y ih =>
    rw [List.range_succ, List.map_append, List.sum_append, ih]
    have := yearDelta_succ y
    simp only [List.map_cons, List.map_nil, List.sum_cons, List.sum_nil]
    omega

theorem yearOrdinal_spec (days : Nat) :
    365 * (yearOrdinal days).1 + yearDelta (yearOrdinal days).1 + (yearOrdinal days).2 = days ∧
    (yearOrdinal days).2 < yearDays (yearOrdinal days).1 := by
  have hc : days % 146097 < 146097 := Nat.mod_lt _ (by omega)
  have hd : days / 146097 * 146097 + days % 146097 = days := Nat.div_add_mod' days 146097
  revert hc hd
  rw [yearOrdinal]
  generalize days % 146097 = c
  generalize days / 146097 = q
  intro hc hd
  have hy : c / 365 ≤ 400 := Nat.le_of_lt_succ (Nat.div_lt_of_lt_mul (by omega))
  have ho : c / 365 * 365 + c % 365 = c := Nat.div_add_mod' c 365
  have hl : c % 365 < 365 := Nat.mod_lt _ (by omega)
  revert hy ho hl
  generalize c / 365 = y
  generalize c % 365 = o
  intro hy ho hl
  have hb : yearDelta y ≤ 97 := by
    have h1 : (y + 3) / 4 ≤ 100 := by omega
    have h2 : (y + 3) / 4 ≤ (y + 99) / 100 + 96 ∨ y = 400 := by omega
    have h3 : (y + 399) / 400 ≤ 1 := by omega
    rcases h2 with h2 | rfl
    · simp only [yearDelta]; omega
    · decide
  by_cases h : o < yearDelta y
  · have h1 : 1 ≤ y := by
      rcases Nat.eq_zero_or_pos y with rfl | h'
      · exact absurd h (by simp [yearDelta])
      · exact h'
    obtain ⟨z, rfl⟩ : ∃ z, y = z + 1 := ⟨y - 1, by omega⟩
    have hz := yearDelta_succ z
    have hs : yearDays z ≤ 366 ∧ 365 ≤ yearDays z := by rcases yearDays_cases z with ⟨_, e⟩ | ⟨_, e⟩ <;> omega
    simp only [h, if_true, Nat.add_sub_cancel]
    rw [yearDelta_cycle, yearDays_cycle]
    omega
  · simp only [h, if_false]
    have hs : 365 ≤ yearDays y := by rcases yearDays_cases y with ⟨_, e⟩ | ⟨_, e⟩ <;> omega
    rw [yearDelta_cycle, yearDays_cycle]
    omega

theorem monthLengths_get {y m : Nat} (h : m < 12) : (monthLengths (isLeapYear y))[m]? = some (monthDays y (m + 1)) := by
  have hl : isLeapYear y = decide (Leap y) := by
    rcases Bool.eq_false_or_eq_true (isLeapYear y) with h | h
    · rw [h]; simp [(isLeapYear_iff y).mp h]
    · rw [h]
      have : ¬ Leap y := fun hl => by rw [(isLeapYear_iff y).mpr hl] at h; simp at h
      simp [this]
  rw [hl]
  match m, h with
  | 0, _ | 1, _ | 2, _ | 3, _ | 4, _ | 5, _ | 6, _ | 7, _ | 8, _ | 9, _ | 10, _ | 11, _ =>
    by_cases hh : Leap y <;> simp [monthLengths, monthDays, hh]
  | n + 12, h => omega

theorem monthLengths_eq (y : Nat) : monthLengths (isLeapYear y) = (List.range' 1 12).map (monthDays y) := by
  apply List.ext_getElem?
  intro i
  by_cases h : i < 12
  · rw [monthLengths_get h, List.getElem?_map, List.getElem?_range' (by omega)]
    simp [Nat.add_comm]
  · rw [List.getElem?_eq_none (by simp [monthLengths]; omega), List.getElem?_eq_none (by simp; omega)]

theorem sum_months {y m : Nat} (h : m ≤ 12) :
    ((monthLengths (isLeapYear y)).take m).sum = ((List.range' 1 m).map (monthDays y)).sum := by
  rw [monthLengths_eq, ← List.map_take]
  congr 2
  apply List.ext_getElem?
  intro i
  by_cases hi : i < m
  · rw [List.getElem?_take_of_lt hi, List.getElem?_range' (by omega), List.getElem?_range' hi]
  · rw [List.getElem?_eq_none (by simp; omega), List.getElem?_eq_none (by simp; omega)]

theorem calendar_days_iff {y m d : Nat} : CalendarDate y m d ↔ 1 ≤ m ∧ m ≤ 12 ∧ 1 ≤ d ∧ d ≤ monthDays y m := by
  constructor
  · rintro ⟨h1, h | h | h⟩
    · obtain ⟨hm, hd⟩ := h
      simp only [List.mem_cons, List.not_mem_nil, or_false] at hm
      rcases hm with rfl | rfl | rfl | rfl | rfl | rfl | rfl <;> simp [monthDays] <;> omega
    · obtain ⟨hm, hd⟩ := h
      simp only [List.mem_cons, List.not_mem_nil, or_false] at hm
      rcases hm with rfl | rfl | rfl | rfl <;> simp [monthDays] <;> omega
    · obtain ⟨rfl, hd⟩ := h
      refine ⟨by omega, by omega, h1, ?_⟩
      rcases hd with hd | ⟨rfl, hl⟩
      · simp only [monthDays, if_true]; split <;> omega
      · simp [monthDays, hl]
  · rintro ⟨h1, h2, h3, h4⟩
    refine ⟨h3, ?_⟩
    match m, h1, h2 with
    | 1, _, _ | 3, _, _ | 5, _, _ | 7, _, _ | 8, _, _ | 10, _, _ | 12, _, _ =>
      left; exact ⟨by decide, by simpa [monthDays] using h4⟩
    | 4, _, _ | 6, _, _ | 9, _, _ | 11, _, _ =>
      right; left; exact ⟨by decide, by simpa [monthDays] using h4⟩
    | 2, _, _ =>
      right; right
      refine ⟨rfl, ?_⟩
      simp only [monthDays, if_true] at h4
      split at h4
      · rename_i hl
        by_cases h : d ≤ 28
        · exact .inl h
        · exact .inr ⟨by omega, hl⟩
      · exact .inl h4
    | n + 13, _, h => omega

theorem monthDay_spec : ∀ (ls : List Nat) (m o : Nat), o < ls.sum →
    ∃ i l, ls[i]? = some l ∧ (monthDay ls m o).1 = m + i ∧ 1 ≤ (monthDay ls m o).2 ∧ (monthDay ls m o).2 ≤ l ∧
      (ls.take i).sum + ((monthDay ls m o).2 - 1) = o
  | [], m, o, h => by simp at h
  | l :: ls, m, o, h => by
    rw [monthDay]
    split
    · rename_i hl
      exact ⟨0, l, rfl, rfl, by simp, hl, by simp⟩
    · rename_i hl
      rw [List.sum_cons] at h
      obtain ⟨i, l', h1, h2, h3, h4, h5⟩ := monthDay_spec ls (m + 1) (o - l) (by omega)
      refine ⟨i + 1, l', by simpa using h1, by rw [h2]; omega, h3, h4, ?_⟩
      rw [List.take_succ_cons, List.sum_cons]
      omega

theorem sum_year (y : Nat) : (monthLengths (isLeapYear y)).sum = yearDays y := by
  have hl := isLeapYear_iff y
  by_cases h : Leap y
  · rw [hl.mpr h]; simp [monthLengths, yearDays, h]
  · have : isLeapYear y = false := by simpa using fun hh => h (hl.mp hh)
    rw [this]; simp [monthLengths, yearDays, h]

/-- the fields computed from a number of seconds are a date and a time of day, and denote that number of seconds -/
theorem civil_spec (s : Nat) : CalendarDate (civilOf s).year (civilOf s).month (civilOf s).day ∧
    (civilOf s).hour < 24 ∧ (civilOf s).minute < 60 ∧ (civilOf s).second < 60 ∧
    dayNumber (civilOf s).year (civilOf s).month (civilOf s).day = s / 86400 ∧
    dayNumber (civilOf s).year (civilOf s).month (civilOf s).day * 86400 + (civilOf s).hour * 3600 + (civilOf s).minute * 60 +
      (civilOf s).second = s := by
  obtain ⟨h1, h2⟩ := yearOrdinal_spec (s / 86400)
  rw [← sum_year] at h2
  obtain ⟨i, l, e1, e2, e3, e4, e5⟩ := monthDay_spec _ 1 _ h2
  have hi : i < 12 := by
    have := (List.getElem?_eq_some_iff.mp e1).1
    simpa [monthLengths] using this
  rw [monthLengths_get hi] at e1
  injection e1 with e1
  have em : (civilOf s).month = 1 + i := e2
  have ed : (civilOf s).day = (monthDay (monthLengths (isLeapYear (yearOrdinal (s / 86400)).1)) 1 (yearOrdinal (s / 86400)).2).2 := rfl
  have ey : (civilOf s).year = (yearOrdinal (s / 86400)).1 := rfl
  have hh : (civilOf s).hour = s % 86400 / 3600 := rfl
  have hm : (civilOf s).minute = s % 3600 / 60 := rfl
  have hs : (civilOf s).second = s % 60 := rfl
  rw [← ed] at e3 e4 e5
  rw [← ey] at e1 e5 h1
  have hn : dayNumber (civilOf s).year (civilOf s).month (civilOf s).day = s / 86400 := by
    rw [dayNumber, sum_years, em, Nat.add_sub_cancel_left, ← sum_months (by omega)]
    omega
  refine ⟨calendar_days_iff.mpr ⟨by omega, by omega, e3, ?_⟩, by omega, by omega, by omega, hn, ?_⟩
  · rw [em, Nat.add_comm]; omega
  · rw [hn]; omega

theorem daysOf_iff {y m d n : Nat} : daysOf y m d = some n ↔ CalendarDate y m d ∧ n = dayNumber y m d := by
  rw [calendar_days_iff]
  match m with
  | 0 => simp [daysOf]
  | m + 1 =>
    simp only [daysOf]
    by_cases hm : m < 12
    · rw [monthLengths_get hm]
      dsimp only
      split
      · rename_i h
        rw [dayNumber, sum_years, Nat.add_sub_cancel, ← sum_months (by omega)]
        constructor
        · intro h'; injection h' with h'
          exact ⟨⟨by omega, by omega, h.1, h.2⟩, h'.symm⟩
        · rintro ⟨_, rfl⟩; rfl
      · rename_i h
        simp only [reduceCtorEq, false_iff]
        rintro ⟨⟨_, _, h1, h2⟩, _⟩
        exact h ⟨h1, h2⟩
    · rw [List.getElem?_eq_none (by simp [monthLengths]; omega)]
      simp; omega

/-! ### dates are told apart by their day numbers -/

theorem sum_range_mono (f : Nat → Nat) : ∀ (k a b : Nat), a + 1 ≤ b →
    ((List.range' k a).map f).sum + f (k + a) ≤ ((List.range' k b).map f).sum
  | k, 0, b + 1, _ => by simp [List.range'_succ]
  | k, a + 1, b + 1, h => by
    have := sum_range_mono f (k + 1) a b (by omega)
    have e : k + 1 + a = k + (a + 1) := by omega
    simp only [List.range'_succ, List.map_cons, List.sum_cons]
    rw [e] at this
    omega
  | k, a, 0, h => by omega

theorem ordinal_lt {y m d : Nat} (h : CalendarDate y m d) : ((List.range' 1 (m - 1)).map (monthDays y)).sum + (d - 1) < yearDays y := by
  obtain ⟨h1, h2, h3, h4⟩ := calendar_days_iff.mp h
  have e := sum_months (y := y) (m := 12) (by omega)
  rw [List.take_of_length_le (by simp [monthLengths]), sum_year] at e
  have := sum_range_mono (monthDays y) 1 (m - 1) 12 (by omega)
  rw [show 1 + (m - 1) = m by omega] at this
  omega

theorem dayNumber_inj {y m d y' m' d' : Nat} (h : CalendarDate y m d) (h' : CalendarDate y' m' d')
    (e : dayNumber y m d = dayNumber y' m' d') : y = y' ∧ m = m' ∧ d = d' := by
  have o := ordinal_lt h
  have o' := ordinal_lt h'
  simp only [dayNumber] at e
  have hy : y = y' := by
    rcases Nat.lt_trichotomy y y' with hl | hl | hl
    · have := sum_range_mono yearDays 0 y y' hl
      rw [← List.range_eq_range', ← List.range_eq_range', Nat.zero_add] at this
      omega
    · exact hl
    · have := sum_range_mono yearDays 0 y' y hl
      rw [← List.range_eq_range', ← List.range_eq_range', Nat.zero_add] at this
      omega
  subst hy
  obtain ⟨h1, h2, h3, h4⟩ := calendar_days_iff.mp h
  obtain ⟨h1', h2', h3', h4'⟩ := calendar_days_iff.mp h'
  have hm : m = m' := by
    rcases Nat.lt_trichotomy m m' with hl | hl | hl
    · have := sum_range_mono (monthDays y) 1 (m - 1) (m' - 1) (by omega)
      rw [show 1 + (m - 1) = m by omega] at this
      omega
    · exact hl
    · have := sum_range_mono (monthDays y) 1 (m' - 1) (m - 1) (by omega)
      rw [show 1 + (m' - 1) = m' by omega] at this
      omega
  subst hm
  exact ⟨rfl, rfl, by omega⟩

theorem year_lt {y m d : Nat} (h : dayNumber y m d < 3652425) : y ≤ 9999 := by
  rcases Nat.lt_or_ge y 10000 with hy | hy
  · omega
  · obtain ⟨k, rfl⟩ : ∃ k, y = 25 * 400 + k := ⟨y - 10000, by omega⟩
    rw [dayNumber, sum_years, yearDelta_cycle] at h
    omega

theorem year10000 : dayNumber 10000 1 1 = 3652425 := by
  rw [dayNumber, sum_years]; rfl

theorem year0 : dayNumber 0 1 1 = 0 := rfl

theorem epoch : dayNumber 1970 1 1 = 719528 := by
  rw [dayNumber, sum_years]; rfl

/-! ### reading the notations -/

theorem digitsValue_eq (s : Bytes) : digitsValue s = decVal s := by
  have : ∀ (s : Bytes) (a : Nat), s.foldl (fun n c => n * 10 + (c.toNat - 48)) a = a * 10 ^ s.length + decVal s := by
    intro s
    induction s with
    | nil => intro a; simp [decVal]
    | cons c s ih =>
      intro a
      rw [List.foldl_cons, ih, decVal, List.length_cons, Nat.pow_succ, Nat.add_mul, Nat.mul_assoc, Nat.mul_comm 10, Nat.add_assoc]
  rw [digitsValue, this]; simp

theorem scanNumber_fixed {w n : Nat} {a r : Bytes} (h : Fixed w n a) : scanNumber w (a ++ r) = some (n, r) := by
  obtain ⟨hl, hd, hv⟩ := h
  rw [scanNumber, if_neg (by simp; omega), List.take_left' hl, List.drop_left' hl, if_pos (List.all_eq_true.mpr hd), digitsValue_eq, hv]

theorem fraction_value {ds : Bytes} (hd : ∀ c ∈ ds, isDigit c = true) :
    digitsValue (ds.take 9) * 10 ^ (9 - (ds.take 9).length) = decVal ds * 10 ^ 9 / 10 ^ ds.length := by
  rw [digitsValue_eq]
  have hp : 0 < 10 ^ ds.length := Nat.pow_pos (by omega)
  rcases Nat.le_total ds.length 9 with h | h
  · rw [List.take_of_length_le h]
    have : (10 : Nat) ^ 9 = 10 ^ (9 - ds.length) * 10 ^ ds.length := by rw [← Nat.pow_add]; congr 1; omega
    rw [this, ← Nat.mul_assoc, Nat.mul_div_cancel _ hp]
  · have hl : (ds.take 9).length = 9 := by simp; omega
    have e : decVal ds = decVal (ds.take 9) * 10 ^ (ds.drop 9).length + decVal (ds.drop 9) := by
      rw [← decVal_append, List.take_append_drop]
    have hb : decVal (ds.drop 9) < 10 ^ (ds.drop 9).length := decVal_bound fun c hc => hd c (List.mem_of_mem_drop hc)
    have hpow : (10 : Nat) ^ ds.length = 10 ^ 9 * 10 ^ (ds.drop 9).length := by
      rw [← Nat.pow_add]; congr 1; simp; omega
    rw [hl, Nat.sub_self, Nat.pow_zero, Nat.mul_one, hpow, Nat.mul_comm (decVal ds), Nat.mul_div_mul_left _ _ (by decide), e,
      Nat.mul_comm, Nat.mul_add_div (Nat.pow_pos (by omega)), Nat.div_eq_of_lt hb, Nat.add_zero]

theorem offset_head {z : Bytes} {off : Int} (h : Offset z off) : ∃ c t, z = c :: t ∧ isDigit c = false ∧ c ≠ 46 := by
  rcases h with ⟨rfl, _⟩ | ⟨hs, ms, h, m, _, _, _, _, ⟨rfl, _⟩ | ⟨rfl, _⟩⟩
  · exact ⟨90, [], rfl, by decide, by decide⟩
  · exact ⟨43, _, rfl, by decide, by decide⟩
  · exact ⟨45, _, rfl, by decide, by decide⟩

theorem scanNanos_fraction {f z : Bytes} {n : Nat} {off : Int} (h : Fraction f n) (hz : Offset z off) : scanNanos (f ++ z) = some (n, z) := by
  obtain ⟨c, t, rfl, hc, h46⟩ := offset_head hz
  rcases h with ⟨rfl, rfl⟩ | ⟨ds, rfl, hne, hd, rfl⟩
  · rw [List.nil_append, scanNanos]
    intro r hr
    injection hr with hr _
    exact absurd hr h46
  · show scanNanos (46 :: (ds ++ c :: t)) = _
    simp only [scanNanos]
    rw [List.takeWhile_append_of_pos hd, List.dropWhile_append_of_pos hd, List.takeWhile_cons_of_neg (by simp [hc]),
      List.dropWhile_cons_of_neg (by simp [hc]), List.append_nil, if_neg hne, fraction_value hd]

theorem fixed_ne_nil {w n : Nat} {s : Bytes} (h : Fixed w n s) (hw : 0 < w) : s ≠ [] := by
  rintro rfl; have := h.1; simp at this; omega

theorem scanOffset_offset {z : Bytes} {off : Int} (h : Offset z off) : scanOffset z = some off := by
  rcases h with ⟨rfl, rfl⟩ | ⟨hs, ms, h, m, h1, h2, h3, h4, h5⟩
  · rfl
  · have key : ∀ sign : UInt8, sign ≠ 90 → scanOffset (sign :: (hs ++ (b!":" ++ (ms ++ [])))) =
        if sign = 43 then some ((h * 60 + m : Nat) : Int) else if sign = 45 then some (-((h * 60 + m : Nat) : Int)) else none := by
      intro sign hn
      rw [scanOffset]
      · rw [scanNumber_fixed h1]
        simp only [Option.bind_eq_bind, Option.bind_some]
        rw [tag_append]
        simp only [Option.bind_some]
        rw [scanNumber_fixed h2]
        simp only [Option.bind_some]
        rw [if_pos ⟨trivial, h3, h4⟩]
      · intro e
        exact absurd e hn
    rcases h5 with ⟨rfl, rfl⟩ | ⟨rfl, rfl⟩
    · have := key 43 (by decide)
      rw [if_pos rfl] at this
      simpa using this
    · have := key 45 (by decide)
      rw [if_neg (by decide), if_pos rfl] at this
      simpa using this

theorem parse_spec {s : Bytes} {t : Int} {n : Nat} (h : Rfc3339 s t n) (h0 : 0 ≤ t + epochSeconds) :
    parseRfc3339 s = some ((t + epochSeconds).toNat, n) := by
  obtain ⟨y, mo, d, hh, mi, se, ys, mos, ds, hs, mis, ses, f, z, off, hc, l1, l2, l3, f1, f2, f3, f4, f5, f6, hf, hz, hs', ht⟩ := h
  subst hs'
  rw [ht] at h0 ⊢
  have e : secondsUtc y mo d hh mi se - off * 60 + epochSeconds =
      ((dayNumber y mo d * 86400 + hh * 3600 + mi * 60 + se : Nat) : Int) - off * 60 := by
    rw [secondsUtc, epoch, epochSeconds]; omega
  rw [e] at h0 ⊢
  rw [parseRfc3339]
  simp only [List.append_assoc, Option.bind_eq_bind]
  rw [scanNumber_fixed f1]
  simp only [Option.bind_some]
  rw [tag_append]
  simp only [Option.bind_some]
  rw [scanNumber_fixed f2]
  simp only [Option.bind_some]
  rw [tag_append]
  simp only [Option.bind_some]
  rw [scanNumber_fixed f3]
  simp only [Option.bind_some]
  rw [tag_append]
  simp only [Option.bind_some]
  rw [scanNumber_fixed f4]
  simp only [Option.bind_some]
  rw [tag_append]
  simp only [Option.bind_some]
  rw [scanNumber_fixed f5]
  simp only [Option.bind_some]
  rw [tag_append]
  simp only [Option.bind_some]
  rw [scanNumber_fixed f6]
  simp only [Option.bind_some]
  rw [scanNanos_fraction hf hz]
  simp only [Option.bind_some]
  rw [scanOffset_offset hz]
  simp only [Option.bind_some]
  rw [daysOf_iff.mpr ⟨hc, rfl⟩]
  simp only [Option.bind_some]
  rw [if_pos ⟨l1, l2, l3⟩, if_pos h0]

/-! ### writing the notations -/

theorem fixed2 {n : Nat} (h : n < 100) : Fixed 2 n (padDigits 2 n) := padDigits_fixed (by omega) h

theorem day_lt {y m d : Nat} (h : CalendarDate y m d) : m < 100 ∧ d < 100 := by
  obtain ⟨h1, h2, h3, h4⟩ := calendar_days_iff.mp h
  have : monthDays y m ≤ 31 := by simp only [monthDays]; split <;> (try split) <;> omega
  omega

theorem yearText_fixed {y : Nat} (h : y ≤ 9999) : Fixed 4 y (yearText y) := by
  rw [yearText, if_pos h]; exact padDigits_fixed (by omega) (by omega)

theorem monthText_get {m : Nat} (h1 : 1 ≤ m) (h2 : m ≤ 12) : monthNames[m - 1]? = some (monthText m) := by
  match m, h1, h2 with
  | 1, _, _ | 2, _, _ | 3, _, _ | 4, _, _ | 5, _, _ | 6, _, _ | 7, _, _ | 8, _, _ | 9, _, _ | 10, _, _ | 11, _, _ | 12, _, _ => rfl
  | n + 13, _, h => omega

theorem weekdayText_get (days : Nat) : dayNames[(((days : Int) - 719528) % 7).toNat]? = some (weekdayText days) := by
  have e : (((days : Int) - 719528) % 7).toNat = (days + 2) % 7 := by omega
  have e2 : (days + 2) % 7 = ((days + 6) % 7 + 3) % 7 := by omega
  have hl : (days + 6) % 7 < 7 := Nat.mod_lt _ (by omega)
  rw [e, e2, weekdayText]
  revert hl
  generalize (days + 6) % 7 = k
  intro hl
  match k, hl with
  | 0, _ | 1, _ | 2, _ | 3, _ | 4, _ | 5, _ | 6, _ => rfl
  | n + 7, h => omega

theorem httpDate_text {s : Nat} (h : s < 3652425 * 86400) : HttpDate (lastModifiedText s) ((s : Int) - epochSeconds) := by
  obtain ⟨h1, h2, h3, h4, h5, h6⟩ := civil_spec s
  have hy := year_lt (y := (civilOf s).year) (m := (civilOf s).month) (d := (civilOf s).day) (by omega)
  have hd := day_lt h1
  obtain ⟨m1, m2, _, _⟩ := calendar_days_iff.mp h1
  refine ⟨_, _, _, _, _, _, _, _, _, _, _, _, _, h1, h2, h3, h4, yearText_fixed hy, fixed2 hd.2, fixed2 (by omega), fixed2 (by omega),
    fixed2 (by omega), monthText_get m1 m2, ?_, rfl, ?_⟩
  · rw [epoch, h5]; exact weekdayText_get _
  · rw [secondsUtc, epoch, epochSeconds]; omega

theorem fraction_text {n : Nat} (h : n < 1000000000) : Fraction (fractionText n) n := by
  rw [fractionText]
  split
  · rename_i h0; exact .inl ⟨rfl, h0⟩
  · have key : ∀ w k, 0 < w → w ≤ 9 → n = k * 10 ^ (9 - w) → k < 10 ^ w → Fraction (b!"." ++ padDigits w k) n := by
      intro w k hw h9 e hk
      have hf := padDigits_fixed hw hk
      refine .inr ⟨_, rfl, fixed_ne_nil hf hw, hf.2.1, ?_⟩
      rw [hf.2.2, hf.1, e]
      have : (10 : Nat) ^ 9 = 10 ^ (9 - w) * 10 ^ w := by rw [← Nat.pow_add]; congr 1; omega
      rw [this, ← Nat.mul_assoc, Nat.mul_div_cancel _ (Nat.pow_pos (by omega))]
    split
    · exact key 3 _ (by omega) (by omega) (by omega) (by omega)
    · split
      · exact key 6 _ (by omega) (by omega) (by omega) (by omega)
      · exact key 9 _ (by omega) (by omega) (by omega) (by omega)

theorem offset_text {off : Int} (h : off.natAbs < 1440) : Offset (offsetText off) off := by
  refine .inr ⟨_, _, off.natAbs / 60, off.natAbs % 60, fixed2 (by omega), fixed2 (by omega), by omega, by omega, ?_⟩
  rw [offsetText]
  split
  · exact .inr ⟨rfl, by omega⟩
  · exact .inl ⟨rfl, by omega⟩

theorem rfc3339_text (off : ZoneOffset) (t : Time) : Rfc3339 (toRfc3339 off t) t.secs t.nanos := by
  have ho := off.bound
  have hn := t.fraction
  have hy := t.early
  have h0 : 0 ≤ (t.secs + epochSeconds : Int) + off.minutes * 60 := by simp only [epochSeconds]; omega
  obtain ⟨s, hs⟩ := Int.eq_ofNat_of_zero_le h0
  have hlt : s < 3652425 * 86400 := by simp only [epochSeconds] at hs; omega
  obtain ⟨h1, h2, h3, h4, h5, h6⟩ := civil_spec s
  have hyr := year_lt (y := (civilOf s).year) (m := (civilOf s).month) (d := (civilOf s).day) (by omega)
  have hd := day_lt h1
  have e : toRfc3339 off t = yearText (civilOf s).year ++ b!"-" ++ padDigits 2 (civilOf s).month ++ b!"-" ++ padDigits 2 (civilOf s).day ++ b!"T" ++
    padDigits 2 (civilOf s).hour ++ b!":" ++ padDigits 2 (civilOf s).minute ++ b!":" ++ padDigits 2 (civilOf s).second ++
    fractionText t.nanos ++ offsetText off.minutes := by
    rw [toRfc3339, hs]; rfl
  refine ⟨_, _, _, _, _, _, _, _, _, _, _, _, _, _, off.minutes, h1, h2, h3, h4, yearText_fixed hyr, fixed2 hd.1, fixed2 hd.2, fixed2 (by omega),
    fixed2 (by omega), fixed2 (by omega), fraction_text hn, offset_text ho, e, ?_⟩
  rw [secondsUtc, epoch]
  simp only [epochSeconds] at hs
  omega

theorem lastModified_text (off : ZoneOffset) (t : Time) :
    rfc3339ToLastModified (toRfc3339 off t) = some (lastModifiedText (t.secs + epochSeconds)) ∧
    HttpDate (lastModifiedText (t.secs + epochSeconds)) t.secs := by
  have h := parse_spec (rfc3339_text off t) (by omega)
  have hy := t.early
  have e : ((t.secs : Int) + epochSeconds).toNat = t.secs + epochSeconds := by omega
  rw [e] at h
  refine ⟨by rw [rfc3339ToLastModified, h]; rfl, ?_⟩
  have hd := httpDate_text (s := t.secs + epochSeconds) (by simp only [epochSeconds]; omega)
  rwa [show ((t.secs + epochSeconds : Nat) : Int) - epochSeconds = t.secs by omega] at hd

end S3
