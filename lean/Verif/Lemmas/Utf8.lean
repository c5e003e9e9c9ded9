import Verif.Model.Encoding
import Verif.Lemmas.Bytes
/-! UTF-8 validity of parts of a text. -/
namespace S3

theorem takeWhile_full {α : Type} {p : α → Bool} {l : List α} (h : (l.takeWhile p).length = l.length) : ∀ x ∈ l, p x = true := by
  induction l with
  | nil => intro x hx; cases hx
  | cons a l ih =>
    simp only [List.takeWhile_cons] at h
    split at h
    · rename_i ha
      simp only [List.length_cons, Nat.add_right_cancel_iff] at h
      intro x hx
      rcases List.mem_cons.mp hx with rfl | hx
      · exact ha
      · exact ih h x hx
    · simp at h

theorem utf8Step_cut {a : UInt8} {r x : Bytes} {c : UInt8} (hc : c < 128) {n : Nat} (h : utf8Step (a :: r ++ c :: x) = .inl n) :
    utf8Step (a :: r) = .inl n ∧ n ≤ (a :: r).length := by
  rw [List.cons_append] at h
  unfold utf8Step at h ⊢
  simp only [] at h ⊢
  split at h
  · rename_i ha
    cases h
    rw [if_pos ha]
    simp
  · rename_i ha
    rw [if_neg ha]
    split at h
    · cases h
    · rename_i lo hi k hinfo
      have hlo : 128 ≤ lo ∧ 1 ≤ k := by
        repeat' split at hinfo
        all_goals first | (cases hinfo; done) | (cases hinfo; decide)
      cases r with
      | nil =>
        simp only [List.nil_append] at h
        have : ¬ lo ≤ c := by
          rw [UInt8.le_iff_toNat_le]
          have h1 := UInt8.le_iff_toNat_le.mp hlo.1
          have h2 := UInt8.lt_iff_toNat_lt.mp hc
          simp at h1 h2 ⊢
          omega
        simp [this] at h
      | cons b r =>
        simp only [List.cons_append] at h ⊢
        split at h
        · cases h
        · rename_i hb
          rw [if_neg hb]
          split at h
          · rename_i hm
            cases h
            have hk : k - 1 ≤ r.length := by
              refine Nat.le_of_not_lt fun hlt => ?_
              have hlen : ((r ++ c :: x).take (k - 1)).length ≤ k - 1 := by simp; omega
              have hle := (List.takeWhile_sublist (p := isCont) (l := (r ++ c :: x).take (k - 1))).length_le
              have := takeWhile_full (p := isCont) (l := (r ++ c :: x).take (k - 1)) (by omega) c (by
                rw [List.take_append]
                apply List.mem_append_right
                have : k - 1 - r.length = (k - 2 - r.length) + 1 := by omega
                rw [this]
                simp)
              have h2 := UInt8.lt_iff_toNat_lt.mp hc
              simp only [isCont, Bool.and_eq_true, decide_eq_true_eq] at this
              have h1 := UInt8.le_iff_toNat_le.mp this.1
              simp at h1 h2
              omega
            rw [List.take_append_of_le_length hk] at hm
            rw [if_pos hm]
            exact ⟨rfl, by simp; omega⟩
          · cases h

theorem utf8Valid_cut {c : UInt8} (hc : c < 128) {x : Bytes} : ∀ {v : Bytes}, utf8Valid (v ++ c :: x) = true → utf8Valid v = true
  | [], _ => by rw [utf8Valid]
  | a :: r, h => by
    rw [List.cons_append, utf8Valid] at h
    split at h
    · rename_i n hn
      split at h
      · cases h
      · rename_i hn0
        rw [← List.cons_append] at hn
        obtain ⟨h1, h2⟩ := utf8Step_cut hc hn
        rw [utf8Valid, h1]
        simp only [if_neg hn0]
        rw [← List.cons_append, List.drop_append_of_le_length h2] at h
        have : ((a :: r).drop n).length < (a :: r).length := by simp; omega
        exact utf8Valid_cut hc h
    · cases h
termination_by v => v.length
decreasing_by simp only [List.length_drop, List.length_cons] at *; omega

end S3
