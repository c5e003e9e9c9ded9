import Verif.Model.AmzDate
import Verif.Spec.Date
import Verif.Lemmas.Nom
namespace S3
open Spec

theorem decVal_bound {s : Bytes} (h : ∀ c ∈ s, isDigit c = true) : decVal s < 10 ^ s.length := by
  induction s with
  | nil => simp [decVal]
  | cons d ds ih =>
    have hd := h d (by simp)
    have ih := ih fun c hc => h c (by simp [hc])
    simp only [isDigit, Bool.and_eq_true, decide_eq_true_eq, UInt8.le_iff_toNat_le] at hd
    simp only [decVal, List.length_cons, Nat.pow_succ]
    have h9 : d.toNat - 48 ≤ 9 := by have := hd.2; simp at this; omega
    have : (d.toNat - 48) * 10 ^ ds.length ≤ 9 * 10 ^ ds.length := Nat.mul_le_mul_right _ h9
    omega

theorem decVal_inj {a b : Bytes} (ha : ∀ c ∈ a, isDigit c = true) (hb : ∀ c ∈ b, isDigit c = true)
    (hl : a.length = b.length) (hv : decVal a = decVal b) : a = b := by
  induction a generalizing b with
  | nil => cases b with
    | nil => rfl
    | cons => simp at hl
  | cons x xs ih =>
    cases b with
    | nil => simp at hl
    | cons y ys =>
      have hx := ha x (by simp); have hy := hb y (by simp)
      have hxs := fun c hc => ha c (List.mem_cons_of_mem x hc)
      have hys := fun c hc => hb c (List.mem_cons_of_mem y hc)
      simp only [List.length_cons, Nat.add_right_cancel_iff] at hl
      simp only [decVal] at hv
      have b1 := decVal_bound hxs; have b2 := decVal_bound hys
      rw [← hl] at b2 hv
      have key : x.toNat - 48 = y.toNat - 48 := by
        have p : 0 < 10 ^ xs.length := Nat.pow_pos (by omega)
        have e1 : ((x.toNat - 48) * 10 ^ xs.length + decVal xs) / 10 ^ xs.length = x.toNat - 48 := by
          rw [Nat.mul_comm, Nat.mul_add_div p, Nat.div_eq_of_lt b1]; omega
        have e2 : ((y.toNat - 48) * 10 ^ xs.length + decVal ys) / 10 ^ xs.length = y.toNat - 48 := by
          rw [Nat.mul_comm, Nat.mul_add_div p, Nat.div_eq_of_lt b2]; omega
        rw [← e1, ← e2, hv]
      simp only [isDigit, Bool.and_eq_true, decide_eq_true_eq, UInt8.le_iff_toNat_le] at hx hy
      have : x = y := by
        apply UInt8.toNat_inj.mp
        have := hx.1; have := hy.1; simp at *; omega
      subst this
      rw [ih hxs hys hl (by omega)]

theorem natDigits_length {n w : Nat} (hw : 0 < w) (h : n < 10 ^ w) : (natDigits n).length ≤ w := by
  induction w generalizing n with
  | zero => omega
  | succ w ih =>
    rw [natDigits]
    split
    · simp
    · rename_i h10
      have hw0 : 0 < w := by
        rcases Nat.eq_zero_or_pos w with rfl | h'
        · simp at h; omega
        · exact h'
      have : n / 10 < 10 ^ w := by rw [Nat.pow_succ] at h; omega
      have := ih hw0 this
      simp; omega

theorem decVal_replicate_zero (k : Nat) : decVal (List.replicate k 48) = 0 := by
  induction k with
  | zero => rfl
  | succ k ih => simp [List.replicate_succ, decVal, ih]

theorem padDigits_fixed {w n : Nat} (hw : 0 < w) (h : n < 10 ^ w) : Fixed w n (padDigits w n) := by
  have hs := natDigits_spec n
  have hl := natDigits_length hw h
  refine ⟨by simp [padDigits]; omega, ?_, ?_⟩
  · intro c hc
    simp only [padDigits, List.mem_append, List.mem_replicate] at hc
    rcases hc with ⟨_, rfl⟩ | hc
    · decide
    · exact hs.2.1 c hc
  · simp [padDigits, decVal_append, decVal_replicate_zero, hs.2.2]

theorem fixed_unique {w n : Nat} {a b : Bytes} (ha : Fixed w n a) (hb : Fixed w n b) : a = b :=
  decVal_inj ha.2.1 hb.2.1 (by rw [ha.1, hb.1]) (by rw [ha.2.2, hb.2.2])

theorem fixed_pad {w n : Nat} {s : Bytes} (hw : 0 < w) (h : Fixed w n s) : padDigits w n = s := by
  have : n < 10 ^ w := by rw [← h.2.2, ← h.1]; exact decVal_bound h.2.1
  exact fixed_unique (padDigits_fixed hw this) h

theorem parse_fixed {w : Nat} {s : Bytes} (hw : 0 < w) (hl : s.length = w)
    (hd : ∀ c ∈ s, isDigit c = true) (hb : 10 ^ w ≤ u32Max) {n : Nat} :
    parseUnsigned u32Max s = some n ↔ Fixed w n s := by
  have hne : s ≠ [] := by rintro rfl; simp at hl; omega
  rw [parseUnsigned_digits hd hne]
  have := decVal_bound hd
  rw [hl] at this
  constructor
  · rintro ⟨h, _⟩; exact ⟨hl, hd, h⟩
  · rintro ⟨_, _, h⟩; exact ⟨h, by omega⟩

end S3
