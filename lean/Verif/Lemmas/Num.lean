import Verif.Model.Num
import Verif.Spec.Num
namespace S3
open Spec

theorem accDigits_iff {max acc : Nat} {s : Bytes} {n : Nat} (h : acc ≤ max) :
    accDigits max acc s = some n ↔
      (∀ c ∈ s, isDigit c = true) ∧ acc * 10 ^ s.length + decVal s = n ∧ n ≤ max := by
  induction s generalizing acc with
  | nil => simp only [accDigits, decVal]; simp; omega
  | cons d ds ih =>
    simp only [accDigits]
    by_cases hd : isDigit d = true
    · simp only [hd, if_true]
      have e : acc * 10 ^ (d :: ds).length + decVal (d :: ds)
          = (acc * 10 + (d.toNat - 48)) * 10 ^ ds.length + decVal ds := by
        simp only [List.length_cons, decVal, Nat.pow_succ, Nat.add_mul]
        rw [Nat.mul_comm (10 ^ ds.length) 10, ← Nat.mul_assoc]; omega
      split
      · rename_i hv
        rw [ih hv, e]
        simp [hd]
      · rename_i hv
        simp only [reduceCtorEq, false_iff]
        rintro ⟨_, h2, h3⟩
        rw [e] at h2
        have : 1 ≤ 10 ^ ds.length := Nat.pow_pos (by omega)
        have := Nat.mul_le_mul_left (acc * 10 + (d.toNat - 48)) this
        omega
    · simp [hd]

theorem parseUnsigned_digits {max : Nat} {s : Bytes} (hd : ∀ c ∈ s, isDigit c = true)
    (hne : s ≠ []) {n : Nat} : parseUnsigned max s = some n ↔ decVal s = n ∧ n ≤ max := by
  cases s with
  | nil => exact absurd rfl hne
  | cons c cs =>
    have : c ≠ 43 := by
      rintro rfl
      have := hd 43 (by simp)
      exact absurd this (by decide)
    simp only [parseUnsigned, this, if_false]
    rw [accDigits_iff (Nat.zero_le _)]
    simp only [Nat.zero_mul, Nat.zero_add]
    exact ⟨fun h => h.2, fun h => ⟨hd, h⟩⟩

theorem decVal_append (a b : Bytes) : decVal (a ++ b) = decVal a * 10 ^ b.length + decVal b := by
  induction a with
  | nil => simp [decVal]
  | cons d ds ih =>
    simp only [List.cons_append, decVal, ih, List.length_append, Nat.pow_add, Nat.add_mul,
      Nat.mul_assoc]
    omega

theorem isDigit_ofNat (k : Nat) (h : k < 10) : isDigit (UInt8.ofNat (48 + k)) = true := by
  simp only [isDigit, Bool.and_eq_true, decide_eq_true_eq, UInt8.le_iff_toNat_le]
  have : (UInt8.ofNat (48 + k)).toNat = 48 + k := by simp; omega
  rw [this]; constructor <;> simp <;> omega

theorem natDigits_spec (n : Nat) : IsNumeral (natDigits n) n := by
  induction n using natDigits.induct with
  | case1 n h =>
    rw [natDigits]; simp only [h, dite_true]
    refine ⟨by simp, ?_, ?_⟩
    · intro c hc; simp only [List.mem_singleton] at hc; subst hc; exact isDigit_ofNat n h
    · simp [decVal]; omega
  | case2 n h ih =>
    rw [natDigits]; simp only [h, dite_false]
    refine ⟨by simp, ?_, ?_⟩
    · intro c hc
      rcases List.mem_append.mp hc with hc | hc
      · exact ih.2.1 c hc
      · simp only [List.mem_singleton] at hc; subst hc
        exact isDigit_ofNat _ (Nat.mod_lt _ (by omega))
    · rw [decVal_append, ih.2.2]
      simp [decVal]; omega

theorem natDigits_inj {a b : Nat} (h : natDigits a = natDigits b) : a = b := by
  have ha := (natDigits_spec a).2.2
  have hb := (natDigits_spec b).2.2
  rw [h] at ha; omega

end S3
