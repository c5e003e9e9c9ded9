import Verif.Spec.Base64
import Verif.Model.Encoding
/-! The base64 check accepts exactly the texts of the specification. -/
namespace S3
open Spec

/-- the digit as a byte -/
def digit64 (n : Nat) : UInt8 := match base64Digit n with
  | [c] => c
  | _ => 0

theorem digit64_spec {n : Nat} (h : n < 64) :
    base64Digit n = [digit64 n] ∧ b64StdVal (digit64 n) = some n ∧ digit64 n ≠ 61 := by
  have key : ∀ n : Fin 64, base64Digit n.val = [digit64 n.val] ∧ b64StdVal (digit64 n.val) = some n.val ∧ digit64 n.val ≠ 61 := by
    decide +kernel
  exact key ⟨n, h⟩

theorem b64StdVal_spec {c : UInt8} {n : Nat} (h : b64StdVal c = some n) : n < 64 ∧ base64Digit n = [c] := by
  have key : ∀ i : Fin 256, (b64StdVal (UInt8.ofNat i.val)).all
      (fun n => decide (n < 64) && base64Digit n == [UInt8.ofNat i.val]) = true := by decide +kernel
  have := key ⟨c.toNat, c.toNat_lt⟩
  simpa [UInt8.ofNat_toNat, h] using this

theorem toNat_ofNat8 {n : Nat} (h : n < 256) : (UInt8.ofNat n).toNat = n := by
  simp [UInt8.toNat_ofNat', Nat.mod_eq_of_lt h]

/-- a complete group -/
theorem group4 {w x y z : UInt8} {a b c d : Nat} (ha : b64StdVal w = some a) (hb : b64StdVal x = some b)
    (hc : b64StdVal y = some c) (hd : b64StdVal z = some d) (r : Bytes) :
    ∃ p q s : UInt8, base64Text (p :: q :: s :: r) = w :: x :: y :: z :: base64Text r := by
  obtain ⟨la, ea⟩ := b64StdVal_spec ha
  obtain ⟨lb, eb⟩ := b64StdVal_spec hb
  obtain ⟨lc, ec⟩ := b64StdVal_spec hc
  obtain ⟨ld, ed⟩ := b64StdVal_spec hd
  refine ⟨UInt8.ofNat (a * 4 + b / 16), UInt8.ofNat (b % 16 * 16 + c / 4), UInt8.ofNat (c % 4 * 64 + d), ?_⟩
  simp only [base64Text]
  rw [toNat_ofNat8 (by omega), toNat_ofNat8 (by omega), toNat_ofNat8 (by omega)]
  have hn : (a * 4 + b / 16) * 65536 + (b % 16 * 16 + c / 4) * 256 + (c % 4 * 64 + d) = a * 262144 + b * 4096 + c * 64 + d := by omega
  rw [hn]
  rw [show (a * 262144 + b * 4096 + c * 64 + d) / 262144 = a from by omega,
    show (a * 262144 + b * 4096 + c * 64 + d) / 4096 % 64 = b from by omega,
    show (a * 262144 + b * 4096 + c * 64 + d) / 64 % 64 = c from by omega,
    show (a * 262144 + b * 4096 + c * 64 + d) % 64 = d from by omega, ea, eb, ec, ed]
  rfl

theorem base64Text_some {p : UInt8} {r : Bytes} : base64Text (p :: r) ≠ [] := by
  have hp := p.toNat_lt
  match r with
  | [] => simp [base64Text]
  | [_] => simp [base64Text]
  | q :: s :: r =>
    have hq := q.toNat_lt; have hs := s.toNat_lt
    have : (p.toNat * 65536 + q.toNat * 256 + s.toNat) / 262144 < 64 := by omega
    simp [base64Text, (digit64_spec this).1]

theorem isBase64_text (s : Bytes) : isBase64 (base64Text s) = true := by
  induction s using base64Text.induct with
  | case1 => rfl
  | case2 a =>
    obtain ⟨n, hn⟩ : ∃ n, n = a.toNat * 65536 := ⟨_, rfl⟩
    have ha := a.toNat_lt
    obtain ⟨e1, v1, _⟩ := digit64_spec (n := n / 262144) (by omega)
    obtain ⟨e2, v2, _⟩ := digit64_spec (n := n / 4096 % 64) (by omega)
    simp only [base64Text, ← hn]
    show isBase64 (base64Digit (n / 262144) ++ base64Digit (n / 4096 % 64) ++ b!"==") = true
    rw [e1, e2]
    show isBase64 [digit64 (n / 262144), digit64 (n / 4096 % 64), 61, 61] = true
    simp only [isBase64, isBase64Last, v1, v2, if_true]
    simp
    omega
  | case3 a b =>
    obtain ⟨n, hn⟩ : ∃ n, n = a.toNat * 65536 + b.toNat * 256 := ⟨_, rfl⟩
    have ha := a.toNat_lt; have hb := b.toNat_lt
    obtain ⟨e1, v1, _⟩ := digit64_spec (n := n / 262144) (by omega)
    obtain ⟨e2, v2, _⟩ := digit64_spec (n := n / 4096 % 64) (by omega)
    obtain ⟨e3, v3, h3⟩ := digit64_spec (n := n / 64 % 64) (by omega)
    simp only [base64Text, ← hn]
    show isBase64 (base64Digit (n / 262144) ++ base64Digit (n / 4096 % 64) ++ base64Digit (n / 64 % 64) ++ b!"=") = true
    rw [e1, e2, e3]
    show isBase64 [digit64 (n / 262144), digit64 (n / 4096 % 64), digit64 (n / 64 % 64), 61] = true
    simp only [isBase64, isBase64Last, v1, v2, v3, if_true, if_neg h3]
    simp
    omega
  | case4 a b c r ih =>
    obtain ⟨n, hn⟩ : ∃ n, n = a.toNat * 65536 + b.toNat * 256 + c.toNat := ⟨_, rfl⟩
    have ha := a.toNat_lt; have hb := b.toNat_lt; have hc := c.toNat_lt
    obtain ⟨e1, v1, _⟩ := digit64_spec (n := n / 262144) (by omega)
    obtain ⟨e2, v2, _⟩ := digit64_spec (n := n / 4096 % 64) (by omega)
    obtain ⟨e3, v3, h3⟩ := digit64_spec (n := n / 64 % 64) (by omega)
    obtain ⟨e4, v4, h4⟩ := digit64_spec (n := n % 64) (by omega)
    simp only [base64Text, ← hn]
    show isBase64 (base64Digit (n / 262144) ++ base64Digit (n / 4096 % 64) ++ base64Digit (n / 64 % 64) ++ base64Digit (n % 64) ++ base64Text r) = true
    rw [e1, e2, e3, e4]
    show isBase64 (digit64 (n / 262144) :: digit64 (n / 4096 % 64) :: digit64 (n / 64 % 64) :: digit64 (n % 64) :: base64Text r) = true
    by_cases hr : base64Text r = []
    · rw [hr]
      simp only [isBase64, isBase64Last, v1, v2, v3, v4, if_true, if_neg h3, if_neg h4]
      rfl
    · simp only [isBase64, if_neg hr, v1, v2, v3, v4, ih]
      rfl

theorem isBase64_inv {s : Bytes} (h : isBase64 s = true) : ∃ d, s = base64Text d := by
  induction s using isBase64.induct with
  | case1 => exact ⟨[], rfl⟩
  | case2 w x y z =>
    simp only [isBase64, if_true, isBase64Last] at h
    split at h
    · rename_i a b ha hb
      obtain ⟨la, ea⟩ := b64StdVal_spec ha
      obtain ⟨lb, eb⟩ := b64StdVal_spec hb
      split at h
      · rename_i hy
        simp only [Bool.and_eq_true, beq_iff_eq] at h
        obtain ⟨hz, h16⟩ := h
        subst hy; subst hz
        refine ⟨[UInt8.ofNat (a * 4 + b / 16)], ?_⟩
        simp only [base64Text]
        rw [toNat_ofNat8 (by omega), show (a * 4 + b / 16) * 65536 / 262144 = a from by omega,
          show (a * 4 + b / 16) * 65536 / 4096 % 64 = b from by omega, ea, eb]
        rfl
      · split at h
        · rename_i c hc
          obtain ⟨lc, ec⟩ := b64StdVal_spec hc
          split at h
          · rename_i hz
            simp only [beq_iff_eq] at h
            subst hz
            refine ⟨[UInt8.ofNat (a * 4 + b / 16), UInt8.ofNat (b % 16 * 16 + c / 4)], ?_⟩
            simp only [base64Text]
            rw [toNat_ofNat8 (by omega), toNat_ofNat8 (by omega)]
            have hn : (a * 4 + b / 16) * 65536 + (b % 16 * 16 + c / 4) * 256 = a * 262144 + b * 4096 + c * 64 := by omega
            rw [hn, show (a * 262144 + b * 4096 + c * 64) / 262144 = a from by omega,
              show (a * 262144 + b * 4096 + c * 64) / 4096 % 64 = b from by omega,
              show (a * 262144 + b * 4096 + c * 64) / 64 % 64 = c from by omega, ea, eb, ec]
            rfl
          · obtain ⟨d, hd⟩ := Option.isSome_iff_exists.mp h
            obtain ⟨p, q, s, e⟩ := group4 ha hb hc hd []
            exact ⟨_, e.symm⟩
        · cases h
    · cases h
  | case3 w x y z r hr ih =>
    simp only [isBase64, if_neg hr, Bool.and_eq_true] at h
    obtain ⟨⟨⟨⟨h1, h2⟩, h3⟩, h4⟩, h5⟩ := h
    obtain ⟨a, ha⟩ := Option.isSome_iff_exists.mp h1
    obtain ⟨b, hb⟩ := Option.isSome_iff_exists.mp h2
    obtain ⟨c, hc⟩ := Option.isSome_iff_exists.mp h3
    obtain ⟨d, hd⟩ := Option.isSome_iff_exists.mp h4
    obtain ⟨t, ht⟩ := ih h5
    obtain ⟨p, q, s, e⟩ := group4 ha hb hc hd t
    exact ⟨_, by rw [ht, e]⟩
  | case4 => simp [isBase64] at h

theorem isBase64_iff {s : Bytes} : isBase64 s = true ↔ ∃ d, s = base64Text d :=
  ⟨isBase64_inv, by rintro ⟨d, rfl⟩; exact isBase64_text d⟩

end S3
