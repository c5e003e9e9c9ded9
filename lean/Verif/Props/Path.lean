import Verif.Model.Path
import Verif.Spec.Path
import Verif.Lemmas.Bytes
import Verif.Lemmas.Num
/-! C01, C02: request addresses and bucket names. -/
namespace S3
open Spec

theorem lowerOrDigit_iff (b : UInt8) : (isLower b || isDigit b) = true ↔ LowerOrDigit b := by
  simp [isLower, isDigit, LowerOrDigit]

theorem isDigit_head_zero {s : Bytes} : (s.length > 1 && s.head? == some 48) = false ↔
    (s.head? = some 48 → s.length ≤ 1) := by
  simp
  constructor
  · intro h h2; by_cases h3 : 1 < s.length
    · exact absurd h2 (h h3)
    · omega
  · intro h h2 h3; have := h h3; omega

theorem decVal_lt {s : Bytes} (h : ∀ c ∈ s, isDigit c = true) : decVal s < 10 ^ s.length := by
  induction s with
  | nil => simp [decVal]
  | cons d ds ih =>
    have h1 := ih (fun c hc => h c (List.mem_cons_of_mem _ hc))
    have h2 := h d (by simp)
    simp only [isDigit, Bool.and_eq_true, decide_eq_true_eq, UInt8.le_iff_toNat_le] at h2
    have h3 : d.toNat ≤ 57 := h2.2
    simp only [decVal, List.length_cons, Nat.pow_succ]
    have : (d.toNat - 48) * 10 ^ ds.length ≤ 9 * 10 ^ ds.length := Nat.mul_le_mul_right _ (by omega)
    omega

theorem decVal_ge {s : Bytes} {d : UInt8} (hd : isDigit d = true) (h0 : d ≠ 48) :
    10 ^ s.length ≤ decVal (d :: s) := by
  simp only [isDigit, Bool.and_eq_true, decide_eq_true_eq, UInt8.le_iff_toNat_le] at hd
  have h1 : 48 ≤ d.toNat := hd.1
  have h2 : d.toNat ≠ 48 := fun e => h0 (UInt8.toNat_inj.mp e)
  simp only [decVal]
  have : 1 * 10 ^ s.length ≤ (d.toNat - 48) * 10 ^ s.length := Nat.mul_le_mul_right _ (by omega)
  omega

theorem ipv4Octet_iff (s : Bytes) : ipv4Octet s = true ↔ IsOctet s := by
  simp only [ipv4Octet, Bool.and_eq_true, bne_iff_ne, ne_eq, decide_eq_true_eq,
    Bool.not_eq_true', isDigit_head_zero, List.all_eq_true]
  constructor
  · rintro ⟨⟨⟨⟨h1, h2⟩, h3⟩, h4⟩, h5⟩
    obtain ⟨n, hn⟩ := Option.isSome_iff_exists.mp h5
    rw [accDigits_iff (by omega)] at hn
    refine ⟨n, hn.2.2, ⟨h1, h3, by simpa using hn.2.1⟩, fun h => ?_⟩
    have := h4 h
    cases s with
    | nil => exact absurd rfl h1
    | cons x xs => simp at this ⊢; omega
  · rintro ⟨n, hn, ⟨h1, h3, h4⟩, h5⟩
    have hs : (accDigits 255 0 s).isSome = true := by
      rw [Option.isSome_iff_exists]
      exact ⟨n, (accDigits_iff (by omega)).mpr ⟨h3, by simpa using h4, hn⟩⟩
    refine ⟨⟨⟨⟨h1, ?_⟩, h3⟩, fun h => by have := h5 h; omega⟩, hs⟩
    cases s with
    | nil => simp
    | cons d ds =>
      by_cases hd : d = 48
      · have := h5 (by simp [hd]); omega
      · have := decVal_ge (s := ds) (h3 d (by simp)) hd
        rw [h4] at this
        by_cases hl : ds.length ≤ 2
        · simpa using hl
        · have h3 : 10 ^ 3 ≤ 10 ^ ds.length := Nat.pow_le_pow_right (by omega) (by omega)
          have h4 : (10 : Nat) ^ 3 = 1000 := rfl
          omega

theorem no_dot_of_octet {s : Bytes} (h : IsOctet s) : (46 : UInt8) ∉ s := by
  obtain ⟨n, _, ⟨_, h3, _⟩, _⟩ := h
  intro hm
  exact absurd (h3 _ hm) (by decide)

theorem parsesAsIp_iff (s : Bytes) : parsesAsIp s = true ↔ IsIPv4 s := by
  constructor
  · intro h
    unfold parsesAsIp at h
    split at h
    · rename_i a b c d heq
      simp only [Bool.and_eq_true, ipv4Octet_iff] at h
      obtain ⟨⟨⟨ha, hb⟩, hc⟩, hd⟩ := h
      refine ⟨a, b, c, d, ha, hb, hc, hd, ?_⟩
      have := joinWith_splitAll 46 s
      rw [heq] at this
      simp only [joinWith] at this
      rw [← this]; simp
    · exact absurd h (by simp)
  · rintro ⟨a, b, c, d, ha, hb, hc, hd, rfl⟩
    have e : a ++ b!"." ++ b ++ b!"." ++ c ++ b!"." ++ d = a ++ 46 :: (b ++ 46 :: (c ++ 46 :: d)) := by
      simp
    unfold parsesAsIp
    rw [e, splitAll_append (no_dot_of_octet ha), splitAll_append (no_dot_of_octet hb),
      splitAll_append (no_dot_of_octet hc), splitAll_of_not_mem (no_dot_of_octet hd)]
    simp [(ipv4Octet_iff _).mpr, ha, hb, hc, hd]

/-- **C02** The bucket-name check accepts exactly the legal bucket names. -/
theorem C02_bucket_name_rule (s : Bytes) : checkBucketName s = true ↔ LegalBucket s := by
  have hhead : ((s.head?.map fun b => isLower b || isDigit b) != some true) = false ↔
      ∃ b t, s = b :: t ∧ LowerOrDigit b := by
    cases s with
    | nil => simp
    | cons x xs =>
      simp only [List.head?_cons, Option.map_some, bne_eq_false_iff_eq, Option.some.injEq,
        lowerOrDigit_iff]
      constructor
      · intro h; exact ⟨x, xs, rfl, h⟩
      · rintro ⟨b, t, h, hb⟩; cases h; exact hb
  have hlast : ((s.getLast?.map fun b => isLower b || isDigit b) != some true) = false ↔
      ∃ b t, s = t ++ [b] ∧ LowerOrDigit b := by
    cases hl : s.getLast? with
    | none => simp at hl; subst hl; simp
    | some x =>
      obtain ⟨t, ht⟩ := List.getLast?_eq_some_iff.mp hl
      simp only [Option.map_some, bne_eq_false_iff_eq, Option.some.injEq, lowerOrDigit_iff]
      constructor
      · intro h; exact ⟨x, t, ht, h⟩
      · rintro ⟨b, t', h, hb⟩
        rw [ht] at h
        have := (List.append_inj' h rfl).2
        simp at this; rw [this]; exact hb
  have hall : (!(s.all fun b => isLower b || isDigit b || b == 46 || b == 45)) = false ↔
      ∀ b ∈ s, LowerOrDigit b ∨ b = 46 ∨ b = 45 := by
    simp only [Bool.not_eq_false', List.all_eq_true]
    constructor
    · intro h b hb
      have := h b hb
      rw [Bool.or_eq_true, Bool.or_eq_true] at this
      rcases this with (h1 | h1) | h1
      · exact .inl ((lowerOrDigit_iff b).mp h1)
      · exact .inr (.inl (by simpa using h1))
      · exact .inr (.inr (by simpa using h1))
    · intro h b hb
      rw [Bool.or_eq_true, Bool.or_eq_true, lowerOrDigit_iff]
      rcases h b hb with h1 | h1 | h1
      · exact .inl (.inl h1)
      · exact .inl (.inr (by simpa using h1))
      · exact .inr (by simpa using h1)
  unfold checkBucketName
  constructor
  · intro h
    split at h; · cases h
    rename_i h1
    split at h; · cases h
    rename_i h2
    split at h; · cases h
    rename_i h3
    split at h; · cases h
    rename_i h4
    split at h; · cases h
    rename_i h5
    split at h; · cases h
    rename_i h6
    simp only [Bool.not_eq_true] at h1 h2 h3 h4 h5 h6
    obtain ⟨fb, ft, hf, hfb⟩ := hhead.mp h3
    obtain ⟨lb, lt, hl, hlb⟩ := hlast.mp h4
    simp at h1
    refine ⟨by omega, hall.mp h2, ?_, ?_, ?_, ?_⟩
    · intro b t h; rw [hf] at h; cases h; exact hfb
    · intro b t h; rw [hl] at h
      have := (List.append_inj' h rfl).2
      simp at this; rw [← this]; exact hlb
    · rw [← parsesAsIp_iff]; simp [h5]
    · rw [← startsWith_iff]; simp [h6]
  · intro ⟨hlen, hch, hf, hl, hip, hxn⟩
    have hne : s ≠ [] := by rintro rfl; simp at hlen
    have e1 : (!(decide (3 ≤ s.length) && decide (s.length < 64))) = false := by simp; omega
    have e3 : ((s.head?.map fun b => isLower b || isDigit b) != some true) = false := by
      rw [hhead]
      cases s with
      | nil => exact absurd rfl hne
      | cons x xs => exact ⟨x, xs, rfl, hf x xs rfl⟩
    have e4 : ((s.getLast?.map fun b => isLower b || isDigit b) != some true) = false := by
      rw [hlast]
      obtain ⟨x, hx⟩ := Option.ne_none_iff_exists'.mp (fun h => hne (List.getLast?_eq_none_iff.mp h))
      obtain ⟨t, ht⟩ := List.getLast?_eq_some_iff.mp hx
      exact ⟨x, t, ht, hl x t ht⟩
    have e5 : parsesAsIp s = false := by
      rw [← Bool.not_eq_true, parsesAsIp_iff]; exact hip
    have e6 : startsWith s b!"xn--" = false := by
      rw [← Bool.not_eq_true, startsWith_iff]; exact hxn
    simp only [e1, hall.mpr hch, e3, e4, e5, e6]
    simp

/-- the address a parsed path stands for -/
def S3Path.address : S3Path → Address
  | .root => .root
  | .bucket b => .bucket b
  | .object b k => .object b k

theorem legal_no_slash {b : Bytes} (h : LegalBucket b) : (47 : UInt8) ∉ b := by
  intro hm
  rcases h.chars 47 hm with (h | h) | h | h <;> revert h <;> decide

theorem splitOnce_slash_cons (r : Bytes) : splitOnce 47 (47 :: r) = some ([], r) := by
  simp [splitOnce]

/-- **C01** A request path is parsed to an address iff it is a spelling of that address. -/
theorem C01_path_addressing (p : Bytes) (a : Address) :
    (∃ r, tryFromPath p = .ok r ∧ r.address = a) ↔ Addresses p a := by
  constructor
  · rintro ⟨r, h, rfl⟩
    unfold tryFromPath at h
    split at h
    · rename_i path heq
      have hp := (splitOnce_some.mp heq).1
      simp only [List.nil_append] at hp
      subst hp
      split at h
      · rename_i h0; subst h0; cases h; exact .root
      · rename_i h0
        split at h
        rename_i bucket key hbk
        split at h
        · cases h
        · rename_i hb
          simp only [Bool.not_eq_true, Bool.not_eq_false', C02_bucket_name_rule] at hb
          split at hbk
          · cases hbk; cases h; exact .bucket _ hb
          · rename_i x hx
            cases hbk; cases h
            have := (splitOnce_some.mp hx).1
            rw [this]
            have := Addresses.bucketSlash _ hb
            simpa [S3Path.address] using this
          · rename_i b k hne hx
            cases hbk
            simp only at h
            split at h
            · cases h
            · rename_i hk
              cases h
              have := (splitOnce_some.mp hx).1
              rw [this]
              have hk2 : k ≠ [] := by
                rintro rfl; exact hne rfl
              have := Addresses.object _ k hb hk2 (by simpa [checkKey] using hk)
              simpa [S3Path.address] using this
    · cases h
  · intro h
    cases h with
    | root => exact ⟨.root, by decide, rfl⟩
    | bucket b hb =>
      refine ⟨.bucket b, ?_, rfl⟩
      have hne : b ≠ [] := by rintro rfl; have := hb.len; simp at this
      have hs : splitOnce 47 b = none := splitOnce_none.mpr (legal_no_slash hb)
      have hc := (C02_bucket_name_rule b).mpr hb
      simp only [tryFromPath, List.cons_append, List.nil_append, splitOnce_slash_cons, hne,
        if_false, hs, hc]
      simp
    | bucketSlash b hb =>
      refine ⟨.bucket b, ?_, rfl⟩
      have hs : splitOnce 47 (b ++ [47]) = some (b, []) :=
        splitOnce_some.mpr ⟨rfl, legal_no_slash hb⟩
      have hc := (C02_bucket_name_rule b).mpr hb
      simp only [tryFromPath, List.cons_append, List.nil_append, splitOnce_slash_cons, hs, hc]
      simp
    | object b k hb hk hl =>
      refine ⟨.object b k, ?_, rfl⟩
      have hs : splitOnce 47 (b ++ 47 :: k) = some (b, k) :=
        splitOnce_some.mpr ⟨rfl, legal_no_slash hb⟩
      have hc := (C02_bucket_name_rule b).mpr hb
      have hkl : checkKey k = true := by simp [checkKey, hl]
      cases k with
      | nil => exact absurd rfl hk
      | cons x xs =>
        have e : b!"/" ++ b ++ b!"/" ++ (x :: xs) = 47 :: (b ++ 47 :: x :: xs) := by simp
        rw [e]
        simp only [tryFromPath, splitOnce_slash_cons, hs, hc, hkl]
        simp

/-- **C01** (second half) a path addresses at most one thing. -/
theorem C01_address_unique (p : Bytes) (a a' : Address) (h : Addresses p a) (h' : Addresses p a') :
    a = a' := by
  obtain ⟨r, hr, rfl⟩ := (C01_path_addressing p a).mpr h
  obtain ⟨r', hr', rfl⟩ := (C01_path_addressing p a').mpr h'
  rw [hr] at hr'; cases hr'; rfl

/-- **C01** (refusals) the reason given for a refusal is the right one: `InvalidPath` iff the path does
not start with `/`; `KeyTooLong` iff bucket legal and key longer than 1024; otherwise the bucket
name is not legal. -/
theorem C01_refusal_reason (p : Bytes) (e : S3PathErrorKind) (h : tryFromPath p = .error e) :
    (e = .invalidPath ↔ ¬ ∃ t, p = b!"/" ++ t) ∧
    (e = .keyTooLong ↔ ∃ b k, LegalBucket b ∧ p = b!"/" ++ b ++ b!"/" ++ k ∧ 1024 < k.length) := by
  unfold tryFromPath at h
  split at h
  · rename_i path heq
    have hp := (splitOnce_some.mp heq).1
    simp only [List.nil_append] at hp
    subst hp
    split at h
    · cases h
    · rename_i h0
      split at h
      rename_i bucket key hbk
      split at h
      · rename_i hb
        simp only [Bool.not_eq_true'] at hb
        cases h
        refine ⟨by simp, ?_⟩
        simp only [reduceCtorEq, false_iff]
        rintro ⟨b, k, hl, he, hk⟩
        have e : path = b ++ 47 :: k := by simpa using he
        have hs : splitOnce 47 path = some (b, k) := splitOnce_some.mpr ⟨e, legal_no_slash hl⟩
        rw [hs] at hbk
        cases k with
        | nil => simp at hk
        | cons x xs =>
          simp at hbk
          rw [← hbk.1, (C02_bucket_name_rule b).mpr hl] at hb
          cases hb
      · rename_i hb
        simp only [Bool.not_eq_true, Bool.not_eq_false', C02_bucket_name_rule] at hb
        split at h
        · cases h
        · rename_i k
          split at h
          · rename_i hk
            cases h
            refine ⟨by simp, ?_⟩
            simp only [true_iff]
            simp [checkKey] at hk
            split at hbk
            · cases hbk
            · cases hbk
            · rename_i hx; cases hbk
              have := (splitOnce_some.mp hx).1
              exact ⟨bucket, k, hb, by simp [this], hk⟩
          · cases h
  · rename_i hn
    cases h
    refine ⟨?_, ?_⟩
    · simp only [true_iff]
      rintro ⟨t, rfl⟩
      exact hn t (by simp [splitOnce])
    · simp only [reduceCtorEq, false_iff]
      rintro ⟨b, k, _, rfl, _⟩
      exact hn (b ++ 47 :: k) (by simp [splitOnce])

/-! Non-vacuity: each kind of address and each refusal occurs. -/
example : Addresses b!"/my-bucket/dir/ob ject" (.object b!"my-bucket" b!"dir/ob ject") :=
  .object b!"my-bucket" b!"dir/ob ject" ((C02_bucket_name_rule _).mp (by decide)) (by decide) (by decide)
example : LegalBucket b!"1.2.3.400" := (C02_bucket_name_rule _).mp (by decide)
example : ¬ LegalBucket b!"192.168.0.1" := mt (C02_bucket_name_rule _).mpr (by decide)
example : ¬ LegalBucket b!"xn--abc" := mt (C02_bucket_name_rule _).mpr (by decide)
example : tryFromPath b!"/*" = .error .invalidBucketName := by decide
example : tryFromPath b!"asd" = .error .invalidPath := by decide
example : ∃ p, tryFromPath p = .error .keyTooLong :=
  ⟨b!"/asd/" ++ List.replicate 1025 98, by decide +kernel⟩

end S3
