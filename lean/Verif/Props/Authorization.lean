import Verif.Model.Authorization
import Verif.Spec.Authorization
import Verif.Lemmas.Date
/-! C61: the `Authorization` header. -/
namespace S3
open Spec

theorem slashTail1_some {s a r : Bytes} :
    slashTail1 s = some (a, r) ↔ s = a ++ b!"/" ++ r ∧ a ≠ [] ∧ 47 ∉ a := by
  simp only [slashTail1, Option.bind_eq_bind, Option.bind_eq_some_iff, Prod.exists, takeTill1_some,
    takeN_some, Option.pure_def, Option.some.injEq, Prod.mk.injEq]
  constructor
  · rintro ⟨a', s1, ⟨rfl, hne, hall, hh⟩, x, s2, ⟨rfl, hx⟩, rfl, rfl⟩
    match x, hx with
    | [c], _ =>
      have := hh c s2 rfl
      simp only [beq_iff_eq] at this; subst this
      refine ⟨by simp, hne, ?_⟩
      intro hm; have := hall _ hm; simp at this
  · rintro ⟨rfl, hne, hm⟩
    refine ⟨a, b!"/" ++ r, ⟨by simp, hne, ?_, headIs_cons (by simp)⟩, b!"/", r, ⟨rfl, rfl⟩, rfl, rfl⟩
    intro c hc; simp; rintro rfl; exact hm hc

theorem slashTail0_some {s a r : Bytes} :
    slashTail0 s = some (a, r) ↔ s = a ++ b!"/" ++ r ∧ 47 ∉ a := by
  simp only [slashTail0]
  constructor
  · intro h
    generalize ht : takeTill (· == 47) s = t at h
    obtain ⟨a', s1⟩ := t
    simp only [Option.bind_eq_bind, Option.bind_eq_some_iff, Prod.exists, takeN_some,
      Option.pure_def, Option.some.injEq, Prod.mk.injEq] at h
    obtain ⟨rfl, hall, hh⟩ := takeTill_some.mp ht
    obtain ⟨x, s2, ⟨rfl, hx⟩, rfl, rfl⟩ := h
    match x, hx with
    | [c], _ =>
      have := hh c s2 rfl
      simp only [beq_iff_eq] at this; subst this
      refine ⟨by simp, ?_⟩
      intro hm; have := hall _ hm; simp at this
  · rintro ⟨rfl, hm⟩
    have : takeTill (· == 47) (a ++ b!"/" ++ r) = (a, b!"/" ++ r) := by
      refine takeTill_some.mpr ⟨by simp, ?_, headIs_cons (by simp)⟩
      intro c hc; simp; rintro rfl; exact hm hc
    rw [this]
    simp [takeN]

theorem credential_parse_some {s r : Bytes} {c : Credential} :
    Credential.parse s = some (c, r) ↔
      s = scopeText c.accessKeyId c.date c.region c.service ++ r ∧
      (c.accessKeyId ≠ [] ∧ 47 ∉ c.accessKeyId) ∧ (verifyDate c.date = true ∧ 47 ∉ c.date) ∧
      47 ∉ c.region ∧ (c.service ≠ [] ∧ 47 ∉ c.service) := by
  obtain ⟨k, d, rg, sv⟩ := c
  simp only [Credential.parse, Option.bind_eq_bind, Option.bind_eq_some_iff, Prod.exists,
    slashTail1_some, scopeText]
  constructor
  · rintro ⟨k', s1, ⟨rfl, hk⟩, d', s2, ⟨rfl, hd⟩, h⟩
    split at h
    · rename_i hv
      simp only [Option.bind_eq_some_iff, Prod.exists, slashTail1_some, slashTail0_some, tag_some,
        Option.pure_def, Option.some.injEq, Prod.mk.injEq, Credential.mk.injEq] at h
      obtain ⟨rg', s3, ⟨rfl, hr⟩, sv', s4, ⟨rfl, hs⟩, s5, rfl, ⟨rfl, rfl, rfl, rfl⟩, rfl⟩ := h
      exact ⟨by simp, hk, ⟨hv, hd.2⟩, hr, hs⟩
    · cases h
  · rintro ⟨rfl, hk, ⟨hv, hd⟩, hr, hs⟩
    have hdne : d ≠ [] := by rintro rfl; revert hv; decide
    refine ⟨k, d ++ b!"/" ++ rg ++ b!"/" ++ sv ++ b!"/" ++ b!"aws4_request" ++ r,
      ⟨by simp, hk⟩, d, rg ++ b!"/" ++ sv ++ b!"/" ++ b!"aws4_request" ++ r, ⟨by simp, hdne, hd⟩, ?_⟩
    simp only [hv, if_true, Option.bind_eq_some_iff, Prod.exists, slashTail1_some, slashTail0_some,
      tag_some, Option.pure_def, Option.some.injEq, Prod.mk.injEq, Credential.mk.injEq]
    exact ⟨rg, sv ++ b!"/" ++ b!"aws4_request" ++ r, ⟨by simp, hr⟩, sv,
      b!"aws4_request" ++ r, ⟨by simp, hs⟩, r, rfl, by simp⟩

theorem signedHeadersLoop_some {fuel : Nat} {s r : Bytes} {hs : List Bytes}
    (h : signedHeadersLoop fuel s = some (hs, r)) :
    s = semicolons hs ++ b!"," ++ r ∧ hs ≠ [] ∧ ∀ h ∈ hs, h ≠ [] ∧ 59 ∉ h ∧ 44 ∉ h := by
  induction fuel generalizing s hs with
  | zero => simp [signedHeadersLoop] at h
  | succ f ih =>
    simp only [signedHeadersLoop, Option.bind_eq_bind, Option.bind_eq_some_iff, Prod.exists,
      takeTill1_some, takeN_some] at h
    obtain ⟨h0, s1, ⟨rfl, hne, hall, hh⟩, x, s2, ⟨rfl, hx⟩, h⟩ := h
    have hmem : h0 ≠ [] ∧ 59 ∉ h0 ∧ 44 ∉ h0 :=
      ⟨hne, fun hm => by simpa using hall _ hm, fun hm => by simpa using hall _ hm⟩
    split at h
    · rename_i hx'
      subst hx'
      simp only [Option.pure_def, Option.some.injEq, Prod.mk.injEq] at h
      obtain ⟨rfl, rfl⟩ := h
      exact ⟨by simp [semicolons], by simp, by simpa using hmem⟩
    · rename_i hx'
      match x, hx with
      | [c], _ =>
        have hc := hh c s2 rfl
        simp only [Bool.or_eq_true, beq_iff_eq] at hc
        rcases hc with rfl | rfl
        · simp only [Option.bind_eq_some_iff, Prod.exists, Option.pure_def, Option.some.injEq,
            Prod.mk.injEq] at h
          obtain ⟨hs', r', hr, rfl, rfl⟩ := h
          obtain ⟨rfl, hne', hall'⟩ := ih hr
          refine ⟨?_, by simp, ?_⟩
          · cases hs' with
            | nil => exact absurd rfl hne'
            | cons a t => simp [semicolons]
          · intro g hg
            rcases List.mem_cons.mp hg with rfl | hg
            · exact hmem
            · exact hall' g hg
        · exact absurd rfl hx'

theorem signedHeadersLoop_complete {hs : List Bytes} (r : Bytes) (hne : hs ≠ [])
    (hall : ∀ h ∈ hs, h ≠ [] ∧ 59 ∉ h ∧ 44 ∉ h) (fuel : Nat)
    (hf : hs.length ≤ fuel) :
    signedHeadersLoop fuel (semicolons hs ++ b!"," ++ r) = some (hs, r) := by
  induction fuel generalizing hs with
  | zero => simp at hf; exact absurd hf hne
  | succ f ih =>
    cases hs with
    | nil => exact absurd rfl hne
    | cons h t =>
      obtain ⟨h1, h2, h3⟩ := hall h (by simp)
      have hno : ∀ c ∈ h, (c == 59 || c == 44) = false := by
        intro c hc; simp; exact ⟨by rintro rfl; exact h2 hc, by rintro rfl; exact h3 hc⟩
      cases t with
      | nil =>
        have : takeTill1 (fun c => c == 59 || c == 44) (h ++ (b!"," ++ r)) = some (h, b!"," ++ r) :=
          takeTill1_some.mpr ⟨rfl, h1, hno, headIs_cons (by simp)⟩
        simp only [semicolons, signedHeadersLoop, List.append_assoc, this]
        simp [takeN]
      | cons a t =>
        have e : semicolons (h :: a :: t) ++ b!"," ++ r
            = h ++ (b!";" ++ (semicolons (a :: t) ++ b!"," ++ r)) := by simp [semicolons]
        have ht : takeTill1 (fun c => c == 59 || c == 44)
            (h ++ (b!";" ++ (semicolons (a :: t) ++ b!"," ++ r)))
            = some (h, b!";" ++ (semicolons (a :: t) ++ b!"," ++ r)) :=
          takeTill1_some.mpr ⟨rfl, h1, hno, headIs_cons (by simp)⟩
        have hn : takeN 1 (b!";" ++ (semicolons (a :: t) ++ b!"," ++ r))
            = some (b!";", semicolons (a :: t) ++ b!"," ++ r) := takeN_append rfl
        rw [e, signedHeadersLoop]
        simp only [ht, Option.bind_eq_bind, Option.bind_some, hn]
        have := ih (hs := a :: t) (by simp) (fun g hg => hall g (by simp [hg]))
          (by simp at hf ⊢; omega)
        rw [this]; simp

theorem semicolons_length {hs : List Bytes} (hall : ∀ h ∈ hs, h ≠ []) :
    hs.length ≤ (semicolons hs).length := by
  induction hs with
  | nil => simp
  | cons h t ih =>
    have h1 : 0 < h.length := List.length_pos_iff.mpr (hall h (by simp))
    cases t with
    | nil => simp [semicolons]; omega
    | cons a t =>
      have := ih fun g hg => hall g (by simp [hg])
      simp [semicolons] at this ⊢; omega

theorem isMultispace_iff (c : UInt8) : isMultispace c = true ↔ Blank c := by
  simp [isMultispace, Blank, or_assoc]
theorem isAsciiWs_iff (c : UInt8) : isAsciiWs c = false ↔ ¬ Blank c ∧ c ≠ 12 := by
  simp [isAsciiWs, Blank, not_or]
  constructor
  · rintro ⟨⟨⟨⟨a, b⟩, c⟩, d⟩, e⟩; exact ⟨⟨a, b, c, e⟩, d⟩
  · rintro ⟨⟨a, b, c, e⟩, d⟩; exact ⟨⟨⟨⟨a, b⟩, c⟩, d⟩, e⟩
theorem blank_ws {c : UInt8} (h : Blank c) : isAsciiWs c = true := by
  simp [Blank] at h; simp [isAsciiWs]; rcases h with h | h | h | h <;> simp [h]

/-- **C61** A header is parsed to the given parts iff the parts are admissible and the header is
literally made of these parts (with free blanks between the fields). -/
theorem C61_authorization_grammar (s : Bytes) (a : Authorization) :
    Authorization.fromHeaderStr s = some a ↔
      AdmissibleAuth (fun d => verifyDate d = true) a.algorithm a.credential.accessKeyId
        a.credential.date a.credential.region a.credential.service a.signedHeaders a.signature ∧
      AuthText s a.algorithm a.credential.accessKeyId a.credential.date a.credential.region
        a.credential.service a.signedHeaders a.signature := by
  constructor
  · intro h
    simp only [Authorization.fromHeaderStr, Option.bind_eq_bind, Option.bind_eq_some_iff,
      Prod.exists, tag_some, takeTill1_some] at h
    obtain ⟨alg, s1, ⟨rfl, ha1, ha2, _⟩, s2, hw1, s3, rfl, cr, s4, hcr, s5, rfl, s6, hs6, hs, s7, hl,
      s8, hs8, h⟩ := h
    obtain ⟨w1, rfl, hw1n, hw1b⟩ := multispace1_spec hw1
    obtain ⟨rfl, ck, cd, crg, csv⟩ := credential_parse_some.mp hcr
    obtain ⟨w2, hw2, hw2b⟩ := multispace0_spec s5
    obtain ⟨w3, hw3, hw3b⟩ := multispace0_spec s7
    obtain ⟨rfl, hhne, hhall⟩ := signedHeadersLoop_some hl
    generalize ht : takeTill isAsciiWs s8 = t at h
    obtain ⟨sig, s9⟩ := t
    obtain ⟨rfl, hsig, _⟩ := takeTill_some.mp ht
    simp only at h
    split at h
    · cases h
    · rename_i hend
      simp only [ne_eq, Decidable.not_not] at hend
      simp only [Option.pure_def, Option.some.injEq] at h
      subst h
      obtain ⟨w4, hw4, hw4b⟩ := multispace0_spec s9
      rw [hend, List.append_nil] at hw4
      subst hw4
      refine ⟨⟨⟨ha1, fun c hc => (isAsciiWs_iff c).mp (ha2 c hc)⟩, ck, cd, crg, csv, ⟨hhne, hhall⟩,
        fun c hc => (isAsciiWs_iff c).mp (hsig c hc)⟩, w1, w2, w3, s9, hw1n, ?_, ?_, ?_, ?_, ?_⟩
      · exact fun c hc => (isMultispace_iff c).mp (hw1b c hc)
      · exact fun c hc => (isMultispace_iff c).mp (hw2b c hc)
      · exact fun c hc => (isMultispace_iff c).mp (hw3b c hc)
      · exact fun c hc => (isMultispace_iff c).mp (hw4b c hc)
      · rw [hw2, hs6, hw3, hs8]; simp
  · rintro ⟨⟨⟨ha1, ha2⟩, ck, cd, crg, csv, ⟨hhne, hhall⟩, hsig⟩,
      w1, w2, w3, w4, hw1n, hw1, hw2, hw3, hw4, rfl⟩
    obtain ⟨alg, cr, hs, sig⟩ := a
    simp only at *
    have m1 := fun c hc => (isMultispace_iff c).mpr (hw1 c hc)
    have m2 := fun c hc => (isMultispace_iff c).mpr (hw2 c hc)
    have m3 := fun c hc => (isMultispace_iff c).mpr (hw3 c hc)
    have m4 := fun c hc => (isMultispace_iff c).mpr (hw4 c hc)
    have e : ∀ sc : Bytes, alg ++ w1 ++ b!"Credential=" ++ sc ++ b!"," ++ w2 ++ b!"SignedHeaders=" ++
        semicolons hs ++ b!"," ++ w3 ++ b!"Signature=" ++ sig ++ w4
      = alg ++ (w1 ++ (b!"Credential=" ++ (sc ++ (b!"," ++ (w2 ++ (b!"SignedHeaders=" ++
        (semicolons hs ++ b!"," ++ (w3 ++ (b!"Signature=" ++ (sig ++ w4)))))))))) := by
      intro sc; simp
    rw [e]
    rw [Authorization.fromHeaderStr]
    have t1 : ∀ r, takeTill1 isAsciiWs (alg ++ (w1 ++ r)) = some (alg, w1 ++ r) := by
      intro r
      refine takeTill1_some.mpr ⟨rfl, ha1, fun c hc => (isAsciiWs_iff c).mpr (ha2 c hc), ?_⟩
      cases w1 with
      | nil => exact absurd rfl hw1n
      | cons c t => exact headIs_cons (blank_ws (hw1 c (by simp)))
    have t2 : ∀ r, multispace1 (w1 ++ (b!"Credential=" ++ r)) = some (b!"Credential=" ++ r) :=
      fun r => multispace1_append hw1n m1 (headIs_cons (by decide))
    have t3 : ∀ r, Credential.parse
        (scopeText cr.accessKeyId cr.date cr.region cr.service ++ r) = some (cr, r) :=
      fun r => credential_parse_some.mpr ⟨rfl, ck, cd, crg, csv⟩
    have t4 : ∀ r, multispace0 (w2 ++ (b!"SignedHeaders=" ++ r)) = b!"SignedHeaders=" ++ r :=
      fun r => multispace0_append m2 (headIs_cons (by decide))
    have t5 : ∀ r, signedHeadersLoop (semicolons hs ++ b!"," ++ r).length
        (semicolons hs ++ b!"," ++ r) = some (hs, r) := by
      intro r
      refine signedHeadersLoop_complete r hhne hhall _ ?_
      have := semicolons_length fun g hg => (hhall g hg).1
      simp; omega
    have t6 : ∀ r, multispace0 (w3 ++ (b!"Signature=" ++ r)) = b!"Signature=" ++ r :=
      fun r => multispace0_append m3 (headIs_cons (by decide))
    have t7 : takeTill isAsciiWs (sig ++ w4) = (sig, w4) := by
      refine takeTill_some.mpr ⟨rfl, fun c hc => (isAsciiWs_iff c).mpr (hsig c hc), ?_⟩
      cases w4 with
      | nil => exact headIs_nil _
      | cons c t => exact headIs_cons (blank_ws (hw4 c (by simp)))
    have t8 : multispace0 w4 = [] := by
      have := multispace0_append (r := []) m4 (headIs_nil _)
      simpa using this
    simp only [t1, t2, t3, t4, t5, t6, t7, t8, tag_append, Option.bind_eq_bind, Option.bind_some,
      ne_eq, not_true_eq_false, if_false, Option.pure_def]

/-- **C61** (uniqueness) the text determines the parts: fields never leak into each other. -/
theorem C61_authorization_unique (s : Bytes) (a b : Authorization)
    (ha : AdmissibleAuth (fun d => verifyDate d = true) a.algorithm a.credential.accessKeyId
      a.credential.date a.credential.region a.credential.service a.signedHeaders a.signature)
    (hb : AdmissibleAuth (fun d => verifyDate d = true) b.algorithm b.credential.accessKeyId
      b.credential.date b.credential.region b.credential.service b.signedHeaders b.signature)
    (hsa : AuthText s a.algorithm a.credential.accessKeyId a.credential.date a.credential.region
        a.credential.service a.signedHeaders a.signature)
    (hsb : AuthText s b.algorithm b.credential.accessKeyId b.credential.date b.credential.region
        b.credential.service b.signedHeaders b.signature) : a = b := by
  have h1 := (C61_authorization_grammar s a).mpr ⟨ha, hsa⟩
  have h2 := (C61_authorization_grammar s b).mpr ⟨hb, hsb⟩
  rw [h1] at h2; exact Option.some.inj h2

theorem parseSigned_digits {lim : Nat} {s : Bytes} (hd : ∀ c ∈ s, isDigit c = true) (hne : s ≠ [])
    (hb : decVal s ≤ lim - 1) : parseSigned lim s = some (Int.ofNat (decVal s)) := by
  cases s with
  | nil => exact absurd rfl hne
  | cons c cs =>
    have hc := hd c (by simp)
    have h43 : c ≠ 43 := by rintro rfl; revert hc; decide
    have h45 : c ≠ 45 := by rintro rfl; revert hc; decide
    simp only [parseSigned, h43, h45, if_false]
    have := (accDigits_iff (max := lim - 1) (acc := 0) (s := c :: cs) (n := decVal (c :: cs))
      (by omega)).mpr ⟨hd, by simp, hb⟩
    rw [this]; rfl

theorem calendar_iff (y m d : Nat) :
    (1 ≤ d ∧ d ≤ daysInMonth (Int.ofNat y) m) ↔ CalendarDate y m d := by
  have hl : ((Int.ofNat y) % 4 = 0 ∧ ((Int.ofNat y) % 100 ≠ 0 ∨ (Int.ofNat y) % 400 = 0)) ↔ Leap y := by
    simp only [Leap, Int.ofNat_eq_natCast]; omega
  simp only [daysInMonth, CalendarDate, List.mem_cons, List.not_mem_nil, or_false]
  by_cases h2 : m = 2
  · subst h2
    by_cases hL : Leap y
    · simp only [if_true, if_pos (hl.mpr hL), hL, and_true, true_and]
      clear hl hL; omega
    · simp only [if_true, if_neg (fun h => hL (hl.mp h)), hL, and_false, true_and, or_false]
      clear hl hL; omega
  · simp only [h2, if_false, false_and, or_false]
    clear hl
    split
    · omega
    · split <;> omega

/-- **C61** (date part) a date part made of digits is accepted iff it is an eight digit calendar
date. (The code also accepts a leading sign in each of the three numbers.) -/
theorem C61_scope_date (s : Bytes) (hd : ∀ c ∈ s, isDigit c = true) :
    verifyDate s = true ↔ EightDigitDate s := by
  have b2 : 10 ^ 2 ≤ u32Max := by decide
  constructor
  · intro h
    unfold verifyDate at h
    split at h; · cases h
    rename_i ys s1 h1
    split at h; · cases h
    rename_i ms s2 h2
    split at h
    · rename_i ds h3
      obtain ⟨rfl, l1⟩ := takeN_some.mp h1
      obtain ⟨rfl, l2⟩ := takeN_some.mp h2
      obtain ⟨rfl, l3⟩ := takeN_some.mp h3
      have d1 : ∀ c ∈ ys, isDigit c = true := fun c hc => hd c (by simp [hc])
      have d2 : ∀ c ∈ ms, isDigit c = true := fun c hc => hd c (by simp [hc])
      have d3 : ∀ c ∈ ds, isDigit c = true := fun c hc => hd c (by simp [hc])
      split at h
      · rename_i y m d hy hm hdd
        have f2 := (parse_fixed (by omega) l2 d2 b2).mp hm
        have f3 := (parse_fixed (by omega) l3 d3 b2).mp hdd
        have hyb := decVal_bound d1
        rw [l1] at hyb
        have hys := parseSigned_digits (lim := 2 ^ 31) d1 (by rintro rfl; simp at l1) (by omega)
        rw [hys] at hy
        simp only [Option.some.injEq] at hy
        subst hy
        simp only [Bool.and_eq_true, decide_eq_true_eq] at h
        exact ⟨_, m, d, ys, ms, ds, by simp, ⟨l1, d1, rfl⟩, f2, f3, (calendar_iff _ _ _).mp h⟩
      · cases h
    · cases h
  · rintro ⟨y, m, d, ys, ms, ds, rfl, f1, f2, f3, hc⟩
    have hyb := decVal_bound f1.2.1
    rw [f1.1] at hyb
    have hys := parseSigned_digits (lim := 2 ^ 31) f1.2.1
      (by rintro rfl; have := f1.1; simp at this) (by omega)
    rw [f1.2.2] at hys
    have e : ys ++ ms ++ ds = ys ++ (ms ++ (ds ++ [])) := by simp
    rw [e]
    simp only [verifyDate, takeN_append f1.1, takeN_append f2.1, takeN_append f3.1, hys,
      (parse_fixed (by omega) f2.1 f2.2.1 b2).mpr f2, (parse_fixed (by omega) f3.1 f3.2.1 b2).mpr f3]
    have := (calendar_iff y m d).mpr hc
    simpa using this

/-! Non-vacuity: the header of the AWS documentation (also the unit test of the code). -/
example : Authorization.fromHeaderStr
    b!"AWS4-HMAC-SHA256 Credential=AKIA/20130524/us-east-1/s3/aws4_request, SignedHeaders=host;range,Signature=fe5f"
    = some { algorithm := b!"AWS4-HMAC-SHA256",
             credential := ⟨b!"AKIA", b!"20130524", b!"us-east-1", b!"s3"⟩,
             signedHeaders := [b!"host", b!"range"], signature := b!"fe5f" } := by decide +kernel
example : verifyDate b!"20240229" = true ∧ verifyDate b!"20230229" = false := by decide +kernel
/-- the leniency: a sign is accepted -/
example : verifyDate b!"+024+2+9" = true := by decide +kernel

end S3
