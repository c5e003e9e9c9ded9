import Verif.Model.Json
import Verif.Spec.Json
import Verif.Lemmas.Dispatch
/-! The reader of JSON objects and the grammar. -/
namespace S3
open Spec

theorem hexVal_iff (b x : UInt8) : hexVal b = some x ↔ JsonHexDigit b x.toNat := by
  constructor
  · have key : ∀ b : UInt8, (match hexVal b with
        | some x => decide (x.toNat < 10) && b == UInt8.ofNat (48 + x.toNat) ||
            (decide (10 ≤ x.toNat) && decide (x.toNat < 16) && (b == UInt8.ofNat (97 + (x.toNat - 10)) || b == UInt8.ofNat (65 + (x.toNat - 10))))
        | none => true) = true := by
      apply forall_byte; decide +kernel
    intro h
    have := key b
    rw [h] at this
    simp only [Bool.or_eq_true, Bool.and_eq_true, decide_eq_true_eq, beq_iff_eq] at this
    rcases this with ⟨h1, h2⟩ | ⟨⟨h1, h2⟩, h3 | h3⟩
    · rw [h2]; exact .digit _ h1
    · rw [h3, show x.toNat = 10 + (x.toNat - 10) by omega]
      rw [show 10 + (x.toNat - 10) - 10 = x.toNat - 10 by omega]
      exact .lower _ (by omega)
    · rw [h3, show x.toNat = 10 + (x.toNat - 10) by omega]
      rw [show 10 + (x.toNat - 10) - 10 = x.toNat - 10 by omega]
      exact .upper _ (by omega)
  · intro h
    generalize hn : x.toNat = n at h
    have hx : x = UInt8.ofNat n := by rw [← hn]; simp
    subst hx
    cases h with
    | digit n h =>
      have : ∀ n < 10, hexVal (UInt8.ofNat (48 + n)) = some (UInt8.ofNat n) := by decide
      exact this n h
    | lower n h =>
      have : ∀ n < 6, hexVal (UInt8.ofNat (97 + n)) = some (UInt8.ofNat (10 + n)) := by decide
      exact this n h
    | upper n h =>
      have : ∀ n < 6, hexVal (UInt8.ofNat (65 + n)) = some (UInt8.ofNat (10 + n)) := by decide
      exact this n h

theorem JsonHexDigit_lt {b : UInt8} {n : Nat} (h : JsonHexDigit b n) : n < 16 := by
  cases h <;> omega

theorem hexDigit_val {b : UInt8} {n : Nat} (h : JsonHexDigit b n) : ∃ x : UInt8, hexVal b = some x ∧ x.toNat = n := by
  have hn := JsonHexDigit_lt h
  have e : (UInt8.ofNat n).toNat = n := by simp; omega
  exact ⟨UInt8.ofNat n, (hexVal_iff _ _).mpr (by rw [e]; exact h), e⟩

theorem hex4_lt {t : Bytes} {n : Nat} (h : JsonHex4 t n) : n < 65536 := by
  cases h with
  | mk a b c d =>
    have := JsonHexDigit_lt a; have := JsonHexDigit_lt b; have := JsonHexDigit_lt c; have := JsonHexDigit_lt d
    omega

theorem hex4_length {t : Bytes} {n : Nat} (h : JsonHex4 t n) : t.length = 4 := by cases h; rfl

theorem jsonHex_iff {r rest : Bytes} {n : Nat} : jsonHex r = some (n, rest) ↔ ∃ t, r = t ++ rest ∧ JsonHex4 t n := by
  constructor
  · intro h
    match r, h with
    | a :: b :: c :: d :: r, h =>
      simp only [jsonHex] at h
      split at h
      · rename_i w x y z hw hx hy hz
        simp only [Option.some.injEq, Prod.mk.injEq] at h
        obtain ⟨rfl, rfl⟩ := h
        refine ⟨[a, b, c, d], rfl, ?_⟩
        have := JsonHex4.mk ((hexVal_iff _ _).mp hw) ((hexVal_iff _ _).mp hx) ((hexVal_iff _ _).mp hy) ((hexVal_iff _ _).mp hz)
        rw [show ((w.toNat * 16 + x.toNat) * 16 + y.toNat) * 16 + z.toNat = w.toNat * 4096 + x.toNat * 256 + y.toNat * 16 + z.toNat by omega]
        exact this
      · cases h
  · rintro ⟨t, rfl, h⟩
    cases h with
    | mk ha hb hc hd =>
      obtain ⟨w, hw, rfl⟩ := hexDigit_val ha
      obtain ⟨x, hx, rfl⟩ := hexDigit_val hb
      obtain ⟨y, hy, rfl⟩ := hexDigit_val hc
      obtain ⟨z, hz, rfl⟩ := hexDigit_val hd
      simp only [List.cons_append, List.nil_append, jsonHex, hw, hx, hy, hz, Option.some.injEq, Prod.mk.injEq, and_true]
      omega

theorem toNat_ofNat_valid {n : Nat} (h : n < 0xD800 ∨ (0xDFFF < n ∧ n < 0x110000)) : (Char.ofNat n).toNat = n := by
  have hv : n.isValidChar := h
  simp only [Char.ofNat, dif_pos hv]
  rfl

theorem char_code (c : Char) : c.toNat < 0xD800 ∨ (0xDFFF < c.toNat ∧ c.toNat < 0x110000) := c.valid

theorem jsonUnicode_iff {r rest x : Bytes} :
    jsonUnicode r = some (x, rest) ↔ ∃ t, r = t ++ rest ∧ JsonChar (b!"\\u" ++ t) x := by
  constructor
  · intro h
    simp only [jsonUnicode] at h
    split at h
    · rename_i n r' hn
      obtain ⟨t, rfl, ht⟩ := jsonHex_iff.mp hn
      simp only [jsonCode] at h
      split at h
      · cases h
      · split at h
        · rename_i h1 h2
          simp only [jsonLow] at h
          split at h
          · rename_i r''
            split at h
            · rename_i lo r3 hlo
              obtain ⟨u, rfl, hu⟩ := jsonHex_iff.mp hlo
              split at h
              · rename_i h3
                simp only [Option.some.injEq, Prod.mk.injEq] at h
                obtain ⟨rfl, rfl⟩ := h
                refine ⟨t ++ b!"\\u" ++ u, by simp, ?_⟩
                have := JsonChar.pair (t := t) (u := u) (hi := n - 0xD800) (lo := lo - 0xDC00)
                  (c := Char.ofNat ((n - 0xD800) * 0x400 + (lo - 0xDC00) + 0x10000))
                  (by rw [show 0xD800 + (n - 0xD800) = n by omega]; exact ht) (by omega)
                  (by rw [show 0xDC00 + (lo - 0xDC00) = lo by omega]; exact hu) (by omega)
                  (by rw [toNat_ofNat_valid (by omega)]; omega)
                simpa using this
              · cases h
            · cases h
          · cases h
        · rename_i h1 h2
          simp only [Option.some.injEq, Prod.mk.injEq] at h
          obtain ⟨rfl, rfl⟩ := h
          have := hex4_lt ht
          refine ⟨t, rfl, .code ?_⟩
          rw [toNat_ofNat_valid (by omega)]
          exact ht
    · cases h
  · rintro ⟨t, rfl, h⟩
    generalize hg : b!"\\u" ++ t = g at h
    have hlen : ∀ c : UInt8, b!"\\u" ++ t ≠ [c] := by intro c e; cases e
    cases h with
    | plain => exact absurd hg (hlen _)
    | code hc =>
      obtain rfl := List.append_cancel_left hg
      rename_i c
      simp only [jsonUnicode, jsonHex_iff.mpr ⟨t, rfl, hc⟩, jsonCode]
      have := char_code c
      rw [if_neg (by omega), if_neg (by omega), Char.ofNat_toNat]
    | @pair t' u hi lo c h1 h2 h3 h4 h5 =>
      rw [List.append_assoc, List.append_assoc] at hg
      obtain rfl := List.append_cancel_left hg
      have e1 : jsonHex ((t' ++ (b!"\\u" ++ u)) ++ rest) = some (0xD800 + hi, 92 :: 117 :: (u ++ rest)) :=
        jsonHex_iff.mpr ⟨t', by simp, h1⟩
      have e2 : jsonHex (u ++ rest) = some (0xDC00 + lo, rest) := jsonHex_iff.mpr ⟨u, rfl, h3⟩
      simp only [jsonUnicode, e1, jsonCode]
      rw [if_neg (by omega), if_pos (by omega)]
      simp only [jsonLow, e2]
      rw [if_pos (by omega)]
      have e3 : Char.ofNat ((0xD800 + hi - 0xD800) * 0x400 + (0xDC00 + lo - 0xDC00) + 0x10000) = c := by
        rw [show (0xD800 + hi - 0xD800) * 0x400 + (0xDC00 + lo - 0xDC00) + 0x10000 = c.toNat by omega, Char.ofNat_toNat]
      rw [e3]
    | _ => exact absurd hg (by simp)

theorem jsonEscape_iff {r rest x : Bytes} : jsonEscape r = some (x, rest) ↔ ∃ t, r = t ++ rest ∧ JsonChar (92 :: t) x := by
  constructor
  · intro h
    cases r with
    | nil => cases h
    | cons c r =>
      simp only [jsonEscape] at h
      repeat' split at h
      all_goals first
        | (simp only [Option.some.injEq, Prod.mk.injEq] at h; obtain ⟨rfl, rfl⟩ := h; subst c)
        | skip
      · exact ⟨[34], rfl, .quote⟩
      · exact ⟨[92], rfl, .backslash⟩
      · exact ⟨[47], rfl, .slash⟩
      · exact ⟨[98], rfl, .backspace⟩
      · exact ⟨[102], rfl, .formFeed⟩
      · exact ⟨[110], rfl, .lineFeed⟩
      · exact ⟨[114], rfl, .return_⟩
      · exact ⟨[116], rfl, .tab⟩
      · rename_i hc
        subst hc
        obtain ⟨t, rfl, ht⟩ := jsonUnicode_iff.mp h
        exact ⟨117 :: t, rfl, ht⟩
      · cases h
  · rintro ⟨t, rfl, h⟩
    generalize hg : (92 : UInt8) :: t = g at h
    have key : ∀ u, t = 117 :: u → JsonChar (b!"\\u" ++ u) x → jsonEscape (t ++ rest) = some (x, rest) := by
      rintro u rfl hu
      have := (jsonUnicode_iff (rest := rest)).mpr ⟨u, rfl, hu⟩
      simpa [jsonEscape] using this
    cases h with
    | plain h1 h2 h3 => injection hg with e _; exact absurd e.symm h3
    | @code u c hc => injection hg with _ e; exact key u e (.code hc)
    | @pair t' u hi lo c h1 h2 h3 h4 h5 =>
      rw [List.append_assoc, List.append_assoc] at hg
      injection hg with _ e
      refine key (t' ++ (b!"\\u" ++ u)) e ?_
      rw [← List.append_assoc, ← List.append_assoc]
      exact .pair h1 h2 h3 h4 h5
    | _ => injection hg with _ e; subst e; rfl

theorem jsonEscape_shorter {r rest x : Bytes} (h : jsonEscape r = some (x, rest)) : rest.length < r.length := by
  obtain ⟨t, rfl, ht⟩ := jsonEscape_iff.mp h
  cases t with
  | nil =>
    generalize hg : [(92 : UInt8)] = g at ht
    cases ht with
    | plain h1 h2 h3 => injection hg with e _; exact absurd e.symm h3
    | _ => cases hg
  | cons a t => simp only [List.length_append, List.length_cons]; omega

theorem jsonChars_iff : ∀ {n : Nat} {s : Bytes}, s.length < n → ∀ {v rest : Bytes},
    (jsonChars n s = some (v, rest) ↔ ∃ t, s = t ++ 34 :: rest ∧ JsonChars t v)
  | n + 1, [], _, v, rest => by
    simp [jsonChars]
  | n + 1, c :: r, hn, v, rest => by
    simp only [List.length_cons] at hn
    have start : ∀ {t : Bytes}, JsonChars t v → (t = [] ∧ v = []) ∨ ∃ a x u w, t = a ++ u ∧ v = x ++ w ∧ JsonChar a x ∧ JsonChars u w := by
      intro t h
      cases h with
      | nil => exact .inl ⟨rfl, rfl⟩
      | cons h1 h2 => exact .inr ⟨_, _, _, _, rfl, rfl, h1, h2⟩
    have head : ∀ {a x : Bytes}, JsonChar a x → (∃ c, a = [c] ∧ x = [c] ∧ 32 ≤ c ∧ c ≠ 34 ∧ c ≠ 92) ∨ ∃ t, a = 92 :: t := by
      intro a x h
      cases h with
      | plain h1 h2 h3 => exact .inl ⟨_, rfl, rfl, h1, h2, h3⟩
      | code => exact .inr ⟨_, rfl⟩
      | pair => exact .inr ⟨_, rfl⟩
      | _ => exact .inr ⟨_, rfl⟩
    simp only [jsonChars]
    split
    · rename_i hc
      subst hc
      simp only [Option.some.injEq, Prod.mk.injEq]
      constructor
      · rintro ⟨rfl, rfl⟩; exact ⟨[], rfl, .nil⟩
      · rintro ⟨t, e, ht⟩
        rcases start ht with ⟨rfl, rfl⟩ | ⟨a, x, u, w, rfl, rfl, h1, h2⟩
        · injection e with _ e; exact ⟨rfl, e⟩
        · rcases head h1 with ⟨c, rfl, _, _, h3, _⟩ | ⟨t, rfl⟩
          · injection e with e _; exact absurd e.symm h3
          · injection e with e _; exact absurd e (by decide)
    · rename_i hc
      split
      · rename_i hc'
        subst hc'
        constructor
        · intro h
          split at h
          · rename_i x r' hx
            have hlt := jsonEscape_shorter hx
            simp only [Option.map_eq_some_iff, Prod.mk.injEq, Prod.exists] at h
            obtain ⟨w, rest', hq, rfl, rfl⟩ := h
            obtain ⟨u, rfl, hu⟩ := (jsonChars_iff (by omega)).mp hq
            obtain ⟨t, rfl, ht⟩ := jsonEscape_iff.mp hx
            exact ⟨92 :: t ++ u, by simp, .cons ht hu⟩
          · cases h
        · rintro ⟨t, e, ht⟩
          rcases start ht with ⟨rfl, rfl⟩ | ⟨a, x, u, w, rfl, rfl, h1, h2⟩
          · injection e with e _; exact absurd e (by decide)
          · rcases head h1 with ⟨c, rfl, _, _, _, h3⟩ | ⟨t, rfl⟩
            · injection e with e _; exact absurd e.symm h3
            · simp only [List.cons_append, List.append_assoc] at e
              injection e with _ e
              have he : jsonEscape r = some (x, u ++ 34 :: rest) := jsonEscape_iff.mpr ⟨t, e, h1⟩
              have hlt := jsonEscape_shorter he
              have hq : jsonChars n (u ++ 34 :: rest) = some (w, rest) := (jsonChars_iff (by omega)).mpr ⟨u, rfl, h2⟩
              simp only [he, hq, Option.map_some]
      · rename_i hc'
        split
        · rename_i hlow
          constructor
          · intro h; cases h
          · rintro ⟨t, e, ht⟩
            rcases start ht with ⟨rfl, rfl⟩ | ⟨a, x, u, w, rfl, rfl, h1, h2⟩
            · injection e with e _; exact absurd e hc
            · rcases head h1 with ⟨c, rfl, _, h3, _⟩ | ⟨t, rfl⟩
              · injection e with e _; subst e
                exact absurd hlow (by rw [UInt8.not_lt]; exact h3)
              · injection e with e _; exact absurd e hc'
        · rename_i hlow
          simp only [Option.map_eq_some_iff, Prod.mk.injEq, Prod.exists]
          constructor
          · rintro ⟨w, rest', hq, rfl, rfl⟩
            obtain ⟨u, rfl, hu⟩ := (jsonChars_iff (by omega)).mp hq
            exact ⟨[c] ++ u, rfl, .cons (.plain (UInt8.not_lt.mp hlow) hc hc') hu⟩
          · rintro ⟨t, e, ht⟩
            rcases start ht with ⟨rfl, rfl⟩ | ⟨a, x, u, w, rfl, rfl, h1, h2⟩
            · injection e with e _; exact absurd e hc
            · rcases head h1 with ⟨c, rfl, rfl, h3, _⟩ | ⟨t, rfl⟩
              · injection e with e1 e
                subst e1
                exact ⟨w, rest, (jsonChars_iff (by omega)).mpr ⟨u, e, h2⟩, rfl, rfl⟩
              · injection e with e _; exact absurd e hc'

theorem jsonToken_iff {s v rest : Bytes} : jsonToken s = some (v, rest) ↔ ∃ t, s = t ++ rest ∧ JsonString t v := by
  constructor
  · intro h
    cases s with
    | nil => cases h
    | cons c r =>
      simp only [jsonToken] at h
      split at h
      · rename_i hc
        subst hc
        split at h
        · rename_i w r' hw
          split at h
          · rename_i hu
            simp only [Option.some.injEq, Prod.mk.injEq] at h
            obtain ⟨rfl, rfl⟩ := h
            obtain ⟨t, rfl, ht⟩ := (jsonChars_iff (Nat.lt_succ_self _)).mp hw
            exact ⟨b!"\"" ++ t ++ b!"\"", by simp, .mk ht hu⟩
          · cases h
        · cases h
      · cases h
  · rintro ⟨t, rfl, h⟩
    cases h with
    | @mk t v ht hu =>
      have e : b!"\"" ++ t ++ b!"\"" ++ rest = 34 :: (t ++ 34 :: rest) := by simp
      rw [e]
      simp only [jsonToken, if_pos, (jsonChars_iff (Nat.lt_succ_self _)).mpr ⟨t, rfl, ht⟩, hu]

/-! objects -/

theorem isJsonSpace_iff {b : UInt8} : isJsonSpace b = true ↔ b = 32 ∨ b = 9 ∨ b = 10 ∨ b = 13 := by
  simp [isJsonSpace, or_assoc]

theorem skipSpace_append {ws r : Bytes} (h : JsonSpace ws) : skipSpace (ws ++ r) = skipSpace r := by
  induction ws with
  | nil => rfl
  | cons a ws ih =>
    have ha : isJsonSpace a = true := isJsonSpace_iff.mpr (h a (by simp))
    simp only [skipSpace, List.cons_append, List.dropWhile_cons, ha, if_true]
    exact ih fun b hb => h b (by simp [hb])

theorem skipSpace_cons {c : UInt8} {r : Bytes} (h : isJsonSpace c = false) : skipSpace (c :: r) = c :: r := by
  simp [skipSpace, h]

theorem skipSpace_split (s : Bytes) : ∃ ws, JsonSpace ws ∧ s = ws ++ skipSpace s := by
  refine ⟨s.takeWhile isJsonSpace, fun b hb => ?_, (List.takeWhile_append_dropWhile).symm⟩
  rw [← isJsonSpace_iff]
  have : ∀ l : Bytes, ∀ b ∈ l.takeWhile isJsonSpace, isJsonSpace b = true := by
    intro l
    induction l with
    | nil => intro b hb; cases hb
    | cons a l ih =>
      intro b hb
      rw [List.takeWhile_cons] at hb
      split at hb
      · rcases List.mem_cons.mp hb with rfl | hb
        · assumption
        · exact ih b hb
      · cases hb
  exact this s b hb

theorem skipSpace_nil {s : Bytes} : skipSpace s = [] ↔ JsonSpace s := by
  constructor
  · intro h
    obtain ⟨ws, h1, h2⟩ := skipSpace_split s
    rw [h, List.append_nil] at h2
    rw [h2]; exact h1
  · intro h
    have := skipSpace_append (r := []) h
    rw [List.append_nil] at this
    rw [this]; rfl

theorem jsonExpect_iff {c : UInt8} (hc : isJsonSpace c = false) {s r : Bytes} :
    jsonExpect c s = some r ↔ ∃ ws, JsonSpace ws ∧ s = ws ++ c :: r := by
  constructor
  · intro h
    simp only [jsonExpect] at h
    split at h
    · cases h
    · rename_i d r' hd
      split at h
      · rename_i e
        subst e
        cases h
        obtain ⟨ws, h1, h2⟩ := skipSpace_split s
        exact ⟨ws, h1, by rw [h2, hd]⟩
      · cases h
  · rintro ⟨ws, h1, rfl⟩
    simp [jsonExpect, skipSpace_append h1, skipSpace_cons hc]

theorem jsonString_head {t v : Bytes} (h : JsonString t v) : ∃ u, t = 34 :: u := by
  cases h; exact ⟨_, rfl⟩

theorem spaceToken_iff {s v r : Bytes} :
    jsonToken (skipSpace s) = some (v, r) ↔ ∃ ws t, JsonSpace ws ∧ s = ws ++ t ++ r ∧ JsonString t v := by
  constructor
  · intro h
    obtain ⟨t, h1, h2⟩ := jsonToken_iff.mp h
    obtain ⟨ws, h3, h4⟩ := skipSpace_split s
    exact ⟨ws, t, h3, by rw [h4, h1, List.append_assoc], h2⟩
  · rintro ⟨ws, t, h1, rfl, h2⟩
    rw [List.append_assoc, skipSpace_append h1]
    obtain ⟨u, rfl⟩ := jsonString_head h2
    rw [List.cons_append, skipSpace_cons (by decide)]
    exact jsonToken_iff.mpr ⟨34 :: u, rfl, h2⟩

/-- a member without white space at its end -/
inductive MemberCore : Bytes → Bytes × Bytes → Prop where
  | mk {s₁ s₂ s₃ t u n v : Bytes} : JsonSpace s₁ → JsonSpace s₂ → JsonSpace s₃ → JsonString t n → JsonString u v →
      MemberCore (s₁ ++ t ++ s₂ ++ b!":" ++ s₃ ++ u) (n, v)

theorem jsonMember_core {t : Bytes} {p : Bytes × Bytes} :
    JsonMember t p ↔ ∃ t' ws, t = t' ++ ws ∧ JsonSpace ws ∧ MemberCore t' p := by
  constructor
  · rintro ⟨h1, h2, h3, h4, h5, h6⟩
    exact ⟨_, _, rfl, h4, .mk h1 h2 h3 h5 h6⟩
  · rintro ⟨t', ws, rfl, h, ⟨h1, h2, h3, h5, h6⟩⟩
    exact .mk h1 h2 h3 h h5 h6

theorem jsonEntry_iff {s r : Bytes} {p : Bytes × Bytes} : jsonEntry s = some (p, r) ↔ ∃ t, s = t ++ r ∧ MemberCore t p := by
  have e : jsonEntry s = (jsonToken (skipSpace s)).bind fun a => (jsonExpect 58 a.2).bind fun r =>
      (jsonToken (skipSpace r)).bind fun b => some ((a.1, b.1), b.2) := rfl
  rw [e]
  simp only [Option.bind_eq_some_iff, Option.some.injEq, Prod.mk.injEq, Prod.exists]
  constructor
  · rintro ⟨n, r1, h1, r2, h2, v, r3, h3, rfl, rfl⟩
    obtain ⟨s1, t, g1, rfl, g2⟩ := spaceToken_iff.mp h1
    obtain ⟨s2, g3, rfl⟩ := (jsonExpect_iff (by decide)).mp h2
    obtain ⟨s3, u, g4, rfl, g5⟩ := spaceToken_iff.mp h3
    exact ⟨s1 ++ t ++ s2 ++ b!":" ++ s3 ++ u, by simp, .mk g1 g3 g4 g2 g5⟩
  · rintro ⟨_, rfl, @⟨s1, s2, s3, t, u, n, v, g1, g3, g4, g2, g5⟩⟩
    exact ⟨n, s2 ++ 58 :: (s3 ++ u ++ r), spaceToken_iff.mpr ⟨s1, t, g1, by simp, g2⟩,
      s3 ++ u ++ r, (jsonExpect_iff (by decide)).mpr ⟨s2, g3, rfl⟩, v, r, spaceToken_iff.mpr ⟨s3, u, g4, rfl, g5⟩, rfl, rfl⟩

theorem memberCore_pos {t : Bytes} {p : Bytes × Bytes} (h : MemberCore t p) : 0 < t.length := by
  cases h
  simp only [List.length_append]
  simp only [List.length_cons, List.length_nil]
  omega

/-- what follows a member of an object: the members `l` and the closing brace, then `r` -/
def MembersTail (s : Bytes) (l : List (Bytes × Bytes)) (r : Bytes) : Prop :=
  (l = [] ∧ ∃ ws, JsonSpace ws ∧ s = ws ++ 125 :: r) ∨
  (∃ ws u, JsonSpace ws ∧ s = ws ++ 44 :: (u ++ 125 :: r) ∧ JsonMembers u l)

theorem members_cons {s r : Bytes} {p : Bytes × Bytes} {l : List (Bytes × Bytes)} :
    (∃ u, s = u ++ 125 :: r ∧ JsonMembers u (p :: l)) ↔ ∃ t s', s = t ++ s' ∧ MemberCore t p ∧ MembersTail s' l r := by
  constructor
  · rintro ⟨u, rfl, h⟩
    cases h with
    | one h =>
      obtain ⟨t, ws, rfl, h1, h2⟩ := jsonMember_core.mp h
      exact ⟨t, ws ++ 125 :: r, by simp, h2, .inl ⟨rfl, ws, h1, rfl⟩⟩
    | more h h' =>
      obtain ⟨t, ws, rfl, h1, h2⟩ := jsonMember_core.mp h
      exact ⟨t, _, by rw [List.append_assoc, List.append_assoc, List.append_assoc], h2, .inr ⟨ws, _, h1, by simp, h'⟩⟩
  · rintro ⟨t, s', rfl, h, ⟨rfl, ws, h1, rfl⟩ | ⟨ws, u, h1, rfl, h2⟩⟩
    · exact ⟨t ++ ws, by simp, .one (jsonMember_core.mpr ⟨t, ws, rfl, h1, h⟩)⟩
    · exact ⟨t ++ ws ++ b!"," ++ u, by simp, .more (jsonMember_core.mpr ⟨t, ws, rfl, h1, h⟩) h2⟩

theorem members_ne_nil {u : Bytes} {l : List (Bytes × Bytes)} (h : JsonMembers u l) : l ≠ [] := by
  cases h <;> simp

/-- the entries inserted one after the other -/
def insertAll (m : Meta) (l : List (Bytes × Bytes)) : Meta := l.foldl (fun m p => metaInsert m p.1 p.2) m

theorem jsonEntries_iff : ∀ {n : Nat} {s : Bytes}, s.length < n → ∀ {m m' : Meta} {r : Bytes},
    (jsonEntries n m s = some (m', r) ↔ ∃ l, MembersTail s l r ∧ m' = insertAll m l)
  | n + 1, s, hn, m, m', r => by
    obtain ⟨ws, hws, hs⟩ := skipSpace_split s
    have tail : ∀ {ws' : Bytes} {c : UInt8} {x : Bytes}, isJsonSpace c = false → JsonSpace ws' → s = ws' ++ c :: x → skipSpace s = c :: x := by
      intro ws' c x hc hw e
      rw [e, skipSpace_append hw, skipSpace_cons hc]
    simp only [jsonEntries]
    split
    · rename_i he
      constructor
      · intro h; cases h
      · rintro ⟨l, ⟨_, ws', h1, h2⟩ | ⟨ws', u, h1, h2, _⟩, _⟩
        · rw [tail (by decide) h1 h2] at he; cases he
        · rw [tail (by decide) h1 h2] at he; cases he
    · rename_i c x he
      rw [he] at hs
      split
      · rename_i hc
        subst hc
        simp only [Option.some.injEq, Prod.mk.injEq]
        constructor
        · rintro ⟨rfl, rfl⟩
          exact ⟨[], .inl ⟨rfl, ws, hws, hs⟩, rfl⟩
        · rintro ⟨l, ⟨rfl, ws', h1, h2⟩ | ⟨ws', u, h1, h2, _⟩, rfl⟩
          · rw [tail (by decide) h1 h2] at he; injection he with _ he; exact ⟨rfl, he.symm⟩
          · rw [tail (by decide) h1 h2] at he; injection he with he; exact absurd he (by decide)
      · rename_i hc
        split
        · rename_i hc'
          subst hc'
          have hlen : x.length < s.length := by
            rw [hs]; simp only [List.length_append, List.length_cons]; omega
          constructor
          · intro h
            split at h
            · rename_i p y hp
              obtain ⟨t, rfl, ht⟩ := jsonEntry_iff.mp hp
              simp only [List.length_append] at hlen
              obtain ⟨l, h1, rfl⟩ := (jsonEntries_iff (by omega)).mp h
              obtain ⟨u, h2, h3⟩ := members_cons.mpr ⟨t, y, rfl, ht, h1⟩
              exact ⟨p :: l, .inr ⟨ws, u, hws, by rw [hs, h2], h3⟩, rfl⟩
            · cases h
          · rintro ⟨l, ⟨_, ws', h1, h2⟩ | ⟨ws', u, h1, h2, h3⟩, rfl⟩
            · rw [tail (by decide) h1 h2] at he; injection he with he; exact absurd he (by decide)
            · rw [tail (by decide) h1 h2] at he
              injection he with _ he
              cases l with
              | nil => exact absurd rfl (members_ne_nil h3)
              | cons p l =>
                obtain ⟨t, y, h4, h5, h6⟩ := members_cons.mp ⟨u, he.symm, h3⟩
                have hx : jsonEntry x = some (p, y) := jsonEntry_iff.mpr ⟨t, h4, h5⟩
                rw [h4] at hlen
                simp only [List.length_append] at hlen
                simp only [hx]
                exact (jsonEntries_iff (by omega)).mpr ⟨l, h6, rfl⟩
        · rename_i hc'
          constructor
          · intro h; cases h
          · rintro ⟨l, ⟨_, ws', h1, h2⟩ | ⟨ws', u, h1, h2, h3⟩, rfl⟩
            · rw [tail (by decide) h1 h2] at he; injection he with he; exact absurd he.symm hc
            · rw [tail (by decide) h1 h2] at he; injection he with he; exact absurd he.symm hc'

theorem memberCore_head {t : Bytes} {p : Bytes × Bytes} (h : MemberCore t p) : ∃ ws u, JsonSpace ws ∧ t = ws ++ 34 :: u := by
  cases h with
  | @mk s1 s2 s3 t w n v h1 _ _ h4 _ =>
    obtain ⟨u, rfl⟩ := jsonString_head h4
    exact ⟨s1, u ++ s2 ++ b!":" ++ s3 ++ w, h1, by simp⟩

theorem jsonBody_iff {s r : Bytes} {m : Meta} : jsonBody s = some (m, r) ↔
    (m = [] ∧ ∃ ws, JsonSpace ws ∧ s = ws ++ 125 :: r) ∨ ∃ u l, s = u ++ 125 :: r ∧ JsonMembers u l ∧ m = insertAll [] l := by
  have excl : ∀ {t x : Bytes} {p : Bytes × Bytes}, MemberCore t p → jsonExpect 125 (t ++ x) = none := by
    intro t x p h
    obtain ⟨ws, u, h1, rfl⟩ := memberCore_head h
    simp only [jsonExpect, List.append_assoc, skipSpace_append h1, List.cons_append]
    rw [skipSpace_cons (by decide)]
    rfl
  simp only [jsonBody]
  constructor
  · intro h
    split at h
    · rename_i r' hr
      simp only [Option.some.injEq, Prod.mk.injEq] at h
      obtain ⟨rfl, rfl⟩ := h
      exact .inl ⟨rfl, (jsonExpect_iff (by decide)).mp hr⟩
    · split at h
      · rename_i p y hp
        obtain ⟨t, rfl, ht⟩ := jsonEntry_iff.mp hp
        obtain ⟨l, h1, rfl⟩ := (jsonEntries_iff (Nat.lt_succ_self _)).mp h
        obtain ⟨u, h2, h3⟩ := members_cons.mpr ⟨t, y, rfl, ht, h1⟩
        exact .inr ⟨u, p :: l, h2, h3, rfl⟩
      · cases h
  · rintro (⟨rfl, h⟩ | ⟨u, l, h1, h2, rfl⟩)
    · rw [(jsonExpect_iff (by decide)).mpr h]
    · cases l with
      | nil => exact absurd rfl (members_ne_nil h2)
      | cons p l =>
        obtain ⟨t, y, h4, h5, h6⟩ := members_cons.mp ⟨u, h1, h2⟩
        have hx : jsonEntry s = some (p, y) := jsonEntry_iff.mpr ⟨t, h4, h5⟩
        rw [h4, excl h5, ← h4]
        simp only [hx]
        exact (jsonEntries_iff (Nat.lt_succ_self _)).mpr ⟨l, h6, rfl⟩

theorem jsonRead_iff {s : Bytes} {m : Meta} : jsonRead s = some m ↔ ∃ l, JsonObject s l ∧ m = insertAll [] l := by
  simp only [jsonRead]
  constructor
  · intro h
    split at h
    · rename_i r hr
      obtain ⟨s1, h1, rfl⟩ := (jsonExpect_iff (by decide)).mp hr
      split at h
      · rename_i m' r' hb
        split at h
        · rename_i he
          cases h
          have hsp := skipSpace_nil.mp he
          rcases jsonBody_iff.mp hb with ⟨rfl, ws, h2, rfl⟩ | ⟨u, l, rfl, h3, rfl⟩
          · refine ⟨[], ?_, rfl⟩
            have := JsonObject.empty h1 h2 hsp
            simpa using this
          · refine ⟨l, ?_, rfl⟩
            have := JsonObject.members h1 hsp h3
            simpa using this
        · cases h
      · cases h
    · cases h
  · rintro ⟨l, h, rfl⟩
    cases h with
    | @empty s1 s2 s3 h1 h2 h3 =>
      have e1 : jsonExpect 123 (s1 ++ b!"{" ++ s2 ++ b!"}" ++ s3) = some (s2 ++ 125 :: s3) :=
        (jsonExpect_iff (by decide)).mpr ⟨s1, h1, by simp⟩
      have e2 : jsonBody (s2 ++ 125 :: s3) = some ([], s3) := jsonBody_iff.mpr (.inl ⟨rfl, s2, h2, rfl⟩)
      simp only [e1, e2, skipSpace_nil.mpr h3, if_true]
      rfl
    | @members s1 s2 t l h1 h2 h3 =>
      have e1 : jsonExpect 123 (s1 ++ b!"{" ++ t ++ b!"}" ++ s2) = some (t ++ 125 :: s2) :=
        (jsonExpect_iff (by decide)).mpr ⟨s1, h1, by simp⟩
      have e2 : jsonBody (t ++ 125 :: s2) = some (insertAll [] l, s2) := jsonBody_iff.mpr (.inr ⟨t, l, rfl, h3, rfl⟩)
      simp only [e1, e2, skipSpace_nil.mpr h2, if_true]

theorem insertAll_snoc (l : List (Bytes × Bytes)) (p : Bytes × Bytes) :
    insertAll [] (l ++ [p]) = metaInsert (insertAll [] l) p.1 p.2 := by
  simp [insertAll]

theorem snoc_ind {α : Type} {P : List α → Prop} (nil : P []) (snoc : ∀ l a, P l → P (l ++ [a])) (l : List α) : P l := by
  rw [← List.reverse_reverse l]
  generalize l.reverse = r
  induction r with
  | nil => exact nil
  | cons a r ih => rw [List.reverse_cons]; exact snoc _ _ ih

theorem insertAll_mapOf (l : List (Bytes × Bytes)) : MapOf l (insertAll [] l) := by
  induction l using snoc_ind with
  | nil => exact ⟨.nil, fun n v => by simp [insertAll]⟩
  | snoc l p ih =>
    obtain ⟨h1, h2⟩ := ih
    rw [insertAll_snoc]
    obtain ⟨g1, g2⟩ := mem_metaInsert h1 p.1 p.2
    refine ⟨g1, fun n v => ?_⟩
    rw [g2, h2]
    have := lastPair_append (l := l) (p := p) (n := n) (v := v)
    simp only [LastPair] at this
    rw [this]
    constructor
    · rintro (⟨rfl, rfl⟩ | ⟨h, h'⟩)
      · exact .inl rfl
      · exact .inr ⟨fun e => h e.symm, h'⟩
    · rintro (rfl | ⟨h, h'⟩)
      · exact .inl ⟨rfl, rfl⟩
      · exact .inr ⟨fun e => h e.symm, h'⟩

theorem Spec.MapOf.unique {l : List (Bytes × Bytes)} {m m' : Meta} (h : MapOf l m) (h' : MapOf l m') : m = m' :=
  strict_names_ext h.1 h'.1 fun p => by rw [h.2 p.1 p.2, h'.2 p.1 p.2]

end S3
