import Verif.Model.Encoding
import Verif.Lemmas.Bytes
/-! C59: URI encoding; base64 injectivity (used by C06). -/
namespace S3

/-- facts about single bytes, checked by going through all 256 of them -/
theorem forall_byte {P : UInt8 → Prop} (h : ∀ n : Fin 256, P (UInt8.ofNat n.val)) (b : UInt8) : P b := by
  have := h ⟨b.toNat, b.toNat_lt⟩
  simpa using this

theorem uriEncodeByte_cases (sl : Bool) (b : UInt8) :
    (uriEncodeByte sl b = [b] ∧ b ≠ 37) ∨
    (∃ x y, uriEncodeByte sl b = [37, x, y] ∧ hexVal x = some (b >>> 4) ∧ hexVal y = some (b &&& 15) ∧
      (b >>> 4) * 16 + (b &&& 15) = b) := by
  have key : (uriEncodeByte sl b = [b] ∧ b ≠ 37) ∨
    (∃ x y, uriEncodeByte sl b = [37, x, y] ∧ x = hexUpper (b >>> 4) ∧ y = hexUpper (b &&& 15)) := by
    unfold uriEncodeByte
    split
    · refine .inl ⟨rfl, ?_⟩
      rintro rfl; rename_i h; revert h; decide
    · split
      · rename_i h; subst h
        cases sl
        · exact .inl ⟨rfl, by decide⟩
        · exact .inr ⟨50, 70, rfl, by decide, by decide⟩
      · exact .inr ⟨_, _, rfl, rfl, rfl⟩
  rcases key with h | ⟨x, y, h, rfl, rfl⟩
  · exact .inl h
  · refine .inr ⟨_, _, h, ?_, ?_, ?_⟩
    · clear h sl; revert b; apply forall_byte; decide +kernel
    · clear h sl; revert b; apply forall_byte; decide +kernel
    · clear h sl; revert b; apply forall_byte; decide +kernel

theorem percentDecode_cons_ne {a : UInt8} {r : Bytes} (h : a ≠ 37) :
    percentDecode (a :: r) = a :: percentDecode r := by
  match r with
  | [] => rfl
  | [b] => rfl
  | b :: c :: r => simp [percentDecode, h]

theorem percentDecode_hex {x y u v : UInt8} {r : Bytes} (hx : hexVal x = some u) (hy : hexVal y = some v) :
    percentDecode (37 :: x :: y :: r) = (u * 16 + v) :: percentDecode r := by
  simp [percentDecode, hx, hy]

/-- **C59** (round trip) percent-decoding an encoded string gives it back, with or without encoding
of slashes. -/
theorem C59_decode_encode (sl : Bool) (s : Bytes) : percentDecode (uriEncode sl s) = s := by
  induction s with
  | nil => rfl
  | cons b t ih =>
    have e : uriEncode sl (b :: t) = uriEncodeByte sl b ++ uriEncode sl t := by simp [uriEncode]
    rw [e]
    rcases uriEncodeByte_cases sl b with ⟨h, hne⟩ | ⟨x, y, h, hx, hy, hv⟩
    · rw [h, List.singleton_append, percentDecode_cons_ne hne, ih]
    · rw [h]
      show percentDecode (37 :: x :: y :: uriEncode sl t) = _
      rw [percentDecode_hex hx hy, ih, hv]

/-- **C59** (round trip through the request path decoder) an encoded UTF-8 string is decoded to
itself. -/
theorem C59_url_decode_encode (sl : Bool) (s : Bytes) (h : utf8Valid s = true) :
    urlDecode (uriEncode sl s) = some s := by
  simp [urlDecode, C59_decode_encode, h]

/-- **C59** (injectivity) different strings have different encodings. -/
theorem C59_encode_injective (sl : Bool) (s t : Bytes) (h : uriEncode sl s = uriEncode sl t) : s = t := by
  rw [← C59_decode_encode sl s, h, C59_decode_encode]

/-- characters that may occur in an encoded string: `A-Z a-z 0-9 - . _ ~ %`, and `/` when slashes
are kept -/
def Spec.EncodedChar (keepSlash : Bool) (c : UInt8) : Prop :=
  (65 ≤ c ∧ c ≤ 90) ∨ (97 ≤ c ∧ c ≤ 122) ∨ (48 ≤ c ∧ c ≤ 57) ∨ c = 45 ∨ c = 46 ∨ c = 95 ∨ c = 126 ∨
    c = 37 ∨ (keepSlash = true ∧ c = 47)

instance (k c) : Decidable (Spec.EncodedChar k c) := by unfold Spec.EncodedChar; infer_instance

/-- **C59** (output alphabet) an encoded string contains only unreserved characters, `%` and, when
slashes are kept, `/`. -/
theorem C59_encode_alphabet (sl : Bool) (s : Bytes) : ∀ c ∈ uriEncode sl s, Spec.EncodedChar (!sl) c := by
  intro c hc
  simp only [uriEncode, List.mem_flatMap] at hc
  obtain ⟨b, _, hb⟩ := hc
  have key : ∀ b : UInt8, ∀ c ∈ uriEncodeByte sl b, Spec.EncodedChar (!sl) c := by
    cases sl <;> (apply forall_byte; decide +kernel)
  exact key b c hb

/-- **C59** (unreserved characters are kept) strings of unreserved characters are their own
encoding. -/
theorem C59_encode_unreserved (sl : Bool) (s : Bytes)
    (h : ∀ c ∈ s, Spec.EncodedChar (!sl) c ∧ c ≠ 37) : uriEncode sl s = s := by
  induction s with
  | nil => rfl
  | cons b t ih =>
    have e : uriEncode sl (b :: t) = uriEncodeByte sl b ++ uriEncode sl t := by simp [uriEncode]
    rw [e, ih fun c hc => h c (by simp [hc])]
    have key : ∀ b : UInt8, Spec.EncodedChar (!sl) b ∧ b ≠ 37 → uriEncodeByte sl b = [b] := by
      cases sl <;> (apply forall_byte; decide +kernel)
    rw [key b (h b (by simp))]; rfl

/-! Non-vacuity -/
example : uriEncode true b!"a b/ü" = b!"a%20b%2F%C3%BC" := by decide +kernel
example : urlDecode b!"a%20b%2F%C3%BC%" = some b!"a b/ü%" := by decide +kernel
example : urlDecode b!"%ff" = none := by decide +kernel
example : utf8Lossy [65, 0xe2, 0x82, 66] = [65, 239, 191, 189, 66] := by decide +kernel
example : parseQuery b!"a=1&&b=x%20y+z&c" =
    [(b!"a", b!"1"), (b!"b", b!"x y z"), (b!"c", [])] := by decide +kernel

theorem b64Char_inj {m n : Nat} (hm : m < 64) (hn : n < 64) (h : b64Char m = b64Char n) : m = n := by
  have key : ∀ m n : Fin 64, b64Char m.val = b64Char n.val → m = n := by decide +kernel
  have := key ⟨m, hm⟩ ⟨n, hn⟩ h
  exact congrArg Fin.val this

/-- base64 characters -/
def b64Alpha (c : UInt8) : Bool := isUpper c || isLower c || isDigit c || c == 45 || c == 95

theorem b64Char_alpha {m : Nat} (hm : m < 64) : b64Alpha (b64Char m) = true := by
  have key : ∀ m : Fin 64, b64Alpha (b64Char m.val) = true := by decide +kernel
  exact key ⟨m, hm⟩

theorem b64Encode_alpha (s : Bytes) : ∀ c ∈ b64Encode s, b64Alpha c = true := by
  induction s using b64Encode.induct with
  | case1 => intro c hc; cases hc
  | case2 a =>
    intro c hc
    have := a.toNat_lt
    simp only [b64Encode, List.mem_cons, List.not_mem_nil, or_false] at hc
    rcases hc with rfl | rfl <;> exact b64Char_alpha (by omega)
  | case3 a b =>
    intro c hc
    have := a.toNat_lt; have := b.toNat_lt
    simp only [b64Encode, List.mem_cons, List.not_mem_nil, or_false] at hc
    rcases hc with rfl | rfl | rfl <;> exact b64Char_alpha (by omega)
  | case4 a b d r ih =>
    intro c hc
    have := a.toNat_lt; have := b.toNat_lt; have := d.toNat_lt
    simp only [b64Encode, List.mem_cons] at hc
    rcases hc with rfl | rfl | rfl | rfl | hc
    · exact b64Char_alpha (by omega)
    · exact b64Char_alpha (by omega)
    · exact b64Char_alpha (by omega)
    · exact b64Char_alpha (by omega)
    · exact ih c hc

theorem b64Encode_inj {s t : Bytes} (h : b64Encode s = b64Encode t) : s = t := by
  induction s using b64Encode.induct generalizing t with
  | case1 =>
    match t with
    | [] => rfl
    | [_] => simp [b64Encode] at h
    | [_, _] => simp [b64Encode] at h
    | _ :: _ :: _ :: _ => simp [b64Encode] at h
  | case2 a =>
    match t with
    | [] => simp [b64Encode] at h
    | [x] =>
      simp only [b64Encode, List.cons.injEq, and_true] at h
      have := a.toNat_lt; have := x.toNat_lt
      have h1 := b64Char_inj (by omega) (by omega) h.1
      have h2 := b64Char_inj (by omega) (by omega) h.2
      have : a = x := UInt8.toNat_inj.mp (by omega)
      rw [this]
    | [_, _] => simp [b64Encode] at h
    | _ :: _ :: _ :: _ => simp [b64Encode] at h
  | case3 a b =>
    match t with
    | [] => simp [b64Encode] at h
    | [_] => simp [b64Encode] at h
    | [x, y] =>
      simp only [b64Encode, List.cons.injEq, and_true] at h
      have := a.toNat_lt; have := x.toNat_lt; have := b.toNat_lt; have := y.toNat_lt
      have h1 := b64Char_inj (by omega) (by omega) h.1
      have h2 := b64Char_inj (by omega) (by omega) h.2.1
      have h3 := b64Char_inj (by omega) (by omega) h.2.2
      have e1 : a = x := UInt8.toNat_inj.mp (by omega)
      have e2 : b = y := UInt8.toNat_inj.mp (by omega)
      rw [e1, e2]
    | _ :: _ :: _ :: _ => simp [b64Encode] at h
  | case4 a b c r ih =>
    match t with
    | [] => simp [b64Encode] at h
    | [_] => simp [b64Encode] at h
    | [_, _] => simp [b64Encode] at h
    | x :: y :: z :: u =>
      simp only [b64Encode, List.cons.injEq] at h
      have := a.toNat_lt; have := x.toNat_lt; have := b.toNat_lt; have := y.toNat_lt
      have := c.toNat_lt; have := z.toNat_lt
      have h1 := b64Char_inj (by omega) (by omega) h.1
      have h2 := b64Char_inj (by omega) (by omega) h.2.1
      have h3 := b64Char_inj (by omega) (by omega) h.2.2.1
      have h4 := b64Char_inj (by omega) (by omega) h.2.2.2.1
      have e1 : a = x := UInt8.toNat_inj.mp (by omega)
      have e2 : b = y := UInt8.toNat_inj.mp (by omega)
      have e3 : c = z := UInt8.toNat_inj.mp (by omega)
      rw [e1, e2, e3, ih h.2.2.2.2]

end S3
