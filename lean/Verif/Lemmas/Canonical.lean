import Verif.Lemmas.Admit
namespace S3
open Spec

theorem awsEncode_injective {k : Bool} {s t : Bytes} (h : awsEncode k s = awsEncode k t) : s = t := by
  have e : k = !(!k) := by simp
  rw [e, ← uriEncode_eq, ← uriEncode_eq] at h
  exact C59_encode_injective _ _ _ h

theorem awsEncode_alphabet {k : Bool} {s : Bytes} {c : UInt8} (h : c ∈ awsEncode k s) : EncodedChar k c := by
  have e : k = !(!k) := by simp
  rw [e, ← uriEncode_eq] at h
  have := C59_encode_alphabet _ _ c h
  simpa using this

theorem not_mem_awsEncode {k : Bool} {s : Bytes} {c : UInt8} (h : ¬ EncodedChar k c) : c ∉ awsEncode k s := fun hc => h (awsEncode_alphabet hc)

theorem encoded_no (k : Bool) : ¬ EncodedChar k 10 ∧ ¬ EncodedChar k 38 ∧ ¬ EncodedChar k 61 := by
  cases k <;> decide +kernel

theorem not_mem_joinWith {c d : UInt8} {ps : List Bytes} (hd : c ≠ d) (h : ∀ p ∈ ps, c ∉ p) : c ∉ joinWith d ps := by
  induction ps with
  | nil => simp [joinWith]
  | cons p r ih =>
    have h1 := h p (by simp)
    have h2 := ih (fun q hq => h q (by simp [hq]))
    cases r with
    | nil => simpa [joinWith] using h1
    | cons q r =>
      simp only [joinWith, List.mem_append, List.mem_cons] at h2 ⊢
      rintro (h | h | h)
      · exact h1 h
      · exact hd h
      · exact h2 h

/-- the parameters of a canonical query string -/
theorem query_inj {q q' : List (Bytes × Bytes)}
    (h : ∀ p ∈ q, (38 : UInt8) ∉ p.1 ∧ (61 : UInt8) ∉ p.1 ∧ (38 : UInt8) ∉ p.2)
    (h' : ∀ p ∈ q', (38 : UInt8) ∉ p.1 ∧ (61 : UInt8) ∉ p.1 ∧ (38 : UInt8) ∉ p.2)
    (e : joinWith 38 (q.map fun p => p.1 ++ b!"=" ++ p.2) = joinWith 38 (q'.map fun p => p.1 ++ b!"=" ++ p.2)) : q = q' := by
  have free : ∀ {q : List (Bytes × Bytes)}, (∀ p ∈ q, (38 : UInt8) ∉ p.1 ∧ (61 : UInt8) ∉ p.1 ∧ (38 : UInt8) ∉ p.2) →
      ∀ x ∈ q.map (fun p => p.1 ++ b!"=" ++ p.2), (38 : UInt8) ∉ x := by
    intro q h x hx
    obtain ⟨p, hp, rfl⟩ := List.mem_map.mp hx
    obtain ⟨h1, _, h3⟩ := h p hp
    simp [h1, h3]
  have emp : ∀ {q : List (Bytes × Bytes)}, joinWith 38 (q.map fun p => p.1 ++ b!"=" ++ p.2) = [] → q = [] := by
    intro q h
    match q with
    | [] => rfl
    | [p] => simp [joinWith] at h
    | p :: p' :: r => simp [joinWith] at h
  by_cases hq : q = []
  · subst hq
    exact (emp e.symm).symm
  by_cases hq' : q' = []
  · subst hq'
    exact emp e
  have e2 := congrArg (splitAll 38) e
  rw [splitAll_joinWith (by simpa using hq) (free h), splitAll_joinWith (by simpa using hq') (free h')] at e2
  clear e emp free hq hq'
  induction q generalizing q' with
  | nil => simpa using e2.symm
  | cons p r ih =>
    cases q' with
    | nil => simp at e2
    | cons p' r' =>
      simp only [List.map_cons, List.cons.injEq] at e2
      obtain ⟨e1, e2⟩ := e2
      simp only [List.append_assoc, List.singleton_append, List.cons_append, List.nil_append] at e1
      obtain ⟨a, b⟩ := sep_inj e1 (h p (by simp)).2.1 (h' p' (by simp)).2.1
      rw [ih (fun q hq => h q (by simp [hq])) (fun q hq => h' q (by simp [hq])) e2]
      rw [Prod.ext a b]

theorem lines_inj {hs hs' : List (Bytes × Bytes)} (h : ∀ p ∈ hs, (58 : UInt8) ∉ p.1) (h' : ∀ p ∈ hs', (58 : UInt8) ∉ p.1)
    (e : hs.map (fun p => p.1 ++ b!":" ++ p.2) = hs'.map (fun p => p.1 ++ b!":" ++ p.2)) : hs = hs' := by
  induction hs generalizing hs' with
  | nil => simpa using e.symm
  | cons p r ih =>
    cases hs' with
    | nil => simp at e
    | cons p' r' =>
      simp only [List.map_cons, List.cons.injEq] at e
      obtain ⟨e1, e2⟩ := e
      simp only [List.append_assoc, List.singleton_append, List.cons_append, List.nil_append] at e1
      obtain ⟨a, b⟩ := sep_inj e1 (h p (by simp)) (h' p' (by simp))
      rw [ih (fun q hq => h q (by simp [hq])) (fun q hq => h' q (by simp [hq])) e2, Prod.ext a b]

/-- no line feed or colon in the names, no line feed in the values -/
def PlainHeaders (hs : List (Bytes × Bytes)) : Prop := ∀ p ∈ hs, (10 : UInt8) ∉ p.1 ∧ (58 : UInt8) ∉ p.1 ∧ (10 : UInt8) ∉ p.2

/-- the canonical request can be read back -/
theorem canonicalText_inj {m m' path path' : Bytes} {q q' hs hs' : List (Bytes × Bytes)} {pl pl' t : Bytes}
    (hm : (10 : UInt8) ∉ m) (hm' : (10 : UInt8) ∉ m') (hh : PlainHeaders hs) (hh' : PlainHeaders hs')
    (hp : (10 : UInt8) ∉ pl) (hp' : (10 : UInt8) ∉ pl')
    (h : CanonicalText m (awsEncode true path) q hs pl t) (h' : CanonicalText m' (awsEncode true path') q' hs' pl' t) :
    m = m' ∧ path = path' ∧ q.Perm q' ∧ hs = hs' ∧ pl = pl' := by
  obtain ⟨s, ⟨hs1, _⟩, e⟩ := h
  obtain ⟨s', ⟨hs1', _⟩, e'⟩ := h'
  have qfree : ∀ {q s : List (Bytes × Bytes)}, s.Perm (q.map fun p => (awsEncode false p.1, awsEncode false p.2)) →
      ∀ p ∈ s, ((38 : UInt8) ∉ p.1 ∧ (61 : UInt8) ∉ p.1 ∧ (38 : UInt8) ∉ p.2) ∧ (10 : UInt8) ∉ p.1 ∧ (10 : UInt8) ∉ p.2 := by
    intro q s hp p hm
    obtain ⟨x, _, rfl⟩ := List.mem_map.mp (hp.mem_iff.mp hm)
    obtain ⟨n1, n2, n3⟩ := encoded_no false
    exact ⟨⟨not_mem_awsEncode n2, not_mem_awsEncode n3, not_mem_awsEncode n2⟩, not_mem_awsEncode n1, not_mem_awsEncode n1⟩
  have free : ∀ {m path pl : Bytes} {q s hs : List (Bytes × Bytes)}, (10 : UInt8) ∉ m → PlainHeaders hs → (10 : UInt8) ∉ pl →
      s.Perm (q.map fun p => (awsEncode false p.1, awsEncode false p.2)) →
      ∀ x ∈ [m, awsEncode true path, joinWith 38 (s.map fun p => p.1 ++ b!"=" ++ p.2)] ++
        hs.map (fun p => p.1 ++ b!":" ++ p.2) ++ [[], joinWith 59 (hs.map (·.1)), pl], (10 : UInt8) ∉ x := by
    intro m path pl q s hs hm hh hp hq x hx
    simp only [List.cons_append, List.nil_append, List.mem_cons, List.mem_append, List.mem_map, List.not_mem_nil, or_false] at hx
    rcases hx with rfl | rfl | rfl | ⟨p, hpm, rfl⟩ | rfl | rfl | rfl
    · exact hm
    · exact not_mem_awsEncode (encoded_no true).1
    · apply not_mem_joinWith (by decide)
      intro y hy
      obtain ⟨p, hpm, rfl⟩ := List.mem_map.mp hy
      obtain ⟨_, h1, h2⟩ := qfree hq p hpm
      simp [h1, h2]
    · obtain ⟨h1, _, h2⟩ := hh p hpm
      simp [h1, h2]
    · simp
    · apply not_mem_joinWith (by decide)
      intro y hy
      obtain ⟨p, hpm, rfl⟩ := List.mem_map.mp hy
      exact (hh p hpm).1
    · exact hp
  have key := congrArg (splitAll 10) (e.symm.trans e')
  rw [splitAll_joinWith (by simp) (free hm hh hp hs1), splitAll_joinWith (by simp) (free hm' hh' hp' hs1')] at key
  simp only [List.cons_append, List.nil_append, List.cons.injEq] at key
  obtain ⟨k1, k2, k3, k4⟩ := key
  have hlen := congrArg List.length k4
  simp only [List.length_append, List.length_map, List.length_cons, List.length_nil] at hlen
  obtain ⟨k5, k6⟩ := List.append_inj k4 (by simp; omega)
  simp only [List.cons.injEq, true_and] at k6
  have ks : s = s' := query_inj (fun p hp => (qfree hs1 p hp).1) (fun p hp => (qfree hs1' p hp).1) k3
  refine ⟨k1, awsEncode_injective k2, ?_, lines_inj (fun p hp => (hh p hp).2.1) (fun p hp => (hh' p hp).2.1) k5, k6.2.1⟩
  subst ks
  have hperm := hs1.symm.trans hs1'
  have inj : Function.Injective (fun p : Bytes × Bytes => (awsEncode false p.1, awsEncode false p.2)) := by
    intro a b hab
    simp only [Prod.mk.injEq] at hab
    exact Prod.ext (awsEncode_injective hab.1) (awsEncode_injective hab.2)
  have dec : ∀ l : List (Bytes × Bytes), (l.map fun p => (awsEncode false p.1, awsEncode false p.2)).map
      (fun p => (percentDecode p.1, percentDecode p.2)) = l := by
    intro l
    rw [List.map_map]
    conv => rhs; rw [← List.map_id l]
    apply List.map_congr_left
    intro p _
    have hd : ∀ x, percentDecode (awsEncode false x) = x := fun x => by
      rw [show awsEncode false x = uriEncode true x by rw [uriEncode_eq]; rfl, C59_decode_encode]
    simp [hd]
  have := hperm.map (fun p => (percentDecode p.1, percentDecode p.2))
  rwa [dec, dec] at this

theorem hexText_length (s : Bytes) : (hexText s).length = 2 * s.length := by
  induction s with
  | nil => rfl
  | cons b r ih =>
    have : hexText (b :: r) = lowerHex (b.toNat / 16) ++ lowerHex (b.toNat % 16) ++ hexText r := by simp [hexText]
    have hl : ∀ b : UInt8, (lowerHex (b.toNat / 16) ++ lowerHex (b.toNat % 16)).length = 2 := by
      apply forall_byte; decide +kernel
    rw [this, List.length_append, hl, ih, List.length_cons]; omega

theorem hexText_injective {s t : Bytes} (h : hexText s = hexText t) : s = t := by
  have hl : s.length = t.length := by
    have := congrArg List.length h
    rw [hexText_length, hexText_length] at this; omega
  induction s generalizing t with
  | nil => cases t with
    | nil => rfl
    | cons => simp at hl
  | cons b r ih =>
    cases t with
    | nil => simp at hl
    | cons b' r' =>
      have e : ∀ (b : UInt8) r, hexText (b :: r) = (lowerHex (b.toNat / 16) ++ lowerHex (b.toNat % 16)) ++ hexText r := by
        intros; simp [hexText]
      have hlen : ∀ b : UInt8, (lowerHex (b.toNat / 16) ++ lowerHex (b.toNat % 16)).length = 2 := by
        apply forall_byte; decide +kernel
      rw [e, e] at h
      obtain ⟨h1, h2⟩ := List.append_inj h (by rw [hlen, hlen])
      have hdig : ∀ a : Fin 16, ∀ b : Fin 16, lowerHex a = lowerHex b → a = b := by decide +kernel
      have hone : ∀ a : Fin 16, (lowerHex a).length = 1 := by decide +kernel
      have hinj : ∀ n, n < 256 → ∀ m, m < 256 → lowerHex (n / 16) ++ lowerHex (n % 16) = lowerHex (m / 16) ++ lowerHex (m % 16) → n = m := by
        intro n hn m hm e
        have l1 := hone ⟨n / 16, by omega⟩
        have l2 := hone ⟨m / 16, by omega⟩
        obtain ⟨e1, e2⟩ := List.append_inj e (l1.trans l2.symm)
        have d1 := hdig ⟨n / 16, by omega⟩ ⟨m / 16, by omega⟩ e1
        have d2 := hdig ⟨n % 16, by omega⟩ ⟨m % 16, by omega⟩ e2
        simp only [Fin.mk.injEq] at d1 d2
        omega
      have hb : b = b' := UInt8.toNat_inj.mp (hinj _ b.toNat_lt _ b'.toNat_lt h1)
      rw [hb, ih h2 (by simpa using hl)]

theorem hexText_no_lf (s : Bytes) : (10 : UInt8) ∉ hexText s := by
  simp only [hexText, List.mem_flatMap, not_exists, not_and]
  have key : ∀ b : UInt8, (10 : UInt8) ∉ lowerHex (b.toNat / 16) ++ lowerHex (b.toNat % 16) := by
    apply forall_byte; decide +kernel
  exact fun b _ => key b

theorem plain_of_signed {r : Req} {signed : List Bytes} {hs : List (Bytes × Bytes)} (hp : HttpPlain r)
    (hv : ∀ h ∈ r.headers, ∀ c ∈ h.2, c = 9 ∨ (32 ≤ c ∧ c ≤ 126)) (h : SignedHeaders r.headers signed hs) : PlainHeaders hs := by
  obtain ⟨l, hl, e⟩ := h
  rw [strippedAll_iff] at e
  subst e
  intro p hpm
  obtain ⟨x, hx, rfl⟩ := List.mem_map.mp hpm
  have hm := (List.mem_filter.mp (hl.1.mem_iff.mp hx)).1
  obtain ⟨n1, n2⟩ := hp.names x hm
  refine ⟨n1, n2, ?_⟩
  intro hc
  obtain ⟨a, b, e, _⟩ := trim_stripped x.2
  have : (10 : UInt8) ∈ x.2 := by
    rw [e, List.mem_append, List.mem_append]; exact .inl (.inr hc)
  rcases hv x hm 10 this with h | ⟨h, _⟩ <;> revert h <;> decide

theorem payloadLine_no_lf {cr : Crypto} {d : Bytes} {b : Body} {l : Bytes} (h : PayloadLine cr d b l) : (10 : UInt8) ∉ l := by
  rcases h with ⟨_, rfl⟩ | ⟨_, rfl⟩ | ⟨_, _, _, rfl⟩
  · decide
  · decide
  · exact hexText_no_lf _

theorem headers_plain {hs o : List (Bytes × Bytes)} (h : orderedHeaders hs = some o) : ∀ p ∈ hs, ∀ c ∈ p.2, c = 9 ∨ ((32 : UInt8) ≤ c ∧ c ≤ 126) := by
  intro p hp c hc
  have h2 := (orderedHeaders_some h).2 p hp
  simp only [toStrOk, List.all_eq_true] at h2
  have key : ∀ c : UInt8, (decide (32 ≤ c) && decide (c < 127) || c == 9) = true → c = 9 ∨ ((32 : UInt8) ≤ c ∧ c ≤ 126) := by
    apply forall_byte; decide +kernel
  exact key c (h2 c hc)

end S3
