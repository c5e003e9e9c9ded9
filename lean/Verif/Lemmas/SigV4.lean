import Verif.Spec.SigV4
import Verif.Lemmas.Ordered
import Verif.Props.Encoding
import Verif.Props.AmzDate
namespace S3
open Spec

theorem toHex_eq (s : Bytes) : toHex s = hexText s := by
  have key : ∀ b : UInt8, [hexLower (b >>> 4), hexLower (b &&& 15)] = lowerHex (b.toNat / 16) ++ lowerHex (b.toNat % 16) := by
    apply forall_byte; decide +kernel
  simp only [toHex, hexText, key]

theorem uriEncode_eq (sl : Bool) (s : Bytes) : uriEncode sl s = awsEncode (!sl) s := by
  have key : ∀ b : UInt8, uriEncodeByte sl b =
      if Unreserved b ∨ ((!sl) = true ∧ b = 47) then [b] else b!"%" ++ upperHex (b.toNat / 16) ++ upperHex (b.toNat % 16) := by
    cases sl <;> (apply forall_byte; decide +kernel)
  simp only [uriEncode, awsEncode]
  exact congrArg (fun f => s.flatMap f) (funext key)

theorem nameValueLe_iff {a b : Bytes × Bytes} : NameValueLe a b ↔ pairLe a b = true := pairLe_iff.symm

theorem sortPairs_sortedFrom (l : List (Bytes × Bytes)) : SortedFrom (sortPairs l) l :=
  ⟨sortPairs_perm l, (sortPairs_sorted l).imp nameValueLe_iff.mpr⟩

/-- a list sorted from another one is unique -/
theorem sortedFrom_eq {l l' : List (Bytes × Bytes)} (h : SortedFrom l l') : l = sortPairs l' := by
  apply List.Perm.eq_of_pairwise (le := fun a b => pairLe a b = true)
  · intro a b _ _; exact pairLe_antisymm
  · exact h.2.imp nameValueLe_iff.mp
  · exact sortPairs_sorted l'
  · exact h.1.trans (sortPairs_perm l').symm

theorem sortPairs_filter (l : List (Bytes × Bytes)) (p : Bytes × Bytes → Bool) :
    (sortPairs l).filter p = sortPairs (l.filter p) :=
  sortedFrom_eq ⟨(sortPairs_perm l).filter p, ((sortPairs_sortedFrom l).2.filter p)⟩

/-- the text of a list of lines, each ended by a line feed, before one more line -/
theorem joinWith_lines (ls : List Bytes) (last : Bytes) :
    joinWith 10 (ls ++ [last]) = (ls.flatMap fun l => l ++ [10]) ++ last := by
  induction ls with
  | nil => simp [joinWith]
  | cons a r ih =>
    cases hr : r ++ [last] with
    | nil => simp at hr
    | cons b t =>
      rw [List.cons_append, hr]
      simp only [joinWith]
      rw [← hr, ih]
      simp

theorem trim_stripped (v : Bytes) : Stripped v (trim v) := by
  have hd : ∀ s : Bytes, ∃ a, s = a ++ s.dropWhile isTrimmed ∧ ∀ c ∈ a, c = 32 ∨ c = 9 := by
    intro s
    refine ⟨s.takeWhile isTrimmed, List.takeWhile_append_dropWhile.symm, fun c hc => ?_⟩
    have := List.all_eq_true.mp (List.all_takeWhile (p := isTrimmed) (l := s)) c hc
    simpa [isTrimmed] using this
  have hh : ∀ (s : Bytes) c r, s.dropWhile isTrimmed = c :: r → c ≠ 32 ∧ c ≠ 9 := by
    intro s c r h
    have := List.head?_dropWhile_not isTrimmed s
    rw [h] at this
    simpa [isTrimmed] using this
  obtain ⟨a, ha, ha'⟩ := hd v
  obtain ⟨b, hb, hb'⟩ := hd (v.dropWhile isTrimmed).reverse
  have hb2 := congrArg List.reverse hb
  simp only [List.reverse_reverse, List.reverse_append] at hb2
  refine ⟨a, b.reverse, ?_, ha', by simpa using hb', ?_, ?_⟩
  · rw [List.append_assoc]
    conv => lhs; rw [ha]
    exact congrArg (a ++ ·) hb2
  · intro c r h
    change trim v = _ at h
    refine hh v c (r ++ b.reverse) ?_
    rw [hb2]
    change trim v ++ _ = _
    rw [h]; rfl
  · intro c r h
    simp only [trim] at h
    have := congrArg List.reverse h
    simp only [List.reverse_reverse, List.reverse_append, List.reverse_cons, List.reverse_nil, List.nil_append, List.singleton_append] at this
    exact hh _ c _ this

theorem blanks_prefix {a s b t : Bytes} (ha : ∀ c ∈ a, c = (32 : UInt8) ∨ c = 9)
    (ht : ∀ c r, t = c :: r → c ≠ 32 ∧ c ≠ 9) (hne : t ≠ []) (h : a ++ s = b ++ t) : a.length ≤ b.length := by
  refine Classical.byContradiction fun hl => ?_
  cases t with
  | nil => exact hne rfl
  | cons c r =>
    have : a[b.length]? = some c := by
      have h2 := congrArg (fun l => l[b.length]?) h
      simp only [List.getElem?_append_right (Nat.le_refl _), Nat.sub_self] at h2
      rw [List.getElem?_append_left (by omega)] at h2
      simpa using h2
    have hm := ha c (List.mem_of_getElem? this)
    have := ht c r rfl
    rcases hm with h | h <;> simp_all

/-- what is left is determined -/
theorem Spec.Stripped.unique {v t t' : Bytes} (h : Stripped v t) (h' : Stripped v t') : t = t' := by
  have allb : ∀ {x t : Bytes}, Trimmed t → (∀ c ∈ x, c = (32 : UInt8) ∨ c = 9) → (∃ a b, x = a ++ t ++ b) → t = [] := by
    rintro x t ht hx ⟨a, b, rfl⟩
    cases t with
    | nil => rfl
    | cons c r =>
      have := hx c (by simp)
      have h2 := ht.1 c r rfl
      rcases this with h | h <;> simp_all
  obtain ⟨a, b, e, ha, hb, ht⟩ := h
  obtain ⟨a', b', e', ha', hb', ht'⟩ := h'
  by_cases h0 : t = []
  · subst h0
    refine (allb (x := v) ht' ?_ ⟨a', b', e'⟩).symm
    rw [e]; intro c hc
    simp only [List.append_nil, List.mem_append] at hc
    exact hc.elim (ha c) (hb c)
  by_cases h0' : t' = []
  · subst h0'
    refine (allb (x := v) ht ?_ ⟨a, b, e⟩)
    rw [e']; intro c hc
    simp only [List.append_nil, List.mem_append] at hc
    exact hc.elim (ha' c) (hb' c)
  have hpre : ∀ {x r : Bytes} {c : UInt8} {l}, x ≠ [] → x ++ r = c :: l → ∃ l', x = c :: l' := by
    intro x r c l hx h
    cases x with
    | nil => exact absurd rfl hx
    | cons d l' => simp only [List.cons_append, List.cons.injEq] at h; exact ⟨l', by rw [h.1]⟩
  have h1 : a.length = a'.length := by
    apply Nat.le_antisymm
    · refine blanks_prefix (s := t ++ b) (t := t' ++ b') ha ?_ (by simp [h0']) (by simp [← List.append_assoc, ← e, ← e'])
      intro c r h
      obtain ⟨l', hl⟩ := hpre h0' h
      exact ht'.1 _ _ hl
    · refine blanks_prefix (s := t' ++ b') (t := t ++ b) ha' ?_ (by simp [h0]) (by simp [← List.append_assoc, ← e, ← e'])
      intro c r h
      obtain ⟨l', hl⟩ := hpre h0 h
      exact ht.1 _ _ hl
  have e2 : a ++ (t ++ b) = a' ++ (t' ++ b') := by rw [← List.append_assoc, ← List.append_assoc, ← e, ← e']
  obtain ⟨_, e3⟩ := List.append_inj e2 h1
  have e4 : b.reverse ++ t.reverse = b'.reverse ++ t'.reverse := by
    have := congrArg List.reverse e3
    simpa using this
  have hrev : ∀ {t : Bytes}, Trimmed t → ∀ c r, t.reverse = c :: r → c ≠ 32 ∧ c ≠ 9 := by
    intro t ht c r h
    exact ht.2 c r.reverse (by have := congrArg List.reverse h; simpa using this)
  have h2 : b.length = b'.length := by
    have x1 := blanks_prefix (a := b.reverse) (s := t.reverse) (by simpa using hb) (hrev ht') (by simpa using h0') e4
    have x2 := blanks_prefix (a := b'.reverse) (s := t'.reverse) (by simpa using hb') (hrev ht) (by simpa using h0) e4.symm
    simp only [List.length_reverse] at x1 x2
    omega
  obtain ⟨_, e5⟩ := List.append_inj e4 (by simpa using h2)
  simpa using e5

theorem stripped_iff {v t : Bytes} : Stripped v t ↔ t = trim v :=
  ⟨fun h => h.unique (trim_stripped v), fun h => h ▸ trim_stripped v⟩

theorem strippedAll_iff {l hs : List (Bytes × Bytes)} : StrippedAll l hs ↔ hs = l.map fun p => (p.1, trim p.2) := by
  induction l generalizing hs with
  | nil => cases hs <;> simp [StrippedAll]
  | cons p l ih =>
    obtain ⟨n, v⟩ := p
    cases hs with
    | nil => simp [StrippedAll]
    | cons q hs =>
      obtain ⟨m, t⟩ := q
      simp only [StrippedAll, ih, stripped_iff, List.map_cons, List.cons.injEq, Prod.mk.injEq]
      constructor
      · rintro ⟨rfl, h2, h3⟩; exact ⟨⟨rfl, h2⟩, h3⟩
      · rintro ⟨⟨rfl, h2⟩, h3⟩; exact ⟨rfl, h2, h3⟩

/-- the headers in the canonical request: names and trimmed values -/
def canonHeaders (hs : List (Bytes × Bytes)) : List (Bytes × Bytes) := (signedPart hs).map fun p => (p.1, trim p.2)

theorem canonical_of {method uriPath : Bytes} {qs hs : List (Bytes × Bytes)} {line : Bytes} :
    CanonicalText method (awsEncode true uriPath) qs (canonHeaders hs) line
      (method ++ [10] ++ (uriEncode false uriPath ++ [10]) ++ (canonicalQuery qs ++ [10]) ++
        ((signedPart hs).flatMap headerLine ++ [10]) ++ (joinWith 59 ((signedPart hs).map (·.1)) ++ [10]) ++ line) := by
  refine ⟨sortPairs (qs.map encodePair), ?_, ?_⟩
  · have : (fun p : Bytes × Bytes => (awsEncode false p.1, awsEncode false p.2)) = encodePair := by
      funext p; simp [encodePair, uriEncode_eq]
    rw [this]
    exact sortPairs_sortedFrom _
  · rw [show [method, awsEncode true uriPath,
        joinWith 38 ((sortPairs (qs.map encodePair)).map fun p => p.1 ++ b!"=" ++ p.2)] ++
        (canonHeaders hs).map (fun p => p.1 ++ b!":" ++ p.2) ++ [[], joinWith 59 ((canonHeaders hs).map (·.1)), line]
      = ([method, awsEncode true uriPath,
        joinWith 38 ((sortPairs (qs.map encodePair)).map fun p => p.1 ++ b!"=" ++ p.2)] ++
        (canonHeaders hs).map (fun p => p.1 ++ b!":" ++ p.2) ++ [[], joinWith 59 ((canonHeaders hs).map (·.1))]) ++ [line] by simp,
      joinWith_lines]
    have h1 : (fun p : Bytes × Bytes => p.1 ++ b!"=" ++ p.2) = queryItem := by funext p; simp [queryItem]
    have h2 : (canonHeaders hs).map (·.1) = (signedPart hs).map (·.1) := by simp [canonHeaders, Function.comp_def]
    have h3 : ((canonHeaders hs).map (fun p => p.1 ++ b!":" ++ p.2)).flatMap (fun l => l ++ [10]) = (signedPart hs).flatMap headerLine := by
      have : headerLine = fun a => a.1 ++ 58 :: (trim a.2 ++ [10]) := by funext a; simp [headerLine]
      simp [canonHeaders, List.flatMap_map, this, Function.comp_def]
    simp only [List.flatMap_append, h1, h2, h3, uriEncode_eq, canonicalQuery]
    simp

theorem canonicalRequest_text (cr : Crypto) (method uriPath : Bytes) (qs hs : List (Bytes × Bytes)) (p : Payload) :
    CanonicalText method (awsEncode true uriPath) qs (canonHeaders hs) (p.line cr) (canonicalRequest cr method uriPath qs hs p) :=
  canonical_of

theorem presignedCanonicalRequest_text (method uriPath : Bytes) (qs hs : List (Bytes × Bytes)) :
    CanonicalText method (awsEncode true uriPath) (qs.filter fun p => decide (p.1 ≠ b!"X-Amz-Signature")) (canonHeaders hs)
      b!"UNSIGNED-PAYLOAD" (presignedCanonicalRequest method uriPath qs hs) := by
  have : (fun p : Bytes × Bytes => decide (p.1 ≠ b!"X-Amz-Signature")) = fun p => !isSkippedQuery p.1 := by
    funext p; by_cases h : p.1 = b!"X-Amz-Signature" <;> simp [isSkippedQuery, h]
  rw [this]
  exact canonical_of

/-- the canonical text is determined -/
theorem canonicalText_unique {method uri : Bytes} {q q' hs : List (Bytes × Bytes)} {p t t' : Bytes}
    (hq : q.Perm q') (h : CanonicalText method uri q hs p t) (h' : CanonicalText method uri q' hs p t') : t = t' := by
  obtain ⟨l, hl, rfl⟩ := h
  obtain ⟨l', hl', rfl⟩ := h'
  rw [sortedFrom_eq hl, sortedFrom_eq hl', sortPairs_congr (hq.map _)]

theorem stringToSign_eq {cr : Crypto} {canonical ts region : Bytes} {date : AmzDate} (h : AmzDate.fromHeaderStr ts = some date) :
    stringToSign cr canonical date region = textToSign cr ts region canonical := by
  obtain ⟨h1, h2⟩ := C60_amz_date_round_trip _ _ h
  simp [stringToSign, textToSign, scopeLine, scopeParts, h1, h2, joinWith, Crypto.sha256hex, toHex_eq]

theorem calculateSignature_eq {cr : Crypto} {text secret ts region : Bytes} {date : AmzDate} (h : AmzDate.fromHeaderStr ts = some date) :
    calculateSignature cr text secret date region = sigv4 cr secret ts region text := by
  obtain ⟨_, h2⟩ := C60_amz_date_round_trip _ _ h
  simp [calculateSignature, sigv4, signingKey, scopeParts, h2, toHex_eq]

/-- the selection of the signed headers, for a sorted list of names -/
theorem mapSigned_sorted {hs : List (Bytes × Bytes)} {signed : List Bytes} (h : signed.Pairwise fun a b => bytesLe a b = true) :
    mapSignedHeaders hs signed = hs.filter fun p => decide (p.1 ∈ signed) := by
  simp only [mapSignedHeaders]
  apply List.filter_congr
  intro p _
  have := binSearch_isSome (mono_of_sorted (key := fun b => b) (name := p.1) h)
  rw [Bool.eq_iff_iff, this]
  simp only [bytesCmp_eq, exists_eq_right, decide_eq_true_eq]

theorem signedPart_filter (hs : List (Bytes × Bytes)) (signed : List Bytes) :
    signedPart (hs.filter fun p => decide (p.1 ∈ signed)) =
      hs.filter fun p => decide (p.1 ∈ signed ∧ p.1 ≠ b!"authorization" ∧ p.1 ≠ b!"user-agent") := by
  simp only [signedPart, List.filter_filter]
  apply List.filter_congr
  intro p _
  by_cases h1 : p.1 = b!"authorization" <;> by_cases h2 : p.1 = b!"user-agent" <;> by_cases h3 : p.1 ∈ signed <;>
    simp [isSkippedHeader, h1, h2, h3]

/-- the headers of the canonical request are the signed headers, sorted and trimmed -/
theorem signedHeaders_of {headers : List (Bytes × Bytes)} {signed : List Bytes} :
    SignedHeaders headers signed (canonHeaders ((sortPairs headers).filter fun p => decide (p.1 ∈ signed))) := by
  refine ⟨_, ?_, strippedAll_iff.mpr rfl⟩
  rw [signedPart_filter, sortPairs_filter]
  exact sortPairs_sortedFrom _

theorem orderedHeaders_some {hs o : List (Bytes × Bytes)} (h : orderedHeaders hs = some o) :
    o = sortPairs hs ∧ ∀ p ∈ hs, toStrOk p.2 = true := by
  simp only [orderedHeaders] at h
  split at h
  · rename_i ha
    cases h
    exact ⟨rfl, by simpa using ha⟩
  · cases h

end S3
