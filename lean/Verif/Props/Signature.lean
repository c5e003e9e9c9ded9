import Verif.Lemmas.Protect
/-! What a signature protects, and what it does not: C38, C39, C40, C43, C44, C45, C46. -/
namespace S3
open Spec

/-! ### C38 -/

theorem hexText_checksum {s : Bytes} (h : s.length = 32) : isSha256Checksum (hexText s) = true := by
  have key : ∀ b : UInt8, ((lowerHex (b.toNat / 16) ++ lowerHex (b.toNat % 16)).all fun c => isDigit c || (97 ≤ c && c ≤ 102)) = true := by
    apply forall_byte; decide +kernel
  simp only [isSha256Checksum, hexText_length, h, Bool.and_eq_true, List.all_eq_true]
  refine ⟨by decide, fun c hc => ?_⟩
  simp only [hexText, List.mem_flatMap] at hc
  obtain ⟨b, _, hb⟩ := hc
  exact List.all_eq_true.mp (key b) c hb

theorem percentDecode_plain {s : Bytes} (h : (37 : UInt8) ∉ s) : percentDecode s = s := by
  induction s with
  | nil => rfl
  | cons a r ih =>
    rw [List.mem_cons, not_or] at h
    rw [percentDecode_cons_ne (Ne.symm h.1), ih h.2]

/-- lists sorted strictly by name are equal if they have the same members -/
theorem sorted_names_ext {l l' : List (Bytes × Bytes)} (h : (l.map (·.1)).Pairwise fun a b => bytesCmp a b = .lt)
    (h' : (l'.map (·.1)).Pairwise fun a b => bytesCmp a b = .lt) (hm : ∀ p, p ∈ l ↔ p ∈ l') : l = l' := by
  rw [List.pairwise_map] at h h'
  have nd : ∀ {m : List (Bytes × Bytes)}, m.Pairwise (fun a b => bytesCmp a.1 b.1 = .lt) → m.Nodup := by
    intro m hm
    exact hm.imp fun {a b} hab e => by rw [e, bytesCmp_refl] at hab; cases hab
  apply List.Perm.eq_of_pairwise (le := fun a b => bytesCmp a.1 b.1 = .lt)
  · intro a b _ _ h1 h2
    have := bytesCmp_lt_trans h1 h2
    rw [bytesCmp_refl] at this; cases this
  · exact h
  · exact h'
  · exact (List.perm_ext_iff_of_nodup (nd h) (nd h')).mpr hm

/-- if every signed name occurs once, the selected headers are the ones of AWS -/
theorem awsHeaders_eq {headers hs : List (Bytes × Bytes)} {signed : List Bytes} (h : AwsHeaders headers signed hs)
    (once : ∀ n ∈ signed, n ≠ b!"authorization" ∧ n ≠ b!"user-agent" ∧ ∃ v, (headers.filter fun q => decide (q.1 = n)) = [(n, v)]) :
    hs = canonHeaders ((sortPairs headers).filter fun p => decide (p.1 ∈ signed)) := by
  obtain ⟨h1, h2, h3⟩ := h
  have mem : ∀ n v, (n, v) ∈ canonHeaders ((sortPairs headers).filter fun p => decide (p.1 ∈ signed)) ↔
      n ∈ signed ∧ ∃ w, (n, w) ∈ headers ∧ v = trim w := by
    intro n v
    simp only [canonHeaders, signedPart_filter, List.mem_map, List.mem_filter, (sortPairs_perm _).mem_iff, decide_eq_true_eq, Prod.mk.injEq]
    constructor
    · rintro ⟨⟨x, y⟩, ⟨hx, hs, _⟩, rfl, rfl⟩; exact ⟨hs, y, hx, rfl⟩
    · rintro ⟨hs, w, hw, rfl⟩; exact ⟨(n, w), ⟨hw, hs, (once n hs).1, (once n hs).2.1⟩, rfl, rfl⟩
  have uniq : ∀ n ∈ signed, ∀ v w, (n, v) ∈ headers → (n, w) ∈ headers → v = w := by
    intro n hn v w hv hw
    obtain ⟨_, _, u, hu⟩ := once n hn
    have m : ∀ x, (n, x) ∈ headers → x = u := by
      intro x hx
      have : (n, x) ∈ headers.filter fun q => decide (q.1 = n) := List.mem_filter.mpr ⟨hx, by simp⟩
      rw [hu] at this; simpa using this
    rw [m v hv, m w hw]
  apply sorted_names_ext h2
  · simp only [canonHeaders, signedPart_filter, List.map_map, List.pairwise_map, Function.comp]
    rw [sortPairs_filter]
    have nd : (headers.filter fun p => decide (p.1 ∈ signed ∧ p.1 ≠ b!"authorization" ∧ p.1 ≠ b!"user-agent")).Pairwise fun a b => a.1 ≠ b.1 := by
      rw [List.pairwise_filter]
      have key : ∀ hd : List (Bytes × Bytes), (∀ n ∈ signed, (hd.filter fun q => decide (q.1 = n)).length ≤ 1) →
          hd.Pairwise fun a b => decide (a.1 ∈ signed ∧ a.1 ≠ b!"authorization" ∧ a.1 ≠ b!"user-agent") = true →
            decide (b.1 ∈ signed ∧ b.1 ≠ b!"authorization" ∧ b.1 ≠ b!"user-agent") = true → a.1 ≠ b.1 := by
        intro hd
        induction hd with
        | nil => intro _; exact .nil
        | cons p hd ih =>
          intro hl
          refine List.pairwise_cons.mpr ⟨?_, ih fun n hn => ?_⟩
          · intro b hb ha _ e
            have ha := (of_decide_eq_true ha).1
            have := hl p.1 ha
            simp only [List.filter_cons, decide_true, if_true, List.length_cons] at this
            have h0 : (hd.filter fun q => decide (q.1 = p.1)) = [] := List.eq_nil_of_length_eq_zero (by omega)
            have : b ∈ hd.filter fun q => decide (q.1 = p.1) := List.mem_filter.mpr ⟨hb, by simp [e]⟩
            rw [h0] at this; cases this
          · have := hl n hn
            simp only [List.filter_cons] at this
            split at this
            · simp only [List.length_cons] at this; omega
            · exact this
      apply key
      intro n hn
      obtain ⟨_, _, v, hv⟩ := once n hn
      rw [hv]; simp
    have nd' := nd.perm (sortPairs_perm _).symm (fun h e => h e.symm)
    refine (nd'.and (sortPairs_sorted _)).imp ?_
    rintro a b ⟨hne, hle⟩
    rcases pairLe_iff.mp hle with h | ⟨h, _⟩
    · exact h
    · exact absurd h hne
  · rintro ⟨n, v⟩
    rw [mem]
    constructor
    · intro hp
      have hn : n ∈ signed := (h1 n).mp (List.mem_map.mpr ⟨_, hp, rfl⟩)
      obtain ⟨vs, hvs, e⟩ := h3 _ hp
      obtain ⟨_, _, w, hw⟩ := once n hn
      simp only [hw, strippedAll_iff] at hvs
      subst hvs
      simp only [List.map_cons, List.map_nil, joinWith] at e
      refine ⟨hn, w, ?_, e⟩
      have : (n, w) ∈ headers.filter fun q => decide (q.1 = n) := by rw [hw]; exact List.mem_cons_self
      exact (List.mem_filter.mp this).1
    · rintro ⟨hn, w, hw, rfl⟩
      obtain ⟨⟨n', v⟩, hp, rfl⟩ := List.mem_map.mp ((h1 n).mpr hn)
      obtain ⟨vs, hvs, e⟩ := h3 _ hp
      obtain ⟨_, _, w', hw'⟩ := once n' hn
      simp only [hw', strippedAll_iff] at hvs
      subst hvs
      simp only [List.map_cons, List.map_nil, joinWith] at e
      have hw2 : (n', w') ∈ headers := by
        have : (n', w') ∈ headers.filter fun q => decide (q.1 = n') := by rw [hw']; exact List.mem_cons_self
        exact (List.mem_filter.mp this).1
      rw [uniq n' hn w w' hw hw2, ← e]
      exact hp

theorem received_bodyFrom (b : Bytes) : received (bodyFrom b) = b := by
  simp only [bodyFrom]
  split
  · rename_i h; rw [h]; rfl
  · simp [received]

/-- a request for the object `my key` in bucket `abc`, signed by the AWS rules: canonical URI `/abc/my%20key` -/
def Sample.spacePut : Req := signedRequest b!"PUT" b!"/abc/my%20key" b!"/abc/my%20key" none helloHash [] [some hello]

theorem Sample.spacePut_aws : ∃ value a hs t, AwsSigned Sample.lib.crypto Sample.spacePut b!"SK" b!"/abc/my key" value a Sample.stamp Sample.helloHash hs t ∧
    Sample.provider a.credential.accessKeyId = .ok b!"SK" ∧
    ∀ n ∈ a.signedHeaders, n ≠ b!"authorization" ∧ n ≠ b!"user-agent" ∧ ∃ v, (Sample.spacePut.headers.filter fun q => decide (q.1 = n)) = [(n, v)] := by
  have hhdr : ∀ n v, Sample.spacePut.headers.contains (n, v) = true →
      (Sample.spacePut.headers.all fun q => decide (q.1 = n → q.2 = v)) = true → OnlyHeader Sample.spacePut n v := by
    intro n v h1 h2
    refine ⟨by simpa using h1, fun w hw => ?_⟩
    simp only [List.all_eq_true, decide_eq_true_eq] at h2
    exact h2 _ hw rfl
  refine ⟨(Sample.spacePut.headers.head?.map (·.2)).getD [],
    ⟨b!"AWS4-HMAC-SHA256", ⟨b!"AK", b!"20130524", b!"us-east-1", b!"s3"⟩, [b!"host", b!"x-amz-content-sha256", b!"x-amz-date"],
      Sample.signText (Sample.canonical b!"PUT" b!"/abc/my%20key" []
        [(b!"host", b!"h"), (b!"x-amz-content-sha256", Sample.helloHash), (b!"x-amz-date", Sample.stamp)] Sample.helloHash)⟩,
    [(b!"host", b!"h"), (b!"x-amz-content-sha256", Sample.helloHash), (b!"x-amz-date", Sample.stamp)],
    Sample.canonical b!"PUT" b!"/abc/my%20key" []
      [(b!"host", b!"h"), (b!"x-amz-content-sha256", Sample.helloHash), (b!"x-amz-date", Sample.stamp)] Sample.helloHash,
    ⟨by decide +kernel, hhdr _ _ (by decide +kernel) (by decide +kernel), by decide +kernel, hhdr _ _ (by decide +kernel) (by decide +kernel),
     by decide +kernel, hhdr _ _ (by decide +kernel) (by decide +kernel), .inr (.inr (by decide +kernel)), by unfold unbroken; decide +kernel,
     ⟨fun n => by simp, by decide +kernel, ?_⟩, ⟨[], ⟨.nil, .nil⟩, by decide +kernel⟩, by decide +kernel⟩, by decide +kernel, ?_⟩
  · intro p hp
    refine ⟨(Sample.spacePut.headers.filter fun h => decide (h.1 = p.1)).map fun q => (q.1, trim q.2), strippedAll_iff.mpr rfl, ?_⟩
    have : ([(b!"host", b!"h"), (b!"x-amz-content-sha256", Sample.helloHash), (b!"x-amz-date", Sample.stamp)].all fun p =>
      decide (p.2 = joinWith 44 (((Sample.spacePut.headers.filter fun h => decide (h.1 = p.1)).map fun q => (q.1, trim q.2)).map (·.2)))) = true := by
      decide +kernel
    exact of_decide_eq_true (List.all_eq_true.mp this p hp)
  · intro n hn
    simp only [List.mem_cons, List.not_mem_nil, or_false] at hn
    rcases hn with rfl | rfl | rfl
    · exact ⟨by decide, by decide, b!"h", by decide +kernel⟩
    · exact ⟨by decide, by decide, Sample.helloHash, by decide +kernel⟩
    · exact ⟨by decide, by decide, Sample.stamp, by decide +kernel⟩

theorem Sample.spacePut_wellFormed : WellFormed Sample.lib Sample.spacePut := by
  refine ⟨⟨b!"/abc/my key", .object b!"abc" b!"my key", by decide +kernel, by decide +kernel⟩, by decide +kernel, ?_⟩
  intro v hv
  have : (Sample.spacePut.headers.all fun q => decide (q.1 ≠ b!"content-type")) = true := by decide +kernel
  exact absurd rfl (of_decide_eq_true (List.all_eq_true.mp this _ hv))

theorem Sample.signedPut_aws : ∃ value a hs t, AwsSigned Sample.lib.crypto Sample.signedPut b!"SK" b!"/abc/k" value a Sample.stamp Sample.helloHash hs t ∧
    Sample.provider a.credential.accessKeyId = .ok b!"SK" ∧
    ∀ n ∈ a.signedHeaders, n ≠ b!"authorization" ∧ n ≠ b!"user-agent" ∧ ∃ v, (Sample.signedPut.headers.filter fun q => decide (q.1 = n)) = [(n, v)] := by
  have hhdr : ∀ n v, Sample.signedPut.headers.contains (n, v) = true →
      (Sample.signedPut.headers.all fun q => decide (q.1 = n → q.2 = v)) = true → OnlyHeader Sample.signedPut n v := by
    intro n v h1 h2
    refine ⟨by simpa using h1, fun w hw => ?_⟩
    simp only [List.all_eq_true, decide_eq_true_eq] at h2
    exact h2 _ hw rfl
  refine ⟨(Sample.signedPut.headers.head?.map (·.2)).getD [],
    ⟨b!"AWS4-HMAC-SHA256", ⟨b!"AK", b!"20130524", b!"us-east-1", b!"s3"⟩, [b!"host", b!"x-amz-content-sha256", b!"x-amz-date"],
      Sample.signText (Sample.canonical b!"PUT" b!"/abc/k" []
        [(b!"host", b!"h"), (b!"x-amz-content-sha256", Sample.helloHash), (b!"x-amz-date", Sample.stamp)] Sample.helloHash)⟩,
    [(b!"host", b!"h"), (b!"x-amz-content-sha256", Sample.helloHash), (b!"x-amz-date", Sample.stamp)],
    Sample.canonical b!"PUT" b!"/abc/k" []
      [(b!"host", b!"h"), (b!"x-amz-content-sha256", Sample.helloHash), (b!"x-amz-date", Sample.stamp)] Sample.helloHash,
    ⟨by decide +kernel, hhdr _ _ (by decide +kernel) (by decide +kernel), by decide +kernel, hhdr _ _ (by decide +kernel) (by decide +kernel),
     by decide +kernel, hhdr _ _ (by decide +kernel) (by decide +kernel), .inr (.inr (by decide +kernel)), by unfold unbroken; decide +kernel,
     ⟨fun n => by simp, by decide +kernel, ?_⟩, ⟨[], ⟨.nil, .nil⟩, by decide +kernel⟩, by decide +kernel⟩, by decide +kernel, ?_⟩
  · intro p hp
    refine ⟨(Sample.signedPut.headers.filter fun h => decide (h.1 = p.1)).map fun q => (q.1, trim q.2), strippedAll_iff.mpr rfl, ?_⟩
    have : ([(b!"host", b!"h"), (b!"x-amz-content-sha256", Sample.helloHash), (b!"x-amz-date", Sample.stamp)].all fun p =>
      decide (p.2 = joinWith 44 (((Sample.signedPut.headers.filter fun h => decide (h.1 = p.1)).map fun q => (q.1, trim q.2)).map (·.2)))) = true := by
      decide +kernel
    exact of_decide_eq_true (List.all_eq_true.mp this p hp)
  · intro n hn
    simp only [List.mem_cons, List.not_mem_nil, or_false] at hn
    rcases hn with rfl | rfl | rfl
    · exact ⟨by decide, by decide, b!"h", by decide +kernel⟩
    · exact ⟨by decide, by decide, Sample.helloHash, by decide +kernel⟩
    · exact ⟨by decide, by decide, Sample.stamp, by decide +kernel⟩

theorem Sample.signedPut_wellFormed : WellFormed Sample.lib Sample.signedPut := by
  refine ⟨⟨b!"/abc/k", .object b!"abc" b!"k", by decide +kernel, by decide +kernel⟩, by decide +kernel, ?_⟩
  intro v hv
  have : (Sample.signedPut.headers.all fun q => decide (q.1 ≠ b!"content-type")) = true := by decide +kernel
  exact absurd rfl (of_decide_eq_true (List.all_eq_true.mp this _ hv))

/-- **C38** is false of the code: a request signed by the AWS rules is refused when the path has an escape. -/
theorem C38_escaped_path_fails :
    (∃ value a hs t, AwsSigned Sample.lib.crypto Sample.spacePut b!"SK" b!"/abc/my key" value a Sample.stamp Sample.helloHash hs t ∧
      Sample.provider a.credential.accessKeyId = .ok b!"SK") ∧ WellFormed Sample.lib Sample.spacePut ∧
    handle Sample.cfg Sample.ext Sample.lib (some Sample.provider) Sample.env Sample.spacePut = .fail .SignatureDoesNotMatch := by
  obtain ⟨v, a, hs, t, h1, h2, _⟩ := Sample.spacePut_aws
  refine ⟨⟨v, a, hs, t, h1, h2⟩, Sample.spacePut_wellFormed, ?_⟩
  rw [← Sample.failsWith_iff]; decide +kernel

/-- **C38** (missing: paths with an escape, and signed headers that occur twice or are called `user-agent`) A well-formed
request signed by the AWS rules in its `Authorization` header, by a user the provider knows, passes the check, and (unless
its body comes in signed chunks) the handler sees the same body — if there is no `%` in the path and every signed header
occurs exactly once and is not `authorization` or `user-agent`. -/
theorem C38_signed_accepted_partial (lib : Lib) (hc : CryptoLaw lib.crypto) (p : Provider) (r : Req)
    (hw : WellFormed lib r) (hf : ∀ b, ¬ IsForm lib r b) (hq : ∀ v, (b!"X-Amz-Signature", v) ∉ queryOf r)
    {secret path value ts declared t : Bytes} {a : Authorization} {hs : List (Bytes × Bytes)}
    (h : AwsSigned lib.crypto r secret path value a ts declared hs t) (hp : p a.credential.accessKeyId = .ok secret)
    (plain : (37 : UInt8) ∉ r.path)
    (once : ∀ n ∈ a.signedHeaders, n ≠ b!"authorization" ∧ n ≠ b!"user-agent" ∧ ∃ v, (r.headers.filter fun q => decide (q.1 = n)) = [(n, v)]) :
    ∃ c, admit lib (some p) r = .ok c ∧
      (declared ≠ b!"STREAMING-AWS4-HMAC-SHA256-PAYLOAD" → received c.body = received r.body) := by
  obtain ⟨c, hm⟩ := made_of_wellFormed hw
  have hpath : path = r.path := by
    have := h.decoded
    simp only [urlDecode, percentDecode_plain plain] at this
    split at this
    · injection this with this; exact this.symm
    · cases this
  have hts := made_header_only hm h.hasDate
  have hsha := made_header_only hm h.hasSha
  obtain ⟨date, hdate⟩ := Option.ne_none_iff_exists'.mp h.validDate
  have hwhole : wholeBody r.body = some (received r.body) := wholeBody_some.mpr ⟨h.whole, rfl⟩
  obtain ⟨sha, pl, bd, g1, g2, g3, g4⟩ : ∃ sha pl bd, AmzContentSha256.fromHeaderStr declared = some sha ∧
      headerPayload sha r.body = .ok (pl, bd) ∧ pl.line lib.crypto = declared ∧
      (declared ≠ b!"STREAMING-AWS4-HMAC-SHA256-PAYLOAD" → sha ≠ .multipleChunks ∧ received bd = received r.body) := by
    by_cases d1 : declared = b!"UNSIGNED-PAYLOAD"
    · subst d1
      refine ⟨.unsignedPayload, .unsigned, bodyFrom (received r.body), by decide, ?_, rfl, fun _ => ⟨by decide, received_bodyFrom _⟩⟩
      simp [headerPayload, hwhole, wholePayload]
    by_cases d2 : declared = b!"STREAMING-AWS4-HMAC-SHA256-PAYLOAD"
    · subst d2
      exact ⟨.multipleChunks, .multipleChunks, r.body, by decide, by simp [headerPayload], rfl, fun h => absurd rfl h⟩
    rcases h.truth with d3 | d3 | d3
    · exact absurd d3 d1
    · exact absurd d3 d2
    refine ⟨.singleChunk declared, wholePayload (.singleChunk declared) (received r.body), bodyFrom (received r.body), ?_, ?_, ?_,
      fun _ => ⟨by simp, received_bodyFrom _⟩⟩
    · have := hexText_checksum (hc.sha_length (received r.body))
      rw [← d3] at this
      simp [AmzContentSha256.fromHeaderStr, d1, d2, this]
    · simp [headerPayload, hwhole]
    · simp only [wholePayload, reduceCtorEq, if_false]
      split
      · rename_i he
        rw [d3, he, hc.sha_empty]; rfl
      · rw [d3, Payload.line, Crypto.sha256hex, toHex_eq]
  have hsig : headerSignature lib.crypto c a date pl secret = a.signature := by
    rw [h.correct, headerSignature]
    rw [calculateSignature_eq hdate, stringToSign_eq hdate]
    congr 2
    have ht := canonicalRequest_text lib.crypto c.method c.uriPath (c.qs.getD []) (mapSignedHeaders c.headers (isort bytesLe a.signedHeaders)) pl
    rw [mapSigned_isort, (orderedHeaders_some hm.headers).1, ← awsHeaders_eq h.headers once, hm.qs_getD, hm.method, hm.uriPath, g3] at ht
    have hT := h.text
    rw [hpath] at hT
    rw [mapSigned_isort, (orderedHeaders_some hm.headers).1, hm.qs_getD, hm.method, hm.uriPath]
    exact canonicalText_unique (sortPairs_perm _) ht hT
  refine ⟨{ c with body := checkedBody lib.crypto sha a.signature secret date a.credential.region bd }, ?_, ?_⟩
  · rw [admit_made hm]
    simp only [checkSignature, formMime_none hm hf, presignedQuery_none hm hq]
    rw [checkHeaderAuth_some hm h.hasAuthorization h.parsed]
    refine checkAuthorization_ok.mpr ⟨p, ts, secret, sha, date, pl, bd, rfl, hp, extractSha_ok.mpr ⟨declared, hsha, g1⟩, hts, hdate, ?_, hsig, rfl⟩
    rw [hm.body]; exact g2
  · intro hd
    obtain ⟨n1, n2⟩ := g4 hd
    simp only [checkedBody, if_neg n1]
    exact n2

/-- the signed PUT meets the hypotheses -/
example : ∃ c, admit Sample.lib (some Sample.provider) Sample.signedPut = .ok c ∧ received c.body = b!"hello" := by
  obtain ⟨v, a, hs, t, h1, h2, h3⟩ := Sample.signedPut_aws
  obtain ⟨c, e1, e2⟩ := C38_signed_accepted_partial Sample.lib Sample.cryptoLaw Sample.provider Sample.signedPut Sample.signedPut_wellFormed
    (fun b hb => absurd hb.1 (by decide)) (fun v hv => by cases hv) h1 h2 (by decide) h3
  exact ⟨c, e1, e2 (by decide +kernel)⟩

/-! ### C39 -/

/-- the headers that go into the canonical request -/
def Spec.countedHeaders (hs : List (Bytes × Bytes)) : List (Bytes × Bytes) :=
  hs.filter fun p => decide (p.1 ≠ b!"authorization" ∧ p.1 ≠ b!"user-agent")

theorem signedPart_counted (hs : List (Bytes × Bytes)) : signedPart hs = countedHeaders hs := by
  simp only [signedPart, countedHeaders]
  apply List.filter_congr
  intro p _
  by_cases h1 : p.1 = b!"authorization" <;> by_cases h2 : p.1 = b!"user-agent" <;> simp [isSkippedHeader, h1, h2]

theorem canonHeaders_stripped (hs : List (Bytes × Bytes)) : StrippedAll (countedHeaders hs) (canonHeaders hs) := by
  rw [strippedAll_iff, canonHeaders, signedPart_counted]

theorem plain_canonHeaders {hs : List (Bytes × Bytes)} (h : PlainHeaders hs) : PlainHeaders (canonHeaders hs) := by
  intro p hp
  simp only [canonHeaders, List.mem_map, signedPart, List.mem_filter] at hp
  obtain ⟨x, ⟨hx, _⟩, rfl⟩ := hp
  obtain ⟨h1, h2, h3⟩ := h x hx
  refine ⟨h1, h2, fun hc => h3 ?_⟩
  obtain ⟨a, b, e, _⟩ := trim_stripped x.2
  rw [e, List.mem_append, List.mem_append]; exact .inl (.inr hc)

theorem line_no_lf (cr : Crypto) (p : Payload) : (10 : UInt8) ∉ p.line cr := by
  cases p with
  | unsigned => simp only [Payload.line]; decide
  | empty => simp only [Payload.line]; decide
  | singleChunk d => simp only [Payload.line, Crypto.sha256hex, toHex_eq]; exact hexText_no_lf _
  | multipleChunks => simp only [Payload.line]; decide

/-- **C39** The canonical request determines the method, the path, the query parameters up to their order, the names and
the stripped values of the signed headers, and the payload line. -/
theorem C39_canonical_request (cr : Crypto) (m m' path path' : Bytes) (qs qs' hs hs' : List (Bytes × Bytes)) (p p' : Payload)
    (hm : (10 : UInt8) ∉ m) (hm' : (10 : UInt8) ∉ m')
    (hh : ∀ h ∈ hs, (10 : UInt8) ∉ h.1 ∧ (58 : UInt8) ∉ h.1 ∧ (10 : UInt8) ∉ h.2)
    (hh' : ∀ h ∈ hs', (10 : UInt8) ∉ h.1 ∧ (58 : UInt8) ∉ h.1 ∧ (10 : UInt8) ∉ h.2)
    (e : canonicalRequest cr m path qs hs p = canonicalRequest cr m' path' qs' hs' p') :
    m = m' ∧ path = path' ∧ qs.Perm qs' ∧ p.line cr = p'.line cr ∧
      ∃ l, StrippedAll (countedHeaders hs) l ∧ StrippedAll (countedHeaders hs') l := by
  have h1 := canonicalRequest_text cr m path qs hs p
  have h2 := canonicalRequest_text cr m' path' qs' hs' p'
  rw [← e] at h2
  obtain ⟨a, b, c, d, f⟩ := canonicalText_inj hm hm' (plain_canonHeaders hh) (plain_canonHeaders hh') (line_no_lf cr p) (line_no_lf cr p') h1 h2
  refine ⟨a, b, c, f, canonHeaders hs, canonHeaders_stripped hs, ?_⟩
  rw [d]; exact canonHeaders_stripped hs'

/-- **C39** The same for the canonical request of a presigned URL (its parameters without the signature). -/
theorem C39_presigned_request (m m' path path' : Bytes) (qs qs' hs hs' : List (Bytes × Bytes))
    (hm : (10 : UInt8) ∉ m) (hm' : (10 : UInt8) ∉ m')
    (hh : ∀ h ∈ hs, (10 : UInt8) ∉ h.1 ∧ (58 : UInt8) ∉ h.1 ∧ (10 : UInt8) ∉ h.2)
    (hh' : ∀ h ∈ hs', (10 : UInt8) ∉ h.1 ∧ (58 : UInt8) ∉ h.1 ∧ (10 : UInt8) ∉ h.2)
    (e : presignedCanonicalRequest m path qs hs = presignedCanonicalRequest m' path' qs' hs') :
    m = m' ∧ path = path' ∧
      (qs.filter fun p => decide (p.1 ≠ b!"X-Amz-Signature")).Perm (qs'.filter fun p => decide (p.1 ≠ b!"X-Amz-Signature")) ∧
      ∃ l, StrippedAll (countedHeaders hs) l ∧ StrippedAll (countedHeaders hs') l := by
  have h1 := presignedCanonicalRequest_text m path qs hs
  have h2 := presignedCanonicalRequest_text m' path' qs' hs'
  rw [← e] at h2
  obtain ⟨a, b, c, d, _⟩ := canonicalText_inj hm hm' (plain_canonHeaders hh) (plain_canonHeaders hh') (by decide) (by decide) h1 h2
  refine ⟨a, b, c, canonHeaders hs, canonHeaders_stripped hs, ?_⟩
  rw [d]; exact canonHeaders_stripped hs'

/-- different header lists with the same canonical request: blanks around a value do not count -/
example : canonicalRequest Sample.crypto b!"GET" b!"/a" [(b!"b", b!"2"), (b!"a", b!"1")] [(b!"host", b!" h ")] .empty =
    canonicalRequest Sample.crypto b!"GET" b!"/a" [(b!"a", b!"1"), (b!"b", b!"2")] [(b!"host", b!"h"), (b!"user-agent", b!"x")] .empty := by
  decide +kernel

/-! ### C40 -/

/-- **C40** Two accepted requests signed in the header with the same access key, date, region and signature agree on
method, path, query parameters (up to order), signed headers and signed payload — or the two texts that were hashed or
signed are a collision of SHA-256 or of HMAC-SHA256 under the signing key. -/
theorem C40_signature_protects (cfg : Cfg) (ext : Ext) (lib : Lib) (hc : CryptoLaw lib.crypto) (p : Provider) (env : Env) (r r' : Req)
    (h : ∀ e, handle cfg ext lib (some p) env r ≠ .fail e) (h' : ∀ e, handle cfg ext lib (some p) env r' ≠ .fail e)
    (hp : HttpPlain r) (hp' : HttpPlain r') (hf : ∀ b, ¬ IsForm lib r b) (hf' : ∀ b, ¬ IsForm lib r' b)
    (hq : ∀ v, (b!"X-Amz-Signature", v) ∉ queryOf r) (hq' : ∀ v, (b!"X-Amz-Signature", v) ∉ queryOf r')
    {v v' ts : Bytes} {a a' : Authorization}
    (hv : OnlyHeader r b!"authorization" v) (hv' : OnlyHeader r' b!"authorization" v')
    (ha : Authorization.fromHeaderStr v = some a) (ha' : Authorization.fromHeaderStr v' = some a')
    (ht : OnlyHeader r b!"x-amz-date" ts) (ht' : OnlyHeader r' b!"x-amz-date" ts)
    (hkey : a.credential.accessKeyId = a'.credential.accessKeyId) (hregion : a.credential.region = a'.credential.region)
    (hsig : a.signature = a'.signature) :
    ∃ secret d d' hs hs' pl pl' t t', p a.credential.accessKeyId = .ok secret ∧
      HeaderSigning lib.crypto r (awsEncode true r.path) secret a ts d hs pl t ∧
      HeaderSigning lib.crypto r' (awsEncode true r'.path) secret a' ts d' hs' pl' t' ∧
      ((r.method = r'.method ∧ r.path = r'.path ∧ (queryOf r).Perm (queryOf r') ∧ hs = hs' ∧ SamePayload d d' r.body r'.body) ∨
       Collides lib.crypto.sha256 (received r.body) (received r'.body) ∨ Collides lib.crypto.sha256 t t' ∨
       Collides (lib.crypto.hmac (signKey lib.crypto secret ts a.credential.region))
         (textToSign lib.crypto ts a.credential.region t) (textToSign lib.crypto ts a.credential.region t')) := by
  obtain ⟨vis, secret, d, hs, pl, t, hk, hS⟩ := accepted_header hc h hf hq hv ha ht
  obtain ⟨vis', secret', d', hs', pl', t', hk', hS'⟩ := accepted_header hc h' hf' hq' hv' ha' ht'
  have es : secret' = secret := by
    rw [← hkey, hk] at hk'; injection hk' with hk'; exact hk'.symm
  subst es
  refine ⟨secret', d, d', hs, hs', pl, pl', t, t', hk, hS, hS', ?_⟩
  have e := hS.correct.symm.trans (hsig.trans hS'.correct)
  rw [← hregion] at e
  rcases canonical_protected e with e | e | e
  · subst e
    obtain ⟨e1, e2, e3, e4, e5⟩ := canonicalText_inj hp.method hp'.method (plain_of_signed hp vis hS.headers)
      (plain_of_signed hp' vis' hS'.headers) (payloadLine_no_lf hS.line) (payloadLine_no_lf hS'.line) hS.text hS'.text
    subst e5
    rcases payload_protected hc hS.line hS'.line with e6 | e6
    · exact .inl ⟨e1, e2, e3, e4, e6⟩
    · exact .inr (.inl e6)
  · exact .inr (.inr (.inl e))
  · exact .inr (.inr (.inr e))

/-- the signed PUT meets the hypotheses (with itself, and with its headers in another order) -/
example : (∀ e, handle Sample.cfg Sample.ext Sample.lib (some Sample.provider) Sample.env Sample.signedPut ≠ .fail e) ∧
    HttpPlain Sample.signedPut ∧ (∃ v a, OnlyHeader Sample.signedPut b!"authorization" v ∧ Authorization.fromHeaderStr v = some a) ∧
    OnlyHeader Sample.signedPut b!"x-amz-date" Sample.stamp := by
  refine ⟨?_, ⟨by decide +kernel, by decide +kernel⟩, ?_, by decide +kernel, ?_⟩
  · intro e he
    have : Sample.steps (handle Sample.cfg Sample.ext Sample.lib (some Sample.provider) Sample.env Sample.signedPut) = true := by decide +kernel
    rw [he] at this; cases this
  · have h1 : (Sample.signedPut.headers.head?).map (·.1) = some b!"authorization" := by decide +kernel
    have h2 : (Sample.signedPut.headers.tail.all fun q => decide (q.1 ≠ b!"authorization")) = true := by decide +kernel
    have h3 : ((Sample.signedPut.headers.head?).bind fun q => Authorization.fromHeaderStr q.2).isSome = true := by decide +kernel
    cases hh : Sample.signedPut.headers with
    | nil => rw [hh] at h1; cases h1
    | cons q l =>
      rw [hh] at h1 h2 h3
      simp only [List.head?_cons, Option.map_some, Option.some.injEq, Option.bind_some] at h1 h3
      obtain ⟨a, ha⟩ := Option.isSome_iff_exists.mp h3
      refine ⟨q.2, a, ⟨?_, ?_⟩, ha⟩
      · rw [hh, ← h1]; exact List.mem_cons_self
      · intro v hv
        rw [hh, List.mem_cons] at hv
        rcases hv with hv | hv
        · rw [← hv]
        · simp only [List.tail_cons, List.all_eq_true, decide_eq_true_eq] at h2
          exact absurd rfl (h2 _ hv)
  · have : (Sample.signedPut.headers.all fun q => decide (q.1 = b!"x-amz-date" → q.2 = Sample.stamp)) = true := by decide +kernel
    intro v hv
    simp only [List.all_eq_true, decide_eq_true_eq] at this
    exact this _ hv rfl

/-! ### C43 -/

/-- **C43** is false of the code: a URL presigned for one second on 24 May 2013 is accepted and reaches the storage. (The
server asks no clock, so the answer is the same at every time.) -/
theorem C43_expiry_fails :
    OnlyQuery Sample.presignedGet b!"X-Amz-Date" b!"20130524T000000Z" ∧ OnlyQuery Sample.presignedGet b!"X-Amz-Expires" b!"1" ∧
    ∃ c k, handle Sample.cfg Sample.ext Sample.lib (some Sample.provider) Sample.env Sample.presignedGet = .sys c k := by
  have only : ∀ n v, (queryOf Sample.presignedGet).contains (n, v) = true →
      ((queryOf Sample.presignedGet).all fun q => decide (q.1 = n → q.2 = v)) = true → OnlyQuery Sample.presignedGet n v := by
    intro n v h1 h2
    refine ⟨by simpa using h1, fun w hw => ?_⟩
    simp only [List.all_eq_true, decide_eq_true_eq] at h2
    exact h2 _ hw rfl
  refine ⟨only _ _ (by decide +kernel) (by decide +kernel), only _ _ (by decide +kernel) (by decide +kernel), ?_⟩
  have : Sample.steps (handle Sample.cfg Sample.ext Sample.lib (some Sample.provider) Sample.env Sample.presignedGet) = true := by decide +kernel
  revert this
  cases handle Sample.cfg Sample.ext Sample.lib (some Sample.provider) Sample.env Sample.presignedGet with
  | sys c k => exact fun _ => ⟨c, k, rfl⟩
  | _ => exact fun h => by cases h

/-- **C43** (what holds: the parameters of a presigned URL, its expiry among them, are covered by the signature. Missing:
the expiry is not enforced.) Two accepted presigned URLs with the same credential, date and signature agree on method,
path, all query parameters (up to order) and signed headers — or there is an explicit collision. -/
theorem C43_presigned_protects_partial (cfg : Cfg) (ext : Ext) (lib : Lib) (p : Provider) (env : Env) (r r' : Req)
    (h : ∀ e, handle cfg ext lib (some p) env r ≠ .fail e) (h' : ∀ e, handle cfg ext lib (some p) env r' ≠ .fail e)
    (hp : HttpPlain r) (hp' : HttpPlain r') (hf : ∀ b, ¬ IsForm lib r b) (hf' : ∀ b, ¬ IsForm lib r' b)
    {sig cred ts : Bytes} {credential : Credential} (hparse : Credential.parse cred = some (credential, []))
    (hsig : OnlyQuery r b!"X-Amz-Signature" sig) (hsig' : OnlyQuery r' b!"X-Amz-Signature" sig)
    (hcred : OnlyQuery r b!"X-Amz-Credential" cred) (hcred' : OnlyQuery r' b!"X-Amz-Credential" cred)
    (ht : OnlyQuery r b!"X-Amz-Date" ts) (ht' : OnlyQuery r' b!"X-Amz-Date" ts) :
    ∃ secret names names' covered covered' hs hs' t t', p credential.accessKeyId = .ok secret ∧
      PresignedSigning lib.crypto r (awsEncode true r.path) secret cred credential ts sig names covered hs t ∧
      PresignedSigning lib.crypto r' (awsEncode true r'.path) secret cred credential ts sig names' covered' hs' t' ∧
      ((r.method = r'.method ∧ r.path = r'.path ∧ (presignedParams r).Perm (presignedParams r') ∧ hs = hs') ∨
       Collides lib.crypto.sha256 t t' ∨
       Collides (lib.crypto.hmac (signKey lib.crypto secret ts credential.region))
         (textToSign lib.crypto ts credential.region t) (textToSign lib.crypto ts credential.region t')) := by
  obtain ⟨vis, secret, names, covered, hs, t, hk, hS⟩ := accepted_presigned h hf hsig hcred hparse ht
  obtain ⟨vis', secret', names', covered', hs', t', hk', hS'⟩ := accepted_presigned h' hf' hsig' hcred' hparse ht'
  have es : secret' = secret := by
    rw [hk] at hk'; injection hk' with hk'; exact hk'.symm
  subst es
  refine ⟨secret', names, names', covered, covered', hs, hs', t, t', hk, hS, hS', ?_⟩
  rcases canonical_protected (hS.correct.symm.trans hS'.correct) with e | e | e
  · subst e
    obtain ⟨e1, e2, e3, e4, _⟩ := canonicalText_inj hp.method hp'.method (plain_of_signed hp vis hS.headers)
      (plain_of_signed hp' vis' hS'.headers) (by decide) (by decide) hS.text hS'.text
    exact .inl ⟨e1, e2, e3, e4⟩
  · exact .inr (.inl e)
  · exact .inr (.inr e)

theorem Sample.only_query {r : Req} {n v : Bytes} (h1 : (queryOf r).contains (n, v) = true)
    (h2 : ((queryOf r).all fun q => decide (q.1 = n → q.2 = v)) = true) : OnlyQuery r n v := by
  refine ⟨by simpa using h1, fun w hw => ?_⟩
  simp only [List.all_eq_true, decide_eq_true_eq] at h2
  exact h2 _ hw rfl

theorem Sample.only_header {r : Req} {n v : Bytes} (h1 : r.headers.contains (n, v) = true)
    (h2 : (r.headers.all fun q => decide (q.1 = n → q.2 = v)) = true) : OnlyHeader r n v := by
  refine ⟨by simpa using h1, fun w hw => ?_⟩
  simp only [List.all_eq_true, decide_eq_true_eq] at h2
  exact h2 _ hw rfl

theorem Sample.not_fail {cfg : Cfg} {ext : Ext} {lib : Lib} {auth : Option Provider} {env : Env} {r : Req}
    (h : Sample.steps (handle cfg ext lib auth env r) = true) : ∀ e, handle cfg ext lib auth env r ≠ .fail e := by
  intro e he; rw [he] at h; cases h

/-- the presigned URL meets the hypotheses -/
example : ∃ sig, (∀ e, handle Sample.cfg Sample.ext Sample.lib (some Sample.provider) Sample.env Sample.presignedGet ≠ .fail e) ∧
    HttpPlain Sample.presignedGet ∧ OnlyQuery Sample.presignedGet b!"X-Amz-Signature" sig ∧
    OnlyQuery Sample.presignedGet b!"X-Amz-Credential" b!"AK/20130524/us-east-1/s3/aws4_request" ∧
    OnlyQuery Sample.presignedGet b!"X-Amz-Date" Sample.stamp ∧
    (∃ c, Credential.parse b!"AK/20130524/us-east-1/s3/aws4_request" = some (c, [])) :=
  ⟨((queryOf Sample.presignedGet).getLast?.map (·.2)).getD [], Sample.not_fail (by decide +kernel), ⟨by decide +kernel, by decide +kernel⟩,
   Sample.only_query (by decide +kernel) (by decide +kernel), Sample.only_query (by decide +kernel) (by decide +kernel),
   Sample.only_query (by decide +kernel) (by decide +kernel), ⟨⟨b!"AK", b!"20130524", b!"us-east-1", b!"s3"⟩, by decide +kernel⟩⟩

/-! ### C44 -/

/-- an extra header -/
def Spec.addHeader (r : Req) (n v : Bytes) : Req := { r with headers := r.headers ++ [(n, v)] }

/-- `PUT /aaa/z` with the body "hello", signed -/
def Sample.putZ : Req := signedRequest b!"PUT" b!"/aaa/z" b!"/aaa/z" none helloHash [] [some hello]

/-- **C44** is false of the code: a signed upload of "hello" is accepted; with a header `x-amz-copy-source: bbb/y` added
(not signed) it is still accepted, and stores a copy of the object `bbb/y` instead. -/
theorem C44_unsigned_header_fails :
    stored Sample.cfg (run Sample.cfg (handle Sample.cfg Sample.ext Sample.lib (some Sample.provider) Sample.env Sample.putZ) Sample.fs).2
      b!"aaa" b!"z" = some b!"hello" ∧
    stored Sample.cfg (run Sample.cfg (handle Sample.cfg Sample.ext Sample.lib (some Sample.provider) Sample.env
      (addHeader Sample.putZ b!"x-amz-copy-source" b!"bbb/y")) Sample.fs).2 b!"aaa" b!"z" = some b!"world!" := by
  constructor <;> decide +kernel

/-- **C44** (what holds: the headers listed in the `Authorization` header are protected. Missing: headers that are not
listed.) If two requests with the same `Authorization` header and date are both accepted, then for every header name that
is listed in it (but `authorization` and `user-agent`) they have the same values up to order and blanks at the ends — or
there is an explicit collision. -/
theorem C44_signed_headers_partial (cfg : Cfg) (ext : Ext) (lib : Lib) (hc : CryptoLaw lib.crypto) (p : Provider) (env : Env) (r r' : Req)
    (h : ∀ e, handle cfg ext lib (some p) env r ≠ .fail e) (h' : ∀ e, handle cfg ext lib (some p) env r' ≠ .fail e)
    (hp : HttpPlain r) (hp' : HttpPlain r') (hf : ∀ b, ¬ IsForm lib r b) (hf' : ∀ b, ¬ IsForm lib r' b)
    (hq : ∀ v, (b!"X-Amz-Signature", v) ∉ queryOf r) (hq' : ∀ v, (b!"X-Amz-Signature", v) ∉ queryOf r')
    {v ts : Bytes} {a : Authorization}
    (hv : OnlyHeader r b!"authorization" v) (hv' : OnlyHeader r' b!"authorization" v)
    (ha : Authorization.fromHeaderStr v = some a) (ht : OnlyHeader r b!"x-amz-date" ts) (ht' : OnlyHeader r' b!"x-amz-date" ts)
    {n : Bytes} (hn : n ∈ a.signedHeaders) (hn1 : n ≠ b!"authorization") (hn2 : n ≠ b!"user-agent") :
    (∃ l l', StrippedAll (r.headers.filter fun q => decide (q.1 = n)) l ∧ StrippedAll (r'.headers.filter fun q => decide (q.1 = n)) l' ∧
      l.Perm l') ∨
    Collides lib.crypto.sha256 (received r.body) (received r'.body) ∨
    ∃ secret d d' hs hs' pl pl' t t', p a.credential.accessKeyId = .ok secret ∧
      HeaderSigning lib.crypto r (awsEncode true r.path) secret a ts d hs pl t ∧
      HeaderSigning lib.crypto r' (awsEncode true r'.path) secret a ts d' hs' pl' t' ∧
      (Collides lib.crypto.sha256 t t' ∨
       Collides (lib.crypto.hmac (signKey lib.crypto secret ts a.credential.region))
         (textToSign lib.crypto ts a.credential.region t) (textToSign lib.crypto ts a.credential.region t')) := by
  obtain ⟨secret, d, d', hs, hs', pl, pl', t, t', hk, hS, hS', hcase⟩ :=
    C40_signature_protects cfg ext lib hc p env r r' h h' hp hp' hf hf' hq hq' hv hv' ha ha ht ht' rfl rfl rfl
  rcases hcase with ⟨_, _, _, e, _⟩ | e | e
  · left
    have h1 := signed_values hS.headers hn hn1 hn2
    have h2 := signed_values hS'.headers hn hn1 hn2
    rw [← e] at h2
    exact ⟨_, _, strippedAll_iff.mpr rfl, strippedAll_iff.mpr rfl, h1.symm.trans h2⟩
  · exact .inr (.inl e)
  · exact .inr (.inr ⟨secret, d, d', hs, hs', pl, pl', t, t', hk, hS, hS', e⟩)

/-- the two requests of `C44_unsigned_header_fails` meet the hypotheses -/
example : ∀ r, r = Sample.putZ ∨ r = addHeader Sample.putZ b!"x-amz-copy-source" b!"bbb/y" →
    (∀ e, handle Sample.cfg Sample.ext Sample.lib (some Sample.provider) Sample.env r ≠ .fail e) ∧ HttpPlain r ∧
    OnlyHeader r b!"authorization" ((Sample.putZ.headers.head?.map (·.2)).getD []) ∧ OnlyHeader r b!"x-amz-date" Sample.stamp := by
  rintro r (rfl | rfl)
  · exact ⟨Sample.not_fail (by decide +kernel), ⟨by decide +kernel, by decide +kernel⟩,
      Sample.only_header (by decide +kernel) (by decide +kernel), Sample.only_header (by decide +kernel) (by decide +kernel)⟩
  · exact ⟨Sample.not_fail (by decide +kernel), ⟨by decide +kernel, by decide +kernel⟩,
      Sample.only_header (by decide +kernel) (by decide +kernel), Sample.only_header (by decide +kernel) (by decide +kernel)⟩

/-! ### C45 -/

/-- base64 of `{"conditions":[{"bucket":"bbb"},{"key":"only-this"}]}` -/
def Sample.strictPolicy : Bytes := b!"eyJjb25kaXRpb25zIjpbeyJidWNrZXQiOiJiYmIifSx7ImtleSI6Im9ubHktdGhpcyJ9XX0="

/-- a form for the bucket `aaa` -/
def Sample.formToAaa (policy key : Bytes) : Req := { Sample.formUpload (Sample.formFields policy key) with path := b!"/aaa" }

/-- **C45** is false of the code: a form whose signed policy allows only bucket `bbb` and key `only-this` stores an object
in bucket `aaa` under the key `other`. -/
theorem C45_policy_fails :
    stored Sample.cfg (run Sample.cfg (handle Sample.cfg Sample.ext Sample.lib (some Sample.provider) Sample.env
      (Sample.formToAaa Sample.strictPolicy b!"other")) Sample.fs).2 b!"aaa" b!"other" = some b!"content" := by
  decide +kernel

/-- **C45** (what holds: the text of the policy is authenticated. Missing: nothing in it is enforced.) Two accepted forms
with the same credential, date and signature have the same policy, or their policies are a collision of HMAC-SHA256 under
the signing key. -/
theorem C45_policy_signed_partial (cfg : Cfg) (ext : Ext) (lib : Lib) (p : Provider) (env : Env) (r r' : Req)
    (h : ∀ e, handle cfg ext lib (some p) env r ≠ .fail e) (h' : ∀ e, handle cfg ext lib (some p) env r' ≠ .fail e)
    (hpost : r.method = b!"POST") (hpost' : r'.method = b!"POST") {v v' b b' : Bytes} {m m' : Mime} {f f' : Form}
    (hv : OnlyHeader r b!"content-type" v) (hv' : OnlyHeader r' b!"content-type" v') (hl : lib.mime v = some m) (hl' : lib.mime v' = some m')
    (hm : m.isFormData = true) (hm' : m'.isFormData = true) (hb : m.boundary = some b) (hb' : m'.boundary = some b')
    (ht : transformMultipart b r.body = .ok f) (ht' : transformMultipart b' r'.body = .ok f')
    {policy policy' cred ts sig : Bytes} {credential : Credential} {rest : Bytes} (hparse : Credential.parse cred = some (credential, rest))
    (h1 : LastField f.fields b!"policy" policy) (h1' : LastField f'.fields b!"policy" policy')
    (h2 : LastField f.fields b!"x-amz-credential" cred) (h2' : LastField f'.fields b!"x-amz-credential" cred)
    (h3 : LastField f.fields b!"x-amz-date" ts) (h3' : LastField f'.fields b!"x-amz-date" ts)
    (h4 : LastField f.fields b!"x-amz-signature" sig) (h4' : LastField f'.fields b!"x-amz-signature" sig) :
    ∃ secret, p credential.accessKeyId = .ok secret ∧ sig = sigv4 lib.crypto secret ts credential.region policy ∧
      (policy = policy' ∨ Collides (lib.crypto.hmac (signKey lib.crypto secret ts credential.region)) policy policy') := by
  have key : ∀ {r : Req} {v b : Bytes} {m : Mime} {f : Form} {policy : Bytes}, (∀ e, handle cfg ext lib (some p) env r ≠ .fail e) →
      r.method = b!"POST" → OnlyHeader r b!"content-type" v → lib.mime v = some m → m.isFormData = true → m.boundary = some b →
      transformMultipart b r.body = .ok f → LastField f.fields b!"policy" policy → LastField f.fields b!"x-amz-credential" cred →
      LastField f.fields b!"x-amz-date" ts → LastField f.fields b!"x-amz-signature" sig →
      ∃ secret, p credential.accessKeyId = .ok secret ∧ sig = sigv4 lib.crypto secret ts credential.region policy := by
    intro r v b m f policy h hpost hv hl hm hb ht h1 h2 h3 h4
    cases hadm : admit lib (some p) r with
    | error e => exact absurd (handle_error hadm) (h e)
    | ok c' =>
      obtain ⟨c, hc, hs⟩ := admit_ok.mp hadm
      simp only [checkSignature, formMime_only hc hpost hv hl hm] at hs
      obtain ⟨p', b', f', e, hb', ht', hp, _⟩ := checkPostSignature_ok.mp hs
      cases e
      rw [hb] at hb'; cases hb'
      rw [hc.body, ht] at ht'; cases ht'
      obtain ⟨i, cr, rs, date, secret, ho⟩ := checkPostForm_ok.mp hp
      obtain ⟨g1, _, g2, g3, g4⟩ := findInfo_some.mp ho.info
      have look : ∀ {n v w}, findField f.fields n = some w → LastField f.fields n v → w = v := by
        intro n v w hw hl
        have := ((C53_field_lookup f.fields n).1 v).mpr hl
        rw [hw] at this; injection this
      have i1 := look g1 h1
      have i2 := look g2 h2
      have i3 := look g3 h3
      have i4 := look g4 h4
      have hcred := ho.credential
      rw [i2, hparse] at hcred
      injection hcred with hcred
      have hcr : cr = credential := by injection hcred with e _; exact e.symm
      subst hcr
      refine ⟨secret, ho.secret, ?_⟩
      rw [← i4, ← ho.signature, i1, ← i3]
      exact calculateSignature_eq ho.dateOk
  obtain ⟨secret, hk, e⟩ := key h hpost hv hl hm hb ht h1 h2 h3 h4
  obtain ⟨secret', hk', e'⟩ := key h' hpost' hv' hl' hm' hb' ht' h1' h2' h3' h4'
  rw [hk] at hk'
  injection hk' with hk'
  subst hk'
  exact ⟨secret, hk, e, sigv4_inj (e.symm.trans e')⟩

/-- two forms with the same signed policy and different keys meet the hypotheses -/
example : ∀ key, key = b!"k" ∨ key = b!"other" → ∃ f,
    (∀ e, handle Sample.cfg Sample.ext Sample.lib (some Sample.provider) Sample.env (Sample.formToAaa Sample.strictPolicy key) ≠ .fail e) ∧
    OnlyHeader (Sample.formToAaa Sample.strictPolicy key) b!"content-type" b!"multipart/form-data; boundary=B" ∧
    transformMultipart b!"B" (Sample.formToAaa Sample.strictPolicy key).body = .ok f ∧
    LastField f.fields b!"policy" Sample.strictPolicy ∧ LastField f.fields b!"key" key := by
  have look : ∀ (f : Form) n v, findField f.fields n = some v → LastField f.fields n v := fun f n v h => ((C53_field_lookup f.fields n).1 v).mp h
  have fields : ∀ (x : Except FormError Form) (key : Bytes), (match x with
      | .ok f => decide (findField f.fields b!"policy" = some Sample.strictPolicy ∧ findField f.fields b!"key" = some key)
      | .error _ => false) = true →
      ∃ f, x = .ok f ∧ LastField f.fields b!"policy" Sample.strictPolicy ∧ LastField f.fields b!"key" key := by
    intro x key h
    cases x with
    | error e => cases h
    | ok f => exact ⟨f, rfl, look _ _ _ (of_decide_eq_true h).1, look _ _ _ (of_decide_eq_true h).2⟩
  rintro key (rfl | rfl)
  · obtain ⟨f, h1, h2⟩ := fields (transformMultipart b!"B" (Sample.formToAaa Sample.strictPolicy b!"k").body) b!"k" (by decide +kernel)
    exact ⟨f, Sample.not_fail (by decide +kernel), Sample.only_header (by decide +kernel) (by decide +kernel), h1, h2⟩
  · obtain ⟨f, h1, h2⟩ := fields (transformMultipart b!"B" (Sample.formToAaa Sample.strictPolicy b!"other").body) b!"other" (by decide +kernel)
    exact ⟨f, Sample.not_fail (by decide +kernel), Sample.only_header (by decide +kernel) (by decide +kernel), h1, h2⟩

/-! ### C46 -/

/-- **C46** Reordering the query parameters, or the headers, of a request changes nothing in how it is handled. -/
theorem C46_query_order (cfg : Cfg) (ext : Ext) (lib : Lib) (auth : Option Provider) (env : Env) (r : Req) (ps ps' : List Bytes)
    (headers' : List (Bytes × Bytes)) (hfree : ∀ x ∈ ps, (38 : UInt8) ∉ x) (hq : r.query = some (joinWith 38 ps)) (hperm : ps.Perm ps')
    (hh : r.headers.Perm headers') :
    handle cfg ext lib auth env { r with query := some (joinWith 38 ps'), headers := headers' } = handle cfg ext lib auth env r := by
  have hsort : orderedQs (joinWith 38 ps') = orderedQs (joinWith 38 ps) := by
    by_cases hne : ps = []
    · subst hne
      have := hperm.symm.eq_nil
      subst this
      rfl
    · have hne' : ps' ≠ [] := fun e => hne (by subst e; exact hperm.eq_nil)
      simp only [orderedQs, parseQuery]
      rw [splitAll_joinWith hne hfree, splitAll_joinWith hne' (fun x hx => hfree x (hperm.mem_iff.mpr hx))]
      exact sortPairs_congr ((hperm.symm.filter _).map _)
  have hhead : orderedHeaders headers' = orderedHeaders r.headers := by
    simp only [orderedHeaders, sortPairs_congr hh.symm, hh.symm.all_eq]
  have : makeCtx lib { r with query := some (joinWith 38 ps'), headers := headers' } = makeCtx lib r := by
    simp only [makeCtx, hhead, hq, Option.map_some, hsort]
  simp only [handle, admit, this]

/-- the presigned URL with its parameters in another order -/
example : ∃ ps ps', ps.Perm ps' ∧ ps ≠ ps' ∧ Sample.presignedGet.query = some (joinWith 38 ps) ∧ ∀ x ∈ ps, (38 : UInt8) ∉ x := by
  refine ⟨splitAll 38 (Sample.presignedGet.query.getD []), (splitAll 38 (Sample.presignedGet.query.getD [])).reverse,
    (List.reverse_perm _).symm, by decide +kernel, ?_, fun x hx => not_mem_of_mem_splitAll hx⟩
  rw [joinWith_splitAll]; rfl

end S3
