import Verif.Lemmas.Service
import Verif.Props.Form
import Verif.Props.Ordered
namespace S3
open Spec

theorem wholeBody_some {b : Body} {s : Bytes} : wholeBody b = some s ↔ unbroken b ∧ received b = s := by
  induction b generalizing s with
  | nil => simp [wholeBody, unbroken, received, eq_comm]
  | cons x r ih =>
    cases x with
    | none => simp [wholeBody, unbroken]
    | some a =>
      simp only [wholeBody, Option.map_eq_some_iff, ih, received, unbroken, List.mem_cons, reduceCtorEq, false_or]
      constructor
      · rintro ⟨_, ⟨h, rfl⟩, rfl⟩; exact ⟨h, rfl⟩
      · rintro ⟨h, rfl⟩; exact ⟨_, ⟨h, rfl⟩, rfl⟩

theorem sha_cases {s : Bytes} {x : AmzContentSha256} (h : AmzContentSha256.fromHeaderStr s = some x) :
    (s = b!"UNSIGNED-PAYLOAD" ∧ x = .unsignedPayload) ∨ (s = b!"STREAMING-AWS4-HMAC-SHA256-PAYLOAD" ∧ x = .multipleChunks) ∨
    (s ≠ b!"UNSIGNED-PAYLOAD" ∧ s ≠ b!"STREAMING-AWS4-HMAC-SHA256-PAYLOAD" ∧ x = .singleChunk s ∧ isSha256Checksum s = true) := by
  simp only [AmzContentSha256.fromHeaderStr] at h
  split at h
  · cases h; exact .inl ⟨by assumption, rfl⟩
  · split at h
    · cases h; exact .inr (.inl ⟨by assumption, rfl⟩)
    · split at h
      · cases h; exact .inr (.inr ⟨by assumption, by assumption, rfl, by assumption⟩)
      · cases h

theorem payloadLine_of {cr : Crypto} (hc : CryptoLaw cr) {s : Bytes} {x : AmzContentSha256} {body bd : Body} {pl : Payload}
    (h : AmzContentSha256.fromHeaderStr s = some x) (hp : headerPayload x body = .ok (pl, bd)) :
    PayloadLine cr s body (pl.line cr) := by
  rcases sha_cases h with ⟨rfl, rfl⟩ | ⟨rfl, rfl⟩ | ⟨h1, h2, rfl, _⟩
  · left
    refine ⟨rfl, ?_⟩
    simp only [headerPayload, reduceCtorEq, if_false] at hp
    split at hp <;> cases hp
    rfl
  · right; left
    simp only [headerPayload, if_true] at hp
    cases hp
    exact ⟨rfl, rfl⟩
  · right; right
    simp only [headerPayload, reduceCtorEq, if_false] at hp
    split at hp
    · cases hp
    · rename_i bytes hb
      cases hp
      obtain ⟨hb1, hb2⟩ := wholeBody_some.mp hb
      refine ⟨h1, h2, hb1, ?_⟩
      rw [hb2]
      simp only [wholePayload, reduceCtorEq, if_false]
      split
      · rename_i e
        subst e
        exact hc.sha_empty.symm
      · simp [Payload.line, Crypto.sha256hex, toHex_eq]

theorem extractSha_ok {hs : List (Bytes × Bytes)} {x : AmzContentSha256} :
    extractSha hs = .ok (some x) ↔ ∃ s, orderedGet hs b!"x-amz-content-sha256" = some s ∧ AmzContentSha256.fromHeaderStr s = some x := by
  simp only [extractSha, extractOpt_ok, Option.some.injEq]
  constructor
  · rintro (⟨_, h⟩ | ⟨t, a, h1, h2, h3⟩)
    · cases h
    · subst h3; exact ⟨t, h1, h2⟩
  · rintro ⟨s, h1, h2⟩; exact .inr ⟨s, x, h1, h2, rfl⟩

theorem isort_bytes_sorted (l : List Bytes) : (isort bytesLe l).Pairwise fun a b => bytesLe a b = true :=
  isort_sorted bytesLe_trans bytesLe_total l

theorem mem_isort_bytes {l : List Bytes} {x : Bytes} : x ∈ isort bytesLe l ↔ x ∈ l := (isort_perm bytesLe l).mem_iff

/-- the selection of the headers, with the names of the `Authorization` header sorted -/
theorem mapSigned_isort (hs : List (Bytes × Bytes)) (signed : List Bytes) :
    mapSignedHeaders hs (isort bytesLe signed) = hs.filter fun p => decide (p.1 ∈ signed) := by
  rw [mapSigned_sorted (isort_bytes_sorted _)]
  apply List.filter_congr
  intro p _
  rw [Bool.eq_iff_iff, decide_eq_true_eq, decide_eq_true_eq]
  exact mem_isort_bytes

/-- The signature computed for the `Authorization` header is the SigV4 signature of the request. -/
theorem headerSignature_eq {lib : Lib} {r : Req} {c : Ctx} (hm : MadeCtx lib r c) {cr : Crypto} {a : Authorization} {ts : Bytes}
    {date : AmzDate} (hd : AmzDate.fromHeaderStr ts = some date) {pl : Payload} {secret : Bytes} :
    ∃ hs t, SignedHeaders r.headers a.signedHeaders hs ∧
      CanonicalText r.method (awsEncode true r.path) (queryOf r) hs (pl.line cr) t ∧
      headerSignature cr c a date pl secret = sigv4 cr secret ts a.credential.region (textToSign cr ts a.credential.region t) := by
  refine ⟨_, canonicalRequest cr c.method c.uriPath (c.qs.getD []) (mapSignedHeaders c.headers (isort bytesLe a.signedHeaders)) pl,
    signedHeaders_of, ?_, ?_⟩
  · have h := canonicalRequest_text cr c.method c.uriPath (c.qs.getD []) (mapSignedHeaders c.headers (isort bytesLe a.signedHeaders)) pl
    rw [mapSigned_isort, (orderedHeaders_some hm.headers).1, hm.method, hm.uriPath, hm.qs_getD] at h ⊢
    obtain ⟨q, hq, e⟩ := h
    exact ⟨q, ⟨hq.1.trans ((sortPairs_perm _).map _), hq.2⟩, e⟩
  · simp only [headerSignature]
    rw [calculateSignature_eq hd, stringToSign_eq hd]

theorem headerSigned_of {lib : Lib} (hc : CryptoLaw lib.crypto) {auth : Provider} {r : Req} {c c' : Ctx} (hm : MadeCtx lib r c)
    {v ts secret : Bytes} {a : Authorization} {sha : AmzContentSha256} {date : AmzDate} {pl : Payload} {bd : Body}
    (hv : c.header b!"authorization" = some v) (ha : Authorization.fromHeaderStr v = some a)
    (h : HeaderOk lib auth c a ts secret sha date pl bd c') :
    HeaderSigned lib.crypto r (awsEncode true r.path) a.credential.accessKeyId secret := by
  obtain ⟨s, hs1, hs2⟩ := extractSha_ok.mp h.sha
  obtain ⟨hs, t, h1, h2, h3⟩ := headerSignature_eq hm (cr := lib.crypto) (a := a) h.dateOk (pl := pl) (secret := secret)
  refine ⟨v, a, ts, s, hs, _, t, hm.header_mem hv, ha, rfl, hm.header_mem h.stamp, hm.header_mem hs1, h1, ?_, h2, ?_⟩
  · have := payloadLine_of hc hs2 h.payloadOk
    rwa [hm.body] at this
  · rw [← h3, h.signature]

/-- what a presigned URL has to look like -/
structure PresignedParts (qs : List (Bytes × Bytes)) (p : PresignedUrl) (cred ts expires names : Bytes) : Prop where
  algorithm : orderedGet qs b!"X-Amz-Algorithm" = some p.algorithm
  credential : orderedGet qs b!"X-Amz-Credential" = some cred
  date : orderedGet qs b!"X-Amz-Date" = some ts
  expiry : orderedGet qs b!"X-Amz-Expires" = some expires
  signed : orderedGet qs b!"X-Amz-SignedHeaders" = some names
  signature : orderedGet qs b!"X-Amz-Signature" = some p.signature
  credentialOk : Credential.parse cred = some (p.credential, [])
  dateOk : AmzDate.fromHeaderStr ts = some p.amzDate
  expiresOk : parseUnsigned u32Max expires = some p.expires
  namesOk : isAsciiStr names = true
  namesSplit : p.signedHeaders = splitAll 59 names
  signatureOk : isSha256Checksum p.signature = true

theorem presigned_parts {qs : List (Bytes × Bytes)} {p : PresignedUrl} :
    PresignedUrl.fromQuery qs = some p ↔ ∃ cred ts expires names, PresignedParts qs p cred ts expires names := by
  simp only [PresignedUrl.fromQuery, Option.bind_eq_bind, Option.bind_eq_some_iff, Option.pure_def]
  constructor
  · rintro ⟨alg, h1, cred, h2, ts, h3, ex, h4, sg, h5, sig, h6, ⟨c, rest⟩, h7, h⟩
    simp only at h
    split at h
    · cases h
    rename_i hr
    simp only [ne_eq, Decidable.not_not] at hr
    subst hr
    simp only [Option.bind_eq_some_iff] at h
    obtain ⟨d, hd, e, he, h⟩ := h
    split at h
    · cases h
    rename_i h8
    split at h
    · cases h
    rename_i h9
    cases h
    exact ⟨cred, ts, ex, sg, h1, h2, h3, h4, h5, h6, h7, hd, he, by simpa using h8, rfl, by simpa using h9⟩
  · rintro ⟨cred, ts, ex, sg, h1, h2, h3, h4, h5, h6, h7, hd, he, h8, h10, h9⟩
    refine ⟨_, h1, cred, h2, ts, h3, ex, h4, sg, h5, _, h6, (p.credential, []), h7, ?_⟩
    simp only [ne_eq, not_true_eq_false, if_false, Option.bind_eq_some_iff]
    refine ⟨_, hd, _, he, ?_⟩
    simp only [h8, h9, Bool.not_true, Bool.false_eq_true, if_false, ← h10]

/-- the names of `signed` the binary search finds -/
def coveredNames (signed : List Bytes) : List Bytes :=
  signed.filter fun n => (binSearch signed (fun probe => bytesCmp probe n)).isSome

theorem mapSigned_covered (hs : List (Bytes × Bytes)) (signed : List Bytes) :
    mapSignedHeaders hs signed = hs.filter fun p => decide (p.1 ∈ coveredNames signed) := by
  simp only [mapSignedHeaders]
  apply List.filter_congr
  intro p _
  rw [Bool.eq_iff_iff, decide_eq_true_eq]
  simp only [coveredNames, List.mem_filter]
  refine ⟨fun h => ⟨?_, h⟩, fun h => h.2⟩
  cases hb : binSearch signed (fun probe => bytesCmp probe p.1) with
  | none => rw [hb] at h; cases h
  | some i =>
    obtain ⟨x, hx, hx'⟩ := binSearchLoop_some hb
    rw [bytesCmp_eq] at hx'
    exact hx' ▸ List.mem_of_getElem? hx

theorem coveredNames_sorted {signed : List Bytes} (h : signed.Pairwise fun a b => bytesLe a b = true) {n : Bytes} (hn : n ∈ signed) :
    n ∈ coveredNames signed := by
  simp only [coveredNames, List.mem_filter]
  refine ⟨hn, ?_⟩
  rw [binSearch_isSome (mono_of_sorted (key := fun b => b) (name := n) h)]
  exact ⟨n, hn, bytesCmp_eq.mpr rfl⟩

theorem presignedQuery_some {c : Ctx} {qs : List (Bytes × Bytes)} :
    c.presignedQuery = some qs ↔ c.qs = some qs ∧ c.query b!"X-Amz-Signature" ≠ none := by
  simp only [Ctx.presignedQuery, Option.filter_eq_some_iff, Ctx.query]
  constructor
  · rintro ⟨h1, h2⟩
    rw [h1]
    refine ⟨rfl, ?_⟩
    intro e; simp only at e; rw [e] at h2; cases h2
  · rintro ⟨h1, h2⟩
    rw [h1] at h2
    refine ⟨h1, ?_⟩
    simp only at h2
    exact Option.isSome_iff_ne_none.mpr h2

theorem presignedSignature_eq {lib : Lib} {r : Req} {c : Ctx} (hm : MadeCtx lib r c) {cr : Crypto} {p : PresignedUrl} {ts : Bytes}
    (hd : AmzDate.fromHeaderStr ts = some p.amzDate) {secret : Bytes} :
    ∃ hs t, SignedHeaders r.headers (coveredNames p.signedHeaders) hs ∧
      CanonicalText r.method (awsEncode true r.path) ((queryOf r).filter fun p => decide (p.1 ≠ b!"X-Amz-Signature")) hs b!"UNSIGNED-PAYLOAD" t ∧
      presignedSignature cr c (sortPairs (queryOf r)) p secret =
        sigv4 cr secret ts p.credential.region (textToSign cr ts p.credential.region t) := by
  refine ⟨_, presignedCanonicalRequest c.method c.uriPath (sortPairs (queryOf r)) (mapSignedHeaders c.headers p.signedHeaders),
    signedHeaders_of, ?_, ?_⟩
  · have h := presignedCanonicalRequest_text c.method c.uriPath (sortPairs (queryOf r)) (mapSignedHeaders c.headers p.signedHeaders)
    rw [mapSigned_covered, (orderedHeaders_some hm.headers).1, hm.method, hm.uriPath] at h ⊢
    obtain ⟨q, hq, e⟩ := h
    exact ⟨q, ⟨hq.1.trans (((sortPairs_perm _).filter _).map _), hq.2⟩, e⟩
  · simp only [presignedSignature]
    rw [calculateSignature_eq hd, stringToSign_eq hd]

theorem MadeCtx.qs_sort {lib : Lib} {r : Req} {c : Ctx} (h : MadeCtx lib r c) {qs : List (Bytes × Bytes)} (hq : c.qs = some qs) :
    qs = sortPairs (queryOf r) := by
  rw [← h.qs_getD, hq]; rfl

theorem MadeCtx.qs_mem {lib : Lib} {r : Req} {c : Ctx} (_ : MadeCtx lib r c) {n v : Bytes} (hv : orderedGet (sortPairs (queryOf r)) n = some v) :
    (n, v) ∈ queryOf r := (sortPairs_perm _).mem_iff.mp (orderedGet_some_mem hv)

theorem presignedBy_of {lib : Lib} {r : Req} {c : Ctx} (hm : MadeCtx lib r c) {p : PresignedUrl} {secret cred ts ex names : Bytes}
    (hp : PresignedParts (sortPairs (queryOf r)) p cred ts ex names)
    (hs : presignedSignature lib.crypto c (sortPairs (queryOf r)) p secret = p.signature) :
    PresignedBy lib.crypto r (awsEncode true r.path) p.credential.accessKeyId secret := by
  obtain ⟨hs', t, h1, h2, h3⟩ := presignedSignature_eq hm (cr := lib.crypto) (p := p) hp.dateOk (secret := secret)
  refine ⟨cred, p.credential, ts, p.signature, names, coveredNames p.signedHeaders, hs', t, ⟨hm.qs_mem hp.signed, ?_, ?_,
    hm.qs_mem hp.credential, hp.credentialOk, hm.qs_mem hp.date, hm.qs_mem hp.signature, h1, h2, ?_⟩, rfl⟩
  · intro n hn
    rw [← hp.namesSplit]
    exact (List.mem_filter.mp hn).1
  · intro hsorted n hn
    rw [← hp.namesSplit] at hsorted hn
    exact coveredNames_sorted hsorted hn
  · rw [← h3, hs]

theorem formSigned_of {lib : Lib} {auth : Provider} {f : Form} {i : PostInfo} {cred : Credential} {rest : Bytes} {date : AmzDate} {secret : Bytes}
    (h : FormOk lib auth f i cred rest date secret) : FormSigned lib.crypto f cred.accessKeyId secret := by
  obtain ⟨h1, h2, h3, h4, h5⟩ := findInfo_some.mp h.info
  have look : ∀ {n v}, findField f.fields n = some v → LastField f.fields n v := fun hv => ((C53_field_lookup f.fields _).1 _).mp hv
  refine ⟨i.policy, i.credential, cred, rest, i.date, i.signature, look h1, look h3, h.credential, rfl, look h4, look h5, ?_⟩
  rw [← h.signature, calculateSignature_eq h.dateOk]

theorem formMime_some {lib : Lib} {r : Req} {c : Ctx} (hm : MadeCtx lib r c) {m : Mime} (h : c.formMime = some m) : IsForm lib r m.boundary := by
  simp only [Ctx.formMime] at h
  split at h
  · rename_i hp
    rw [Option.filter_eq_some_iff] at h
    rcases extractOpt_ok.mp hm.mime with ⟨_, e⟩ | ⟨t, a, h1, h2, h3⟩
    · rw [e] at h; cases h.1
    · rw [h3] at h
      cases h.1
      exact ⟨by rw [← hm.method]; exact hp, t, m, hm.header_mem h1, h2, h.2, rfl⟩
  · cases h

/-- the signature of an admitted request, in the three ways -/
theorem admit_signed {lib : Lib} (hc : CryptoLaw lib.crypto) {p : Provider} {r : Req} {c' : Ctx} (h : admit lib (some p) r = .ok c') :
    ∃ key secret, p key = .ok secret ∧
      (HeaderSigned lib.crypto r (awsEncode true r.path) key secret ∨ PresignedBy lib.crypto r (awsEncode true r.path) key secret ∨
       ∃ boundary f, IsForm lib r (some boundary) ∧ transformMultipart boundary r.body = .ok f ∧ FormSigned lib.crypto f key secret) := by
  obtain ⟨c, hm, h⟩ := admit_ok.mp h
  simp only [checkSignature] at h
  split at h
  · rename_i m hf
    obtain ⟨p', b, f, e, hb, ht, hp, _⟩ := checkPostSignature_ok.mp h
    cases e
    obtain ⟨i, cred, rest, date, secret, ho⟩ := checkPostForm_ok.mp hp
    refine ⟨_, secret, ho.secret, .inr (.inr ⟨b, f, ?_, ?_, formSigned_of ho⟩)⟩
    · rw [← hb]; exact formMime_some hm hf
    · rw [← hm.body]; exact ht
  · split at h
    · rename_i qs hq
      obtain ⟨p', x, pr, secret, h1, h2, e, h3, h4, _⟩ := checkPresignedUrl_ok.mp h
      cases e
      obtain ⟨hq1, _⟩ := presignedQuery_some.mp hq
      have := hm.qs_sort hq1
      subst this
      obtain ⟨cred, ts, ex, names, hp⟩ := presigned_parts.mp h1
      exact ⟨_, secret, h3, .inr (.inl (presignedBy_of hm hp h4))⟩
    · rcases checkHeaderAuth_ok.mp h with ⟨_, e, _⟩ | ⟨v, a, hv, ha, h⟩
      · cases e
      · obtain ⟨p', ts, secret, sha, date, pl, bd, e, ho⟩ := checkAuthorization_ok.mp h
        cases e
        exact ⟨_, secret, ho.secret, .inl (headerSigned_of hc hm hv ha ho)⟩

end S3
