import Verif.Spec.Streaming
import Verif.Lemmas.Protect
import Verif.Props.Chunked
/-! Facts about uploads in signed chunks. -/
namespace S3
open Spec

theorem chunkSignature_eq {cr : Crypto} (hc : CryptoLaw cr) {secret ts region : Bytes} {date : AmzDate} (h : AmzDate.fromHeaderStr ts = some date) :
    chunkSignature cr secret date region = awsChunkSignature cr secret ts region := by
  funext prev data
  rw [chunkSignature, calculateSignature_eq h, awsChunkSignature]
  congr 1
  obtain ⟨h1, h2⟩ := C60_amz_date_round_trip _ _ h
  have he : chunkHash cr data = hexText (cr.sha256 data) := by
    rw [chunkHash]
    split
    · rename_i e; rw [e, hc.sha_empty]; rfl
    · rw [Crypto.sha256hex, toHex_eq]
  have hz : hexText (cr.sha256 []) = emptySha256 := hc.sha_empty
  simp [chunkStringToSign, chunkText, scopeLine, scopeParts, h1, h2, joinWith, he, hz]

theorem awsChunkSignature_shape {cr : Crypto} (hc : CryptoLaw cr) (secret ts region : Bytes) :
    SignatureShape (awsChunkSignature cr secret ts region) := by
  intro p d
  rw [awsChunkSignature, sigv4]
  exact ⟨by rw [hexText_length, hc.hmac_length], hexText_no_lf _⟩

/-- an admitted upload in signed chunks -/
theorem admit_streaming {lib : Lib} (hc : CryptoLaw lib.crypto) {p : Provider} {r : Req} {c : Ctx} (h : admit lib (some p) r = .ok c)
    {a : Authorization} {ts : Bytes} (hs : Streaming lib r a ts) :
    ∃ secret hs t, p a.credential.accessKeyId = .ok secret ∧
      HeaderSigning lib.crypto r (awsEncode true r.path) secret a ts b!"STREAMING-AWS4-HMAC-SHA256-PAYLOAD" hs b!"STREAMING-AWS4-HMAC-SHA256-PAYLOAD" t ∧
      c.body = (decodeChunked (awsChunkSignature lib.crypto secret ts a.credential.region) a.signature r.body).toBody := by
  obtain ⟨c0, hm, h⟩ := admit_ok.mp h
  obtain ⟨v, hv, ha⟩ := hs.authorization
  simp only [checkSignature, formMime_none hm hs.noForm, presignedQuery_none hm hs.noQuery, checkHeaderAuth_some hm hv ha] at h
  obtain ⟨p', ts', secret, sha, date, pl, bd, e, ho⟩ := checkAuthorization_ok.mp h
  cases e
  have hts : ts' = ts := hs.date.2 _ (hm.header_mem ho.stamp)
  subst hts
  obtain ⟨d, hd1, hd2⟩ := extractSha_ok.mp ho.sha
  have hd : d = b!"STREAMING-AWS4-HMAC-SHA256-PAYLOAD" := hs.declared.2 _ (hm.header_mem hd1)
  subst hd
  have hsha : sha = .multipleChunks := by
    have : AmzContentSha256.fromHeaderStr b!"STREAMING-AWS4-HMAC-SHA256-PAYLOAD" = some .multipleChunks := by decide +kernel
    rw [this] at hd2
    exact (Option.some.inj hd2).symm
  subst hsha
  have hp := ho.payloadOk
  simp only [headerPayload, if_true, Except.ok.injEq, Prod.mk.injEq] at hp
  obtain ⟨rfl, rfl⟩ := hp
  obtain ⟨hs', t, h1, h2, h3⟩ := headerSignature_eq hm (cr := lib.crypto) (a := a) ho.dateOk (pl := .multipleChunks) (secret := secret)
  refine ⟨secret, hs', t, ho.secret, ⟨hm.header_mem ho.stamp, hm.header_mem hd1, h1, .inr (.inl ⟨rfl, rfl⟩), h2, ?_⟩, ?_⟩
  · rw [← h3, ho.signature]
  · rw [ho.result]
    simp only [checkedBody, if_true, hm.body, chunkSignature_eq hc ho.dateOk]

/-- the body of an admitted request that is not a form and not in signed chunks -/
theorem admit_direct {lib : Lib} {auth : Option Provider} {r : Req} {c : Ctx} (h : admit lib auth r = .ok c) (hf : ∀ b, ¬ IsForm lib r b)
    (hd : Direct r) : received c.body = received r.body ∧ (unbroken c.body ↔ unbroken r.body) := by
  obtain ⟨c0, hm, h⟩ := admit_ok.mp h
  simp only [checkSignature, formMime_none hm hf] at h
  split at h
  · obtain ⟨_, _, _, _, _, _, _, _, _, rfl⟩ := checkPresignedUrl_ok.mp h
    rw [hm.body]
    exact ⟨rfl, Iff.rfl⟩
  · rename_i hq
    rcases checkHeaderAuth_ok.mp h with ⟨_, _, rfl⟩ | ⟨v, a, hv, ha, h⟩
    · rw [hm.body]
      exact ⟨rfl, Iff.rfl⟩
    · obtain ⟨p', ts', secret, sha, date, pl, bd, e, ho⟩ := checkAuthorization_ok.mp h
      obtain ⟨d, hd1, hd2⟩ := extractSha_ok.mp ho.sha
      have hne : sha ≠ .multipleChunks := by
        rcases hd with hd | ⟨w, hd⟩ | hd
        · exact absurd (hm.header_mem hv) (hd _)
        · rw [presignedQuery_only hm hd] at hq; cases hq
        · intro e
          subst e
          rcases sha_cases hd2 with ⟨_, e⟩ | ⟨e, _⟩ | ⟨_, _, e, _⟩
          · cases e
          · subst e; exact hd (hm.header_mem hd1)
          · cases e
      have hp := ho.payloadOk
      simp only [headerPayload, if_neg hne] at hp
      split at hp
      · cases hp
      · rename_i bytes hb
        simp only [Except.ok.injEq, Prod.mk.injEq] at hp
        obtain ⟨_, rfl⟩ := hp
        obtain ⟨hu, hr⟩ := wholeBody_some.mp hb
        rw [hm.body] at hu hr
        rw [ho.result]
        simp only [checkedBody, if_neg hne]
        have : received (bodyFrom bytes) = bytes ∧ unbroken (bodyFrom bytes) := by
          rw [bodyFrom]
          split
          · rename_i e; exact ⟨e.symm, by simp [unbroken]⟩
          · exact ⟨by simp [received], by simp [unbroken]⟩
        exact ⟨this.1.trans hr.symm, fun _ => hu, fun _ => this.2⟩

theorem chunkText_inj {cr : Crypto} (hc : CryptoLaw cr) {ts region p p' d d' : Bytes} (hp : p.length = 64) (hp' : p'.length = 64)
    (h : chunkText cr ts region p d = chunkText cr ts region p' d') : p = p' ∧ cr.sha256 d = cr.sha256 d' := by
  simp only [chunkText, joinWith, List.append_cancel_left_eq, List.cons_append, List.append_assoc, List.cons.injEq, true_and] at h
  obtain ⟨h1, h2⟩ := List.append_inj h (hp.trans hp'.symm)
  refine ⟨h1, hexText_injective ?_⟩
  simpa using h2

/-- a text that signs a request is not a text that signs a chunk -/
theorem text_ne_chunkText {cr : Crypto} {ts region t ts' region' p d : Bytes} : textToSign cr ts region t ≠ chunkText cr ts' region' p d := by
  intro h
  simp only [textToSign, chunkText, joinWith, List.cons_append, List.cons.injEq, List.nil_append] at h
  exact absurd h (by simp)

theorem chain_last {sign : Bytes → Bytes → Bytes} {seed : Bytes} {ds : List Bytes} {s : Bytes} (h : s ∈ signatureChain sign seed ds) :
    ∃ us, us <+: ds ∧ us ≠ [] ∧ us.foldl sign seed = s := by
  induction ds generalizing seed with
  | nil => cases h
  | cons d r ih =>
    simp only [signatureChain, List.mem_cons] at h
    rcases h with rfl | h
    · exact ⟨[d], ⟨r, rfl⟩, by simp, rfl⟩
    · obtain ⟨us, ⟨vs, h1⟩, _, h3⟩ := ih h
      exact ⟨d :: us, ⟨vs, by simp [h1]⟩, by simp, h3⟩

theorem lastSignature_fold (sign : Bytes → Bytes → Bytes) (seed : Bytes) (cs : List (Bytes × Bytes)) :
    lastSignature sign seed cs = (cs.map (·.2)).foldl sign seed := by
  induction cs generalizing seed with
  | nil => rfl
  | cons e r ih => obtain ⟨t, d⟩ := e; simp only [lastSignature, List.map_cons, List.foldl_cons, ih]

theorem chainTexts_append (cr : Crypto) (ts region : Bytes) (sign : Bytes → Bytes → Bytes) (seed : Bytes) (us : List Bytes) (d : Bytes) :
    chainTexts cr ts region sign seed (us ++ [d]) = chainTexts cr ts region sign seed us ++ [chunkText cr ts region (us.foldl sign seed) d] := by
  induction us generalizing seed with
  | nil => rfl
  | cons e r ih => simp only [List.cons_append, chainTexts, ih, List.foldl_cons]

theorem chainTexts_prefix {cr : Crypto} {ts region : Bytes} {sign : Bytes → Bytes → Bytes} {seed : Bytes} {us vs : List Bytes} (h : us <+: vs) :
    ∀ x ∈ chainTexts cr ts region sign seed us, x ∈ chainTexts cr ts region sign seed vs := by
  obtain ⟨ws, rfl⟩ := h
  induction us generalizing seed with
  | nil => intro x hx; cases hx
  | cons e r ih =>
    intro x hx
    simp only [List.cons_append, chainTexts, List.mem_cons] at hx ⊢
    exact hx.imp_right (ih x)

theorem snoc_cases {α : Type} (l : List α) : l = [] ∨ ∃ t a, l = t ++ [a] := by
  induction l using snoc_induction with
  | h0 => exact .inl rfl
  | h1 => exact .inr ⟨_, _, rfl⟩

/-- two chains of chunks from the same seed that end with the same signature are the same, or there is a collision -/
theorem chain_inj {cr : Crypto} (hc : CryptoLaw cr) {secret ts region seedText seed : Bytes}
    (hseed : seed = sigv4 cr secret ts region seedText) (hne : ∀ p d, seedText ≠ chunkText cr ts region p d) (us : List Bytes) :
    ∀ vs : List Bytes, us.foldl (awsChunkSignature cr secret ts region) seed = vs.foldl (awsChunkSignature cr secret ts region) seed →
      us = vs ∨
      (∃ x ∈ seedText :: chainTexts cr ts region (awsChunkSignature cr secret ts region) seed us,
        ∃ y ∈ seedText :: chainTexts cr ts region (awsChunkSignature cr secret ts region) seed vs,
          Collides (cr.hmac (signKey cr secret ts region)) x y) ∨
      ∃ x ∈ us, ∃ y ∈ vs, Collides cr.sha256 x y := by
  have hlen : ∀ ds : List Bytes, (ds.foldl (awsChunkSignature cr secret ts region) seed).length = 64 := by
    intro ds
    induction ds using snoc_induction with
    | h0 => rw [List.foldl_nil, hseed, sigv4, hexText_length, hc.hmac_length]
    | h1 r d _ => rw [List.foldl_append]; exact (awsChunkSignature_shape hc secret ts region _ d).1
  induction us using snoc_induction with
  | h0 =>
    intro vs h
    rcases snoc_cases vs with rfl | ⟨vs', e, rfl⟩
    · exact .inl rfl
    · right; left
      rw [List.foldl_append] at h
      simp only [List.foldl_nil, List.foldl_cons] at h
      rw [chainTexts_append]
      have h' := hseed.symm.trans h
      rcases sigv4_inj (cr := cr) (secret := secret) (ts := ts) (region := region) (t := _) (t' := _) h' with h' | h'
      · exact absurd h' (hne _ _)
      · exact ⟨_, List.mem_cons_self .., _, by simp, h'⟩
  | h1 us d ih =>
    intro vs h
    rcases snoc_cases vs with rfl | ⟨vs', e, rfl⟩
    · right; left
      rw [List.foldl_append] at h
      simp only [List.foldl_nil, List.foldl_cons] at h
      rw [chainTexts_append]
      have h' := h.trans hseed
      rcases sigv4_inj (cr := cr) (secret := secret) (ts := ts) (region := region) (t := _) (t' := _) h' with h' | h'
      · exact absurd h'.symm (hne _ _)
      · exact ⟨_, by simp, _, List.mem_cons_self .., h'⟩
    · rw [List.foldl_append, List.foldl_append] at h
      simp only [List.foldl_nil, List.foldl_cons] at h
      rw [chainTexts_append, chainTexts_append]
      rcases sigv4_inj (cr := cr) (secret := secret) (ts := ts) (region := region) (t := _) (t' := _) h with h' | h'
      · obtain ⟨h1, h2⟩ := chunkText_inj hc (hlen us) (hlen vs') h'
        rcases ih vs' h1 with h3 | ⟨x, hx, y, hy, hxy⟩ | ⟨x, hx, y, hy, hxy⟩
        · by_cases hde : d = e
          · exact .inl (by rw [h3, hde])
          · exact .inr (.inr ⟨d, by simp, e, by simp, hde, h2⟩)
        · refine .inr (.inl ⟨x, ?_, y, ?_, hxy⟩)
          · rw [List.mem_cons, List.mem_append]
            exact (List.mem_cons.mp hx).imp_right .inl
          · rw [List.mem_cons, List.mem_append]
            exact (List.mem_cons.mp hy).imp_right .inl
        · exact .inr (.inr ⟨x, List.mem_append_left _ hx, y, List.mem_append_left _ hy, hxy⟩)
      · exact .inr (.inl ⟨_, by simp, _, by simp, h'⟩)

end S3
