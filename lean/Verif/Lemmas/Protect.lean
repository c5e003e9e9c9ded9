import Verif.Lemmas.Canonical
import Verif.Props.Access
namespace S3
open Spec

theorem textToSign_inj {cr : Crypto} {ts region c c' : Bytes} (h : textToSign cr ts region c = textToSign cr ts region c') :
    cr.sha256 c = cr.sha256 c' := by
  simp only [textToSign, joinWith] at h
  simp only [List.append_assoc, List.cons_append, List.append_cancel_left_eq, List.cons.injEq, true_and] at h
  exact hexText_injective h

/-- the text under a signature: two texts with the same signature are equal or collide -/
theorem sigv4_inj {cr : Crypto} {secret ts region t t' : Bytes} (h : sigv4 cr secret ts region t = sigv4 cr secret ts region t') :
    t = t' ∨ Collides (cr.hmac (signKey cr secret ts region)) t t' := by
  have := hexText_injective h
  by_cases e : t = t'
  · exact .inl e
  · exact .inr ⟨e, this⟩

/-- two canonical texts with the same signature are equal, or there is a collision -/
theorem canonical_protected {cr : Crypto} {secret ts region c c' : Bytes}
    (h : sigv4 cr secret ts region (textToSign cr ts region c) = sigv4 cr secret ts region (textToSign cr ts region c')) :
    c = c' ∨ Collides cr.sha256 c c' ∨
      Collides (cr.hmac (signKey cr secret ts region)) (textToSign cr ts region c) (textToSign cr ts region c') := by
  rcases sigv4_inj h with e | e
  · by_cases e2 : c = c'
    · exact .inl e2
    · exact .inr (.inl ⟨e2, textToSign_inj e⟩)
  · exact .inr (.inr e)

theorem payload_protected {cr : Crypto} (hc : CryptoLaw cr) {d d' l : Bytes} {b b' : Body} (h : PayloadLine cr d b l)
    (h' : PayloadLine cr d' b' l) : SamePayload d d' b b' ∨ Collides cr.sha256 (received b) (received b') := by
  have hlen : ∀ s, (hexText (cr.sha256 s)).length = 64 := fun s => by rw [hexText_length, hc.sha_length]
  rcases h with ⟨h1, h2⟩ | ⟨h1, h2⟩ | ⟨h1, h2, h3, h4⟩ <;> rcases h' with ⟨g1, g2⟩ | ⟨g1, g2⟩ | ⟨g1, g2, g3, g4⟩
  · exact .inl (.inl ⟨h1, g1⟩)
  · rw [h2] at g2; exact absurd g2 (by decide)
  · rw [h2] at g4; have := congrArg List.length g4; rw [hlen] at this; exact absurd this (by decide)
  · rw [h2] at g2; exact absurd g2 (by decide)
  · exact .inl (.inr (.inl ⟨h1, g1⟩))
  · rw [h2] at g4; have := congrArg List.length g4; rw [hlen] at this; exact absurd this (by decide)
  · rw [h4] at g2; have := congrArg List.length g2; rw [hlen] at this; exact absurd this (by decide)
  · rw [h4] at g2; have := congrArg List.length g2; rw [hlen] at this; exact absurd this (by decide)
  · by_cases e : received b = received b'
    · exact .inl (.inr (.inr ⟨h1, h2, g1, g2, h3, g3, e⟩))
    · refine .inr ⟨e, hexText_injective ?_⟩
      rw [← h4, ← g4]

/-- the values of the header `n` among the selected headers -/
theorem signed_values {headers hs : List (Bytes × Bytes)} {signed : List Bytes} (h : SignedHeaders headers signed hs) {n : Bytes}
    (hn : n ∈ signed) (h1 : n ≠ b!"authorization") (h2 : n ≠ b!"user-agent") :
    (hs.filter fun p => decide (p.1 = n)).Perm ((headers.filter fun p => decide (p.1 = n)).map fun p => (p.1, trim p.2)) := by
  obtain ⟨l, hl, e⟩ := h
  rw [strippedAll_iff] at e
  subst e
  rw [List.filter_map]
  apply List.Perm.map
  have := hl.1.filter fun p => decide (p.1 = n)
  refine this.trans ?_
  rw [List.filter_filter]
  have : (fun a : Bytes × Bytes => decide (a.1 = n) && decide (a.1 ∈ signed ∧ a.1 ≠ b!"authorization" ∧ a.1 ≠ b!"user-agent")) =
      fun p => decide (p.1 = n) := by
    funext a
    by_cases ha : a.1 = n
    · subst ha; simp [hn, h1, h2]
    · simp [ha]
  rw [this]

/-- acceptance of a request signed in the header -/
theorem accepted_header {cfg : Cfg} {ext : Ext} {lib : Lib} (hc : CryptoLaw lib.crypto) {p : Provider} {env : Env} {r : Req}
    (h : ∀ e, handle cfg ext lib (some p) env r ≠ .fail e) (hf : ∀ b, ¬ IsForm lib r b)
    (hq : ∀ v, (b!"X-Amz-Signature", v) ∉ queryOf r) {v ts : Bytes} {a : Authorization}
    (hv : OnlyHeader r b!"authorization" v) (ha : Authorization.fromHeaderStr v = some a) (ht : OnlyHeader r b!"x-amz-date" ts) :
    (∀ h ∈ r.headers, ∀ c ∈ h.2, c = 9 ∨ ((32 : UInt8) ≤ c ∧ c ≤ 126)) ∧ ∃ secret d hs pl t, p a.credential.accessKeyId = .ok secret ∧
      HeaderSigning lib.crypto r (awsEncode true r.path) secret a ts d hs pl t := by
  cases hadm : admit lib (some p) r with
  | error e => exact absurd (handle_error hadm) (h e)
  | ok c' =>
    obtain ⟨c, hm, hs⟩ := admit_ok.mp hadm
    refine ⟨headers_plain hm.headers, ?_⟩
    simp only [checkSignature, formMime_none hm hf, presignedQuery_none hm hq, checkHeaderAuth_some hm hv ha] at hs
    obtain ⟨p', ts', secret, sha, date, pl, bd, e, ho⟩ := checkAuthorization_ok.mp hs
    cases e
    have hts : ts' = ts := ht.2 _ (hm.header_mem ho.stamp)
    subst hts
    obtain ⟨d, hd1, hd2⟩ := extractSha_ok.mp ho.sha
    obtain ⟨hs, t, h1, h2, h3⟩ := headerSignature_eq hm (cr := lib.crypto) (a := a) ho.dateOk (pl := pl) (secret := secret)
    refine ⟨secret, d, hs, _, t, ho.secret, hm.header_mem ho.stamp, hm.header_mem hd1, h1, ?_, h2, ?_⟩
    · have := payloadLine_of hc hd2 ho.payloadOk
      rwa [hm.body] at this
    · rw [← h3, ho.signature]

/-- acceptance of a presigned URL -/
theorem accepted_presigned {cfg : Cfg} {ext : Ext} {lib : Lib} {p : Provider} {env : Env} {r : Req}
    (h : ∀ e, handle cfg ext lib (some p) env r ≠ .fail e) (hf : ∀ b, ¬ IsForm lib r b)
    {sig cred ts : Bytes} {credential : Credential} (hsig : OnlyQuery r b!"X-Amz-Signature" sig)
    (hcred : OnlyQuery r b!"X-Amz-Credential" cred) (hparse : Credential.parse cred = some (credential, []))
    (ht : OnlyQuery r b!"X-Amz-Date" ts) :
    (∀ h ∈ r.headers, ∀ c ∈ h.2, c = 9 ∨ ((32 : UInt8) ≤ c ∧ c ≤ 126)) ∧ ∃ secret names covered hs t,
      p credential.accessKeyId = .ok secret ∧
      PresignedSigning lib.crypto r (awsEncode true r.path) secret cred credential ts sig names covered hs t := by
  cases hadm : admit lib (some p) r with
  | error e => exact absurd (handle_error hadm) (h e)
  | ok c' =>
    obtain ⟨c, hm, hs⟩ := admit_ok.mp hadm
    refine ⟨headers_plain hm.headers, ?_⟩
    simp only [checkSignature, formMime_none hm hf, presignedQuery_only hm hsig.1] at hs
    obtain ⟨u, x, pr, secret, h1, h2, e, h3, h4, _⟩ := checkPresignedUrl_ok.mp hs
    cases e
    obtain ⟨cred', ts', ex, names, hp⟩ := presigned_parts.mp h1
    have e1 : cred' = cred := hcred.2 _ (hm.qs_mem hp.credential)
    have e2 : ts' = ts := ht.2 _ (hm.qs_mem hp.date)
    have e3 : u.signature = sig := hsig.2 _ (hm.qs_mem hp.signature)
    subst e1 e2
    have e4 := hp.credentialOk
    rw [hparse] at e4
    have e5 : credential = u.credential := by injection e4 with e4; injection e4
    obtain ⟨hs', t, g1, g2, g3⟩ := presignedSignature_eq hm (cr := lib.crypto) (p := u) hp.dateOk (secret := secret)
    refine ⟨secret, names, coveredNames u.signedHeaders, hs', t, by rw [e5]; exact h3, hm.qs_mem hp.signed, ?_, ?_, hcred.1, hparse, ht.1, hsig.1, g1, g2, ?_⟩
    · intro n hn
      rw [← hp.namesSplit]
      exact (List.mem_filter.mp hn).1
    · intro hsorted n hn
      rw [← hp.namesSplit] at hsorted hn
      exact coveredNames_sorted hsorted hn
    · rw [← e3, e5, ← g3, h4]

end S3
