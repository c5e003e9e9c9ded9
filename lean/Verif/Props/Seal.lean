import Verif.Lemmas.Seal
import Verif.Props.Signature
/-! C99: a signature is good for one thing. -/
namespace S3
open Spec

/-- **C99** Any two accepted requests carry signatures that stand for them; if the two signatures are equal, then they were
made with the same secret, for the same day and region, and stand for the same thing: the same request (date, method,
path, query parameters, signed headers, payload line) or the same policy, never a request here and a policy there — or
one of the five applications of HMAC-SHA256 behind them, or the digest of the two canonical texts, is an explicit
collision. Nothing is assumed about how the requests are signed, with which keys, or when. -/
theorem C99_one_meaning (cfg : Cfg) (ext : Ext) (lib : Lib) (hc : CryptoLaw lib.crypto) (p p' : Provider) (env env' : Env) (r r' : Req)
    (h : ∀ e, handle cfg ext lib (some p) env r ≠ .fail e) (h' : ∀ e, handle cfg ext lib (some p') env' r' ≠ .fail e)
    (hp : HttpPlain r) (hp' : HttpPlain r') :
    ∃ w s w' s', Signs lib p r w s ∧ Signs lib p' r' w' s' ∧
      (s.signature = s'.signature →
        (w.same w' ∧ s.secret = s'.secret ∧ s.day = s'.day ∧ s.region = s'.region) ∨
        MacClash lib.crypto s s' ∨ Collides lib.crypto.sha256 s.canonical s'.canonical) := by
  have adm : ∀ {p : Provider} {env : Env} {r : Req}, (∀ e, handle cfg ext lib (some p) env r ≠ .fail e) →
      ∃ w s, Signs lib p r w s ∧ SealOk r w s := by
    intro p env r h
    cases hadm : admit lib (some p) r with
    | error e => exact absurd (handle_error hadm) (h e)
    | ok c => exact admit_signs hc hadm
  obtain ⟨w, s, hs, ok⟩ := adm h
  obtain ⟨w', s', hs', ok'⟩ := adm h'
  exact ⟨w, s, w', s', hs, hs', signs_agree hs hs' hp hp' ok ok'⟩

/-- **C99** for two requests signed in the header, with any keys, dates and regions: equal signatures mean equal secrets,
dates, regions, methods, paths, query parameters (up to order), signed headers and signed payloads, or a collision. -/
theorem C99_header (cfg : Cfg) (ext : Ext) (lib : Lib) (hc : CryptoLaw lib.crypto) (p p' : Provider) (env env' : Env) (r r' : Req)
    (h : ∀ e, handle cfg ext lib (some p) env r ≠ .fail e) (h' : ∀ e, handle cfg ext lib (some p') env' r' ≠ .fail e)
    (hp : HttpPlain r) (hp' : HttpPlain r') (hf : ∀ b, ¬ IsForm lib r b) (hf' : ∀ b, ¬ IsForm lib r' b)
    (hq : ∀ v, (b!"X-Amz-Signature", v) ∉ queryOf r) (hq' : ∀ v, (b!"X-Amz-Signature", v) ∉ queryOf r')
    {v v' ts ts' : Bytes} {a a' : Authorization}
    (hv : OnlyHeader r b!"authorization" v) (hv' : OnlyHeader r' b!"authorization" v')
    (ha : Authorization.fromHeaderStr v = some a) (ha' : Authorization.fromHeaderStr v' = some a')
    (ht : OnlyHeader r b!"x-amz-date" ts) (ht' : OnlyHeader r' b!"x-amz-date" ts') (hsig : a.signature = a'.signature) :
    ∃ secret secret' d d' hs hs' pl pl' t t', p a.credential.accessKeyId = .ok secret ∧ p' a'.credential.accessKeyId = .ok secret' ∧
      HeaderSigning lib.crypto r (awsEncode true r.path) secret a ts d hs pl t ∧
      HeaderSigning lib.crypto r' (awsEncode true r'.path) secret' a' ts' d' hs' pl' t' ∧
      ((secret = secret' ∧ ts = ts' ∧ a.credential.region = a'.credential.region ∧ r.method = r'.method ∧ r.path = r'.path ∧
          (queryOf r).Perm (queryOf r') ∧ hs = hs' ∧ SamePayload d d' r.body r'.body) ∨
       Collides lib.crypto.sha256 (received r.body) (received r'.body) ∨ Collides lib.crypto.sha256 t t' ∨
       MacClash lib.crypto
         ⟨a.signature, secret, ts.take 8, a.credential.region, textToSign lib.crypto ts a.credential.region t, t⟩
         ⟨a'.signature, secret', ts'.take 8, a'.credential.region, textToSign lib.crypto ts' a'.credential.region t', t'⟩) := by
  have adm : ∀ {p : Provider} {env : Env} {r : Req} {v ts : Bytes} {a : Authorization}, (∀ e, handle cfg ext lib (some p) env r ≠ .fail e) →
      (∀ b, ¬ IsForm lib r b) → (∀ v, (b!"X-Amz-Signature", v) ∉ queryOf r) → OnlyHeader r b!"authorization" v →
      Authorization.fromHeaderStr v = some a → OnlyHeader r b!"x-amz-date" ts → ts.length = 16 := by
    intro p env r v ts a h hf hq hv ha ht
    cases hadm : admit lib (some p) r with
    | error e => exact absurd (handle_error hadm) (h e)
    | ok c' =>
      obtain ⟨c, hm, hs⟩ := admit_ok.mp hadm
      simp only [checkSignature, formMime_none hm hf, presignedQuery_none hm hq, checkHeaderAuth_some hm hv ha] at hs
      obtain ⟨p', ts', secret, sha, date, pl, bd, e, ho⟩ := checkAuthorization_ok.mp hs
      have hts : ts' = ts := ht.2 _ (hm.header_mem ho.stamp)
      subst hts
      exact stamp_length ho.dateOk
  obtain ⟨vis, secret, d, hs, pl, t, hk, hS⟩ := accepted_header hc h hf hq hv ha ht
  obtain ⟨vis', secret', d', hs', pl', t', hk', hS'⟩ := accepted_header hc h' hf' hq' hv' ha' ht'
  refine ⟨secret, secret', d, d', hs, hs', pl, pl', t, t', hk, hk', hS, hS', ?_⟩
  rcases signs_agree (.header hv.1 ha hk hS) (.header hv'.1 ha' hk' hS') hp hp' ⟨adm h hf hq hv ha ht, vis⟩
    ⟨adm h' hf' hq' hv' ha' ht', vis'⟩ hsig with ⟨⟨e1, e2, e3, e4, e5, e6⟩, e7, _, e8⟩ | c | c
  · subst e6
    rcases payload_protected hc hS.line hS'.line with e9 | e9
    · exact .inl ⟨e7, e1, e8, e2, e3, e4, e5, e9⟩
    · exact .inr (.inl e9)
  · exact .inr (.inr (.inr c))
  · exact .inr (.inr (.inl c))

/-- a request signed in the header, a presigned URL and a form are accepted, and meet the hypotheses -/
example : ∀ r ∈ [Sample.signedPut, Sample.presignedGet, Sample.formUpload (Sample.formFields b!"cG9saWN5" b!"k")],
    (∀ e, handle Sample.cfg Sample.ext Sample.lib (some Sample.provider) Sample.env r ≠ .fail e) ∧ HttpPlain r := by
  simp only [List.mem_cons, List.not_mem_nil, or_false]
  rintro r (rfl | rfl | rfl)
  · exact ⟨Sample.not_fail (by decide +kernel), by decide +kernel, by decide +kernel⟩
  · exact ⟨Sample.not_fail (by decide +kernel), by decide +kernel, by decide +kernel⟩
  · exact ⟨Sample.not_fail (by decide +kernel), by decide +kernel, by decide +kernel⟩

/-- the order of query parameters does not count; different policies are different -/
example : (SignedThing.request b!"20130524T000000Z" b!"GET" b!"/a" [(b!"x", b!"1"), (b!"y", b!"2")] [] b!"UNSIGNED-PAYLOAD").same
    (.request b!"20130524T000000Z" b!"GET" b!"/a" [(b!"y", b!"2"), (b!"x", b!"1")] [] b!"UNSIGNED-PAYLOAD") ∧
    ¬ (SignedThing.policy b!"AAAA").same (.policy b!"BBBB") :=
  ⟨⟨rfl, rfl, rfl, List.Perm.swap .., rfl, rfl⟩, by simp [SignedThing.same]⟩

end S3
