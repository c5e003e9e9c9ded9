import Verif.Spec.Replay
import Verif.Props.Unread
import Verif.Props.Seal
/-! C119: what can be had with a signature. -/
namespace S3
open Spec

/-- a signed header stands among the signed headers -/
theorem signed_mem {headers hs : List (Bytes × Bytes)} {signed : List Bytes} (h : SignedHeaders headers signed hs) {n v : Bytes}
    (hv : (n, v) ∈ headers) (hn : n ∈ signed) (h1 : n ≠ b!"authorization") (h2 : n ≠ b!"user-agent") (ht : Trimmed v) : (n, v) ∈ hs := by
  obtain ⟨l, hl, e⟩ := h
  rw [strippedAll_iff] at e
  subst e
  have hs : Stripped v v := ⟨[], [], by simp, by simp, by simp, ht⟩
  refine List.mem_map.mpr ⟨(n, v), hl.1.mem_iff.mpr (List.mem_filter.mpr ⟨hv, by simp [hn, h1, h2]⟩), ?_⟩
  rw [← stripped_iff.mp hs]

theorem mem_signed {headers hs : List (Bytes × Bytes)} {signed : List Bytes} (h : SignedHeaders headers signed hs) {n v : Bytes}
    (hv : (n, v) ∈ hs) : ∃ w, (n, w) ∈ headers ∧ Stripped w v := by
  obtain ⟨l, hl, e⟩ := h
  rw [strippedAll_iff] at e
  subst e
  obtain ⟨⟨m, w⟩, hw, e⟩ := List.mem_map.mp hv
  cases e
  exact ⟨w, (List.mem_filter.mp (hl.1.mem_iff.mp hw)).1, trim_stripped w⟩

theorem metaName_ne {n : Bytes} (h : MetaName n) : n ≠ b!"authorization" ∧ n ≠ b!"user-agent" := by
  constructor <;> rintro rfl <;> exact absurd (List.isPrefixOf_iff_prefix.mpr h) (by decide)

theorem acts_ne {n : Bytes} (h : n ∈ operationHeaders ∨ MetaName n) : n ≠ b!"authorization" ∧ n ≠ b!"user-agent" := by
  rcases h with h | h
  · constructor <;> rintro rfl <;> exact absurd h (by decide)
  · exact metaName_ne h

theorem sameActs {r r' : Req} {S S' : List Bytes} {hs : List (Bytes × Bytes)} (h : SignedHeaders r.headers S hs) (h' : SignedHeaders r'.headers S' hs)
    (A : AllSigned r S) (A' : AllSigned r' S') (hl : SameLength r r') {n v : Bytes} (hn : n ∈ operationHeaders ∨ MetaName n) :
    (n, v) ∈ r.headers ↔ (n, v) ∈ r'.headers := by
  have go : ∀ {r r' : Req} {S S' : List Bytes}, SignedHeaders r.headers S hs → SignedHeaders r'.headers S' hs → AllSigned r S → AllSigned r' S' →
      n ≠ b!"content-length" → (n, v) ∈ r.headers → (n, v) ∈ r'.headers := by
    intro r r' S S' h h' A A' hne hv
    have a := A.headers n v hv hn hne
    obtain ⟨w, hw, hs⟩ := mem_signed h' (signed_mem h hv a.1 (acts_ne hn).1 (acts_ne hn).2 a.2)
    have : Stripped w w := ⟨[], [], by simp, by simp, by simp, (A'.headers n w hw hn hne).2⟩
    rwa [hs.unique this]
  by_cases hne : n = b!"content-length"
  · subst hne; exact hl v
  · exact ⟨go h h' A A' hne, go h' h A' A hne⟩

/-- the body of a request whose payload has been read to its end -/
theorem digest_body {lib : Lib} {p : Provider} {r : Req} {c : Ctx} (h : admit lib (some p) r = .ok c) (hf : ∀ b, ¬ IsForm lib r b)
    (hq : ∀ v, (b!"X-Amz-Signature", v) ∉ queryOf r) {v : Bytes} {a : Authorization}
    (hv : OnlyHeader r b!"authorization" v) (ha : Authorization.fromHeaderStr v = some a) (hd : DigestDeclared r) :
    c.body = bodyFrom (received r.body) := by
  obtain ⟨c, hm, hs⟩ := admit_ok.mp h
  simp only [checkSignature, formMime_none hm hf, presignedQuery_none hm hq, checkHeaderAuth_some hm hv ha] at hs
  obtain ⟨p', ts', secret, sha, date, pl, bd, e, ho⟩ := checkAuthorization_ok.mp hs
  obtain ⟨d, hd1, hd2⟩ := extractSha_ok.mp ho.sha
  have hne : sha ≠ .multipleChunks := by
    rintro rfl
    have hd' := hd d (hm.header_mem hd1)
    simp only [AmzContentSha256.fromHeaderStr, if_neg hd'.1, if_neg hd'.2] at hd2
    split at hd2 <;> cases hd2
  rw [ho.result]
  have := ho.payloadOk
  simp only [headerPayload, if_neg hne] at this
  cases hw : wholeBody c.body with
  | none => rw [hw] at this; cases this
  | some bytes =>
    rw [hw] at this
    injection this with this
    simp only [checkedBody, if_neg hne]
    injection this with _ this
    rw [← this, ← (wholeBody_some.mp hw).2, hm.body]

theorem sameEssentials_of {lib : Lib} {r r' : Req} (hm : r.method = r'.method) (hp : r.path = r'.path) (hf : ∀ b, ¬ IsForm lib r b)
    (hf' : ∀ b, ¬ IsForm lib r' b) {S : List Bytes} (A : AllSigned r S)
    (hh : ∀ n v, n ∈ operationHeaders ∨ MetaName n → ((n, v) ∈ r.headers ↔ (n, v) ∈ r'.headers))
    (hq : ∀ n ∈ operationParams, ∀ v, (n, v) ∈ queryOf r ↔ (n, v) ∈ queryOf r') : SameEssentials lib r r' :=
  ⟨hm, hp, fun _ => ⟨fun ⟨_, h, _⟩ => absurd h (hf _), fun ⟨_, h, _⟩ => absurd h (hf' _)⟩, hh, hq, A.header_once, A.param_once⟩

variable (cfg : Cfg) (ext : Ext) (lib : Lib) (env : Env)

/-- **C119** (partial) Nothing else can be had with a signature: two accepted requests that carry the same signature in their headers (made with
whatever keys, at whatever time) are answered alike and do the same to the storage, if the digest of the payload and the headers that
the server acts upon are signed — or SHA-256 or HMAC-SHA256 has an explicit collision. Missing from the full property: a copy of the
request sent later is not refused (`C119_replay_fails`); headers that are not signed (C44); payloads that are not signed; payloads in
signed chunks (C77). -/
theorem C119_one_behaviour_partial (hc : CryptoLaw lib.crypto) (p p' : Provider) (r r' : Req)
    (h : ∀ e, handle cfg ext lib (some p) env r ≠ .fail e) (h' : ∀ e, handle cfg ext lib (some p') env r' ≠ .fail e)
    (hp : HttpPlain r) (hp' : HttpPlain r') (hf : ∀ b, ¬ IsForm lib r b) (hf' : ∀ b, ¬ IsForm lib r' b)
    (hq : ∀ v, (b!"X-Amz-Signature", v) ∉ queryOf r) (hq' : ∀ v, (b!"X-Amz-Signature", v) ∉ queryOf r')
    {v v' ts ts' : Bytes} {a a' : Authorization}
    (hv : OnlyHeader r b!"authorization" v) (hv' : OnlyHeader r' b!"authorization" v')
    (ha : Authorization.fromHeaderStr v = some a) (ha' : Authorization.fromHeaderStr v' = some a')
    (ht : OnlyHeader r b!"x-amz-date" ts) (ht' : OnlyHeader r' b!"x-amz-date" ts') (hsig : a.signature = a'.signature)
    (A : AllSigned r a.signedHeaders) (A' : AllSigned r' a'.signedHeaders) (hl : SameLength r r') (hd : DigestDeclared r)
    {w : Bytes} (hw : OnlyHeader r' b!"x-amz-content-sha256" w) :
    (∀ x, hyperCall cfg ext lib (some p') env x r' = hyperCall cfg ext lib (some p) env x r) ∨
    Collides lib.crypto.sha256 (received r.body) (received r'.body) ∨
    ∃ secret secret' d d' hs hs' pl pl' t t', p a.credential.accessKeyId = .ok secret ∧ p' a'.credential.accessKeyId = .ok secret' ∧
      HeaderSigning lib.crypto r (awsEncode true r.path) secret a ts d hs pl t ∧
      HeaderSigning lib.crypto r' (awsEncode true r'.path) secret' a' ts' d' hs' pl' t' ∧
      (Collides lib.crypto.sha256 t t' ∨
       MacClash lib.crypto
         ⟨a.signature, secret, ts.take 8, a.credential.region, textToSign lib.crypto ts a.credential.region t, t⟩
         ⟨a'.signature, secret', ts'.take 8, a'.credential.region, textToSign lib.crypto ts' a'.credential.region t', t'⟩) := by
  obtain ⟨secret, secret', d, d', hs, hs', pl, pl', t, t', hk, hk', hS, hS', hcase⟩ :=
    C99_header cfg ext lib hc p p' env env r r' h h' hp hp' hf hf' hq hq' hv hv' ha ha' ht ht' hsig
  rcases hcase with ⟨_, _, _, e1, e2, e3, e4, e5⟩ | e | e
  · left
    subst e4
    intro x
    have hd1 := hd d hS.hasSha
    obtain ⟨_, _, g1, g2, _, _, e6⟩ := (e5.resolve_left fun g => hd1.1 g.1).resolve_left fun g => hd1.2 g.1
    cases hadm : admit lib (some p) r with
    | error e => exact absurd (handle_error hadm) (h e)
    | ok c =>
      cases hadm' : admit lib (some p') r' with
      | error e => exact absurd (handle_error hadm') (h' e)
      | ok c' =>
        have hd' : DigestDeclared r' := by
          intro d'' hd''
          rw [hw.2 _ hd'', ← hw.2 _ hS'.hasSha]
          exact ⟨g1, g2⟩
        refine C114_essentials_partial cfg ext lib env hadm hadm' (sameEssentials_of e1 e2 hf hf' A
          (fun n v hn => sameActs hS.headers hS'.headers A A' hl hn) fun n _ v => e3.mem_iff) ?_ x
        rw [digest_body hadm hf hq hv ha hd, digest_body hadm' hf' hq' hv' ha' hd', e6]
  · exact .inr (.inl e)
  · exact .inr (.inr ⟨secret, secret', d, d', hs, hs', pl, pl', t, t', hk, hk', hS, hS', e⟩)

/-- **C119** (partial) Nothing else can be had with a presigned URL: two accepted requests with the same signature, date and credential in
their queries are answered alike and do the same to the storage, if they have the same body and the headers that the server acts upon are signed (by names
listed in order, as AWS demands) — or there is an explicit collision. Missing as above; the body is not signed, and the expiry is not looked at
(C43). -/
theorem C119_presigned_partial (p : Provider) (r r' : Req)
    (h : ∀ e, handle cfg ext lib (some p) env r ≠ .fail e) (h' : ∀ e, handle cfg ext lib (some p) env r' ≠ .fail e)
    (hp : HttpPlain r) (hp' : HttpPlain r') (hf : ∀ b, ¬ IsForm lib r b) (hf' : ∀ b, ¬ IsForm lib r' b)
    {sig cred ts names names' : Bytes} {credential : Credential} (hparse : Credential.parse cred = some (credential, []))
    (hsig : OnlyQuery r b!"X-Amz-Signature" sig) (hsig' : OnlyQuery r' b!"X-Amz-Signature" sig)
    (hcred : OnlyQuery r b!"X-Amz-Credential" cred) (hcred' : OnlyQuery r' b!"X-Amz-Credential" cred)
    (ht : OnlyQuery r b!"X-Amz-Date" ts) (ht' : OnlyQuery r' b!"X-Amz-Date" ts)
    (hn : OnlyQuery r b!"X-Amz-SignedHeaders" names) (hn' : OnlyQuery r' b!"X-Amz-SignedHeaders" names')
    (ho : (splitAll 59 names).Pairwise fun a b => bytesLe a b = true) (ho' : (splitAll 59 names').Pairwise fun a b => bytesLe a b = true)
    (A : AllSigned r (splitAll 59 names)) (A' : AllSigned r' (splitAll 59 names')) (hl : SameLength r r') (hb : r'.body = r.body) :
    (∀ x, hyperCall cfg ext lib (some p) env x r' = hyperCall cfg ext lib (some p) env x r) ∨
    ∃ secret names names' covered covered' hs hs' t t', p credential.accessKeyId = .ok secret ∧
      PresignedSigning lib.crypto r (awsEncode true r.path) secret cred credential ts sig names covered hs t ∧
      PresignedSigning lib.crypto r' (awsEncode true r'.path) secret cred credential ts sig names' covered' hs' t' ∧
      (Collides lib.crypto.sha256 t t' ∨
       Collides (lib.crypto.hmac (signKey lib.crypto secret ts credential.region))
         (textToSign lib.crypto ts credential.region t) (textToSign lib.crypto ts credential.region t')) := by
  obtain ⟨secret, ns, ns', covered, covered', hs, hs', t, t', hk, hS, hS', hcase⟩ :=
    C43_presigned_protects_partial cfg ext lib p env r r' h h' hp hp' hf hf' hparse hsig hsig' hcred hcred' ht ht'
  rcases hcase with ⟨e1, e2, e3, e4⟩ | e
  · left
    subst e4
    intro x
    have g := hn.2 _ hS.hasNames
    have g' := hn'.2 _ hS'.hasNames
    subst g g'
    cases hadm : admit lib (some p) r with
    | error e => exact absurd (handle_error hadm) (h e)
    | ok c =>
      cases hadm' : admit lib (some p) r' with
      | error e => exact absurd (handle_error hadm') (h' e)
      | ok c' =>
        have B : AllSigned r covered :=
          ⟨fun n v hv hn hne => ⟨hS.complete ho n (A.headers n v hv hn hne).1, (A.headers n v hv hn hne).2⟩, A.header_once, A.param_once⟩
        have B' : AllSigned r' covered' :=
          ⟨fun n v hv hn hne => ⟨hS'.complete ho' n (A'.headers n v hv hn hne).1, (A'.headers n v hv hn hne).2⟩, A'.header_once, A'.param_once⟩
        have body : ∀ {r : Req} {c : Ctx}, admit lib (some p) r = .ok c → (∀ b, ¬ IsForm lib r b) → (b!"X-Amz-Signature", sig) ∈ queryOf r →
            c.body = r.body := by
          intro r c hadm hf hsig
          obtain ⟨c0, hm, hs⟩ := admit_ok.mp hadm
          simp only [checkSignature, formMime_none hm hf, presignedQuery_only hm hsig] at hs
          obtain ⟨_, _, _, _, _, _, _, _, _, rfl⟩ := checkPresignedUrl_ok.mp hs
          exact hm.body
        refine C114_essentials_partial cfg ext lib env hadm hadm' (sameEssentials_of e1 e2 hf hf' A
          (fun n v hn => sameActs hS.headers hS'.headers B B' hl hn) fun n hn v => ?_) ?_ x
        · have hne : n ≠ b!"X-Amz-Signature" := by rintro rfl; exact absurd hn (by decide)
          have := e3.mem_iff (a := (n, v))
          simp only [presignedParams, List.mem_filter, decide_eq_true_eq, hne, ne_eq, not_false_eq_true, and_true] at this
          exact this
        · rw [body hadm hf hsig.1, body hadm' hf' hsig'.1, hb]
  · exact .inr ⟨secret, ns, ns', covered, covered', hs, hs', t, t', hk, hS, hS', e⟩

/-! ### witnesses and examples -/

namespace Sample

/-- a signed upload of the text to `aaa/z` -/
def putText (s : Bytes) : Req := signedRequest b!"PUT" b!"/aaa/z" b!"/aaa/z" none (hexText (crypto.sha256 s)) [] [some s]

/-- the file tree after a signed request -/
def afterSigned (r : Req) (t : FS) : FS := afterResponded Sample.cfg Sample.ext Sample.lib (some provider) Sample.env texts r t

/-- the response to a signed request -/
def toSigned (r : Req) (t : FS) : Outcome Response := responded Sample.cfg Sample.ext Sample.lib (some provider) Sample.env texts r t

end Sample

/-- **C119** (negation) A copy of a signed request is served again: an object is uploaded, then replaced; the copy of the first upload, sent again, is
answered 200 and brings the old content back. All requests are dated 2013; no clock is asked. -/
theorem C119_replay_fails :
    ∃ (cfg : Cfg) (ext : Ext) (lib : Lib) (p : Provider) (env : Env) (x : Texts) (fs : FS) (first second : Req), WF fs ∧
      OnlyHeader first b!"x-amz-date" b!"20130524T000000Z" ∧
      (let fs1 := afterResponded cfg ext lib (some p) env x first fs
       let fs2 := afterResponded cfg ext lib (some p) env x second fs1
       let fs3 := afterResponded cfg ext lib (some p) env x first fs2
       Sample.code (responded cfg ext lib (some p) env x first fs) = some 200 ∧ stored cfg fs1 b!"aaa" b!"z" = some b!"old" ∧
       Sample.code (responded cfg ext lib (some p) env x second fs1) = some 200 ∧ stored cfg fs2 b!"aaa" b!"z" = some b!"new" ∧
       Sample.code (responded cfg ext lib (some p) env x first fs2) = some 200 ∧ stored cfg fs3 b!"aaa" b!"z" = some b!"old") :=
  ⟨Sample.cfg, Sample.ext, Sample.lib, Sample.provider, Sample.env, Sample.texts, Sample.fs, Sample.putText b!"old", Sample.putText b!"new",
    Sample.fs_wf, Sample.only_header (by decide +kernel) (by decide +kernel), by decide +kernel, by decide +kernel, by decide +kernel,
    by decide +kernel, by decide +kernel, by decide +kernel⟩

namespace Sample

/-- the same upload on another way: one more header, the body in two pieces -/
def putAgain : Req :=
  { putText b!"old" with headers := (b!"user-agent", b!"proxy") :: (putText b!"old").headers, body := [some b!"ol", some b!"d"] }

/-- the `Authorization` header of the upload -/
def putAuth : Bytes := ((putText b!"old").headers.head?.map (·.2)).getD []

theorem allSigned_of {r : Req} {signed : List Bytes}
    (h : ∀ q ∈ r.headers, (q.1 ∈ operationHeaders ∨ b!"x-amz-meta-".isPrefixOf q.1 = true) → False) (hq : ∀ q ∈ queryOf r, q.1 ∉ operationParams) : AllSigned r signed := by
  have go : ∀ n v, (n, v) ∈ r.headers → ¬ (n ∈ operationHeaders ∨ MetaName n) := fun n v hv hn =>
    h (n, v) hv (hn.imp id List.isPrefixOf_iff_prefix.mpr)
  exact ⟨fun n v hv hn => absurd hn (go n v hv), fun n v _ hn hv => absurd hn (go n v hv), fun n hn v _ hv => absurd hn (hq (n, v) hv)⟩

end Sample

/-- both uploads meet the hypotheses of `C119_one_behaviour_partial` -/
example : ∀ r, r = Sample.putText b!"old" ∨ r = Sample.putAgain →
    (∀ e, handle Sample.cfg Sample.ext Sample.lib (some Sample.provider) Sample.env r ≠ .fail e) ∧ HttpPlain r ∧
    (∀ b, ¬ IsForm Sample.lib r b) ∧ (∀ v, (b!"X-Amz-Signature", v) ∉ queryOf r) ∧ OnlyHeader r b!"authorization" Sample.putAuth ∧
    (Authorization.fromHeaderStr Sample.putAuth).isSome = true ∧ OnlyHeader r b!"x-amz-date" Sample.stamp ∧
    (∀ signed, AllSigned r signed) ∧ SameLength (Sample.putText b!"old") r ∧ DigestDeclared r ∧
    OnlyHeader r b!"x-amz-content-sha256" (hexText (Sample.crypto.sha256 b!"old")) := by
  have hd : ∀ r : Req, OnlyHeader r b!"x-amz-content-sha256" (hexText (Sample.crypto.sha256 b!"old")) → DigestDeclared r := by
    intro r h d hd
    rw [h.2 d hd]
    decide +kernel
  rintro r (rfl | rfl)
  · have h : OnlyHeader (Sample.putText b!"old") b!"x-amz-content-sha256" (hexText (Sample.crypto.sha256 b!"old")) :=
      Sample.only_header (by decide +kernel) (by decide +kernel)
    exact ⟨Sample.not_fail (by decide +kernel), ⟨by decide +kernel, by decide +kernel⟩, fun _ h => absurd h.1 (by decide),
      fun v h => by simp [queryOf, Sample.putText, Sample.signedRequest] at h,
      Sample.only_header (by decide +kernel) (by decide +kernel), by decide +kernel, Sample.only_header (by decide +kernel) (by decide +kernel),
      fun _ => Sample.allSigned_of (by decide +kernel) (by decide +kernel), fun _ => Iff.rfl, hd _ h, h⟩
  · have h : OnlyHeader Sample.putAgain b!"x-amz-content-sha256" (hexText (Sample.crypto.sha256 b!"old")) :=
      Sample.only_header (by decide +kernel) (by decide +kernel)
    exact ⟨Sample.not_fail (by decide +kernel), ⟨by decide +kernel, by decide +kernel⟩, fun _ h => absurd h.1 (by decide),
      fun v h => by simp [queryOf, Sample.putAgain, Sample.putText, Sample.signedRequest] at h,
      Sample.only_header (by decide +kernel) (by decide +kernel), by decide +kernel, Sample.only_header (by decide +kernel) (by decide +kernel),
      fun _ => Sample.allSigned_of (by decide +kernel) (by decide +kernel),
      fun v => by simp [Sample.putAgain], hd _ h, h⟩

/-- the presigned URL of `C43`, with one more header, meets the hypotheses of `C119_presigned_partial` -/
example : ∃ sig, ∀ r, r = Sample.presignedGet ∨ r = addHeader Sample.presignedGet b!"accept" b!"text/html" →
    (∀ e, handle Sample.cfg Sample.ext Sample.lib (some Sample.provider) Sample.env r ≠ .fail e) ∧ HttpPlain r ∧
    (∀ b, ¬ IsForm Sample.lib r b) ∧ OnlyQuery r b!"X-Amz-Signature" sig ∧
    OnlyQuery r b!"X-Amz-Credential" b!"AK/20130524/us-east-1/s3/aws4_request" ∧
    (∃ c, Credential.parse b!"AK/20130524/us-east-1/s3/aws4_request" = some (c, [])) ∧ OnlyQuery r b!"X-Amz-Date" Sample.stamp ∧
    OnlyQuery r b!"X-Amz-SignedHeaders" b!"host" ∧ (splitAll 59 b!"host").Pairwise (fun a b => bytesLe a b = true) ∧
    (∀ signed, AllSigned r signed) ∧ SameLength Sample.presignedGet r ∧ r.body = Sample.presignedGet.body := by
  refine ⟨((queryOf Sample.presignedGet).getLast?.map (·.2)).getD [], ?_⟩
  rintro r (rfl | rfl)
  · exact ⟨Sample.not_fail (by decide +kernel), ⟨by decide +kernel, by decide +kernel⟩, fun _ h => absurd h.1 (by decide),
      Sample.only_query (by decide +kernel) (by decide +kernel), Sample.only_query (by decide +kernel) (by decide +kernel),
      ⟨⟨b!"AK", b!"20130524", b!"us-east-1", b!"s3"⟩, by decide +kernel⟩, Sample.only_query (by decide +kernel) (by decide +kernel),
      Sample.only_query (by decide +kernel) (by decide +kernel), by decide +kernel,
      fun _ => Sample.allSigned_of (by decide +kernel) (by decide +kernel), fun _ => Iff.rfl, rfl⟩
  · exact ⟨Sample.not_fail (by decide +kernel), ⟨by decide +kernel, by decide +kernel⟩, fun _ h => absurd h.1 (by decide),
      Sample.only_query (by decide +kernel) (by decide +kernel), Sample.only_query (by decide +kernel) (by decide +kernel),
      ⟨⟨b!"AK", b!"20130524", b!"us-east-1", b!"s3"⟩, by decide +kernel⟩, Sample.only_query (by decide +kernel) (by decide +kernel),
      Sample.only_query (by decide +kernel) (by decide +kernel), by decide +kernel,
      fun _ => Sample.allSigned_of (by decide +kernel) (by decide +kernel), fun v => by simp [addHeader], rfl⟩

end S3
