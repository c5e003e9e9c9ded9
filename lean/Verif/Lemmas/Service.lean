import Verif.Lemmas.SigV4
import Verif.Model.Dispatch
namespace S3
open Spec

theorem orErr_ok {α : Type} {e : S3ErrorCode} {o : Option α} {a : α} : orErr e o = .ok a ↔ o = some a := by
  cases o <;> simp [orErr]

theorem orErr_some {α : Type} {e : S3ErrorCode} (a : α) : orErr e (some a) = .ok a := rfl

theorem except_bind_ok {ε α β : Type} {x : Except ε α} {f : α → Except ε β} {b : β} :
    (x >>= f) = .ok b ↔ ∃ a, x = .ok a ∧ f a = .ok b := by
  cases x <;> simp [bind, Except.bind]

theorem except_ok_bind {ε α β : Type} (a : α) (f : α → Except ε β) : ((Except.ok a : Except ε α) >>= f) = f a := rfl
theorem except_error_bind {ε α β : Type} (e : ε) (f : α → Except ε β) : ((Except.error e : Except ε α) >>= f) = .error e := rfl
theorem except_pure {ε α : Type} (a : α) : (pure a : Except ε α) = .ok a := rfl

theorem ensure_ok {e : S3ErrorCode} {b : Bool} {u : Unit} : ensure e b = .ok u ↔ b = true := by
  cases b <;> simp [ensure]

theorem extractOpt_ok {α : Type} {e : S3ErrorCode} {parse : Bytes → Option α} {v : Option Bytes} {x : Option α} :
    extractOpt e parse v = .ok x ↔ (v = none ∧ x = none) ∨ ∃ t a, v = some t ∧ parse t = some a ∧ x = some a := by
  cases v with
  | none => simp [extractOpt, eq_comm]
  | some t =>
    simp only [extractOpt]
    cases h : parse t <;> simp [h, eq_comm]

theorem fetchSecretKey_ok {p : Provider} {k s : Bytes} : fetchSecretKey p k = .ok s ↔ p k = .ok s := by
  simp only [fetchSecretKey]
  split <;> simp_all

/-- what is known when the context of a request could be made -/
structure MadeCtx (lib : Lib) (r : Req) (c : Ctx) : Prop where
  method : c.method = r.method
  uriPath : c.uriPath = r.path
  headers : orderedHeaders r.headers = some c.headers
  qs : c.qs = r.query.map orderedQs
  path : ∃ p, urlDecode r.path = some p ∧ tryFromPath p = .ok c.path
  body : c.body = r.body
  mime : extractOpt .InvalidRequest lib.mime (c.header b!"content-type") = .ok c.mime
  multipart : c.multipart = none

theorem extractS3Path_ok {p : Bytes} {s : S3Path} : extractS3Path p = .ok s ↔ tryFromPath p = .ok s := by
  simp only [extractS3Path]
  split <;> simp_all

theorem makeCtx_ok {lib : Lib} {r : Req} {c : Ctx} : makeCtx lib r = .ok c ↔ MadeCtx lib r c := by
  simp only [makeCtx, except_bind_ok, orErr_ok, extractS3Path_ok, except_pure]
  constructor
  · rintro ⟨p, hp, s, hs, hs', hh, m, hm, e⟩
    cases e
    exact ⟨rfl, rfl, hh, rfl, ⟨p, hp, hs⟩, rfl, hm, rfl⟩
  · rintro ⟨h1, h2, h3, h4, ⟨p, hp, hs⟩, h5, h6, h7⟩
    refine ⟨p, hp, c.path, hs, c.headers, h3, c.mime, h6, ?_⟩
    cases c; simp_all

theorem MadeCtx.header_mem {lib : Lib} {r : Req} {c : Ctx} (h : MadeCtx lib r c) {n v : Bytes} (hv : c.header n = some v) :
    (n, v) ∈ r.headers := by
  have := orderedGet_some_mem hv
  rw [(orderedHeaders_some h.headers).1] at this
  exact (sortPairs_perm _).mem_iff.mp this

theorem MadeCtx.header_none {lib : Lib} {r : Req} {c : Ctx} (h : MadeCtx lib r c) {n : Bytes} :
    c.header n = none ↔ ∀ v, (n, v) ∉ r.headers := by
  have e := (orderedHeaders_some h.headers).1
  simp only [Ctx.header]
  rw [e, orderedGet_none_iff (sortPairs_sorted _)]
  exact ⟨fun h v hm => h v ((sortPairs_perm _).mem_iff.mpr hm), fun h v hm => h v ((sortPairs_perm _).mem_iff.mp hm)⟩

theorem MadeCtx.query_mem {lib : Lib} {r : Req} {c : Ctx} (h : MadeCtx lib r c) {n v : Bytes} (hv : c.query n = some v) :
    (n, v) ∈ queryOf r := by
  simp only [Ctx.query, h.qs] at hv
  simp only [queryOf]
  cases hq : r.query with
  | none => simp [hq] at hv
  | some q =>
    simp only [hq, Option.map_some] at hv
    exact (sortPairs_perm _).mem_iff.mp (orderedGet_some_mem hv)

theorem MadeCtx.query_none {lib : Lib} {r : Req} {c : Ctx} (h : MadeCtx lib r c) {n : Bytes} :
    c.query n = none ↔ ∀ v, (n, v) ∉ queryOf r := by
  simp only [Ctx.query, h.qs, queryOf]
  cases hq : r.query with
  | none => simp
  | some q =>
    simp only [Option.map_some, orderedQs]
    rw [orderedGet_none_iff (sortPairs_sorted _)]
    exact ⟨fun h v hm => h v ((sortPairs_perm _).mem_iff.mpr hm), fun h v hm => h v ((sortPairs_perm _).mem_iff.mp hm)⟩

/-- the sorted query as a list -/
theorem MadeCtx.qs_getD {lib : Lib} {r : Req} {c : Ctx} (h : MadeCtx lib r c) : c.qs.getD [] = sortPairs (queryOf r) := by
  simp only [h.qs, queryOf]
  cases r.query with
  | none => rfl
  | some q => rfl

/-! ### the three checks -/

/-- a request whose `Authorization` header was accepted -/
structure HeaderOk (lib : Lib) (auth : Provider) (c : Ctx) (a : Authorization) (ts secretKey : Bytes) (declared : AmzContentSha256)
    (date : AmzDate) (payload : Payload) (body : Body) (c' : Ctx) : Prop where
  secret : auth a.credential.accessKeyId = .ok secretKey
  sha : extractSha c.headers = .ok (some declared)
  stamp : c.header b!"x-amz-date" = some ts
  dateOk : AmzDate.fromHeaderStr ts = some date
  payloadOk : headerPayload declared c.body = .ok (payload, body)
  signature : headerSignature lib.crypto c a date payload secretKey = a.signature
  result : c' = { c with body := checkedBody lib.crypto declared a.signature secretKey date a.credential.region body }

theorem checkAuthorization_ok {lib : Lib} {auth : Option Provider} {a : Authorization} {c c' : Ctx} :
    checkAuthorization lib auth a c = .ok c' ↔
      ∃ p ts secret sha date payload body, auth = some p ∧ HeaderOk lib p c a ts secret sha date payload body c' := by
  simp only [checkAuthorization, except_bind_ok, orErr_ok, fetchSecretKey_ok, ensure_ok, except_pure, extractDate, extractOpt_ok]
  constructor
  · rintro ⟨p, rfl, s?, hs, sha, rfl, secret, hsec, d?, (⟨_, rfl⟩ | ⟨ts, dt, hts, hdt, rfl⟩), date, hd, ⟨pl, bd⟩, hpb, u, hsig, e⟩
    · cases hd
    · cases hd
      have hsig := by simpa using hsig
      cases e
      exact ⟨p, ts, secret, sha, dt, pl, bd, rfl, hsec, hs, hts, hdt, hpb, hsig, by rw [hsig]⟩
  · rintro ⟨p, ts, secret, sha, dt, pl, bd, rfl, hsec, hs, hts, hdt, hpb, hsig, e⟩
    refine ⟨p, rfl, _, hs, sha, rfl, secret, hsec, _, .inr ⟨ts, dt, hts, hdt, rfl⟩, dt, rfl, (pl, bd), hpb, (), ?_, ?_⟩
    · simpa using hsig
    · rw [e, hsig]

theorem checkHeaderAuth_ok {lib : Lib} {auth : Option Provider} {c c' : Ctx} :
    checkHeaderAuth lib auth c = .ok c' ↔
      (c.header b!"authorization" = none ∧ auth = none ∧ c' = c) ∨
      ∃ v a, c.header b!"authorization" = some v ∧ Authorization.fromHeaderStr v = some a ∧
        checkAuthorization lib auth a c = .ok c' := by
  simp only [checkHeaderAuth]
  have h := @extractOpt_ok _ .InvalidRequest Authorization.fromHeaderStr (c.header b!"authorization")
  change ∀ {x}, extractAuthorization c.headers = .ok x ↔ _ at h
  cases hx : extractAuthorization c.headers with
  | error e =>
    simp only [reduceCtorEq, false_iff, not_or, not_exists, not_and]
    refine ⟨fun hn => ?_, fun v a hv ha => ?_⟩
    · have := h.mpr (.inl ⟨hn, rfl⟩)
      rw [hx] at this; cases this
    · have := h.mpr (.inr ⟨v, a, hv, ha, rfl⟩)
      rw [hx] at this; cases this
  | ok x =>
    rcases h.mp hx with ⟨hn, rfl⟩ | ⟨v, a, hv, ha, rfl⟩
    · simp only [hn, true_and]
      cases auth <;> simp [checkAnonymous, eq_comm]
    · simp only [hv, reduceCtorEq, false_and, Option.some.injEq, false_or]
      constructor
      · exact fun h => ⟨v, a, rfl, ha, h⟩
      · rintro ⟨v', a', rfl, ha', h⟩
        rw [ha] at ha'; cases ha'; exact h

theorem checkPresignedUrl_ok {lib : Lib} {auth : Option Provider} {qs : List (Bytes × Bytes)} {c c' : Ctx} :
    checkPresignedUrl lib auth qs c = .ok c' ↔
      ∃ p x pr secret, PresignedUrl.fromQuery qs = some p ∧ extractSha c.headers = .ok x ∧ auth = some pr ∧
        pr p.credential.accessKeyId = .ok secret ∧ presignedSignature lib.crypto c qs p secret = p.signature ∧ c' = c := by
  simp only [checkPresignedUrl, except_bind_ok, orErr_ok, fetchSecretKey_ok, ensure_ok, except_pure]
  constructor
  · rintro ⟨p, hp, x, hx, pr, hpr, secret, hs, u, hsig, e⟩
    cases e
    exact ⟨p, x, pr, secret, hp, hx, hpr, hs, by simpa using hsig, rfl⟩
  · rintro ⟨p, x, pr, secret, hp, hx, hpr, hs, hsig, rfl⟩
    exact ⟨p, hp, x, hx, pr, hpr, secret, hs, (), by simpa using hsig, rfl⟩

theorem formOr_ok {r : Except FormError Form} {f : Form} : formOr r = .ok f ↔ r = .ok f := by
  cases r <;> simp [formOr]

theorem findInfo_some {fields : List (Bytes × Bytes)} {i : PostInfo} :
    findInfo fields = some i ↔ findField fields b!"policy" = some i.policy ∧ findField fields b!"x-amz-algorithm" = some i.algorithm ∧
      findField fields b!"x-amz-credential" = some i.credential ∧ findField fields b!"x-amz-date" = some i.date ∧
      findField fields b!"x-amz-signature" = some i.signature := by
  simp only [findInfo, Option.bind_eq_bind, Option.bind_eq_some_iff, Option.pure_def, Option.some.injEq]
  constructor
  · rintro ⟨_, h1, _, h2, _, h3, _, h4, _, h5, rfl⟩
    exact ⟨h1, h2, h3, h4, h5⟩
  · rintro ⟨h1, h2, h3, h4, h5⟩
    exact ⟨_, h1, _, h2, _, h3, _, h4, _, h5, rfl⟩

/-- a form that was accepted -/
structure FormOk (lib : Lib) (auth : Provider) (f : Form) (i : PostInfo) (cred : Credential) (rest : Bytes) (date : AmzDate) (secretKey : Bytes) : Prop where
  info : findInfo f.fields = some i
  policy : isBase64 i.policy = true
  algorithm : i.algorithm = b!"AWS4-HMAC-SHA256"
  credential : Credential.parse i.credential = some (cred, rest)
  dateOk : AmzDate.fromHeaderStr i.date = some date
  secret : auth cred.accessKeyId = .ok secretKey
  signature : calculateSignature lib.crypto i.policy secretKey date cred.region = i.signature

theorem checkPostForm_ok {lib : Lib} {auth : Provider} {f : Form} :
    checkPostForm lib auth f = .ok () ↔ ∃ i cred rest date secret, FormOk lib auth f i cred rest date secret := by
  simp only [checkPostForm, except_bind_ok, orErr_ok, fetchSecretKey_ok, ensure_ok]
  constructor
  · rintro ⟨i, hi, u, hb, u', ha, ⟨cred, rest⟩, hc, date, hd, secret, hs, hsig⟩
    exact ⟨i, cred, rest, date, secret, hi, by simpa using hb, by simpa using ha, hc, hd, hs, by simpa using hsig⟩
  · rintro ⟨i, cred, rest, date, secret, hi, hb, ha, hc, hd, hs, hsig⟩
    exact ⟨i, hi, (), by simpa using hb, (), by simpa using ha, (cred, rest), hc, date, hd, secret, hs, by simpa using hsig⟩

theorem checkPostSignature_ok {lib : Lib} {auth : Option Provider} {m : Mime} {c c' : Ctx} :
    checkPostSignature lib auth m c = .ok c' ↔
      ∃ p b f, auth = some p ∧ m.boundary = some b ∧ transformMultipart b c.body = .ok f ∧ checkPostForm lib p f = .ok () ∧
        c' = { c with body := [], multipart := some f } := by
  simp only [checkPostSignature, except_bind_ok, orErr_ok, formOr_ok, except_pure]
  constructor
  · rintro ⟨p, hp, b, hb, f, hf, u, hu, e⟩
    cases e
    exact ⟨p, b, f, hp, hb, hf, hu, rfl⟩
  · rintro ⟨p, b, f, hp, hb, hf, hu, rfl⟩
    exact ⟨p, hp, b, hb, f, hf, (), hu, rfl⟩

theorem admit_ok {lib : Lib} {auth : Option Provider} {r : Req} {c' : Ctx} :
    admit lib auth r = .ok c' ↔ ∃ c, MadeCtx lib r c ∧ checkSignature lib auth c = .ok c' := by
  simp only [admit, except_bind_ok, makeCtx_ok]

/-- what an accepted request changes: only the body and the form -/
structure Admitted (c c' : Ctx) : Prop where
  method : c'.method = c.method
  uriPath : c'.uriPath = c.uriPath
  headers : c'.headers = c.headers
  qs : c'.qs = c.qs
  path : c'.path = c.path

theorem checkSignature_admitted {lib : Lib} {auth : Option Provider} {c c' : Ctx} (h : checkSignature lib auth c = .ok c') : Admitted c c' := by
  simp only [checkSignature] at h
  split at h
  · obtain ⟨p, b, f, _, _, _, _, rfl⟩ := checkPostSignature_ok.mp h
    constructor <;> rfl
  · split at h
    · obtain ⟨_, _, _, _, _, _, _, _, _, rfl⟩ := checkPresignedUrl_ok.mp h
      constructor <;> rfl
    · rcases checkHeaderAuth_ok.mp h with ⟨_, _, rfl⟩ | ⟨v, a, _, _, h⟩
      · constructor <;> rfl
      · obtain ⟨_, _, _, _, _, _, _, _, ho⟩ := checkAuthorization_ok.mp h
        rw [ho.result]
        constructor <;> rfl

end S3
