import Verif.Lemmas.Base64
import Verif.Lemmas.Admit
import Verif.Props.SampleHttp
/-! Who may do anything: C36, C37, C41, C42. -/
namespace S3
open Spec

/-! ### helpers -/

theorem toStrOk_of {s : Bytes} (h : ∀ c ∈ s, c = 9 ∨ (32 ≤ c ∧ c ≤ 126)) : toStrOk s = true := by
  simp only [toStrOk, List.all_eq_true]
  intro c hc
  rcases h c hc with rfl | ⟨h1, h2⟩
  · decide
  · have : c < 127 := by
      rw [UInt8.lt_iff_toNat_lt]; rw [UInt8.le_iff_toNat_le] at h2
      exact Nat.lt_of_le_of_lt h2 (by decide)
    simp [h1, this]

theorem made_of_wellFormed {lib : Lib} {r : Req} (h : WellFormed lib r) : ∃ c, MadeCtx lib r c := by
  obtain ⟨p, s, hp, hs⟩ := h.path
  have hh : orderedHeaders r.headers = some (sortPairs r.headers) := by
    simp only [orderedHeaders]
    rw [if_pos]
    rw [List.all_eq_true]
    exact fun q hq => toStrOk_of (h.headers q hq)
  cases hm : extractOpt .InvalidRequest lib.mime (orderedGet (sortPairs r.headers) b!"content-type") with
  | ok m =>
    exact ⟨⟨r.method, r.path, sortPairs r.headers, r.query.map orderedQs, s, r.body, m, none⟩,
      ⟨rfl, rfl, hh, rfl, ⟨p, hp, hs⟩, rfl, hm, rfl⟩⟩
  | error e =>
    exfalso
    simp only [extractOpt] at hm
    split at hm
    · cases hm
    · rename_i v hv
      split at hm
      · rename_i hn
        exact h.mime v ((sortPairs_perm _).mem_iff.mp (orderedGet_some_mem hv)) hn
      · cases hm

theorem admit_made {lib : Lib} {auth : Option Provider} {r : Req} {c : Ctx} (h : MadeCtx lib r c) :
    admit lib auth r = checkSignature lib auth c := by
  simp only [admit, makeCtx_ok.mpr h, except_ok_bind]

theorem handle_error {cfg : Cfg} {ext : Ext} {lib : Lib} {auth : Option Provider} {env : Env} {r : Req} {e : S3ErrorCode}
    (h : admit lib auth r = .error e) : handle cfg ext lib auth env r = .fail e := by
  simp only [handle, h, orElseFail]

theorem handle_ok {cfg : Cfg} {ext : Ext} {lib : Lib} {auth : Option Provider} {env : Env} {r : Req} {c : Ctx}
    (h : admit lib auth r = .ok c) : handle cfg ext lib auth env r = dispatch cfg ext lib env c := by
  simp only [handle, h, orElseFail]

theorem made_header_only {lib : Lib} {r : Req} {c : Ctx} (hm : MadeCtx lib r c) {n v : Bytes} (h : OnlyHeader r n v) : c.header n = some v := by
  cases hx : c.header n with
  | none => exact absurd h.1 (hm.header_none.mp hx v)
  | some w => rw [h.2 w (hm.header_mem hx)]

theorem made_query_only {lib : Lib} {r : Req} {c : Ctx} (hm : MadeCtx lib r c) {n v : Bytes} (h : OnlyQuery r n v) : c.query n = some v := by
  cases hx : c.query n with
  | none => exact absurd h.1 (hm.query_none.mp hx v)
  | some w => rw [h.2 w (hm.query_mem hx)]

theorem sorted_query_only {r : Req} {n v : Bytes} (h : OnlyQuery r n v) : orderedGet (sortPairs (queryOf r)) n = some v := by
  cases hx : orderedGet (sortPairs (queryOf r)) n with
  | none => exact absurd ((sortPairs_perm _).mem_iff.mpr h.1) ((orderedGet_none_iff (sortPairs_sorted _)).mp hx v)
  | some w => rw [h.2 w ((sortPairs_perm _).mem_iff.mp (orderedGet_some_mem hx))]

theorem formMime_none {lib : Lib} {r : Req} {c : Ctx} (hm : MadeCtx lib r c) (h : ∀ b, ¬ IsForm lib r b) : c.formMime = none := by
  cases hx : c.formMime with
  | none => rfl
  | some m => exact absurd (formMime_some hm hx) (h _)

theorem formMime_only {lib : Lib} {r : Req} {c : Ctx} (hm : MadeCtx lib r c) {v : Bytes} {m : Mime} (hp : r.method = b!"POST")
    (hv : OnlyHeader r b!"content-type" v) (hl : lib.mime v = some m) (hf : m.isFormData = true) : c.formMime = some m := by
  have h1 := made_header_only hm hv
  rcases extractOpt_ok.mp hm.mime with ⟨e, _⟩ | ⟨t, a, e1, e2, e3⟩
  · rw [h1] at e; cases e
  · rw [h1] at e1; cases e1
    rw [hl] at e2; cases e2
    simp [Ctx.formMime, hm.method, hp, e3, Option.filter, hf]

theorem presignedQuery_none {lib : Lib} {r : Req} {c : Ctx} (hm : MadeCtx lib r c) (h : ∀ v, (b!"X-Amz-Signature", v) ∉ queryOf r) :
    c.presignedQuery = none := by
  cases hx : c.presignedQuery with
  | none => rfl
  | some qs => exact absurd (hm.query_none.mpr h) (presignedQuery_some.mp hx).2

theorem presignedQuery_only {lib : Lib} {r : Req} {c : Ctx} (hm : MadeCtx lib r c) {v : Bytes} (h : (b!"X-Amz-Signature", v) ∈ queryOf r) :
    c.presignedQuery = some (sortPairs (queryOf r)) := by
  have h1 : c.query b!"X-Amz-Signature" ≠ none := fun e => hm.query_none.mp e v h
  cases hq : c.qs with
  | none => simp [Ctx.query, hq] at h1
  | some qs =>
    rw [← hm.qs_sort hq]
    exact presignedQuery_some.mpr ⟨hq, h1⟩

theorem checkHeaderAuth_none {lib : Lib} {auth : Option Provider} {r : Req} {c : Ctx} (hm : MadeCtx lib r c)
    (h : ∀ v, (b!"authorization", v) ∉ r.headers) : checkHeaderAuth lib auth c = checkAnonymous auth c := by
  have : orderedGet c.headers b!"authorization" = none := hm.header_none.mpr h
  simp only [checkHeaderAuth, extractAuthorization, extractOpt, this]

theorem checkHeaderAuth_some {lib : Lib} {auth : Option Provider} {r : Req} {c : Ctx} (hm : MadeCtx lib r c) {v : Bytes} {a : Authorization}
    (h : OnlyHeader r b!"authorization" v) (ha : Authorization.fromHeaderStr v = some a) :
    checkHeaderAuth lib auth c = checkAuthorization lib auth a c := by
  have : orderedGet c.headers b!"authorization" = some v := made_header_only hm h
  simp only [checkHeaderAuth, extractAuthorization, extractOpt, this, ha]

/-! ### C36 -/

/-- **C36** With an authentication provider a request without any signature is answered with an error at once, without
any step in the file system. -/
theorem C36_no_anonymous (cfg : Cfg) (ext : Ext) (lib : Lib) (p : Provider) (env : Env) (r : Req) (h : Unsigned lib r) :
    ∃ e, handle cfg ext lib (some p) env r = .fail e := by
  cases ha : admit lib (some p) r with
  | error e => exact ⟨e, handle_error ha⟩
  | ok c' =>
    exfalso
    obtain ⟨c, hm, hc⟩ := admit_ok.mp ha
    simp only [checkSignature] at hc
    split at hc
    · rename_i m hf
      obtain ⟨p', b, f, e, hb, ht, hp, _⟩ := checkPostSignature_ok.mp hc
      obtain ⟨i, cred, rest, date, secret, ho⟩ := checkPostForm_ok.mp hp
      obtain ⟨_, _, _, _, h5⟩ := findInfo_some.mp ho.info
      obtain ⟨x, n, y, e1, e2, _⟩ := ((C53_field_lookup f.fields _).1 _).mp h5
      refine h.form f ⟨b, ?_, ?_⟩ (n, i.signature) (by rw [e1]; simp) e2
      · rw [← hb]; exact formMime_some hm hf
      · rw [← hm.body]; exact ht
    · split at hc
      · rename_i qs hq
        exact (presignedQuery_some.mp hq).2 (hm.query_none.mpr h.query)
      · rcases checkHeaderAuth_ok.mp hc with ⟨_, e, _⟩ | ⟨v, a, hv, _⟩
        · cases e
        · exact h.header v (hm.header_mem hv)

/-- **C36** (which error) The answer is AccessDenied, if the request is well formed and not a form upload … -/
theorem C36_access_denied (cfg : Cfg) (ext : Ext) (lib : Lib) (p : Provider) (env : Env) (r : Req) (h : Unsigned lib r)
    (hw : WellFormed lib r) (hf : ∀ b, ¬ IsForm lib r b) : handle cfg ext lib (some p) env r = .fail .AccessDenied := by
  obtain ⟨c, hm⟩ := made_of_wellFormed hw
  apply handle_error
  rw [admit_made hm]
  simp only [checkSignature, formMime_none hm hf, presignedQuery_none hm h.query, checkHeaderAuth_none hm h.header, checkAnonymous]

/-- … and InvalidRequest for a form upload. -/
theorem C36_form_invalid (cfg : Cfg) (ext : Ext) (lib : Lib) (p : Provider) (env : Env) (r : Req) (h : Unsigned lib r)
    (hw : WellFormed lib r) (hp : r.method = b!"POST") {v : Bytes} {m : Mime}
    (hv : OnlyHeader r b!"content-type" v) (hl : lib.mime v = some m) (hf : m.isFormData = true) :
    handle cfg ext lib (some p) env r = .fail .InvalidRequest := by
  obtain ⟨c, hm⟩ := made_of_wellFormed hw
  have hmime := formMime_only hm hp hv hl hf
  apply handle_error
  rw [admit_made hm]
  simp only [checkSignature, hmime, checkPostSignature, orErr, except_ok_bind]
  cases hb : m.boundary with
  | none => rfl
  | some b =>
    simp only [except_ok_bind]
    cases ht : transformMultipart b c.body with
    | error e => rfl
    | ok f =>
      simp only [formOr, except_ok_bind]
      have : findInfo f.fields = none := by
        cases hi : findInfo f.fields with
        | none => rfl
        | some i =>
          obtain ⟨_, _, _, _, h5⟩ := findInfo_some.mp hi
          obtain ⟨x, n, y, e1, e2, _⟩ := ((C53_field_lookup f.fields _).1 _).mp h5
          refine absurd e2 (h.form f ⟨b, ?_, ?_⟩ (n, i.signature) (by rw [e1]; simp))
          · rw [← hb]; exact formMime_some hm hmime
          · rw [← hm.body]; exact ht
      simp only [checkPostForm, this, orErr, except_error_bind]

/-- the cases occur: a plain GET … -/
example : Unsigned Sample.lib Sample.anonymousGet ∧ WellFormed Sample.lib Sample.anonymousGet ∧
    ∀ b, ¬ IsForm Sample.lib Sample.anonymousGet b := by
  have hf : ∀ b, ¬ IsForm Sample.lib Sample.anonymousGet b := fun b h => absurd h.1 (by decide +kernel)
  refine ⟨⟨?_, ?_, ?_⟩, ⟨⟨b!"/abc/k", .object b!"abc" b!"k", by decide +kernel, by decide +kernel⟩, ?_, ?_⟩, hf⟩
  · intro v hv; simp [Sample.anonymousGet] at hv
  · intro v hv; simp [Sample.anonymousGet, queryOf] at hv
  · rintro f ⟨b, h, _⟩; exact absurd h (hf _)
  · decide +kernel
  · intro v hv; simp [Sample.anonymousGet] at hv

/-- … and a form without signature. -/
example : OnlyHeader (Sample.formUpload [(b!"key", b!"k")]) b!"content-type" b!"multipart/form-data; boundary=B" ∧
    Sample.failsWith (handle Sample.cfg Sample.ext Sample.lib (some Sample.provider) Sample.env (Sample.formUpload [(b!"key", b!"k")]))
      .InvalidRequest = true := by
  refine ⟨⟨by simp [Sample.formUpload], ?_⟩, by decide +kernel⟩
  intro v hv; simpa [Sample.formUpload] using hv

/-! ### C37 -/

/-- **C37** With an authentication provider, a request that is not answered with an error at once (so every request that
makes a step in the file system) names an access key that the provider knows, and carries the SigV4 signature computed
with its secret over the request: in the `Authorization` header, in a presigned URL, or over the policy of a form. -/
theorem C37_only_signed (cfg : Cfg) (ext : Ext) (lib : Lib) (hc : CryptoLaw lib.crypto) (p : Provider) (env : Env) (r : Req)
    (h : ∀ e, handle cfg ext lib (some p) env r ≠ .fail e) :
    ∃ key secret, p key = .ok secret ∧ NamesKey lib r key ∧
      (HeaderSigned lib.crypto r (awsEncode true r.path) key secret ∨
       PresignedBy lib.crypto r (awsEncode true r.path) key secret ∨
       ∃ f, UploadsForm lib r f ∧ FormSigned lib.crypto f key secret) := by
  cases ha : admit lib (some p) r with
  | error e => exact absurd (handle_error ha) (h e)
  | ok c =>
    obtain ⟨key, secret, hk, hs⟩ := admit_signed hc ha
    refine ⟨key, secret, hk, ?_, ?_⟩
    · rcases hs with hs | hs | ⟨b, f, hf, ht, hs⟩
      · obtain ⟨v, a, _, _, _, _, _, h1, h2, h3, _⟩ := hs
        exact .inl ⟨v, a, h1, h2, h3⟩
      · obtain ⟨cred, cr, _, _, _, _, _, _, h1, h3⟩ := hs
        exact .inr (.inl ⟨cred, cr, h1.hasCred, h1.parsed, h3⟩)
      · obtain ⟨_, cred, cr, rest, _, _, _, h1, h2, h3, _⟩ := hs
        exact .inr (.inr ⟨f, cred, cr, rest, ⟨b, hf, ht⟩, h1, h2, h3⟩)
    · rcases hs with hs | hs | ⟨b, f, hf, ht, hs⟩
      · exact .inl hs
      · exact .inr (.inl hs)
      · exact .inr (.inr ⟨f, ⟨b, hf, ht⟩, hs⟩)

/-- **C37** for the first step in the file system -/
theorem C37_step_signed (cfg : Cfg) (ext : Ext) (lib : Lib) (hc : CryptoLaw lib.crypto) (p : Provider) (env : Env) (r : Req)
    (c : Call) (k : Resp c → Prog Reply) (h : handle cfg ext lib (some p) env r = .sys c k) :
    ∃ key secret, p key = .ok secret ∧ NamesKey lib r key ∧
      (HeaderSigned lib.crypto r (awsEncode true r.path) key secret ∨
       PresignedBy lib.crypto r (awsEncode true r.path) key secret ∨
       ∃ f, UploadsForm lib r f ∧ FormSigned lib.crypto f key secret) :=
  C37_only_signed cfg ext lib hc p env r (by rw [h]; intro e he; cases he)

/-- does the program begin with a step in the file system? -/
def Sample.steps (p : Prog Reply) : Bool := match p with
  | .sys _ _ => true
  | _ => false

/-- all three ways lead to the file system -/
example : CryptoLaw Sample.lib.crypto ∧
    Sample.steps (handle Sample.cfg Sample.ext Sample.lib (some Sample.provider) Sample.env Sample.signedPut) = true ∧
    Sample.steps (handle Sample.cfg Sample.ext Sample.lib (some Sample.provider) Sample.env Sample.presignedGet) = true ∧
    Sample.steps (handle Sample.cfg Sample.ext Sample.lib (some Sample.provider) Sample.env
      (Sample.formUpload (Sample.formFields b!"cG9saWN5" b!"k"))) = true :=
  ⟨Sample.cryptoLaw, by decide +kernel, by decide +kernel, by decide +kernel⟩

/-! ### C41 -/

/-- **C41** A request that names no access key known to the provider is answered with an error at once. -/
theorem C41_unknown_key (cfg : Cfg) (ext : Ext) (lib : Lib) (hc : CryptoLaw lib.crypto) (p : Provider) (env : Env) (r : Req)
    (h : ∀ key, NamesKey lib r key → ∀ secret, p key ≠ .ok secret) : ∃ e, handle cfg ext lib (some p) env r = .fail e := by
  refine Classical.byContradiction fun hn => ?_
  obtain ⟨key, secret, hk, hnk, _⟩ := C37_only_signed cfg ext lib hc p env r (fun e he => hn ⟨e, he⟩)
  exact h key hnk secret hk

/-- **C41** (which error, header) Signed in the header with an unknown key: NotSignedUp. -/
theorem C41_header_not_signed_up (cfg : Cfg) (ext : Ext) (lib : Lib) (p : Provider) (env : Env) (r : Req) (hw : WellFormed lib r)
    (hf : ∀ b, ¬ IsForm lib r b) (hq : ∀ v, (b!"X-Amz-Signature", v) ∉ queryOf r)
    {v d : Bytes} {a : Authorization} {x : AmzContentSha256}
    (hv : OnlyHeader r b!"authorization" v) (ha : Authorization.fromHeaderStr v = some a)
    (hd : OnlyHeader r b!"x-amz-content-sha256" d) (hx : AmzContentSha256.fromHeaderStr d = some x)
    (hp : p a.credential.accessKeyId = .error .notSignedUp) : handle cfg ext lib (some p) env r = .fail .NotSignedUp := by
  obtain ⟨c, hm⟩ := made_of_wellFormed hw
  apply handle_error
  rw [admit_made hm]
  have hs : extractSha c.headers = .ok (some x) := extractSha_ok.mpr ⟨d, made_header_only hm hd, hx⟩
  simp only [checkSignature, formMime_none hm hf, presignedQuery_none hm hq, checkHeaderAuth_some hm hv ha, checkAuthorization, orErr,
    except_ok_bind, hs, fetchSecretKey, hp, except_error_bind]

/-- **C41** (which error, presigned URL) -/
theorem C41_presigned_not_signed_up (cfg : Cfg) (ext : Ext) (lib : Lib) (p : Provider) (env : Env) (r : Req) (hw : WellFormed lib r)
    (hf : ∀ b, ¬ IsForm lib r b) (hs : ∀ v, (b!"x-amz-content-sha256", v) ∉ r.headers) {u : PresignedUrl}
    (hu : PresignedUrl.fromQuery (sortPairs (queryOf r)) = some u)
    (hp : p u.credential.accessKeyId = .error .notSignedUp) : handle cfg ext lib (some p) env r = .fail .NotSignedUp := by
  obtain ⟨c, hm⟩ := made_of_wellFormed hw
  apply handle_error
  rw [admit_made hm]
  obtain ⟨cred, ts, ex, names, hparts⟩ := presigned_parts.mp hu
  have hq := presignedQuery_only hm (hm.qs_mem hparts.signature)
  have hsha : extractSha c.headers = .ok none := by
    have : orderedGet c.headers b!"x-amz-content-sha256" = none := hm.header_none.mpr hs
    simp only [extractSha, this, extractOpt]
  simp only [checkSignature, formMime_none hm hf, hq, checkPresignedUrl, hu, orErr, except_ok_bind, hsha, fetchSecretKey, hp, except_error_bind]

/-- **C41** (which error, form) -/
theorem C41_form_not_signed_up (cfg : Cfg) (ext : Ext) (lib : Lib) (p : Provider) (env : Env) (r : Req) (hw : WellFormed lib r)
    (hpost : r.method = b!"POST") {v boundary : Bytes} {m : Mime} {f : Form} {data cred ts sig : Bytes} {credential : Credential}
    {rest : Bytes} {date : AmzDate}
    (hv : OnlyHeader r b!"content-type" v) (hl : lib.mime v = some m) (hf : m.isFormData = true) (hb : m.boundary = some boundary)
    (ht : transformMultipart boundary r.body = .ok f)
    (h1 : LastField f.fields b!"policy" (base64Text data))
    (h2 : LastField f.fields b!"x-amz-algorithm" b!"AWS4-HMAC-SHA256") (h3 : LastField f.fields b!"x-amz-credential" cred)
    (hcred : Credential.parse cred = some (credential, rest)) (h4 : LastField f.fields b!"x-amz-date" ts)
    (hdate : AmzDate.fromHeaderStr ts = some date) (h5 : LastField f.fields b!"x-amz-signature" sig)
    (hp : p credential.accessKeyId = .error .notSignedUp) : handle cfg ext lib (some p) env r = .fail .NotSignedUp := by
  obtain ⟨c, hm⟩ := made_of_wellFormed hw
  apply handle_error
  rw [admit_made hm]
  have look : ∀ {n v}, LastField f.fields n v → findField f.fields n = some v := fun hv => ((C53_field_lookup f.fields _).1 _).mpr hv
  have hi : findInfo f.fields = some ⟨base64Text data, b!"AWS4-HMAC-SHA256", cred, ts, sig⟩ :=
    findInfo_some.mpr ⟨look h1, look h2, look h3, look h4, look h5⟩
  rw [← hm.body] at ht
  simp only [checkSignature, formMime_only hm hpost hv hl hf, checkPostSignature, orErr, except_ok_bind, hb, ht, formOr, checkPostForm, hi,
    isBase64_text, ensure, if_true, hcred, hdate, fetchSecretKey, hp, except_error_bind, beq_self_eq_true]

/-- the answers occur -/
example :
    Sample.failsWith (handle Sample.cfg Sample.ext Sample.lib (some fun _ => .error .notSignedUp) Sample.env Sample.signedPut) .NotSignedUp = true ∧
    Sample.failsWith (handle Sample.cfg Sample.ext Sample.lib (some fun _ => .error .notSignedUp) Sample.env Sample.presignedGet) .NotSignedUp = true ∧
    Sample.failsWith (handle Sample.cfg Sample.ext Sample.lib (some fun _ => .error .notSignedUp) Sample.env
      (Sample.formUpload (Sample.formFields b!"cG9saWN5" b!"k"))) .NotSignedUp = true :=
  ⟨by decide +kernel, by decide +kernel, by decide +kernel⟩

/-! ### C98 -/

/-- **C98** A form upload is served only if its policy field is the base64 text of some data. -/
theorem C98_policy (cfg : Cfg) (ext : Ext) (lib : Lib) (p : Option Provider) (env : Env) (r : Req) (hpost : r.method = b!"POST")
    {v boundary : Bytes} {m : Mime} {f : Form} (hv : OnlyHeader r b!"content-type" v) (hl : lib.mime v = some m)
    (hf : m.isFormData = true) (hb : m.boundary = some boundary) (ht : transformMultipart boundary r.body = .ok f)
    (h : ∀ e, handle cfg ext lib p env r ≠ .fail e) : ∃ data, LastField f.fields b!"policy" (base64Text data) := by
  cases ha : admit lib p r with
  | error e => exact absurd (handle_error ha) (h e)
  | ok c' =>
    obtain ⟨c, hm, hc⟩ := admit_ok.mp ha
    simp only [checkSignature, formMime_only hm hpost hv hl hf] at hc
    obtain ⟨p', b, f', _, hb', ht', hck, _⟩ := checkPostSignature_ok.mp hc
    rw [hb] at hb'
    cases hb'
    rw [hm.body, ht] at ht'
    cases ht'
    obtain ⟨i, cred, rest, date, secret, ok⟩ := checkPostForm_ok.mp hck
    obtain ⟨data, hd⟩ := isBase64_iff.mp ok.policy
    refine ⟨data, ?_⟩
    rw [← hd]
    exact ((C53_field_lookup f.fields _).1 _).mp (findInfo_some.mp ok.info).1

/-- **C98** A form upload whose policy field is not base64 text is answered InvalidRequest. -/
theorem C98_refused (cfg : Cfg) (ext : Ext) (lib : Lib) (p : Provider) (env : Env) (r : Req) (hw : WellFormed lib r)
    (hpost : r.method = b!"POST") {v boundary policy : Bytes} {m : Mime} {f : Form}
    (hv : OnlyHeader r b!"content-type" v) (hl : lib.mime v = some m) (hf : m.isFormData = true) (hb : m.boundary = some boundary)
    (ht : transformMultipart boundary r.body = .ok f) (h1 : LastField f.fields b!"policy" policy)
    (hbase : ∀ data, policy ≠ base64Text data) : handle cfg ext lib (some p) env r = .fail .InvalidRequest := by
  obtain ⟨c, hm⟩ := made_of_wellFormed hw
  apply handle_error
  rw [admit_made hm]
  have hpol : findField f.fields b!"policy" = some policy := ((C53_field_lookup f.fields _).1 _).mpr h1
  have hnb : isBase64 policy = false := by
    cases hx : isBase64 policy with
    | false => rfl
    | true => obtain ⟨d, hd⟩ := isBase64_iff.mp hx; exact absurd hd (hbase d)
  rw [← hm.body] at ht
  simp only [checkSignature, formMime_only hm hpost hv hl hf, checkPostSignature, orErr, except_ok_bind, hb, ht, formOr, checkPostForm]
  cases hi : findInfo f.fields with
  | none => rfl
  | some i =>
    have := (findInfo_some.mp hi).1
    rw [hpol] at this
    cases this
    simp only [except_ok_bind, ensure, hnb]
    rfl

example : base64Text b!"policy" = b!"cG9saWN5" ∧ base64Text b!"polic" = b!"cG9saWM=" ∧ (∀ data, b!"cG9saWM" ≠ base64Text data) ∧
    (∀ data, b!"cG9saWN=" ≠ base64Text data) ∧
    Sample.steps (handle Sample.cfg Sample.ext Sample.lib (some Sample.provider) Sample.env
      (Sample.formUpload (Sample.formFields b!"cG9saWN5" b!"k"))) = true ∧
    Sample.failsWith (handle Sample.cfg Sample.ext Sample.lib (some Sample.provider) Sample.env
      (Sample.formUpload (Sample.formFields b!"cG9saWN=" b!"k"))) .InvalidRequest = true :=
  ⟨by decide +kernel, by decide +kernel, fun data h => absurd (isBase64_iff.mpr ⟨data, h⟩) (by decide +kernel),
    fun data h => absurd (isBase64_iff.mpr ⟨data, h⟩) (by decide +kernel), by decide +kernel, by decide +kernel⟩

/-! ### C42 -/

/-- **C42** Without a provider a request that carries no credentials goes on unchanged to its operation. -/
theorem C42_unsigned_served (cfg : Cfg) (ext : Ext) (lib : Lib) (env : Env) (r : Req) (hw : WellFormed lib r)
    (hf : ∀ b, ¬ IsForm lib r b) (hq : ∀ v, (b!"X-Amz-Signature", v) ∉ queryOf r) (hh : ∀ v, (b!"authorization", v) ∉ r.headers) :
    ∃ c, makeCtx lib r = .ok c ∧ handle cfg ext lib none env r = dispatch cfg ext lib env c := by
  obtain ⟨c, hm⟩ := made_of_wellFormed hw
  refine ⟨c, makeCtx_ok.mpr hm, handle_ok ?_⟩
  rw [admit_made hm]
  simp only [checkSignature, formMime_none hm hf, presignedQuery_none hm hq, checkHeaderAuth_none hm hh, checkAnonymous]

/-- **C42** Without a provider a request that carries credentials is answered with an error at once: … -/
theorem C42_credentials_refused (cfg : Cfg) (ext : Ext) (lib : Lib) (env : Env) (r : Req)
    (h : (∃ v, (b!"authorization", v) ∈ r.headers) ∨ ∃ v, (b!"X-Amz-Signature", v) ∈ queryOf r) :
    ∃ e, handle cfg ext lib none env r = .fail e := by
  cases ha : admit lib none r with
  | error e => exact ⟨e, handle_error ha⟩
  | ok c' =>
    exfalso
    obtain ⟨c, hm, hc⟩ := admit_ok.mp ha
    simp only [checkSignature] at hc
    split at hc
    · obtain ⟨p', b, f, e, _⟩ := checkPostSignature_ok.mp hc
      cases e
    · split at hc
      · obtain ⟨_, _, _, _, _, _, e, _⟩ := checkPresignedUrl_ok.mp hc
        cases e
      · rename_i hn
        rcases h with ⟨v, hv⟩ | ⟨v, hv⟩
        · rcases checkHeaderAuth_ok.mp hc with ⟨hno, _, _⟩ | ⟨_, _, _, _, hx⟩
          · exact hm.header_none.mp hno v hv
          · obtain ⟨_, _, _, _, _, _, _, e, _⟩ := checkAuthorization_ok.mp hx
            cases e
        · rw [presignedQuery_only hm hv] at hn
          cases hn

/-- … NotSupported, if the `Authorization` header is well formed, … -/
theorem C42_header_not_supported (cfg : Cfg) (ext : Ext) (lib : Lib) (env : Env) (r : Req) (hw : WellFormed lib r)
    (hf : ∀ b, ¬ IsForm lib r b) (hq : ∀ v, (b!"X-Amz-Signature", v) ∉ queryOf r) {v : Bytes} {a : Authorization}
    (hv : OnlyHeader r b!"authorization" v) (ha : Authorization.fromHeaderStr v = some a) :
    handle cfg ext lib none env r = .fail .NotSupported := by
  obtain ⟨c, hm⟩ := made_of_wellFormed hw
  apply handle_error
  rw [admit_made hm]
  simp only [checkSignature, formMime_none hm hf, presignedQuery_none hm hq, checkHeaderAuth_some hm hv ha, checkAuthorization, orErr,
    except_error_bind]

/-- … if the presigned URL is well formed, … -/
theorem C42_presigned_not_supported (cfg : Cfg) (ext : Ext) (lib : Lib) (env : Env) (r : Req) (hw : WellFormed lib r)
    (hf : ∀ b, ¬ IsForm lib r b) (hs : ∀ v, (b!"x-amz-content-sha256", v) ∉ r.headers) {u : PresignedUrl}
    (hu : PresignedUrl.fromQuery (sortPairs (queryOf r)) = some u) : handle cfg ext lib none env r = .fail .NotSupported := by
  obtain ⟨c, hm⟩ := made_of_wellFormed hw
  apply handle_error
  rw [admit_made hm]
  obtain ⟨cred, ts, ex, names, hparts⟩ := presigned_parts.mp hu
  have hq := presignedQuery_only hm (hm.qs_mem hparts.signature)
  have hsha : extractSha c.headers = .ok none := by
    have : orderedGet c.headers b!"x-amz-content-sha256" = none := hm.header_none.mpr hs
    simp only [extractSha, this, extractOpt]
  simp only [checkSignature, formMime_none hm hf, hq, checkPresignedUrl, hu, orErr, except_ok_bind, hsha, except_error_bind]

/-- … and for every form upload (signed or not). -/
theorem C42_form_not_supported (cfg : Cfg) (ext : Ext) (lib : Lib) (env : Env) (r : Req) (hw : WellFormed lib r)
    (hpost : r.method = b!"POST") {v : Bytes} {m : Mime}
    (hv : OnlyHeader r b!"content-type" v) (hl : lib.mime v = some m) (hf : m.isFormData = true) :
    handle cfg ext lib none env r = .fail .NotSupported := by
  obtain ⟨c, hm⟩ := made_of_wellFormed hw
  apply handle_error
  rw [admit_made hm]
  simp only [checkSignature, formMime_only hm hpost hv hl hf, checkPostSignature, orErr, except_error_bind]

/-- the cases occur -/
example :
    Sample.steps (handle Sample.cfg Sample.ext Sample.lib none Sample.env Sample.anonymousGet) = true ∧
    Sample.failsWith (handle Sample.cfg Sample.ext Sample.lib none Sample.env Sample.signedPut) .NotSupported = true ∧
    Sample.failsWith (handle Sample.cfg Sample.ext Sample.lib none Sample.env Sample.presignedGet) .NotSupported = true ∧
    Sample.failsWith (handle Sample.cfg Sample.ext Sample.lib none Sample.env (Sample.formUpload [])) .NotSupported = true :=
  ⟨by decide +kernel, by decide +kernel, by decide +kernel, by decide +kernel⟩

end S3
