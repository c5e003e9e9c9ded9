import Verif.Spec.Secret
import Verif.Props.Access
import Verif.Props.Chunked
import Verif.Props.Signature
/-! C113: the secrets of the users. -/
namespace S3
open Spec

theorem occurs_of {d a rest s : Bytes} (h : s = a ++ rest) (ho : Occurs d rest) : Occurs d s := by
  obtain ⟨x, y, e⟩ := ho
  exact ⟨a ++ x, y, by rw [h, e]; simp⟩

/-- the decoder of chunks asks only whether the signatures in the body are right -/
theorem decodeLoop_congr {sign sign' : Bytes → Bytes → Bytes} {whole : Bytes}
    (h : ∀ sg, Occurs sg whole → ∀ a d, sign a d = sg ↔ sign' a d = sg) (fuel : Nat) (seed prev : Bytes) (body : Body)
    (hw : ∃ a, whole = a ++ (prev ++ received body)) :
    decodeLoop sign fuel seed prev body = decodeLoop sign' fuel seed prev body := by
  induction fuel generalizing seed prev body with
  | zero => rfl
  | succ n ih =>
    obtain ⟨a, hw⟩ := hw
    simp only [decodeLoop]
    have h1 := readMeta_flat [] prev body
    cases hsp : splitLine (prev ++ received body) with
    | none => rw [h1.2 hsp, endOf]; cases broken body <;> rfl
    | some lr =>
      obtain ⟨l, r⟩ := lr
      obtain ⟨prev', body', e, hr, _⟩ := h1.1 l r hsp
      have hl := (splitLine_some hsp).1
      rw [e]
      simp only [List.nil_append]
      cases hp : parseChunkMeta l with
      | none => rfl
      | some ns =>
        obtain ⟨size, sg⟩ := ns
        have h2 := readData_flat size prev' body'
        obtain ⟨t, ht, _⟩ := parseChunkMeta_some.mp hp
        have hocc : Occurs sg whole := by
          refine occurs_of hw ?_
          rw [hl, ht]
          exact ⟨t ++ b!";chunk-signature=", b!"\r\n" ++ r, by simp [chunkHeader]⟩
        simp only
        cases hd : dataOf size (prev' ++ received body') with
        | none => rw [h2.2.2 hd, endOf]; cases broken body' <;> rfl
        | some x =>
          cases x with
          | none => rw [h2.2.1 hd]
          | some dr =>
            obtain ⟨d, r'⟩ := dr
            obtain ⟨ps, prev'', body'', e', hps, hr', _⟩ := h2.1 d r' hd
            have hsplit := (dataOf_some.mp hd).2
            rw [e']
            simp only
            by_cases hs : sign seed ps.flatten = sg
            · have hs' := (h sg hocc _ _).mp hs
              rw [if_pos hs, if_pos hs', hs, hs']
              rw [ih sg prev'' body'' ⟨a ++ l ++ d ++ b!"\r\n", by rw [hw, hl, ← hr, hsplit, hr']; simp⟩]
            · rw [if_neg hs, if_neg fun hs' => hs ((h sg hocc _ _).mpr hs')]

theorem fetch_congr {lib : Lib} {r : Req} {p p' : Provider} (h : SameVerdicts lib r p p') {key : Bytes} (hk : NamesKey lib r key) :
    (∃ e, fetchSecretKey p key = .error e ∧ fetchSecretKey p' key = .error e) ∨
    ∃ s s', p key = .ok s ∧ p' key = .ok s' ∧ fetchSecretKey p key = .ok s ∧ fetchSecretKey p' key = .ok s' := by
  cases e : p key with
  | error x =>
    have e' := (h.unknown key hk x).mp e
    simp only [fetchSecretKey, e, e']
    cases x with
    | notSignedUp => exact .inl ⟨_, rfl, rfl⟩
    | other y => exact .inl ⟨_, rfl, rfl⟩
  | ok s =>
    cases e' : p' key with
    | error x => rw [(h.unknown key hk x).mpr e'] at e; cases e
    | ok s' => exact .inr ⟨s, s', rfl, rfl, by simp [fetchSecretKey, e], by simp [fetchSecretKey, e']⟩

theorem ensure_congr {α : Type} {b b' : Bool} {e : S3ErrorCode} {x x' : Except S3ErrorCode α} (h : b = b') (hx : b = true → x = x') :
    (ensure e b >>= fun _ => x) = (ensure e b' >>= fun _ => x') := by
  subst h
  cases b
  · rfl
  · rw [hx rfl]

theorem postForm_congr {lib : Lib} {r : Req} {p p' : Provider} (h : SameVerdicts lib r p p') {f : Form} (hf : UploadsForm lib r f) :
    checkPostForm lib p f = checkPostForm lib p' f := by
  simp only [checkPostForm]
  cases hi : findInfo f.fields with
  | none => rfl
  | some info =>
    simp only [orErr, except_ok_bind]
    refine ensure_congr rfl fun _ => ensure_congr rfl fun _ => ?_
    obtain ⟨_, _, k3, _, k5⟩ := findInfo_some.mp hi
    cases hcr : Credential.parse info.credential with
    | none => rfl
    | some cr =>
      cases hd : AmzDate.fromHeaderStr info.date with
      | none => rfl
      | some date =>
        simp only [except_ok_bind]
        have hk : NamesKey lib r cr.1.accessKeyId :=
          .inr (.inr ⟨f, _, cr.1, cr.2, hf, ((C53_field_lookup _ _).1 _).mp k3, hcr, rfl⟩)
        rcases fetch_congr h hk with ⟨e, e1, e2⟩ | ⟨s, s', h1, h2, e1, e2⟩
        · rw [e1, e2]
        · rw [e1, e2]
          simp only [except_ok_bind]
          congr 1
          rw [Bool.eq_iff_iff, beq_iff_eq, beq_iff_eq, calculateSignature_eq hd, calculateSignature_eq hd]
          exact h.verdict _ hk _ _ h1 h2 _ (.field hf (((C53_field_lookup _ _).1 _).mp k5)) _ _ _

theorem presigned_congr {lib : Lib} {r : Req} {p p' : Provider} (h : SameVerdicts lib r p p') {c : Ctx} (hm : MadeCtx lib r c) :
    checkPresignedUrl lib (some p) (sortPairs (queryOf r)) c = checkPresignedUrl lib (some p') (sortPairs (queryOf r)) c := by
  simp only [checkPresignedUrl]
  cases hu : PresignedUrl.fromQuery (sortPairs (queryOf r)) with
  | none => rfl
  | some u =>
    simp only [orErr, except_ok_bind]
    cases extractSha c.headers with
    | error e => rfl
    | ok x =>
      obtain ⟨cred, ts, ex, names, hp⟩ := presigned_parts.mp hu
      have hk : NamesKey lib r u.credential.accessKeyId := .inr (.inl ⟨cred, _, hm.qs_mem hp.credential, hp.credentialOk, rfl⟩)
      simp only [except_ok_bind]
      rcases fetch_congr h hk with ⟨e, e1, e2⟩ | ⟨s, s', h1, h2, e1, e2⟩
      · rw [e1, e2]
      · rw [e1, e2]
        simp only [except_ok_bind]
        refine ensure_congr ?_ fun _ => rfl
        simp only [presignedSignature]
        rw [Bool.eq_iff_iff, beq_iff_eq, beq_iff_eq, calculateSignature_eq hp.dateOk, calculateSignature_eq hp.dateOk]
        exact h.verdict _ hk _ _ h1 h2 _ (.query (hm.qs_mem hp.signature)) _ _ _

theorem authorization_congr {lib : Lib} {r : Req} {p p' : Provider} (h : SameVerdicts lib r p p') {c : Ctx} (hm : MadeCtx lib r c)
    {v : Bytes} {a : Authorization} (hv : (b!"authorization", v) ∈ r.headers) (ha : Authorization.fromHeaderStr v = some a) :
    checkAuthorization lib (some p) a c = checkAuthorization lib (some p') a c := by
  simp only [checkAuthorization, orErr, except_ok_bind]
  cases extractSha c.headers with
  | error e => rfl
  | ok x =>
    cases x with
    | none => rfl
    | some sha =>
      have hk : NamesKey lib r a.credential.accessKeyId := .inl ⟨v, a, hv, ha, rfl⟩
      simp only [except_ok_bind]
      rcases fetch_congr h hk with ⟨e, e1, e2⟩ | ⟨s, s', h1, h2, e1, e2⟩
      · rw [e1, e2]
      · rw [e1, e2]
        simp only [except_ok_bind]
        cases hd : extractDate c.headers with
        | error e => rfl
        | ok d =>
          cases d with
          | none => rfl
          | some date =>
            simp only [except_ok_bind]
            obtain ⟨ts, hts⟩ : ∃ ts, AmzDate.fromHeaderStr ts = some date := by
              simp only [extractDate, extractOpt] at hd
              split at hd
              · cases hd
              · split at hd
                · cases hd
                · rename_i y _ x hx; cases hd; exact ⟨_, hx⟩
            cases hb : headerPayload sha c.body with
            | error e => rfl
            | ok pb =>
              simp only [except_ok_bind]
              have hsig : headerSignature lib.crypto c a date pb.1 s = a.signature ↔ headerSignature lib.crypto c a date pb.1 s' = a.signature := by
                simp only [headerSignature]
                rw [calculateSignature_eq hts, calculateSignature_eq hts]
                exact h.verdict _ hk _ _ h1 h2 _ (.header hv ha) _ _ _
              refine ensure_congr (by rw [Bool.eq_iff_iff, beq_iff_eq, beq_iff_eq]; exact hsig) fun hok => ?_
              rw [beq_iff_eq] at hok
              rw [hok, hsig.mp hok]
              simp only [checkedBody]
              by_cases hsha : sha = .multipleChunks
              · have hpb : pb.2 = r.body := by
                  simp only [headerPayload, if_pos hsha, Except.ok.injEq] at hb
                  rw [← hb, hm.body]
                rw [if_pos hsha, if_pos hsha, hpb]
                simp only [decodeChunked]
                rw [decodeLoop_congr (whole := received r.body) (fun sg ho x d => ?_) _ _ _ _ ⟨[], rfl⟩]
                simp only [chunkSignature]
                rw [calculateSignature_eq hts, calculateSignature_eq hts]
                exact h.verdict _ hk _ _ h1 h2 _ (.chunk ho) _ _ _
              · rw [if_neg hsha, if_neg hsha]

/-- **C113** The server's behaviour depends on the secrets of its users only through the question whether texts that the client has
put into the request are correct signatures: if two providers differ in secrets only, and no text that the request offers as a
signature is one under the one secret and not under the other, then the request is answered in the same way, with the same effects. -/
theorem C113_secrets (cfg : Cfg) (ext : Ext) (lib : Lib) (p p' : Provider) (env : Env) (r : Req) (h : SameVerdicts lib r p p') :
    handle cfg ext lib (some p) env r = handle cfg ext lib (some p') env r := by
  have : admit lib (some p) r = admit lib (some p') r := by
    cases hc : makeCtx lib r with
    | error e => simp only [admit, hc, except_error_bind]
    | ok c =>
      have hm := makeCtx_ok.mp hc
      rw [admit_made hm, admit_made hm, checkSignature, checkSignature]
      cases hf : c.formMime with
      | some mime =>
        simp only [checkPostSignature, orErr, except_ok_bind]
        cases hb : mime.boundary with
        | none => rfl
        | some boundary =>
          simp only [except_ok_bind]
          cases ht : transformMultipart boundary c.body with
          | error e => rfl
          | ok f =>
            simp only [formOr, except_ok_bind]
            rw [postForm_congr h ⟨boundary, hb ▸ formMime_some hm hf, hm.body ▸ ht⟩]
      | none =>
        simp only
        cases hq : c.presignedQuery with
        | some qs =>
          obtain ⟨hq, _⟩ := Option.filter_eq_some_iff.mp hq
          rw [hm.qs_sort hq]
          exact presigned_congr h hm
        | none =>
          simp only [checkHeaderAuth]
          cases ha : extractAuthorization c.headers with
          | error e => rfl
          | ok a =>
            cases a with
            | none => rfl
            | some a =>
              simp only [extractAuthorization, extractOpt] at ha
              split at ha
              · cases ha
              · rename_i v hv
                split at ha
                · cases ha
                · rename_i x hx
                  cases ha
                  exact authorization_congr h hm (hm.header_mem hv) hx
  simp only [handle, this]

/-- **C113** The secrets of users whom the request does not name do not count at all. -/
theorem C113_other_users (cfg : Cfg) (ext : Ext) (lib : Lib) (p p' : Provider) (env : Env) (r : Req)
    (h : ∀ key, NamesKey lib r key → p key = p' key) :
    handle cfg ext lib (some p) env r = handle cfg ext lib (some p') env r := by
  refine C113_secrets cfg ext lib p p' env r ⟨fun key hk e => by rw [h key hk], fun key hk s s' hs hs' => ?_⟩
  rw [h key hk, hs'] at hs
  cases hs
  exact fun _ _ _ _ _ => Iff.rfl

/-! ### samples -/

/-- `GET /abc/k` with a wrong signature -/
def Sample.wrongGet : Req :=
  { method := b!"GET", path := b!"/abc/k", query := none, body := []
    headers := [(b!"authorization", b!"AWS4-HMAC-SHA256 Credential=AK/20130524/us-east-1/s3/aws4_request, SignedHeaders=host, Signature=00"),
      (b!"host", b!"h"), (b!"x-amz-content-sha256", b!"UNSIGNED-PAYLOAD"), (b!"x-amz-date", Sample.stamp)] }

/-- the same user with another secret -/
def Sample.provider' : Provider := fun k => if k = b!"AK" then .ok b!"another" else .error .notSignedUp

/-- two providers with different secrets, and a request whose signature is wrong under both: it reaches the comparison of the signatures,
and the answer is the same -/
example : Sample.provider b!"AK" ≠ Sample.provider' b!"AK" ∧ SameVerdicts Sample.lib Sample.wrongGet Sample.provider Sample.provider' ∧
    handle Sample.cfg Sample.ext Sample.lib (some Sample.provider) Sample.env Sample.wrongGet = .fail .SignatureDoesNotMatch := by
  refine ⟨by decide, ⟨?_, ?_⟩, Sample.failsWith_iff.mp (by decide +kernel)⟩
  · intro key _ e
    simp only [Sample.provider, Sample.provider']
    split <;> simp
  · intro key _ s s' _ _ sig hsig ts region text
    have len : ∀ s, (sigv4 Sample.lib.crypto s ts region text).length = 64 := fun s => by
      rw [sigv4, hexText_length]; exact congrArg (2 * ·) (Sample.cryptoLaw.hmac_length _ _)
    suffices sig.length ≠ 64 by
      exact ⟨fun h => absurd (by rw [← h]; exact len s) this, fun h => absurd (by rw [← h]; exact len s') this⟩
    cases hsig with
    | @header v a hv ha =>
      have hv' : v = b!"AWS4-HMAC-SHA256 Credential=AK/20130524/us-east-1/s3/aws4_request, SignedHeaders=host, Signature=00" :=
        (Sample.only_header (r := Sample.wrongGet) (by decide +kernel) (by decide +kernel)).2 v hv
      have : (Authorization.fromHeaderStr v).map (·.signature) = some b!"00" := by rw [hv']; decide +kernel
      rw [ha] at this
      injection this with this
      rw [show a.signature = b!"00" from this]; decide
    | query h => cases h
    | field h _ => obtain ⟨_, h, _⟩ := h; exact absurd h.1 (by decide)
    | chunk h =>
      obtain ⟨a, rest, e⟩ := h
      have : sig = [] := by
        have := congrArg List.length e
        simp only [Sample.wrongGet, received, List.length_append, List.length_nil] at this
        exact List.length_eq_zero_iff.mp (by omega)
      rw [this]; decide

/-- a signed request is served whatever the secrets of other users are -/
example : (∀ key, NamesKey Sample.lib Sample.signedPut key → Sample.provider key = (fun k => if k = b!"BK" then .ok b!"secret" else Sample.provider k : Provider) key) ∧
    ∀ e, handle Sample.cfg Sample.ext Sample.lib (some Sample.provider) Sample.env Sample.signedPut ≠ .fail e := by
  refine ⟨fun key hk => ?_, Sample.not_fail (by decide +kernel)⟩
  have : key = b!"AK" := by
    rcases hk with ⟨v, a, hv, ha, e⟩ | ⟨v, c, hv, _⟩ | ⟨f, v, c, rest, ⟨b, hb, _⟩, _⟩
    · have hx : (Sample.signedPut.headers.all fun q => decide (q.1 = b!"authorization" →
          (Authorization.fromHeaderStr q.2).map (·.credential.accessKeyId) = some b!"AK")) = true := by decide +kernel
      have := of_decide_eq_true (List.all_eq_true.mp hx (b!"authorization", v) hv) rfl
      simp only [ha, Option.map_some, Option.some.injEq] at this
      rw [← e, this]
    · cases hv
    · exact absurd hb.1 (by decide)
  rw [this]
  rfl

end S3
