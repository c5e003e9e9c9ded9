import Verif.Lemmas.Streaming
import Verif.Props.Response
/-!
Property theorems C77 to C79: uploads from the bytes on the wire to the stored object.
-/
namespace S3
open Spec

section
variable {cfg : Cfg} {ext : Ext} {lib : Lib} {auth : Option Provider} {env : Env}

/-- an upload that was answered 200 -/
theorem put_response {r : Req} {c : Ctx} (h : admit lib auth r = .ok c) {i : PutInput} (hr : Requests lib env r c.body (.putObject i)) (hi : ObjectPut i)
    {fs : FS} (hw : WF fs) {x : Texts} {res : Response} (ok : responded cfg ext lib auth env x r fs = .ok res) (hst : res.status = 200) :
    ∃ body, i.body = some body ∧ unbroken body ∧ stored cfg (afterResponded cfg ext lib auth env x r fs) i.bucket i.key = some (received body) ∧
      ∀ v, (b!"etag", v) ∈ res.headers ↔ v = quoted (ext.md5hex (received body)) := by
  obtain ⟨a, ha⟩ := answer_of_ok h hr ok hst
  obtain ⟨p1, _, p3⟩ := responded_of (cfg := cfg) (ext := ext) h hr x fs
  obtain ⟨e, rfl, hd⟩ := put_done hi hw ha
  obtain ⟨body, hb, hu, hs, he⟩ := hd.body
  have hput := p3 _ ha none rfl (by simp) _ rfl
  rw [ok] at hput
  have hres := Outcome.ok.inj hput
  refine ⟨body, hb, hu, by rw [p1]; exact hs, fun v => ?_⟩
  rw [hres, he]
  simp [answerHeaders, Op.handler, optHeader, metaHeaders]

/-! ### C77: uploads in signed chunks -/

/-- **C77** An upload in chunks signed by the AWS rules from the signature of the request is handed on as the joined data of the chunks. -/
theorem C77_chunks_decoded (hc : CryptoLaw lib.crypto) {p : Provider} {r : Req} {c : Ctx} (h : admit lib (some p) r = .ok c)
    {a : Authorization} {ts secret : Bytes} (hs : Streaming lib r a ts) (hk : p a.credential.accessKeyId = .ok secret)
    {cs : List (Bytes × Bytes)} {z : Bytes} (hz : SizeText z 0) (hsz : ∀ e ∈ cs, SizeText e.1 e.2.length) (hu : unbroken r.body)
    (hb : received r.body = signedFrames (awsChunkSignature lib.crypto secret ts a.credential.region) a.signature (cs ++ [(z, [])])) :
    Text c.body (chunkData cs) := by
  obtain ⟨secret', _, _, hk', _, hbody⟩ := admit_streaming hc h hs
  rw [hk] at hk'
  cases hk'
  obtain ⟨h1, h2⟩ := C48_round_trip (awsChunkSignature_shape hc secret ts a.credential.region) a.signature hsz hz hu hb
  rw [hbody]
  exact ⟨(unbroken_toBody _).mpr h2, (received_toBody _).trans h1⟩

/-- **C77** A PUT in signed chunks that is answered 200 stores the joined data of the chunks, and its `ETag` header is the MD5 of it. -/
theorem C77_streaming_put (hc : CryptoLaw lib.crypto) {p : Provider} {r : Req} {c : Ctx} (h : admit lib (some p) r = .ok c)
    {a : Authorization} {ts secret : Bytes} (hs : Streaming lib r a ts) (hk : p a.credential.accessKeyId = .ok secret)
    {cs : List (Bytes × Bytes)} {z : Bytes} (hz : SizeText z 0) (hsz : ∀ e ∈ cs, SizeText e.1 e.2.length) (hu : unbroken r.body)
    (hb : received r.body = signedFrames (awsChunkSignature lib.crypto secret ts a.credential.region) a.signature (cs ++ [(z, [])]))
    {i : PutInput} (hr : Requests lib env r c.body (.putObject i)) (hi : ObjectPut i)
    {fs : FS} (hw : WF fs) {x : Texts} {res : Response} (ok : responded cfg ext lib (some p) env x r fs = .ok res) (hst : res.status = 200) :
    stored cfg (afterResponded cfg ext lib (some p) env x r fs) i.bucket i.key = some (chunkData cs) ∧
    ∀ v, (b!"etag", v) ∈ res.headers ↔ v = quoted (ext.md5hex (chunkData cs)) := by
  have hbody : i.body = some c.body := by
    cases hr with
    | postObject _ _ _ hf => obtain ⟨b, hf, _⟩ := hf; exact absurd hf (hs.noForm _)
    | putObject => rfl
  have ht := C77_chunks_decoded hc h hs hk hz hsz hu hb
  obtain ⟨body, hb', _, h1, h2⟩ := put_response h hr hi hw ok hst
  rw [hbody] at hb'
  cases hb'
  rw [ht.2] at h1 h2
  exact ⟨h1, h2⟩

/-- **C77** A request signed by the AWS rules with its body in signed chunks is admitted (C38) and decoded. -/
theorem C77_accepted_partial (hc : CryptoLaw lib.crypto) (p : Provider) (r : Req) (hwf : WellFormed lib r) (hf : ∀ b, ¬ IsForm lib r b)
    (hq : ∀ v, (b!"X-Amz-Signature", v) ∉ queryOf r) {secret path value ts t : Bytes} {a : Authorization} {hs : List (Bytes × Bytes)}
    (h : AwsSigned lib.crypto r secret path value a ts b!"STREAMING-AWS4-HMAC-SHA256-PAYLOAD" hs t) (hp : p a.credential.accessKeyId = .ok secret)
    (plain : (37 : UInt8) ∉ r.path)
    (once : ∀ n ∈ a.signedHeaders, n ≠ b!"authorization" ∧ n ≠ b!"user-agent" ∧ ∃ v, (r.headers.filter fun q => decide (q.1 = n)) = [(n, v)])
    {cs : List (Bytes × Bytes)} {z : Bytes} (hz : SizeText z 0) (hsz : ∀ e ∈ cs, SizeText e.1 e.2.length)
    (hb : received r.body = signedFrames (awsChunkSignature lib.crypto secret ts a.credential.region) a.signature (cs ++ [(z, [])])) :
    ∃ c, admit lib (some p) r = .ok c ∧ Text c.body (chunkData cs) := by
  obtain ⟨c, hadm, _⟩ := C38_signed_accepted_partial lib hc p r hwf hf hq h hp plain once
  exact ⟨c, hadm, C77_chunks_decoded hc hadm ⟨hf, hq, ⟨value, h.hasAuthorization, h.parsed⟩, h.hasDate, h.hasSha⟩ hp hz hsz h.whole hb⟩

/-! ### C78: signed chunks are protected -/

/-- **C78** Whatever arrives behind an accepted request: what is handed on is the data of chunks `cs'` at the start of the body, each with
the signature that follows from the chunks before it. If the signature of the last of them is one the client made for its chunks `ds`, the
chunks are the first chunks of the client, in order and unchanged — or the texts that were signed or hashed are a collision. -/
theorem C78_chunks_protected (hc : CryptoLaw lib.crypto) {p : Provider} {r : Req} {c : Ctx} (h : admit lib (some p) r = .ok c)
    {a : Authorization} {ts : Bytes} (hs : Streaming lib r a ts) :
    ∃ secret hs t cs' rest, p a.credential.accessKeyId = .ok secret ∧
      HeaderSigning lib.crypto r (awsEncode true r.path) secret a ts b!"STREAMING-AWS4-HMAC-SHA256-PAYLOAD" hs b!"STREAMING-AWS4-HMAC-SHA256-PAYLOAD" t ∧
      received r.body = signedFrames (awsChunkSignature lib.crypto secret ts a.credential.region) a.signature cs' ++ rest ∧
      received c.body = chunkData cs' ∧
      ∀ ds : List Bytes, (cs' ≠ [] → lastSignature (awsChunkSignature lib.crypto secret ts a.credential.region) a.signature cs' ∈
          signatureChain (awsChunkSignature lib.crypto secret ts a.credential.region) a.signature ds) →
        cs'.map (·.2) <+: ds ∨
        (∃ x ∈ textToSign lib.crypto ts a.credential.region t ::
            chainTexts lib.crypto ts a.credential.region (awsChunkSignature lib.crypto secret ts a.credential.region) a.signature (cs'.map (·.2)),
          ∃ y ∈ textToSign lib.crypto ts a.credential.region t ::
            chainTexts lib.crypto ts a.credential.region (awsChunkSignature lib.crypto secret ts a.credential.region) a.signature ds,
            Collides (lib.crypto.hmac (signKey lib.crypto secret ts a.credential.region)) x y) ∨
        ∃ x ∈ cs'.map (·.2), ∃ y ∈ ds, Collides lib.crypto.sha256 x y := by
  obtain ⟨secret, hs', t, hk, hS, hbody⟩ := admit_streaming hc h hs
  obtain ⟨cs', rest, h1, h2, _⟩ := C49_authentic (awsChunkSignature lib.crypto secret ts a.credential.region) a.signature r.body
  refine ⟨secret, hs', t, cs', rest, hk, hS, h1, by rw [hbody, received_toBody, h2], fun ds hds => ?_⟩
  by_cases he : cs' = []
  · subst he; exact .inl (List.nil_prefix)
  · obtain ⟨us, hpre, _, hlast⟩ := chain_last (hds he)
    rw [lastSignature_fold] at hlast
    rcases chain_inj hc hS.correct (fun p d => text_ne_chunkText) (cs'.map (·.2)) us hlast.symm with e | ⟨x, hx, y, hy, hxy⟩ | ⟨x, hx, y, hy, hxy⟩
    · exact .inl (e ▸ hpre)
    · refine .inr (.inl ⟨x, hx, y, ?_, hxy⟩)
      rw [List.mem_cons] at hy ⊢
      exact hy.imp_right (chainTexts_prefix hpre y)
    · exact .inr (.inr ⟨x, hx, y, hpre.subset hy, hxy⟩)

theorem received_fileBody (d : FileData) : received d.toBody = d.pieces.flatten := by
  obtain ⟨ps, e⟩ := d
  simp only [FileData.toBody]
  induction ps with
  | nil => cases e <;> rfl
  | cons p ps ih =>
    simp only [List.map_cons, List.cons_append, received, List.flatten_cons]
    rw [ih]

/-! ### C79: what is stored is what was sent -/

/-- **C79** The body of a request that is not a form and does not come in signed chunks is handed on as it was sent, if the request is
admitted. -/
theorem C79_body_kept {r : Req} {c : Ctx} (h : admit lib auth r = .ok c) (hf : ∀ b, ¬ IsForm lib r b) (hd : Direct r) :
    received c.body = received r.body ∧ (unbroken c.body ↔ unbroken r.body) := admit_direct h hf hd

/-- **C79** A PUT answered 200 had a body that arrived to its end; the object then holds exactly these bytes, and the `ETag` is their MD5. -/
theorem C79_put_stored {r : Req} {c : Ctx} (h : admit lib auth r = .ok c) (hm : r.method = b!"PUT") (hd : Direct r)
    {i : PutInput} (hr : Requests lib env r c.body (.putObject i)) (hi : ObjectPut i)
    {fs : FS} (hw : WF fs) {x : Texts} {res : Response} (ok : responded cfg ext lib auth env x r fs = .ok res) (hst : res.status = 200) :
    unbroken r.body ∧ stored cfg (afterResponded cfg ext lib auth env x r fs) i.bucket i.key = some (received r.body) ∧
    ∀ v, (b!"etag", v) ∈ res.headers ↔ v = quoted (ext.md5hex (received r.body)) := by
  have hf : ∀ b, ¬ IsForm lib r b := by
    rintro b ⟨e, _⟩
    rw [hm] at e
    exact absurd e (by decide)
  obtain ⟨e1, e2⟩ := admit_direct h hf hd
  have hbody : i.body = some c.body := by
    cases hr with
    | postObject e => rw [hm] at e; exact absurd e (by decide)
    | putObject => rfl
  obtain ⟨body, hb, hu, h1, h2⟩ := put_response h hr hi hw ok hst
  rw [hbody] at hb
  cases hb
  rw [e1] at h1 h2
  exact ⟨e2.mp hu, h1, h2⟩

/-- **C79** A form upload answered 200, written as browsers write it: the object holds exactly the content of the file. -/
theorem C79_form_stored {boundary : Bytes} {r : Req} {c : Ctx} (h : admit lib auth r = .ok c) (hf : IsForm lib r (some boundary))
    (hone : ∀ b, IsForm lib r (some b) → b = boundary)
    (h13 : (13 : UInt8) ∉ boundary) {fields : List (Bytes × Bytes)} (hfs : ∀ f ∈ fields, FieldText boundary f.1 f.2)
    {field fileName contentType : Bytes} (h1 : QuotedText field) (h2 : QuotedText fileName)
    (h3 : Printable contentType) (h4 : Trimmed contentType) (h5 : utf8Valid contentType = true) {content : Bytes}
    (hc : ¬ Occurs (fileDelimiter boundary) content) (closing : Bytes) (hu : FirstLineUnsplit r.body)
    (hb : received r.body = formText boundary fields field fileName contentType content closing)
    {i : PutInput} (hr : Requests lib env r c.body (.putObject i)) (hi : ObjectPut i)
    {fs : FS} (hw : WF fs) {x : Texts} {res : Response} (ok : responded cfg ext lib auth env x r fs = .ok res) (hst : res.status = 200) :
    stored cfg (afterResponded cfg ext lib auth env x r fs) i.bucket i.key = some content ∧
    ∀ v, (b!"etag", v) ∈ res.headers ↔ v = quoted (ext.md5hex content) := by
  have hform := C66_form_round_trip h13 hfs h1 h2 h3 h4 h5 hc closing hu hb
  have hbody : ∃ body, i.body = some body ∧ received body = content := by
    cases hr with
    | @postObject b k f _ _ _ _ _ _ _ _ _ _ _ hup =>
      obtain ⟨b', hf', htr⟩ := hup
      rw [hone b' hf'] at htr
      refine ⟨_, rfl, ?_⟩
      rw [formOutcome, htr] at hform
      simp only [Except.toOption, Option.map_some, Option.some.injEq, Form.view, FormView.mk.injEq] at hform
      rw [received_fileBody]
      exact hform.2.2.2.1
    | putObject e => rw [hf.1] at e; exact absurd e (by decide)
  obtain ⟨body, hb', _, s1, s2⟩ := put_response h hr hi hw ok hst
  obtain ⟨body', hb'', hcont⟩ := hbody
  rw [hb''] at hb'
  cases hb'
  rw [hcont] at s1 s2
  exact ⟨s1, s2⟩

end

/-! ### samples -/

namespace Sample

/-- `PUT /aaa/s` in signed chunks, without its body -/
def streamHead : Req := signedRequest b!"PUT" b!"/aaa/s" b!"/aaa/s" none b!"STREAMING-AWS4-HMAC-SHA256-PAYLOAD" [] []

/-- the signature of the request -/
def streamSeed : Bytes :=
  signText (canonical b!"PUT" b!"/aaa/s" [] [(b!"host", b!"h"), (b!"x-amz-content-sha256", b!"STREAMING-AWS4-HMAC-SHA256-PAYLOAD"), (b!"x-amz-date", stamp)]
    b!"STREAMING-AWS4-HMAC-SHA256-PAYLOAD")

/-- its `Authorization` header -/
def streamAuth : Authorization :=
  ⟨b!"AWS4-HMAC-SHA256", ⟨b!"AK", b!"20130524", b!"us-east-1", b!"s3"⟩, [b!"host", b!"x-amz-content-sha256", b!"x-amz-date"], streamSeed⟩

/-- the signature of chunks of user AK -/
def streamSign : Bytes → Bytes → Bytes := awsChunkSignature crypto b!"SK" stamp b!"us-east-1"

/-- with the chunks `chunks`, in two fragments -/
def streamPut : Req :=
  { streamHead with body := [some ((signedFrames streamSign streamSeed (chunks ++ [(b!"0", [])])).take 100),
      some ((signedFrames streamSign streamSeed (chunks ++ [(b!"0", [])])).drop 100)] }

theorem stream_streaming : Streaming lib streamPut streamAuth stamp where
  noForm _ h := absurd h.1 (by decide)
  noQuery v hv := by cases hv
  authorization := by
    have h1 : (streamPut.headers.head?).map (·.1) = some b!"authorization" := by decide +kernel
    have h2 : (streamPut.headers.tail.all fun q => decide (q.1 ≠ b!"authorization")) = true := by decide +kernel
    have h3 : ((streamPut.headers.head?).bind fun q => Authorization.fromHeaderStr q.2) = some streamAuth := by decide +kernel
    cases hh : streamPut.headers with
    | nil => rw [hh] at h1; cases h1
    | cons q l =>
      rw [hh] at h1 h2 h3
      simp only [List.head?_cons, Option.map_some, Option.some.injEq, Option.bind_some] at h1 h3
      refine ⟨q.2, ⟨?_, fun w hw => ?_⟩, h3⟩
      · rw [hh, ← h1]; exact List.mem_cons_self ..
      · rw [hh] at hw
        rcases List.mem_cons.mp hw with e | hw
        · rw [← e]
        · exact absurd rfl (of_decide_eq_true (List.all_eq_true.mp h2 _ hw))
  date := only_header (by decide +kernel) (by decide +kernel)
  declared := only_header (by decide +kernel) (by decide +kernel)

theorem stream_sizes : SizeText b!"0" 0 ∧ ∀ e ∈ chunks, SizeText e.1 e.2.length := by
  refine ⟨size_text (by decide +kernel), ?_⟩
  intro e he
  simp only [chunks, List.mem_cons, List.not_mem_nil, or_false] at he
  rcases he with rfl | rfl <;> exact size_text (by decide +kernel)

theorem stream_secret : provider streamAuth.credential.accessKeyId = .ok b!"SK" := by
  simp only [provider, streamAuth]; rfl

theorem stream_body : received streamPut.body =
    signedFrames (awsChunkSignature lib.crypto b!"SK" stamp streamAuth.credential.region) streamAuth.signature (chunks ++ [(b!"0", [])]) := by
  decide +kernel

theorem stream_requests (body : Body) : Requests lib env streamPut body (.putObject ⟨b!"aaa", b!"s", some body, none, none, none⟩) := by
  refine .putObject rfl (at_object rfl (by decide +kernel) (by decide +kernel) (by decide) (by decide)) (selects_none rfl)
    (no_header (by decide +kernel)) ⟨none, no_header (by decide +kernel), trivial⟩ ?_ (no_header (by decide +kernel))
  intro n v hn h
  have h2 : (streamPut.headers.all fun q => !(startsWith q.1 b!"x-amz-meta-")) = true := by decide +kernel
  have := List.all_eq_true.mp h2 _ h
  simp [startsWith] at this

theorem admits {auth : Option Provider} {r : Req} (h : admitted auth r = true) : ∃ c, admit lib auth r = .ok c := by
  cases hc : admit lib auth r with
  | error e => rw [admitted, hc] at h; cases h
  | ok c => exact ⟨c, rfl⟩

end Sample

/-- the hypotheses of C77 are met: the object holds the data of the chunks -/
example : ∃ res, responded Sample.cfg Sample.ext Sample.lib (some Sample.provider) Sample.env Sample.texts Sample.streamPut Sample.fs = .ok res ∧
    res.status = 200 ∧
    stored Sample.cfg (afterResponded Sample.cfg Sample.ext Sample.lib (some Sample.provider) Sample.env Sample.texts Sample.streamPut Sample.fs)
      b!"aaa" b!"s" = some b!"hello wide world" := by
  obtain ⟨c, hc⟩ := Sample.admits (auth := some Sample.provider) (r := Sample.streamPut) (by decide +kernel)
  have ok : responded Sample.cfg Sample.ext Sample.lib (some Sample.provider) Sample.env Sample.texts Sample.streamPut Sample.fs =
      .ok ⟨200, [(b!"etag", b!"\"md5:16\"")], some []⟩ := by decide +kernel
  refine ⟨_, ok, rfl, ?_⟩
  exact (C77_streaming_put Sample.cryptoLaw hc Sample.stream_streaming (secret := b!"SK") Sample.stream_secret Sample.stream_sizes.1 Sample.stream_sizes.2
    (by simp [unbroken, Sample.streamPut]) Sample.stream_body (Sample.stream_requests c.body)
    ⟨show checkBucketName b!"aaa" = true by decide +kernel, show endsWithByte b!"s" 47 = false by decide⟩ Sample.fs_wf ok rfl).1

/-- a chunk that is left out is noticed: nothing behind the gap is handed on, and the upload fails -/
example : Sample.status (served Sample.cfg Sample.ext Sample.lib (some Sample.provider) Sample.env
    { Sample.streamHead with body := [some ((signedFrames Sample.streamSign Sample.streamSeed (Sample.chunks ++ [(b!"0", [])])).drop
      (signedFrames Sample.streamSign Sample.streamSeed [(b!"5", b!"hello")]).length)] } Sample.fs) = none := by decide +kernel

/-- the hypotheses of C79 are met by a signed upload of an empty installation's first object, and by a signed form -/
example : Direct Sample.signedPut ∧ Sample.admitted (some Sample.provider) Sample.signedPut = true ∧
    Direct Sample.metaPut ∧ Sample.admitted none Sample.metaPut = true := by
  refine ⟨.inr (.inr (by decide +kernel)), by decide +kernel, .inl ?_, by decide +kernel⟩
  intro v hv
  have h2 : (Sample.metaPut.headers.all fun q => decide (q.1 ≠ b!"authorization")) = true := by decide +kernel
  exact absurd rfl (of_decide_eq_true (List.all_eq_true.mp h2 _ hv))

/-- a signed form upload of `content` as `abc/k` -/
def Sample.formPut : Req := Sample.formUpload (Sample.formFields b!"cG9saWN5" b!"k")

theorem Sample.form_requests (body : Body) : ∃ f, Requests Sample.lib Sample.env Sample.formPut body
    (.putObject ⟨b!"abc", b!"k", some (FileData.toBody f), none, none, none⟩) := by
  have hf : (match transformMultipart b!"B" Sample.formPut.body with
      | .ok f => f.fields == Sample.formFields b!"cG9saWN5" b!"k"
      | .error _ => false) = true := by decide +kernel
  cases hx : transformMultipart b!"B" Sample.formPut.body with
  | error e => rw [hx] at hf; cases hf
  | ok f =>
    rw [hx] at hf
    simp only [beq_iff_eq] at hf
    have key : findField f.fields b!"key" = some b!"k" := by rw [hf]; decide +kernel
    have class' : findField f.fields b!"x-amz-storage-class" = none := by rw [hf]; decide +kernel
    refine ⟨f.file, .postObject rfl ⟨b!"/abc", by decide +kernel, .bucket b!"abc" ((C02_bucket_name_rule _).mp (by decide +kernel))⟩ (Sample.selects_none rfl)
      ⟨b!"B", ⟨rfl, b!"multipart/form-data; boundary=B", ⟨true, some b!"B"⟩, by decide +kernel, by decide +kernel, rfl, rfl⟩, hx⟩
      (Sample.value_header (v := b!"multipart/form-data; boundary=B") (by decide +kernel)) (((C53_field_lookup _ _).1 _).mp key) (by decide)
      ⟨none, Sample.no_header (by decide +kernel), trivial⟩ (fm := none) (hm := none) ?_ ?_ (.inl ⟨rfl, rfl⟩)
      (fs := none) (((C53_field_lookup _ _).2).mp class') (hs := none) (Sample.no_header (by decide +kernel)) (.inl ⟨rfl, rfl⟩)⟩
    · rintro n v - ⟨-, h⟩
      have h2 : (f.fields.all fun q => !(startsWith (q.1.map toLower) b!"x-amz-meta-")) = true := by rw [hf]; decide +kernel
      obtain ⟨pre, q, post, h4, h5, _⟩ := h
      have := List.all_eq_true.mp h2 (q, v) (by rw [h4]; simp)
      rw [SameName, List.map_append, show b!"x-amz-meta-".map toLower = b!"x-amz-meta-" by decide] at h5
      simp [h5, startsWith] at this
    · intro n v _ h
      have h2 : (Sample.formPut.headers.all fun q => !(startsWith q.1 b!"x-amz-meta-")) = true := by decide +kernel
      have := List.all_eq_true.mp h2 _ h
      simp [startsWith] at this

/-- the hypotheses of C79 are met by a signed form upload -/
example : ∃ res, responded Sample.cfg Sample.ext Sample.lib (some Sample.provider) Sample.env Sample.texts Sample.formPut Sample.fs = .ok res ∧
    res.status = 200 ∧
    stored Sample.cfg (afterResponded Sample.cfg Sample.ext Sample.lib (some Sample.provider) Sample.env Sample.texts Sample.formPut Sample.fs)
      b!"abc" b!"k" = some b!"content" := by
  obtain ⟨c, hc⟩ := Sample.admits (auth := some Sample.provider) (r := Sample.formPut) (by decide +kernel)
  have ok : responded Sample.cfg Sample.ext Sample.lib (some Sample.provider) Sample.env Sample.texts Sample.formPut Sample.fs =
      .ok ⟨200, [(b!"etag", b!"\"md5:7\"")], some []⟩ := by decide +kernel
  refine ⟨_, ok, rfl, ?_⟩
  have none : ∀ p s : Bytes, (match scanFile (13 :: p) 0 s with | .found _ => false | _ => true) = true → ¬ Occurs (13 :: p) s := by
    intro p s h ho
    obtain ⟨j, hj⟩ := occurs_iff_drop.mp ho
    exact scanFile_not_found (fun i e => by rw [e] at h; cases h) j hj
  have quoted : ∀ s : Bytes, s ≠ [] ∧ (∀ c ∈ s, c = 9 ∨ (32 ≤ c.toNat ∧ c ≠ 127)) ∧ (34 : UInt8) ∉ s ∧ utf8Valid s = true → QuotedText s := fun _ h => h
  obtain ⟨f, hr⟩ := Sample.form_requests c.body
  refine (C79_form_stored (boundary := b!"B") (fields := Sample.formFields b!"cG9saWN5" b!"k") (field := b!"file") (fileName := b!"f.txt")
    (contentType := b!"text/plain") (content := b!"content") hc
    ⟨rfl, b!"multipart/form-data; boundary=B", ⟨true, some b!"B"⟩, by decide +kernel, by decide +kernel, rfl, rfl⟩ ?_ (by decide) ?_
    (quoted _ (by decide +kernel)) (quoted _ (by decide +kernel)) (by unfold Printable; decide +kernel)
    (trimmed_of (x := 116) (y := 110) (b := b!"ext/plain") (c := b!"text/plai") (by decide) (by decide) rfl rfl) (by decide +kernel)
    (none b!"\n--B" _ (by decide +kernel)) b!"--\r\n" ?_ (by decide +kernel) hr
    ⟨show checkBucketName b!"abc" = true by decide +kernel, show endsWithByte b!"k" 47 = false by decide⟩ Sample.fs_wf ok rfl).1
  · rintro b ⟨-, v, m, hv, hm, -, hb⟩
    have hv' : v = b!"multipart/form-data; boundary=B" := by simpa [Sample.formPut, Sample.formUpload] using hv
    rw [hv', show Sample.lib.mime b!"multipart/form-data; boundary=B" = some ⟨true, some b!"B"⟩ by decide +kernel] at hm
    cases hm
    exact (Option.some.inj hb).symm
  · intro f hf
    have hall : ∀ q ∈ Sample.formFields b!"cG9saWN5" b!"k", (q.1 ≠ [] ∧ (∀ c ∈ q.1, c = 9 ∨ (32 ≤ c.toNat ∧ c ≠ 127)) ∧ (34 : UInt8) ∉ q.1 ∧
        utf8Valid q.1 = true) ∧ utf8Valid q.2 = true ∧
        (match scanFile (13 :: b!"\n--B\r\n") 0 (b!"\r\n" ++ q.2 ++ b!"\r\n") with | .found _ => false | _ => true) = true := by decide +kernel
    obtain ⟨h1, h2, h3⟩ := hall f hf
    exact ⟨h1, h2, none b!"\n--B\r\n" _ h3⟩
  · rw [show Sample.formPut.body = [some (formText b!"B" (Sample.formFields b!"cG9saWN5" b!"k") b!"file" b!"f.txt" b!"text/plain" b!"content" b!"--\r\n")] from rfl]
    simp only [FirstLineUnsplit]
    rw [if_neg (by simp [formText])]
    exact ⟨b!"--B", _, by simp only [formText, List.append_assoc]; rfl, by decide⟩

/-- C78 for the sample: a body that ends with the signature of one of the client's chunks -/
example : ∃ secret cs' rest, Sample.provider Sample.streamAuth.credential.accessKeyId = .ok secret ∧
    received Sample.streamPut.body = signedFrames (awsChunkSignature Sample.lib.crypto secret Sample.stamp Sample.streamAuth.credential.region)
      Sample.streamAuth.signature cs' ++ rest := by
  obtain ⟨c, hc⟩ := Sample.admits (auth := some Sample.provider) (r := Sample.streamPut) (by decide +kernel)
  have h := C78_chunks_protected Sample.cryptoLaw hc Sample.stream_streaming
  obtain ⟨secret, hs, t, cs', rest, h1, -, h2, -⟩ := h
  exact ⟨secret, cs', rest, h1, h2⟩

end S3
