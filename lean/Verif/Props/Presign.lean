import Verif.Spec.Presign
import Verif.Props.Signature
import Verif.Props.Payload
import Verif.Props.Streaming
/-! C112: presigned URLs and signed forms made by the AWS rules. -/
namespace S3
open Spec

section
variable (cfg : Cfg) (ext : Ext) (lib : Lib) (env : Env)

/-- **C112** (partial) A URL presigned by the AWS rules, by a user the provider knows, passes the check, and the handler sees the body that
was sent — if there is no `%` in the path, and every signed header occurs exactly once and is not `authorization` or `user-agent`.
Missing from the full property: paths with an escape, for which it is false, see `C112_escaped_path_fails`; the other headers. -/
theorem C112_presigned_accepted_partial (hc : CryptoLaw lib.crypto) (p : Provider) (r : Req)
    (hw : WellFormed lib r) (hf : ∀ b, ¬ IsForm lib r b) (hsha : ∀ v, (b!"x-amz-content-sha256", v) ∈ r.headers → PayloadDeclaration v)
    {secret path cred ts t sig : Bytes} {credential : Credential} {names : List Bytes} {hs : List (Bytes × Bytes)}
    (h : AwsPresigned lib.crypto r secret path cred credential ts names hs t sig) (hp : p credential.accessKeyId = .ok secret)
    (plain : (37 : UInt8) ∉ r.path)
    (once : ∀ n ∈ names, n ≠ b!"authorization" ∧ n ≠ b!"user-agent" ∧ ∃ v, (r.headers.filter fun q => decide (q.1 = n)) = [(n, v)]) :
    ∃ c, admit lib (some p) r = .ok c ∧ c.body = r.body := by
  obtain ⟨c, hm⟩ := made_of_wellFormed hw
  have hpath : path = r.path := by
    have := h.decoded
    simp only [urlDecode, percentDecode_plain plain] at this
    split at this
    · injection this with this; exact this.symm
    · cases this
  obtain ⟨date, hdate⟩ := Option.ne_none_iff_exists'.mp h.validDate
  obtain ⟨text, n, hex, ⟨hne, hdig, hval⟩, hn⟩ := h.hasExpiry
  have hsorted : names.Pairwise fun a b => bytesLe a b = true := h.order.imp fun {a b} e => by simp [bytesLe, e]
  have hsplit : splitAll 59 (joinWith 59 names) = names := splitAll_joinWith h.someName fun n hn => (h.tokens n hn).1
  have hascii : isAsciiStr (joinWith 59 names) = true := by
    rw [isAsciiStr, List.all_eq_true]
    intro x hx
    have : ∀ l : List Bytes, (∀ n ∈ l, ∀ c ∈ n, c < (128 : UInt8)) → ∀ x ∈ joinWith 59 l, x < 128 := by
      intro l
      induction l with
      | nil => intro _ x hx; cases hx
      | cons a l ih =>
        intro hl x hx
        cases l with
        | nil => exact hl a (by simp) x (by simpa [joinWith] using hx)
        | cons b l =>
          simp only [joinWith, List.mem_append, List.mem_cons] at hx
          rcases hx with hx | rfl | hx
          · exact hl a (by simp) x hx
          · decide
          · exact ih (fun n hn => hl n (by simp [hn])) x hx
    simpa using this names (fun n hn => (h.tokens n hn).2) x hx
  have hparts : PresignedParts (sortPairs (queryOf r))
      ⟨b!"AWS4-HMAC-SHA256", credential, date, n, names, sig⟩ cred ts text (joinWith 59 names) :=
    ⟨sorted_query_only h.algorithm, sorted_query_only h.hasCred, sorted_query_only h.hasDate, sorted_query_only hex,
     sorted_query_only h.hasNames, sorted_query_only h.hasSignature, h.parsed, hdate,
     (parseUnsigned_digits hdig hne).mpr ⟨hval, Nat.le_trans hn (by decide)⟩, hascii, hsplit.symm,
     by rw [h.correct]; exact hexText_checksum (hc.hmac_length _ _)⟩
  have hu := presigned_parts.mpr ⟨_, _, _, _, hparts⟩
  have hq := presignedQuery_only hm h.hasSignature.1
  obtain ⟨x, hx⟩ : ∃ x, extractSha c.headers = .ok x := by
    cases e : orderedGet c.headers b!"x-amz-content-sha256" with
    | none => exact ⟨none, by simp only [extractSha, e, extractOpt]⟩
    | some v =>
      obtain ⟨y, hy⟩ := contentSha256_iff.mpr (hsha v (hm.header_mem e))
      exact ⟨some y, by simp only [extractSha, e, extractOpt, hy]⟩
  have hsig : presignedSignature lib.crypto c (sortPairs (queryOf r)) ⟨b!"AWS4-HMAC-SHA256", credential, date, n, names, sig⟩ secret = sig := by
    rw [h.correct, presignedSignature]
    simp only
    rw [calculateSignature_eq hdate, stringToSign_eq hdate]
    congr 2
    have ht := presignedCanonicalRequest_text c.method c.uriPath (sortPairs (queryOf r)) (mapSignedHeaders c.headers names)
    rw [mapSigned_sorted hsorted, (orderedHeaders_some hm.headers).1, ← awsHeaders_eq h.headers once, hm.method, hm.uriPath] at ht
    have hT := h.text
    rw [hpath] at hT
    rw [mapSigned_sorted hsorted, (orderedHeaders_some hm.headers).1, hm.method, hm.uriPath]
    exact canonicalText_unique ((sortPairs_perm _).filter _) ht hT
  refine ⟨c, ?_, hm.body⟩
  rw [admit_made hm]
  simp only [checkSignature, formMime_none hm hf, hq]
  exact checkPresignedUrl_ok.mpr ⟨_, x, p, secret, hu, hx, rfl, hp, hsig, rfl⟩

/-- **C112** (partial) Whoever holds such a URL gets the operation it asks for. Missing as above. -/
theorem C112_presigned_served_partial (hc : CryptoLaw lib.crypto) (p : Provider) (r : Req)
    (hw : WellFormed lib r) (hf : ∀ b, ¬ IsForm lib r b) (hsha : ∀ v, (b!"x-amz-content-sha256", v) ∈ r.headers → PayloadDeclaration v)
    {secret path cred ts t sig : Bytes} {credential : Credential} {names : List Bytes} {hs : List (Bytes × Bytes)}
    (h : AwsPresigned lib.crypto r secret path cred credential ts names hs t sig) (hp : p credential.accessKeyId = .ok secret)
    (plain : (37 : UInt8) ∉ r.path)
    (once : ∀ n ∈ names, n ≠ b!"authorization" ∧ n ≠ b!"user-agent" ∧ ∃ v, (r.headers.filter fun q => decide (q.1 = n)) = [(n, v)])
    {o : Op} (ho : Requests lib env r r.body o) (fs : FS) :
    afterServed cfg ext lib (some p) env r fs = after cfg ext o fs ∧
    (∀ e, answer cfg ext o fs = .err e → served cfg ext lib (some p) env r fs = .err e) ∧
    (∀ a, answer cfg ext o fs = .ok a → ∀ m : Option Meta, a.meta = m.getD [] →
      (∀ l, m = some l → ∀ q ∈ l, Sendable (b!"x-amz-meta-" ++ q.1) q.2) →
      served cfg ext lib (some p) env r fs = .ok ⟨successStatus o, metaHeaders m, a⟩) := by
  obtain ⟨c, e, hb⟩ := C112_presigned_accepted_partial lib hc p r hw hf hsha h hp plain once
  exact C55_operation cfg ext lib (some p) env e (hb ▸ ho) fs

/-- **C112** (partial) A form as browsers write it, with the signature of its policy by the AWS rules by a user the provider knows, passes
the check; its fields and its file arrive as they were written. Missing: fragments that split the first line (C52). -/
theorem C112_form_accepted_partial (p : Provider) (r : Req) (hw : WellFormed lib r) {boundary : Bytes} (hpost : PostsForm lib r boundary)
    {fields : List (Bytes × Bytes)} {fileName content : Bytes} (hform : BrowserForm boundary fields fileName content r.body)
    (hu : FirstLineUnsplit r.body) {secret : Bytes} {credential : Credential}
    (h : AwsForm lib.crypto fields secret credential) (hp : p credential.accessKeyId = .ok secret) :
    ∃ c f, admit lib (some p) r = .ok c ∧ UploadsForm lib r f ∧ f.fields = fields ∧ f.fileName = fileName ∧
      Text f.file.toBody content := by
  obtain ⟨c, hm⟩ := made_of_wellFormed hw
  obtain ⟨hpost, v, m, hv, hl, hfd, hb⟩ := hpost
  obtain ⟨h13, hfs, hn, hcont, field, ct, closing, g1, g2, g3, g4, htext⟩ := hform
  obtain ⟨data, cred, ts, k1, k2, k3, hcred, k4, hts, k5⟩ := h
  obtain ⟨date, hdate⟩ := Option.ne_none_iff_exists'.mp hts
  have hout := C66_form_round_trip h13 hfs g1 hn g2 g3 g4 hcont closing hu htext
  rw [formOutcome] at hout
  cases ht : transformMultipart boundary r.body with
  | error e => rw [ht] at hout; cases hout
  | ok f =>
    rw [ht] at hout
    simp only [Except.toOption, Option.map_some, Option.some.injEq, Form.view, FormView.mk.injEq] at hout
    obtain ⟨e1, e2, _, e4, e5⟩ := hout
    refine ⟨{ c with body := [], multipart := some f }, f, ?_,
      ⟨boundary, ⟨hpost, v, m, hv.1, hl, hfd, hb⟩, ht⟩, e1, e2, ?_, ?_⟩
    · rw [admit_made hm]
      simp only [checkSignature, formMime_only hm hpost hv hl hfd]
      refine checkPostSignature_ok.mpr ⟨p, boundary, f, rfl, hb, by rw [hm.body]; exact ht, ?_, rfl⟩
      have look : ∀ {n v}, LastField fields n v → findField f.fields n = some v := fun hv => e1 ▸ ((C53_field_lookup fields _).1 _).mpr hv
      exact checkPostForm_ok.mpr ⟨⟨_, _, _, _, _⟩, credential, [], date, secret,
        findInfo_some.mpr ⟨look k1, look k2, look k3, look k4, look k5⟩, isBase64_text _, rfl, hcred, hdate, hp, calculateSignature_eq hdate⟩
    · simp [unbroken, FileData.toBody, e5]
    · rw [received_fileBody, e4]

/-- **C112** (partial) Whoever fills in such a form gets the operation it asks for. Missing as above. -/
theorem C112_form_served_partial (p : Provider) (r : Req) (hw : WellFormed lib r) {boundary : Bytes} (hpost : PostsForm lib r boundary)
    {fields : List (Bytes × Bytes)} {fileName content : Bytes} (hform : BrowserForm boundary fields fileName content r.body)
    (hu : FirstLineUnsplit r.body) {secret : Bytes} {credential : Credential}
    (h : AwsForm lib.crypto fields secret credential) (hp : p credential.accessKeyId = .ok secret)
    {o : Op} (ho : ∀ body, Requests lib env r body o) (fs : FS) :
    afterServed cfg ext lib (some p) env r fs = after cfg ext o fs ∧
    (∀ e, answer cfg ext o fs = .err e → served cfg ext lib (some p) env r fs = .err e) ∧
    (∀ a, answer cfg ext o fs = .ok a → ∀ m : Option Meta, a.meta = m.getD [] →
      (∀ l, m = some l → ∀ q ∈ l, Sendable (b!"x-amz-meta-" ++ q.1) q.2) →
      served cfg ext lib (some p) env r fs = .ok ⟨successStatus o, metaHeaders m, a⟩) := by
  obtain ⟨c, f, e, _⟩ := C112_form_accepted_partial lib p r hw hpost hform hu h hp
  exact C55_operation cfg ext lib (some p) env e (ho _) fs

end

/-! ### samples -/

/-- the parameters of the presigned URL, without its signature -/
def Sample.presignedText : Bytes :=
  b!"X-Amz-Algorithm=AWS4-HMAC-SHA256&X-Amz-Credential=AK%2F20130524%2Fus-east-1%2Fs3%2Faws4_request&X-Amz-Date=" ++ Sample.stamp ++
    b!"&X-Amz-Expires=1&X-Amz-SignedHeaders=host"

/-- the canonical request of `GET` by a presigned URL -/
def Sample.presignedCanonical (enc : Bytes) : Bytes :=
  Sample.canonical b!"GET" enc (parseQuery Sample.presignedText) [(b!"host", b!"h")] b!"UNSIGNED-PAYLOAD"

/-- `GET` by a presigned URL; the path as sent -/
def Sample.presigned (path : Bytes) : Req :=
  { method := b!"GET", path := path, body := [], headers := [(b!"host", b!"h")]
    query := some (Sample.presignedText ++ b!"&X-Amz-Signature=" ++ Sample.signText (Sample.presignedCanonical path)) }

/-- `GET /abc/my key` by a presigned URL -/
def Sample.presignedSpace : Req := Sample.presigned b!"/abc/my%20key"

theorem Sample.presigned_aws {path decoded : Bytes} (h : (path, decoded) ∈ [(b!"/abc/k", b!"/abc/k"), (b!"/abc/my%20key", b!"/abc/my key")]) :
    AwsPresigned Sample.lib.crypto (Sample.presigned path) b!"SK" decoded b!"AK/20130524/us-east-1/s3/aws4_request"
      ⟨b!"AK", b!"20130524", b!"us-east-1", b!"s3"⟩ Sample.stamp [b!"host"] [(b!"host", b!"h")] (Sample.presignedCanonical path)
      (Sample.signText (Sample.presignedCanonical path)) := by
  simp only [List.mem_cons, Prod.mk.injEq, List.not_mem_nil, or_false] at h
  have num : IsNumeral b!"1" 1 := ⟨by decide, by decide, by decide⟩
  have hh : ∀ path, AwsHeaders (Sample.presigned path).headers [b!"host"] [(b!"host", b!"h")] := by
    intro path
    refine ⟨fun n => by simp, by simp, fun p hp => ?_⟩
    simp only [List.mem_singleton] at hp
    exact ⟨[(b!"host", b!"h")], strippedAll_iff.mpr (by rw [hp]; show _ = ([(b!"host", b!"h")].filter fun h => decide (h.1 = b!"host")).map _; decide +kernel), by rw [hp]; rfl⟩
  have ht : ∀ path decoded, awsEncode true decoded = path → presignedParams (Sample.presigned path) = parseQuery Sample.presignedText →
      CanonicalText b!"GET" (awsEncode true decoded) (presignedParams (Sample.presigned path)) [(b!"host", b!"h")] b!"UNSIGNED-PAYLOAD"
        (Sample.presignedCanonical path) := by
    intro path decoded e1 e2
    rw [e1, e2]
    exact ⟨_, sortPairs_sortedFrom _, rfl⟩
  rcases h with ⟨rfl, rfl⟩ | ⟨rfl, rfl⟩
  · exact ⟨by decide +kernel, Sample.only_query (by decide +kernel) (by decide +kernel), Sample.only_query (by decide +kernel) (by decide +kernel),
      by decide +kernel, Sample.only_query (by decide +kernel) (by decide +kernel), by decide +kernel,
      ⟨_, _, Sample.only_query (by decide +kernel) (by decide +kernel), num, by decide⟩,
      Sample.only_query (by decide +kernel) (by decide +kernel), by decide, by decide, by simp, hh _, ht _ _ (by decide +kernel) (by decide +kernel),
      Sample.only_query (by decide +kernel) (by decide +kernel), rfl⟩
  · exact ⟨by decide +kernel, Sample.only_query (by decide +kernel) (by decide +kernel), Sample.only_query (by decide +kernel) (by decide +kernel),
      by decide +kernel, Sample.only_query (by decide +kernel) (by decide +kernel), by decide +kernel,
      ⟨_, _, Sample.only_query (by decide +kernel) (by decide +kernel), num, by decide⟩,
      Sample.only_query (by decide +kernel) (by decide +kernel), by decide, by decide, by simp, hh _, ht _ _ (by decide +kernel) (by decide +kernel),
      Sample.only_query (by decide +kernel) (by decide +kernel), rfl⟩

/-- **C112** is false of the code for paths with an escape: a URL for the key `my key`, presigned by the AWS rules by a known user, is
refused, its signature being called wrong. -/
theorem C112_escaped_path_fails :
    (∃ cred credential names hs t sig, AwsPresigned Sample.lib.crypto Sample.presignedSpace b!"SK" b!"/abc/my key" cred credential
      Sample.stamp names hs t sig ∧ Sample.provider credential.accessKeyId = .ok b!"SK") ∧ WellFormed Sample.lib Sample.presignedSpace ∧
    handle Sample.cfg Sample.ext Sample.lib (some Sample.provider) Sample.env Sample.presignedSpace = .fail .SignatureDoesNotMatch := by
  refine ⟨⟨_, _, _, _, _, _, Sample.presigned_aws (by simp), by decide +kernel⟩,
    ⟨⟨b!"/abc/my key", .object b!"abc" b!"my key", by decide +kernel, by decide +kernel⟩, by decide +kernel, ?_⟩, ?_⟩
  · intro v hv
    have : (Sample.presignedSpace.headers.all fun q => decide (q.1 ≠ b!"content-type")) = true := by decide +kernel
    exact absurd rfl (of_decide_eq_true (List.all_eq_true.mp this _ hv))
  · rw [← Sample.failsWith_iff]; decide +kernel

/-- the hypotheses are met by a presigned URL -/
example : ∃ c, admit Sample.lib (some Sample.provider) (Sample.presigned b!"/abc/k") = .ok c ∧ c.body = [] := by
  have hno : ∀ n v, (n, v) ∈ (Sample.presigned b!"/abc/k").headers → n = b!"host" := by
    intro n v h
    simp only [Sample.presigned, List.mem_singleton, Prod.mk.injEq] at h
    exact h.1
  refine C112_presigned_accepted_partial Sample.lib Sample.cryptoLaw Sample.provider _
    ⟨⟨b!"/abc/k", .object b!"abc" b!"k", by decide +kernel, by decide +kernel⟩, by decide +kernel,
      fun v hv => absurd (hno _ _ hv) (by decide)⟩ (fun b hb => absurd hb.1 (by decide)) (fun v hv => absurd (hno _ _ hv) (by decide))
    (Sample.presigned_aws (path := b!"/abc/k") (decoded := b!"/abc/k") (by simp)) (by decide +kernel) (by decide) ?_
  intro n hn
  simp only [List.mem_singleton] at hn
  subst hn
  exact ⟨by decide, by decide, b!"h", by decide +kernel⟩

/-- a form whose key asks for the name of the file -/
def Sample.formNamed : Req := Sample.formUpload (Sample.formFields b!"cG9saWN5" b!"${filename}")

theorem Sample.formUpload_browser {key : Bytes} (hkey : key ∈ [b!"k", b!"${filename}"]) :
    WellFormed Sample.lib (Sample.formUpload (Sample.formFields b!"cG9saWN5" key)) ∧
    PostsForm Sample.lib (Sample.formUpload (Sample.formFields b!"cG9saWN5" key)) b!"B" ∧
    BrowserForm b!"B" (Sample.formFields b!"cG9saWN5" key) b!"f.txt" b!"content" (Sample.formUpload (Sample.formFields b!"cG9saWN5" key)).body ∧
    FirstLineUnsplit (Sample.formUpload (Sample.formFields b!"cG9saWN5" key)).body ∧
    AwsForm Sample.lib.crypto (Sample.formFields b!"cG9saWN5" key) b!"SK" ⟨b!"AK", b!"20130524", b!"us-east-1", b!"s3"⟩ := by
  have none : ∀ p s : Bytes, (match scanFile (13 :: p) 0 s with | .found _ => false | _ => true) = true → ¬ Occurs (13 :: p) s := by
    intro p s h ho
    obtain ⟨j, hj⟩ := occurs_iff_drop.mp ho
    exact scanFile_not_found (fun i e => by rw [e] at h; cases h) j hj
  have quoted : ∀ s : Bytes, s ≠ [] ∧ (∀ c ∈ s, c = 9 ∨ (32 ≤ c.toNat ∧ c ≠ 127)) ∧ (34 : UInt8) ∉ s ∧ utf8Valid s = true → QuotedText s := fun _ h => h
  have hdr : OnlyHeader (Sample.formUpload (Sample.formFields b!"cG9saWN5" key)) b!"content-type" b!"multipart/form-data; boundary=B" :=
    Sample.only_header (by simp [Sample.formUpload]) (by simp [Sample.formUpload])
  refine ⟨⟨⟨b!"/abc", .bucket b!"abc", (by decide +kernel : urlDecode b!"/abc" = some b!"/abc"), by decide +kernel⟩, by simp only [Sample.formUpload]; decide +kernel, ?_⟩,
    ⟨rfl, _, ⟨true, some b!"B"⟩, hdr, by decide +kernel, rfl, rfl⟩,
    ⟨by decide, ?_, quoted _ (by decide +kernel), none b!"\n--B" _ (by decide +kernel),
      b!"file", b!"text/plain", b!"--\r\n", quoted _ (by decide +kernel), by unfold Printable; decide +kernel,
      trimmed_of (x := 116) (y := 110) (b := b!"ext/plain") (c := b!"text/plai") (by decide) (by decide) rfl rfl, by decide +kernel, ?_⟩, ?_, ?_⟩
  · intro v hv
    rw [hdr.2 v hv]
    decide +kernel
  · intro f hf
    have hall : ∀ key ∈ [b!"k", b!"${filename}"],
        ∀ q ∈ Sample.formFields b!"cG9saWN5" key, (q.1 ≠ [] ∧ (∀ c ∈ q.1, c = 9 ∨ (32 ≤ c.toNat ∧ c ≠ 127)) ∧ (34 : UInt8) ∉ q.1 ∧
        utf8Valid q.1 = true) ∧ utf8Valid q.2 = true ∧
        (match scanFile (13 :: b!"\n--B\r\n") 0 (b!"\r\n" ++ q.2 ++ b!"\r\n") with | .found _ => false | _ => true) = true := by decide +kernel
    obtain ⟨h1, h2, h3⟩ := hall key hkey f hf
    exact ⟨h1, h2, none b!"\n--B\r\n" _ h3⟩
  · simp [Sample.formUpload, received]
  · rw [show (Sample.formUpload (Sample.formFields b!"cG9saWN5" key)).body =
      [some (formText b!"B" (Sample.formFields b!"cG9saWN5" key) b!"file" b!"f.txt" b!"text/plain" b!"content" b!"--\r\n")] from rfl]
    simp only [FirstLineUnsplit]
    rw [if_neg (by simp [formText])]
    exact ⟨b!"--B", _, by simp only [formText, List.append_assoc]; rfl, by decide⟩
  · have look : ∀ n v, findField (Sample.formFields b!"cG9saWN5" key) n = some v → LastField (Sample.formFields b!"cG9saWN5" key) n v :=
      fun n v h => ((C53_field_lookup _ _).1 _).mp h
    have hp : base64Text b!"policy" = b!"cG9saWN5" := by decide +kernel
    refine ⟨b!"policy", _, Sample.stamp, ?_, ?_, ?_, (by decide +kernel : Credential.parse b!"AK/20130524/us-east-1/s3/aws4_request" = _), ?_,
      by decide +kernel, ?_⟩
    all_goals
      simp only [List.mem_cons, List.not_mem_nil, or_false] at hkey
      rcases hkey with rfl | rfl <;> exact look _ _ (by decide +kernel)

/-- the hypotheses are met by a signed form -/
example : ∃ c f, admit Sample.lib (some Sample.provider) Sample.formPut = .ok c ∧ UploadsForm Sample.lib Sample.formPut f ∧
    f.fields = Sample.formFields b!"cG9saWN5" b!"k" ∧ f.fileName = b!"f.txt" ∧ Text f.file.toBody b!"content" := by
  obtain ⟨h1, h2, h3, h4, h5⟩ := Sample.formUpload_browser (key := b!"k") (by simp)
  exact C112_form_accepted_partial Sample.lib Sample.provider _ h1 h2 h3 h4 h5 (by decide +kernel)

/-- **C112** is false of the code for keys that ask for the name of the file: where the AWS rules put the name of the file for
`${filename}` in the key of a form, the server stores the object under the key `${filename}` as it stands. -/
theorem C112_filename_fails :
    (PostsForm Sample.lib Sample.formNamed b!"B" ∧ ∃ fields credential, BrowserForm b!"B" fields b!"f.txt" b!"content" Sample.formNamed.body ∧
      LastField fields b!"key" b!"${filename}" ∧ AwsForm Sample.lib.crypto fields b!"SK" credential ∧ Sample.provider credential.accessKeyId = .ok b!"SK") ∧
    stored Sample.cfg (afterServed Sample.cfg Sample.ext Sample.lib (some Sample.provider) Sample.env Sample.formNamed Sample.fs)
      b!"abc" b!"f.txt" = none ∧
    stored Sample.cfg (afterServed Sample.cfg Sample.ext Sample.lib (some Sample.provider) Sample.env Sample.formNamed Sample.fs)
      b!"abc" b!"${filename}" = some b!"content" := by
  obtain ⟨h1, h2, h3, h4, h5⟩ := Sample.formUpload_browser (key := b!"${filename}") (by simp)
  exact ⟨⟨h2, _, _, h3, ((C53_field_lookup _ _).1 _).mp (by decide +kernel), h5, by decide +kernel⟩, by decide +kernel, by decide +kernel⟩

end S3
