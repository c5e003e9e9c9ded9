import Verif.Props.Access
/-! C69: the declaration of the payload, `x-amz-content-sha256`. -/
namespace S3
open Spec

/-- 64 hexadecimal digits in lower case: the text of a SHA-256 checksum -/
def Spec.Sha256Text (s : Bytes) : Prop := s.length = 64 ∧ ∀ c ∈ s, (48 ≤ c ∧ c ≤ 57) ∨ (97 ≤ c ∧ c ≤ 102)

/-- the values of `x-amz-content-sha256` -/
def Spec.PayloadDeclaration (s : Bytes) : Prop :=
  s = b!"UNSIGNED-PAYLOAD" ∨ s = b!"STREAMING-AWS4-HMAC-SHA256-PAYLOAD" ∨ Sha256Text s

theorem isSha256Checksum_iff {s : Bytes} : isSha256Checksum s = true ↔ Sha256Text s := by
  simp only [isSha256Checksum, Bool.and_eq_true, List.all_eq_true, beq_iff_eq, Sha256Text, isDigit, Bool.or_eq_true, decide_eq_true_eq]

theorem contentSha256_iff {s : Bytes} : (∃ x, AmzContentSha256.fromHeaderStr s = some x) ↔ PayloadDeclaration s := by
  unfold AmzContentSha256.fromHeaderStr PayloadDeclaration
  by_cases h1 : s = b!"UNSIGNED-PAYLOAD"
  · rw [if_pos h1]; exact ⟨fun _ => .inl h1, fun _ => ⟨_, rfl⟩⟩
  · rw [if_neg h1]
    by_cases h2 : s = b!"STREAMING-AWS4-HMAC-SHA256-PAYLOAD"
    · rw [if_pos h2]; exact ⟨fun _ => .inr (.inl h2), fun _ => ⟨_, rfl⟩⟩
    · rw [if_neg h2]
      by_cases h3 : isSha256Checksum s = true
      · rw [if_pos h3]; exact ⟨fun _ => .inr (.inr (isSha256Checksum_iff.mp h3)), fun _ => ⟨_, rfl⟩⟩
      · rw [if_neg h3]
        refine ⟨fun ⟨_, h⟩ => (by cases h), ?_⟩
        rintro (h | h | h)
        · exact absurd h h1
        · exact absurd h h2
        · exact absurd (isSha256Checksum_iff.mpr h) h3

/-- **C69** (partial) A request signed in its header that is not refused at once declares its payload: it has the header
`x-amz-content-sha256`, and its value is `UNSIGNED-PAYLOAD`, `STREAMING-AWS4-HMAC-SHA256-PAYLOAD`, or the text of a checksum:
64 hexadecimal digits in lower case.
Missing from the full property: that the checksum is the one of the body, see `C69_declared_checksum_fails`. -/
theorem C69_declaration_partial (cfg : Cfg) (ext : Ext) (lib : Lib) (p : Provider) (env : Env) (r : Req)
    (h : ∀ e, handle cfg ext lib (some p) env r ≠ .fail e) (hf : ∀ b, ¬ IsForm lib r b)
    (hq : ∀ v, (b!"X-Amz-Signature", v) ∉ queryOf r) :
    ∃ s, (b!"x-amz-content-sha256", s) ∈ r.headers ∧ PayloadDeclaration s := by
  cases ha : admit lib (some p) r with
  | error e => exact absurd (handle_error ha) (h e)
  | ok c' =>
    obtain ⟨c, hm, hc⟩ := admit_ok.mp ha
    simp only [checkSignature, formMime_none hm hf, presignedQuery_none hm hq] at hc
    rcases checkHeaderAuth_ok.mp hc with ⟨_, e, _⟩ | ⟨v, a, _, _, hx⟩
    · cases e
    · obtain ⟨_, _, _, sha, _, _, _, _, ho⟩ := checkAuthorization_ok.mp hx
      obtain ⟨s, h1, h2⟩ := extractSha_ok.mp ho.sha
      exact ⟨s, hm.header_mem h1, contentSha256_iff.mp ⟨_, h2⟩⟩

/-- **C69** (partial, refusal) A well-formed request with an `Authorization` header of the right form whose declaration is none
of these is answered XAmzContentSHA256Mismatch at once. -/
theorem C69_refused_partial (cfg : Cfg) (ext : Ext) (lib : Lib) (p : Provider) (env : Env) (r : Req) (hw : WellFormed lib r)
    (hf : ∀ b, ¬ IsForm lib r b) (hq : ∀ v, (b!"X-Amz-Signature", v) ∉ queryOf r) {v s : Bytes}
    (hv : OnlyHeader r b!"authorization" v) (ha : ∃ a, Authorization.fromHeaderStr v = some a)
    (hs : OnlyHeader r b!"x-amz-content-sha256" s) (hn : ¬ PayloadDeclaration s) :
    handle cfg ext lib (some p) env r = .fail .XAmzContentSHA256Mismatch := by
  obtain ⟨a, ha⟩ := ha
  obtain ⟨c, hm⟩ := made_of_wellFormed hw
  apply handle_error
  rw [admit_made hm]
  simp only [checkSignature, formMime_none hm hf, presignedQuery_none hm hq, checkHeaderAuth_some hm hv ha, checkAuthorization,
    orErr, except_ok_bind]
  have h1 : orderedGet c.headers b!"x-amz-content-sha256" = some s := made_header_only hm hs
  have h2 : AmzContentSha256.fromHeaderStr s = none := by
    cases hx : AmzContentSha256.fromHeaderStr s with
    | none => rfl
    | some x => exact absurd (contentSha256_iff.mp ⟨x, hx⟩) hn
  simp only [extractSha, extractOpt, h1, h2]
  rfl

/-- `PUT /abc/k` with the body "hello", declared with a checksum and signed with another payload line -/
def Sample.declaredPut (declared line : Bytes) : Req :=
  let base := [(b!"host", b!"h"), (b!"x-amz-content-sha256", declared), (b!"x-amz-date", Sample.stamp)]
  { method := b!"PUT", path := b!"/abc/k", query := none, body := [some Sample.hello]
    headers := (b!"authorization", b!"AWS4-HMAC-SHA256 Credential=AK/20130524/us-east-1/s3/aws4_request, SignedHeaders=" ++
      joinWith 59 (base.map (·.1)) ++ b!", Signature=" ++
        Sample.signText (Sample.canonical b!"PUT" b!"/abc/k" [] base line)) :: base }

/-- 63 digits are refused, 64 accepted -/
example :
    let short := List.replicate 63 (48 : UInt8)
    ¬ PayloadDeclaration short ∧ PayloadDeclaration (48 :: short) ∧
    handle Sample.cfg Sample.ext Sample.lib (some Sample.provider) Sample.env (Sample.declaredPut short Sample.helloHash)
      = .fail .XAmzContentSHA256Mismatch ∧
    Sample.admitted (some Sample.provider) (Sample.declaredPut (48 :: short) Sample.helloHash) = true := by
  refine ⟨?_, .inr (.inr ⟨by decide, by decide⟩), Sample.failsWith_iff.mp (by decide +kernel), by decide +kernel⟩
  rintro (h | h | h)
  · exact absurd h (by decide)
  · exact absurd h (by decide)
  · exact absurd h.1 (by decide)

/-- C69 fails: a request that declares a checksum which is not the one of its body is admitted, if its signature was made with
the right one. -/
theorem C69_declared_checksum_fails :
    ∃ (cfg : Cfg) (ext : Ext) (lib : Lib) (p : Provider) (env : Env) (r : Req) (s : Bytes), CryptoLaw lib.crypto ∧
      OnlyHeader r b!"x-amz-content-sha256" s ∧ Sha256Text s ∧ s ≠ hexText (lib.crypto.sha256 (received r.body)) ∧
      ∀ e, handle cfg ext lib (some p) env r ≠ .fail e := by
  refine ⟨Sample.cfg, Sample.ext, Sample.lib, Sample.provider, Sample.env,
    Sample.declaredPut (List.replicate 64 48) Sample.helloHash, List.replicate 64 48, Sample.cryptoLaw, ?_, ⟨by decide, by decide⟩,
    by decide +kernel, ?_⟩
  · refine ⟨by simp [Sample.declaredPut], ?_⟩
    intro w hw
    simp [Sample.declaredPut] at hw
    exact hw
  · have : Sample.steps (handle Sample.cfg Sample.ext Sample.lib (some Sample.provider) Sample.env
      (Sample.declaredPut (List.replicate 64 48) Sample.helloHash)) = true := by decide +kernel
    intro e he
    rw [he] at this
    cases this

end S3
