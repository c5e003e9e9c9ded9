import Verif.Spec.Unread
import Verif.Props.Response
/-! C114: headers and query parameters that the server does not know. -/
namespace S3
open Spec

/-! ### contexts with the same essentials -/

structure SameNeeds (c c' : Ctx) : Prop where
  method : c'.method = c.method
  path : c'.path = c.path
  body : c'.body = c.body
  multipart : c'.multipart = c.multipart
  header : ∀ n ∈ operationHeaders, c'.header n = c.header n
  query : ∀ n ∈ operationParams, c'.query n = c.query n
  meta' : collectMeta c'.headers = collectMeta c.headers

section
variable {c c' : Ctx} (A : SameNeeds c c')
include A

theorem SameNeeds.isMatch : isMatch c' = isMatch c := by
  funext h
  cases h <;>
    simp only [S3.isMatch, A.method, A.path, A.multipart, A.header b!"x-amz-copy-source" (by decide), A.query b!"uploadId" (by decide),
      A.query b!"uploads" (by decide), A.query b!"delete" (by decide), A.query b!"location" (by decide), A.query b!"list-type" (by decide),
      A.query b!"partNumber" (by decide)]

theorem SameNeeds.extract (lib : Lib) (env : Env) (h : Handler) : extract lib env c' h = extract lib env c h := by
  cases h <;>
    simp only [S3.extract, unwrapObjectPath, unwrapBucketPath, extractPut, putAddress, putBody, A.method, A.path, A.multipart, A.body, A.meta',
      A.header b!"x-amz-copy-source" (by decide), A.header b!"content-length" (by decide), A.header b!"range" (by decide),
      A.header b!"x-amz-storage-class" (by decide), A.header b!"x-amz-bucket-object-lock-enabled" (by decide),
      A.header b!"x-amz-bypass-governance-retention" (by decide), A.query b!"uploadId" (by decide),
      A.query b!"partNumber" (by decide), A.query b!"prefix" (by decide), A.query b!"max-keys" (by decide), A.query b!"fetch-owner" (by decide)]

theorem SameNeeds.makeResponse (x : Texts) (h : Handler) : makeResponse x c' h = makeResponse x c h := by
  funext rep
  have hb : c'.bucketName = c.bucketName := by simp only [Ctx.bucketName, A.path]
  have hk : c'.keyName = c.keyName := by simp only [Ctx.keyName, A.path]
  have hs : c'.copySource = c.copySource := by simp only [Ctx.copySource, A.header b!"x-amz-copy-source" (by decide)]
  have hd : document x c' h rep.answer = document x c h rep.answer := by
    simp only [document, hb, hk, hs, A.query b!"delimiter" (by decide), A.query b!"encoding-type" (by decide)]
  have ha : answerHeaders x c' h rep.answer = answerHeaders x c h rep.answer := by
    simp only [answerHeaders, hb, hk]
  simp only [S3.makeResponse, hd, ha]

theorem SameNeeds.dispatchResponse (cfg : Cfg) (ext : Ext) (lib : Lib) (env : Env) (x : Texts) :
    dispatchResponse cfg ext lib env x c' = dispatchResponse cfg ext lib env x c := by
  have hr : ∀ h, runHandler cfg ext lib env c' h = runHandler cfg ext lib env c h := fun h => by simp only [runHandler, A.extract]
  have hm : ∀ h, S3.makeResponse x c' h = S3.makeResponse x c h := A.makeResponse x
  simp only [S3.dispatchResponse, findHandler, A.isMatch, A.method, A.path, A.multipart, hr, hm]

end

theorem lookup_congr {l l' : List (Bytes × Bytes)} (hs : l.Pairwise fun a b => pairLe a b = true) (hs' : l'.Pairwise fun a b => pairLe a b = true)
    {n : Bytes} (hm : ∀ v, (n, v) ∈ l ↔ (n, v) ∈ l') (ho : ∀ v w, (n, v) ∈ l → (n, w) ∈ l → v = w) : orderedGet l' n = orderedGet l n := by
  cases h : orderedGet l n with
  | none => exact (orderedGet_none_iff hs').mpr fun v hv => (orderedGet_none_iff hs).mp h v ((hm v).mpr hv)
  | some v =>
    cases h' : orderedGet l' n with
    | none => exact absurd ((hm v).mp (orderedGet_some_mem h)) ((orderedGet_none_iff hs').mp h' v)
    | some w => rw [ho v w (orderedGet_some_mem h) ((hm w).mpr (orderedGet_some_mem h'))]

/-- the requests of one method, path and so on, once admitted -/
theorem SameNeeds.of_admitted {lib : Lib} {auth auth' : Option Provider} {r r' : Req} {c c' : Ctx} (h : SameEssentials lib r r')
    (hc : admit lib auth r = .ok c) (hc' : admit lib auth' r' = .ok c') (hb : c'.body = c.body) : SameNeeds c c' := by
  have R := ready_of_admit hc
  have R' := ready_of_admit hc'
  have hq : ∀ n v, (n, v) ∈ r.headers → n ∈ operationHeaders → OnlyHeader r' n v := fun n v hv hn =>
    ⟨(h.headers _ _ (.inl hn)).mp hv, fun w hw => h.header_once n w v (.inl hn) ((h.headers _ _ (.inl hn)).mpr hw) hv⟩
  have hform : ∀ f, UploadsForm lib r f → c'.multipart = some f := by
    intro f hf
    obtain ⟨b, ⟨_, v, m, hv, _⟩, _⟩ := (id hf : UploadsForm lib r f)
    exact R'.onlyForm f v ((h.form f).mp hf) (hq _ v hv (by decide))
  have hform' : ∀ f, UploadsForm lib r f → c.multipart = some f := by
    intro f hf
    obtain ⟨b, ⟨_, v, m, hv, _⟩, _⟩ := (id hf : UploadsForm lib r f)
    exact R.onlyForm f v hf ⟨hv, fun w hw => h.header_once _ w v (.inl (by decide)) hw hv⟩
  refine ⟨by rw [R.method, R'.method, h.method], ?_, hb, ?_, ?_, ?_, ?_⟩
  · have : ∀ a, At r a → At r' a := fun a ⟨p, h1, h2⟩ => ⟨p, h.path ▸ h1, h2⟩
    have h1 := this _ ((R.path c.path.address).mpr rfl)
    cases hp : c.path with
    | root => rw [hp] at h1; exact R'.root h1
    | bucket b => rw [hp] at h1; exact R'.bucket h1
    | object b k => rw [hp] at h1; exact R'.object h1
  · cases hm : c.multipart with
    | some f => exact hform f (R.isForm f hm)
    | none =>
      cases hm' : c'.multipart with
      | none => rfl
      | some f => rw [hform' f ((h.form f).mpr (R'.isForm f hm'))] at hm; cases hm
  · intro n hn
    cases hv : c.header n with
    | none => exact (R'.header_none n).mpr fun v hv' => (R.header_none n).mp hv v ((h.headers n v (.inl hn)).mpr hv')
    | some v => exact R'.headerValue (x := some v) (hq n v (R.header_mem n v hv) hn)
  · intro n hn
    cases hv : c.query n with
    | none => exact (R'.query_none n).mpr fun v hv' => (R.query_none n).mp hv v ((h.params n hn v).mpr hv')
    | some v =>
      have := R.query_mem n v hv
      exact R'.queryValue (x := some v) ⟨(h.params n hn v).mp this, fun w hw => h.param_once n hn w v ((h.params n hn w).mpr hw) this⟩
  · have e : headerMeta r' = headerMeta r := by
      funext n v
      exact propext (h.headers _ v (.inr ⟨n, rfl⟩)).symm
    have hf : ∀ n v w, n ≠ [] → headerMeta r n v → headerMeta r n w → v = w :=
      fun n v w _ hv hw => h.header_once _ v w (.inr ⟨n, rfl⟩) hv hw
    have := R'.headerMeta (by rw [e]; exact hf)
    rw [e] at this
    exact this.unique (R.headerMeta hf)

/-! ### one more header -/

/-- the headers but one, sorted -/
theorem sortPairs_filter_congr {q : Bytes × Bytes → Bool} {l l' : List (Bytes × Bytes)} (h : l.filter q = l'.filter q) :
    (sortPairs l).filter q = (sortPairs l').filter q := by
  apply List.Perm.eq_of_pairwise (le := fun a b => pairLe a b = true)
  · intro a b _ _; exact pairLe_antisymm
  · exact (sortPairs_sorted l).filter q
  · exact (sortPairs_sorted l').filter q
  · exact ((sortPairs_perm l).filter q).trans (h ▸ ((sortPairs_perm l').filter q).symm)

theorem foldl_metaStep_filter (l : List (Bytes × Bytes)) (m : Meta) :
    (l.filter fun p => startsWith p.1 metaPrefix).foldl metaStep m = l.foldl metaStep m := by
  induction l generalizing m with
  | nil => rfl
  | cons p l ih =>
    rw [List.filter_cons]
    cases h : startsWith p.1 metaPrefix with
    | true => exact ih _
    | false =>
      rw [if_neg (by simp), ih, List.foldl_cons]
      congr 1
      simp [metaStep, h]

theorem collectMeta_congr {l l' : List (Bytes × Bytes)}
    (h : (l.filter fun p => startsWith p.1 metaPrefix) = l'.filter fun p => startsWith p.1 metaPrefix) : collectMeta l = collectMeta l' := by
  simp only [collectMeta]
  rw [← foldl_metaStep_filter l, h, foldl_metaStep_filter l']

theorem binSearch_mem {l : List Bytes} {n : Bytes} (h : (binSearch l fun probe => bytesCmp probe n).isSome = true) : n ∈ l := by
  obtain ⟨i, hi⟩ := Option.isSome_iff_exists.mp h
  obtain ⟨x, hx, hf⟩ := binSearchLoop_some hi
  rw [bytesCmp_eq] at hf
  exact hf ▸ List.mem_of_getElem? hx

theorem mapSigned_mem {l : List (Bytes × Bytes)} {signed : List Bytes} {n : Bytes} (hn : n ∉ signed) :
    mapSignedHeaders (l.filter fun p => p.1 != n) signed = mapSignedHeaders l signed := by
  simp only [mapSignedHeaders, List.filter_filter]
  refine List.filter_congr fun p _ => ?_
  cases h : (binSearch signed fun probe => bytesCmp probe p.1).isSome with
  | false => rfl
  | true =>
    have := binSearch_mem h
    simp only [Bool.true_and, bne_iff_ne, ne_eq]
    rintro rfl
    exact hn this

/-- what the check of the signature sees of the headers -/
structure SameSeen (c : Ctx) (hs' : List (Bytes × Bytes)) : Prop where
  header : ∀ m ∈ signatureHeaders, orderedGet hs' m = orderedGet c.headers m
  auth : ∀ v a, orderedGet c.headers b!"authorization" = some v → Authorization.fromHeaderStr v = some a →
    mapSignedHeaders hs' (isort bytesLe a.signedHeaders) = mapSignedHeaders c.headers (isort bytesLe a.signedHeaders)
  query : ∀ qs p, c.qs = some qs → PresignedUrl.fromQuery qs = some p →
    mapSignedHeaders hs' p.signedHeaders = mapSignedHeaders c.headers p.signedHeaders

theorem checkSignature_headers {lib : Lib} {auth : Option Provider} {c : Ctx} {hs' : List (Bytes × Bytes)} (h : SameSeen c hs') :
    checkSignature lib auth { c with headers := hs' } = (checkSignature lib auth c).map fun d => { d with headers := hs' } := by
  have e1 : extractSha hs' = extractSha c.headers := by simp only [extractSha, h.header b!"x-amz-content-sha256" (by decide)]
  have e2 : extractDate hs' = extractDate c.headers := by simp only [extractDate, h.header b!"x-amz-date" (by decide)]
  have e3 : extractAuthorization hs' = extractAuthorization c.headers := by simp only [extractAuthorization, h.header b!"authorization" (by decide)]
  have e4 : Ctx.formMime { c with headers := hs' } = c.formMime := rfl
  have e5 : Ctx.presignedQuery { c with headers := hs' } = c.presignedQuery := rfl
  simp only [checkSignature, e4, e5]
  cases c.formMime with
  | some mime =>
    simp only [checkPostSignature]
    cases auth with
    | none => rfl
    | some p =>
      cases mime.boundary with
      | none => rfl
      | some b =>
        simp only [orErr, except_ok_bind]
        cases formOr (transformMultipart b c.body) with
        | error e => rfl
        | ok f =>
          simp only [except_ok_bind]
          cases checkPostForm lib p f with
          | error e => rfl
          | ok _ => rfl
  | none =>
    simp only
    cases hq : c.presignedQuery with
    | some qs =>
      have hqs : c.qs = some qs := (Option.filter_eq_some_iff.mp hq).1
      simp only [checkPresignedUrl, e1]
      cases hu : PresignedUrl.fromQuery qs with
      | none => rfl
      | some u =>
        have e6 : ∀ s, presignedSignature lib.crypto { c with headers := hs' } qs u s = presignedSignature lib.crypto c qs u s := by
          intro s; simp only [presignedSignature, h.query qs u hqs hu]
        simp only [orErr, except_ok_bind, e6]
        cases extractSha c.headers with
        | error e => rfl
        | ok _ =>
          cases auth with
          | none => rfl
          | some p =>
            simp only [except_ok_bind]
            cases fetchSecretKey p u.credential.accessKeyId with
            | error e => rfl
            | ok s =>
              simp only [except_ok_bind]
              cases presignedSignature lib.crypto c qs u s == u.signature <;> rfl
    | none =>
      simp only [checkHeaderAuth, e3]
      cases ha : extractAuthorization c.headers with
      | error e => rfl
      | ok x =>
        cases x with
        | none => cases auth <;> rfl
        | some a =>
          have : ∃ v, orderedGet c.headers b!"authorization" = some v ∧ Authorization.fromHeaderStr v = some a := by
            simp only [extractAuthorization] at ha
            exact (extractOpt_ok.mp ha).resolve_left (by simp) |> fun ⟨v, a', h1, h2, h3⟩ => by cases h3; exact ⟨v, h1, h2⟩
          obtain ⟨v, hv, hva⟩ := this
          have e7 : ∀ d pl s, headerSignature lib.crypto { c with headers := hs' } a d pl s = headerSignature lib.crypto c a d pl s := by
            intro d pl s; simp only [headerSignature, h.auth v a hv hva]
          simp only [checkAuthorization, e1, e2, e7]
          cases auth with
          | none => rfl
          | some p =>
            simp only [orErr, except_ok_bind]
            cases extractSha c.headers with
            | error e => rfl
            | ok x =>
              cases x with
              | none => rfl
              | some sha =>
                simp only [except_ok_bind]
                cases fetchSecretKey p a.credential.accessKeyId with
                | error e => rfl
                | ok s =>
                  simp only [except_ok_bind]
                  cases extractDate c.headers with
                  | error e => rfl
                  | ok x =>
                    cases x with
                    | none => rfl
                    | some d =>
                      simp only [except_ok_bind]
                      cases headerPayload sha c.body with
                      | error e => rfl
                      | ok pb =>
                        simp only [except_ok_bind]
                        cases headerSignature lib.crypto c a d pb.1 s == a.signature <;> rfl

variable (cfg : Cfg) (ext : Ext) (lib : Lib) (auth : Option Provider) (env : Env)

theorem all_toStrOk {n : Bytes} {l : List (Bytes × Bytes)} (h : ∀ v, (n, v) ∈ l → ∀ c ∈ v, c = 9 ∨ (32 ≤ c ∧ c ≤ 126)) :
    (l.all fun p => toStrOk p.2) = ((l.filter fun p => p.1 != n).all fun p => toStrOk p.2) := by
  induction l with
  | nil => rfl
  | cons p l ih =>
    rw [List.all_cons, ih fun v hv => h v (by simp [hv]), List.filter_cons]
    by_cases hp : p.1 = n
    · rw [toStrOk_of (h p.2 (by rw [← hp]; simp))]
      simp [hp]
    · simp [hp]

/-- **C114** (partial) A header that the server does not know and that is not signed makes no difference: two requests that are the same
but for it are answered alike, by the same accesses to the storage; this holds for all requests, admitted or not. Missing from the full
property: headers of the S3 API which the server does not know, for which it is false, see `C114_condition_fails` and its siblings; headers
that are not visible ASCII, see `C114_header_fails`; requests that give a header the server knows twice, with different values. -/
theorem C114_header_partial {n : Bytes} {r r' : Req} (h : SameButHeader n r r') (hn : n ∉ operationHeaders ++ signatureHeaders)
    (hm : ¬ MetaName n) (hs : ¬ SignedName r n)
    (once : ∀ m ∈ operationHeaders ++ signatureHeaders, ∀ v w, (m, v) ∈ r.headers → (m, w) ∈ r.headers → v = w) (x : Texts) :
    hyperCall cfg ext lib auth env x r' = hyperCall cfg ext lib auth env x r := by
  have hall : (r'.headers.all fun p => toStrOk p.2) = r.headers.all fun p => toStrOk p.2 := by
    rw [all_toStrOk (n := n) fun v hv => h.visible v (.inr hv), all_toStrOk (n := n) fun v hv => h.visible v (.inl hv), h.headers]
  have hmem : ∀ m v, m ≠ n → ((m, v) ∈ sortPairs r.headers ↔ (m, v) ∈ sortPairs r'.headers) := by
    intro m v hmn
    rw [(sortPairs_perm _).mem_iff, (sortPairs_perm _).mem_iff]
    have e : ∀ l : List (Bytes × Bytes), (m, v) ∈ l ↔ (m, v) ∈ l.filter fun p => p.1 != n := fun l => by simp [hmn]
    rw [e r.headers, e r'.headers, h.headers]
  have hget : ∀ m ∈ operationHeaders ++ signatureHeaders, orderedGet (sortPairs r'.headers) m = orderedGet (sortPairs r.headers) m := by
    intro m hm
    have hne : m ≠ n := fun e => hn (e ▸ hm)
    refine lookup_congr (sortPairs_sorted _) (sortPairs_sorted _) (fun v => hmem m v hne) fun v w hv hw => ?_
    exact once m hm v w ((sortPairs_perm _).mem_iff.mp hv) ((sortPairs_perm _).mem_iff.mp hw)
  have hfilter := sortPairs_filter_congr h.headers
  have hsigned : ∀ S : List Bytes, n ∉ S → mapSignedHeaders (sortPairs r'.headers) S = mapSignedHeaders (sortPairs r.headers) S := by
    intro S hS
    rw [← mapSigned_mem (l := sortPairs r'.headers) hS, ← hfilter, mapSigned_mem hS]
  have hmeta : collectMeta (sortPairs r'.headers) = collectMeta (sortPairs r.headers) := by
    refine collectMeta_congr ?_
    have : ∀ l : List (Bytes × Bytes), (l.filter fun p => startsWith p.1 metaPrefix) =
        (l.filter fun p => p.1 != n).filter fun p => startsWith p.1 metaPrefix := by
      intro l
      rw [List.filter_filter]
      refine List.filter_congr fun p _ => ?_
      cases hp : startsWith p.1 metaPrefix with
      | false => rfl
      | true =>
        simp only [Bool.true_and]
        symm
        rw [bne_iff_ne]
        rintro rfl
        exact hm (List.isPrefixOf_iff_prefix.mp hp)
    rw [this, ← hfilter, ← this]
  have hctx : makeCtx lib r' = (makeCtx lib r).map fun c => { c with headers := sortPairs r'.headers } := by
    simp only [makeCtx, orderedHeaders, hall, ← h.path, ← h.query, ← h.method, ← h.body]
    cases urlDecode r.path with
    | none => rfl
    | some p =>
      simp only [orErr, except_ok_bind]
      cases extractS3Path p with
      | error e => rfl
      | ok s =>
        simp only [except_ok_bind]
        cases r.headers.all fun p => toStrOk p.2 with
        | false => rfl
        | true =>
          simp only [if_true, except_ok_bind, hget b!"content-type" (by decide)]
          cases extractOpt .InvalidRequest lib.mime (orderedGet (sortPairs r.headers) b!"content-type") <;> rfl
  simp only [hyperCall, handleResponse, admit, hctx]
  congr 1
  cases hc : makeCtx lib r with
  | error e => rfl
  | ok c =>
    have M := makeCtx_ok.mp hc
    have hh : c.headers = sortPairs r.headers := by
      have := M.headers
      simp only [orderedHeaders] at this
      split at this
      · exact (Option.some.inj this).symm
      · cases this
    have seen : SameSeen c (sortPairs r'.headers) := by
      refine ⟨fun m hm => hh ▸ hget m (by simp [hm]), fun v a hv ha => ?_, fun qs p hq hp => ?_⟩
      · rw [hh] at hv ⊢
        refine hsigned _ fun hin => hs (.header ((sortPairs_perm _).mem_iff.mp (orderedGet_some_mem hv)) ha ?_)
        exact (isort_perm bytesLe _).mem_iff.mp hin
      · rw [hh]
        obtain ⟨cred, ts, ex, names, P⟩ := presigned_parts.mp hp
        refine hsigned _ fun hin => hs (.query (v := names) ?_ (by rw [← P.namesSplit]; exact hin))
        have hin' := orderedGet_some_mem P.signed
        obtain ⟨q, hq1, rfl⟩ := Option.map_eq_some_iff.mp (M.qs ▸ hq)
        rw [show queryOf r = parseQuery q by simp [queryOf, hq1]]
        exact (sortPairs_perm _).mem_iff.mp hin'
    rw [show (Except.map (fun c => { c with headers := sortPairs r'.headers }) (Except.ok c) : Except S3ErrorCode Ctx) =
      .ok { c with headers := sortPairs r'.headers } from rfl]
    simp only [except_ok_bind, checkSignature_headers seen]
    cases hd : checkSignature lib auth c with
    | error e => rfl
    | ok d =>
      have ha := checkSignature_admitted hd
      show dispatchResponse cfg ext lib env x { d with headers := sortPairs r'.headers } = dispatchResponse cfg ext lib env x d
      refine SameNeeds.dispatchResponse (c := d) (c' := { d with headers := sortPairs r'.headers }) ⟨rfl, rfl, rfl, rfl, fun m hm => ?_, fun _ _ => rfl, ?_⟩ cfg ext lib env x
      · show orderedGet (sortPairs r'.headers) m = orderedGet d.headers m
        rw [ha.headers, hh]
        exact hget m (by simp [hm])
      · rw [ha.headers, hh]
        exact hmeta

/-- **C114** (partial) What is done with an admitted request depends only on its method, its path, its body and the headers and query
parameters that the server knows: requests that agree on these are answered alike, by the same accesses to the storage. Missing as in
`C114_header_partial`. -/
theorem C114_essentials_partial {auth auth' : Option Provider} {r r' : Req} {c c' : Ctx} (hc : admit lib auth r = .ok c)
    (hc' : admit lib auth' r' = .ok c') (h : SameEssentials lib r r') (hb : c'.body = c.body) (x : Texts) :
    hyperCall cfg ext lib auth' env x r' = hyperCall cfg ext lib auth env x r := by
  simp only [hyperCall, handleResponse, hc, hc']
  rw [(SameNeeds.of_admitted h hc hc' hb).dispatchResponse]

/-! ### witnesses and examples -/

namespace Sample

/-- the status of a response -/
def code (o : Outcome Response) : Option Nat := match o with
  | .ok r => some r.status
  | _ => none

/-- the file tree after a request -/
def servedTree (r : Req) (t : FS) : FS := afterResponded Sample.cfg Sample.ext Sample.lib none Sample.env texts r t

/-- the keys a client reads in the answer to a listing -/
def listed (o : Outcome Response) : Option (List Bytes) := (reads o).map (textsAt [b!"ListBucketResult", b!"Contents", b!"Key"])

def putDeep : Req := plain b!"PUT" b!"/aaa/d/y" none [] [some b!"1"]

end Sample

/-- **C114** (negation) Conditions are not looked at: a GET that asks for the object unless it has the ETag it has gets the object (304 Not
Modified by the S3 API), a GET that asks for it only if it has another ETag also (412 Precondition Failed); a PUT that must not overwrite
overwrites. -/
theorem C114_condition_fails :
    ∃ (cfg : Cfg) (ext : Ext) (lib : Lib) (env : Env) (x : Texts) (fs : FS) (other only put : Req) (etag : Bytes), WF fs ∧
      At other (.object b!"aaa" b!"x") ∧ At only (.object b!"aaa" b!"x") ∧ At put (.object b!"aaa" b!"x") ∧
      other.method = b!"GET" ∧ (b!"if-none-match", etag) ∈ other.headers ∧
      Sample.headerOf (responded cfg ext lib none env x other fs) b!"etag" = some etag ∧
      Sample.code (responded cfg ext lib none env x other fs) = some 200 ∧
      only.method = b!"GET" ∧ (b!"if-match", b!"\"other\"") ∈ only.headers ∧ etag ≠ b!"\"other\"" ∧
      Sample.code (responded cfg ext lib none env x only fs) = some 200 ∧
      put.method = b!"PUT" ∧ (b!"if-none-match", b!"*") ∈ put.headers ∧ stored cfg fs b!"aaa" b!"x" = some b!"hello" ∧
      Sample.code (responded cfg ext lib none env x put fs) = some 200 ∧
      stored cfg (afterResponded cfg ext lib none env x put fs) b!"aaa" b!"x" = some b!"new" :=
  ⟨Sample.cfg, Sample.ext, Sample.lib, Sample.env, Sample.texts, Sample.fs,
    Sample.plain b!"GET" b!"/aaa/x" none [(b!"if-none-match", b!"\"md5:5\"")] [],
    Sample.plain b!"GET" b!"/aaa/x" none [(b!"if-match", b!"\"other\"")] [],
    Sample.plain b!"PUT" b!"/aaa/x" none [(b!"if-none-match", b!"*")] [some b!"new"], b!"\"md5:5\"", Sample.fs_wf,
    Sample.at_object rfl (by decide +kernel) (by decide +kernel) (by decide) (by decide),
    Sample.at_object rfl (by decide +kernel) (by decide +kernel) (by decide) (by decide),
    Sample.at_object rfl (by decide +kernel) (by decide +kernel) (by decide) (by decide), rfl, by decide, by decide +kernel, by decide +kernel,
    rfl, by decide, by decide, by decide +kernel, rfl, by decide, by decide +kernel, by decide +kernel, by decide +kernel⟩

/-- **C114** (negation) A `Content-MD5` is not looked at: a PUT with one that is no MD5 of anything is answered 200 and stored. -/
theorem C114_checksum_fails :
    ∃ (cfg : Cfg) (ext : Ext) (lib : Lib) (env : Env) (x : Texts) (fs : FS) (put : Req), WF fs ∧ put.method = b!"PUT" ∧
      At put (.object b!"aaa" b!"k") ∧ (b!"content-md5", b!"no") ∈ put.headers ∧ Sample.code (responded cfg ext lib none env x put fs) = some 200 ∧
      stored cfg (afterResponded cfg ext lib none env x put fs) b!"aaa" b!"k" = some b!"new" :=
  ⟨Sample.cfg, Sample.ext, Sample.lib, Sample.env, Sample.texts, Sample.fs,
    Sample.plain b!"PUT" b!"/aaa/k" none [(b!"content-md5", b!"no")] [some b!"new"], Sample.fs_wf, rfl,
    Sample.at_object rfl (by decide +kernel) (by decide +kernel) (by decide) (by decide), by decide, by decide +kernel, by decide +kernel⟩

/-- **C114** (negation) `max-keys`, `delimiter`, `marker`, `start-after` and `continuation-token` do not change a listing: every one shows all
keys, and no common prefix. -/
theorem C114_listing_fails :
    ∃ (cfg : Cfg) (ext : Ext) (lib : Lib) (env : Env) (x : Texts) (fs : FS), WF fs ∧
      ∀ q ∈ [b!"max-keys=1", b!"delimiter=/", b!"marker=x", b!"list-type=2&max-keys=1", b!"list-type=2&start-after=x", b!"list-type=2&continuation-token=x"],
        Sample.listed (responded cfg ext lib none env x (Sample.plain b!"GET" b!"/aaa" (some q) [] []) fs) = some [b!"d/y", b!"x"] ∧
        (Sample.reads (responded cfg ext lib none env x (Sample.plain b!"GET" b!"/aaa" (some q) [] []) fs)).map
          (textsAt [b!"ListBucketResult", b!"CommonPrefixes", b!"Prefix"]) = some [] := by
  refine ⟨Sample.cfg, Sample.ext, Sample.lib, Sample.env, Sample.texts, Sample.servedTree Sample.putDeep Sample.fs, run_wf _ _ Sample.fs_wf, ?_⟩
  decide +kernel

/-- **C114** (negation) Versions are not looked at: a GET and a DELETE that name a version of an object get and delete the object. -/
theorem C114_version_fails :
    ∃ (cfg : Cfg) (ext : Ext) (lib : Lib) (env : Env) (x : Texts) (fs : FS) (get delete : Req), WF fs ∧
      At get (.object b!"aaa" b!"x") ∧ At delete (.object b!"aaa" b!"x") ∧ get.method = b!"GET" ∧ delete.method = b!"DELETE" ∧
      (b!"versionId", b!"v9") ∈ queryOf get ∧ (b!"versionId", b!"v9") ∈ queryOf delete ∧
      Sample.code (responded cfg ext lib none env x get fs) = some 200 ∧ Sample.code (responded cfg ext lib none env x delete fs) = some 204 ∧
      stored cfg fs b!"aaa" b!"x" = some b!"hello" ∧ stored cfg (afterResponded cfg ext lib none env x delete fs) b!"aaa" b!"x" = none :=
  ⟨Sample.cfg, Sample.ext, Sample.lib, Sample.env, Sample.texts, Sample.fs, Sample.plain b!"GET" b!"/aaa/x" (some b!"versionId=v9") [] [],
    Sample.plain b!"DELETE" b!"/aaa/x" (some b!"versionId=v9") [] [], Sample.fs_wf,
    Sample.at_object rfl (by decide +kernel) (by decide +kernel) (by decide) (by decide),
    Sample.at_object rfl (by decide +kernel) (by decide +kernel) (by decide) (by decide), rfl, rfl, by decide +kernel, by decide +kernel,
    by decide +kernel, by decide +kernel, by decide +kernel, by decide +kernel⟩

/-- **C114** (negation) The content type given with an object is not kept: a HEAD shows another one, a GET none. -/
theorem C114_content_type_fails :
    ∃ (cfg : Cfg) (ext : Ext) (lib : Lib) (env : Env) (x : Texts) (fs : FS) (put get head : Req), WF fs ∧
      At put (.object b!"aaa" b!"k") ∧ At get (.object b!"aaa" b!"k") ∧ At head (.object b!"aaa" b!"k") ∧
      put.method = b!"PUT" ∧ get.method = b!"GET" ∧ head.method = b!"HEAD" ∧ (b!"content-type", b!"text/plain") ∈ put.headers ∧
      Sample.code (responded cfg ext lib none env x put fs) = some 200 ∧
      Sample.headerOf (responded cfg ext lib none env x head (afterResponded cfg ext lib none env x put fs)) b!"content-type" =
        some b!"application/octet-stream" ∧
      Sample.code (responded cfg ext lib none env x get (afterResponded cfg ext lib none env x put fs)) = some 200 ∧
      Sample.headerOf (responded cfg ext lib none env x get (afterResponded cfg ext lib none env x put fs)) b!"content-type" = none :=
  ⟨Sample.cfg, Sample.ext, Sample.lib, Sample.env, Sample.texts, Sample.fs,
    Sample.plain b!"PUT" b!"/aaa/k" none [(b!"content-type", b!"text/plain")] [some b!"new"], Sample.plain b!"GET" b!"/aaa/k" none [] [],
    Sample.plain b!"HEAD" b!"/aaa/k" none [] [], Sample.fs_wf,
    Sample.at_object rfl (by decide +kernel) (by decide +kernel) (by decide) (by decide),
    Sample.at_object rfl (by decide +kernel) (by decide +kernel) (by decide) (by decide),
    Sample.at_object rfl (by decide +kernel) (by decide +kernel) (by decide) (by decide), rfl, rfl, rfl, by decide,
    by decide +kernel, by decide +kernel, by decide +kernel, by decide +kernel⟩

/-- **C114** (negation) The directive to replace the metadata of a copy is not looked at: the copy has the metadata of its source. -/
theorem C114_directive_fails :
    ∃ (cfg : Cfg) (ext : Ext) (lib : Lib) (env : Env) (x : Texts) (fs : FS) (head copy head' : Req), WF fs ∧
      At head (.object b!"aaa" b!"n") ∧ At head' (.object b!"bbb" b!"c") ∧ head.method = b!"HEAD" ∧ head'.method = b!"HEAD" ∧
      At copy (.object b!"bbb" b!"c") ∧ copy.method = b!"PUT" ∧ (b!"x-amz-copy-source", b!"aaa/n") ∈ copy.headers ∧
      (b!"x-amz-metadata-directive", b!"REPLACE") ∈ copy.headers ∧ (b!"x-amz-meta-new", b!"1") ∈ copy.headers ∧
      Sample.headerOf (responded cfg ext lib none env x head fs) b!"x-amz-meta-a" = some b!"1" ∧
      Sample.code (responded cfg ext lib none env x copy fs) = some 200 ∧
      Sample.headerOf (responded cfg ext lib none env x head' (afterResponded cfg ext lib none env x copy fs)) b!"x-amz-meta-a" = some b!"1" ∧
      Sample.headerOf (responded cfg ext lib none env x head' (afterResponded cfg ext lib none env x copy fs)) b!"x-amz-meta-new" = none :=
  ⟨Sample.cfg, Sample.ext, Sample.lib, Sample.env, Sample.texts, Sample.servedTree Sample.metaPut Sample.fs, Sample.plain b!"HEAD" b!"/aaa/n" none [] [],
    Sample.plain b!"PUT" b!"/bbb/c" none [(b!"x-amz-copy-source", b!"aaa/n"), (b!"x-amz-meta-new", b!"1"), (b!"x-amz-metadata-directive", b!"REPLACE")] [],
    Sample.plain b!"HEAD" b!"/bbb/c" none [] [], run_wf _ _ Sample.fs_wf,
    Sample.at_object rfl (by decide +kernel) (by decide +kernel) (by decide) (by decide),
    Sample.at_object rfl (by decide +kernel) (by decide +kernel) (by decide) (by decide), rfl, rfl,
    Sample.at_object rfl (by decide +kernel) (by decide +kernel) (by decide) (by decide), rfl, by decide, by decide, by decide,
    by decide +kernel, by decide +kernel, by decide +kernel, by decide +kernel⟩

/-- **C114** (negation) A header that the server does not know makes the request fail if its value is not ASCII. -/
theorem C114_header_fails :
    ∃ (cfg : Cfg) (ext : Ext) (lib : Lib) (env : Env) (x : Texts) (fs : FS) (get get' : Req) (v : Bytes), WF fs ∧
      get' = { get with headers := (b!"x-forwarded-for", v) :: get.headers } ∧
      Sample.code (responded cfg ext lib none env x get fs) = some 200 ∧ Sample.code (responded cfg ext lib none env x get' fs) = some 400 :=
  ⟨Sample.cfg, Sample.ext, Sample.lib, Sample.env, Sample.texts, Sample.fs, Sample.plain b!"GET" b!"/aaa/x" none [] [], _, [0xc3, 0xa9], Sample.fs_wf,
    rfl, by decide +kernel, by decide +kernel⟩

/-- a header added to a signed request on its way -/
def Sample.forwarded : Req := { Sample.signedPut with headers := (b!"x-forwarded-for", b!"10.0.0.1") :: Sample.signedPut.headers }

theorem Sample.forwarded_same : SameButHeader b!"x-forwarded-for" Sample.signedPut Sample.forwarded := by
  have key : (∀ p ∈ Sample.signedPut.headers, p.1 ≠ b!"x-forwarded-for") ∧
      ∀ p ∈ Sample.forwarded.headers, p.1 = b!"x-forwarded-for" → ∀ c ∈ p.2, c = 9 ∨ (32 ≤ c ∧ c ≤ 126) := by decide +kernel
  refine ⟨rfl, rfl, rfl, rfl, by decide +kernel, ?_⟩
  rintro v (hv | hv)
  · exact absurd rfl (key.1 _ hv)
  · exact key.2 _ hv rfl

theorem Sample.forwarded_unsigned : ¬ SignedName Sample.signedPut b!"x-forwarded-for" := by
  intro h
  have key : ∀ p ∈ Sample.signedPut.headers, p.1 = b!"authorization" →
      (Authorization.fromHeaderStr p.2).all (fun a => !a.signedHeaders.contains b!"x-forwarded-for") = true := by decide +kernel
  cases h with
  | header hv ha hn =>
    have := key _ hv rfl
    rw [ha] at this
    simp only [Option.all_some, Bool.not_eq_true', List.contains_eq_mem, decide_eq_false_iff_not] at this
    exact this hn
  | query hv _ =>
    rw [show queryOf Sample.signedPut = [] by decide +kernel] at hv
    cases hv

theorem Sample.signedPut_once : ∀ m ∈ operationHeaders ++ signatureHeaders, ∀ v w, (m, v) ∈ Sample.signedPut.headers →
    (m, w) ∈ Sample.signedPut.headers → v = w := by
  have key : ∀ p ∈ Sample.signedPut.headers, ∀ q ∈ Sample.signedPut.headers, p.1 = q.1 → p.2 = q.2 := by decide +kernel
  exact fun m _ v w hv hw => key _ hv _ hw rfl

/-- the hypotheses of `C114_header_partial` can be met, by a signed request that is admitted -/
example (x : Texts) (cfg : Cfg) (ext : Ext) (env : Env) :
    hyperCall cfg ext Sample.lib (some Sample.provider) env x Sample.forwarded = hyperCall cfg ext Sample.lib (some Sample.provider) env x Sample.signedPut ∧
    Sample.admitted (some Sample.provider) Sample.forwarded = true :=
  ⟨C114_header_partial cfg ext Sample.lib (some Sample.provider) env Sample.forwarded_same (by decide) (by rw [MetaName]; decide)
    Sample.forwarded_unsigned Sample.signedPut_once x, by decide +kernel⟩

/-- the hypotheses of `C114_essentials_partial` can be met: a parameter nobody knows -/
example (x : Texts) : hyperCall Sample.cfg Sample.ext Sample.lib none Sample.env x (Sample.plain b!"GET" b!"/aaa/x" (some b!"utm=1") [(b!"range", b!"bytes=0-1")] []) =
    hyperCall Sample.cfg Sample.ext Sample.lib none Sample.env x (Sample.plain b!"GET" b!"/aaa/x" none [(b!"range", b!"bytes=0-1")] []) := by
  obtain ⟨c, hc, hb⟩ := Sample.admit_of (r := Sample.plain b!"GET" b!"/aaa/x" none [(b!"range", b!"bytes=0-1")] []) (by decide +kernel)
  obtain ⟨c', hc', hb'⟩ := Sample.admit_of (r := Sample.plain b!"GET" b!"/aaa/x" (some b!"utm=1") [(b!"range", b!"bytes=0-1")] []) (by decide +kernel)
  refine C114_essentials_partial Sample.cfg Sample.ext Sample.lib Sample.env hc hc' ⟨rfl, rfl, fun f => ?_, fun n v _ => Iff.rfl, fun n hn v => ?_, ?_, ?_⟩ (by rw [hb, hb']; rfl) x
  · constructor <;> rintro ⟨b, ⟨h, _⟩, _⟩ <;> exact absurd h (by decide)
  · constructor
    · intro h; cases h
    · intro h
      have : queryOf (Sample.plain b!"GET" b!"/aaa/x" (some b!"utm=1") [(b!"range", b!"bytes=0-1")] []) = [(b!"utm", b!"1")] := by decide +kernel
      rw [this] at h
      rw [(Prod.mk.inj (List.mem_singleton.mp h)).1] at hn
      exact absurd hn (by decide)
  · intro n v w _ hv hw
    exact (Prod.mk.inj (List.mem_singleton.mp hv)).2.trans (Prod.mk.inj (List.mem_singleton.mp hw)).2.symm
  · intro n _ v w hv; cases hv

end S3
