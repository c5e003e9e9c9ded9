import Verif.Lemmas.Dispatch
/-! Lemmas: the handler that is chosen for a request of the operation table, and the operation it runs. -/
namespace S3
open Spec

/-- the handler of an operation -/
def Op.handler : Op → Handler
  | .createBucket _ => .createBucket
  | .copyObject _ _ _ => .copyObject
  | .deleteBucket _ => .deleteBucket
  | .deleteObject _ _ => .deleteObject
  | .deleteObjects _ _ => .deleteObjects
  | .getBucketLocation _ => .getBucketLocation
  | .getObject _ _ _ _ => .getObject
  | .headBucket _ => .headBucket
  | .headObject _ _ => .headObject
  | .listBuckets => .listBuckets
  | .listObjects _ _ _ => .listObjects
  | .listObjectsV2 _ _ _ => .listObjectsV2
  | .putObject _ => .putObject
  | .createMultipartUpload _ => .createMultipartUpload
  | .uploadPart _ _ _ => .uploadPart
  | .completeMultipartUpload _ _ _ _ => .completeMultipartUpload

theorem handler_status (o : Op) : o.handler.status = successStatus o := by cases o <;> rfl

theorem runHandler_ret {cfg : Cfg} {ext : Ext} {lib : Lib} {env : Env} {c : Ctx} {h : Handler} {o : Op} (he : extract lib env c h = .ret o) :
    runHandler cfg ext lib env c h = (opProg cfg ext o).bind (respond h) := by
  simp only [runHandler, he, Prog.bind]

theorem dispatch_of {cfg : Cfg} {ext : Ext} {lib : Lib} {env : Env} {c : Ctx} {o : Op}
    (hf : ¬ (c.method = b!"POST" ∧ c.path.isObject = true ∧ c.multipart.isSome = true))
    (h : findHandler c = some o.handler) (he : extract lib env c o.handler = .ret o) :
    dispatch cfg ext lib env c = (opProg cfg ext o).bind (respond o.handler) := by
  simp only [dispatch, if_neg hf, h]
  exact runHandler_ret he

theorem xmlBody_text {α : Type} {parse : Bytes → Option α} {body : Body} {s : Bytes} {a : α} (h : Text body s) (hp : parse s = some a) :
    xmlBody parse body = .ret a := by
  simp only [xmlBody, wholeBody_some.mpr h, hp, orFail]

theorem mem_subresources (n : Bytes) (h : subresources.contains n = true) : n ∈ subresources := by
  simpa using h

section
variable {lib : Lib} {env : Env} {r : Req} {c : Ctx}

/-- facts about the query of a request that names just these sub-resources -/
theorem Admits.params (R : Admits lib r c) {names : List Bytes} (h : Selects r names) :
    (c.query b!"uploadId").isSome = decide (b!"uploadId" ∈ names) ∧ (c.query b!"uploads").isSome = decide (b!"uploads" ∈ names) ∧
    (c.query b!"delete").isSome = decide (b!"delete" ∈ names) ∧ (c.query b!"location").isSome = decide (b!"location" ∈ names) ∧
    (c.query b!"list-type").isSome = decide (b!"list-type" ∈ names) ∧ (c.query b!"partNumber").isSome = decide (b!"partNumber" ∈ names) :=
  ⟨R.selects h (mem_subresources _ (by decide +kernel)), R.selects h (mem_subresources _ (by decide +kernel)),
   R.selects h (mem_subresources _ (by decide +kernel)), R.selects h (mem_subresources _ (by decide +kernel)),
   R.selects h (mem_subresources _ (by decide +kernel)), R.selects h (mem_subresources _ (by decide +kernel))⟩

end

/-- what a handler's choice depends on -/
structure Shape where
  method : Bytes
  path : S3Path
  uploadId : Bool
  uploads : Bool
  delete : Bool
  location : Bool
  listType : Option Bytes
  partNumber : Bool
  copy : Bool
  form : Bool

def Shape.isMatch (c : Shape) : Handler → Bool
  | .completeMultipartUpload => c.method == b!"POST" && c.path.isObject && c.uploadId
  | .copyObject => c.method == b!"PUT" && c.path.isObject && c.copy
  | .createBucket => c.method == b!"PUT" && c.path.isBucket
  | .createMultipartUpload => c.method == b!"POST" && c.path.isObject && c.uploads
  | .deleteBucket => c.method == b!"DELETE" && c.path.isBucket
  | .deleteObject => c.method == b!"DELETE" && c.path.isObject
  | .deleteObjects => c.method == b!"POST" && c.path.isBucket && c.delete
  | .getBucketLocation => c.method == b!"GET" && c.path.isBucket && c.location
  | .getObject => c.method == b!"GET" && c.path.isObject
  | .headBucket => c.method == b!"HEAD" && c.path.isBucket
  | .headObject => c.method == b!"HEAD" && c.path.isObject
  | .listBuckets => c.method == b!"GET" && c.path.isRoot
  | .listObjects => c.method == b!"GET" && c.path.isBucket && c.listType.isNone
  | .listObjectsV2 => c.method == b!"GET" && c.path.isBucket && c.listType == some b!"2"
  | .putObject =>
    if c.method == b!"POST" then c.path.isBucket && c.form
    else if c.method == b!"PUT" then c.path.isObject && !c.uploadId
    else false
  | .uploadPart => c.method == b!"PUT" && c.partNumber && c.uploadId

def Ctx.shape (c : Ctx) : Shape where
  method := c.method
  path := c.path
  uploadId := (c.query b!"uploadId").isSome
  uploads := (c.query b!"uploads").isSome
  delete := (c.query b!"delete").isSome
  location := (c.query b!"location").isSome
  listType := c.query b!"list-type"
  partNumber := (c.query b!"partNumber").isSome
  copy := (c.header b!"x-amz-copy-source").isSome
  form := c.multipart.isSome

theorem isMatch_shape (c : Ctx) : isMatch c = c.shape.isMatch := by
  funext h
  cases h <;> simp [isMatch, Shape.isMatch, Ctx.shape]

theorem findHandler_shape (c : Ctx) : findHandler c = handlers.find? c.shape.isMatch := by
  rw [findHandler, isMatch_shape]

theorem Admits.shape {lib : Lib} {r : Req} {c : Ctx} (R : Admits lib r c) {names : List Bytes} (hs : Selects r names) {m : Bytes} (hm : r.method = m) :
    c.shape = ⟨m, c.path, decide (b!"uploadId" ∈ names), decide (b!"uploads" ∈ names), decide (b!"delete" ∈ names), decide (b!"location" ∈ names),
      c.query b!"list-type", decide (b!"partNumber" ∈ names), (c.header b!"x-amz-copy-source").isSome, c.multipart.isSome⟩ := by
  obtain ⟨h1, h2, h3, h4, h5, h6⟩ := R.params hs
  simp only [Ctx.shape, h1, h2, h3, h4, h6, R.method, hm]

theorem Admits.listType {lib : Lib} {r : Req} {c : Ctx} (R : Admits lib r c) {names : List Bytes} (hs : Selects r names)
    (h : b!"list-type" ∉ names) : c.query b!"list-type" = none := by
  have := (R.params hs).2.2.2.2.1
  rw [decide_eq_false h] at this
  cases hq : c.query b!"list-type" with
  | none => rfl
  | some v => rw [hq] at this; cases this

/-- the handler of the operation is chosen and extracts it -/
structure Dispatched (lib : Lib) (env : Env) (c : Ctx) (o : Op) : Prop where
  form : ¬ (c.method = b!"POST" ∧ c.path.isObject = true ∧ c.multipart.isSome = true)
  find : findHandler c = some o.handler
  extracted : extract lib env c o.handler = .ret o

/-- every request of the operation table is dispatched to its operation -/
theorem requests_dispatched {lib : Lib} {env : Env} {r : Req} {c : Ctx} (R : Admits lib r c) {o : Op}
    (h : Requests lib env r c.body o) : Dispatched lib env c o := by
  have nopost : ∀ {m : Bytes}, r.method = m → m ≠ b!"POST" → ¬ (c.method = b!"POST" ∧ c.path.isObject = true ∧ c.multipart.isSome = true) := by
    rintro m rfl hm ⟨h, _⟩; rw [R.method] at h; exact hm h
  have nobucket : ∀ {b : Bytes}, At r (.bucket b) → ¬ (c.method = b!"POST" ∧ c.path.isObject = true ∧ c.multipart.isSome = true) := by
    rintro b hb ⟨_, h, _⟩; rw [R.bucket hb] at h; cases h
  have noform : (∀ x, ¬ IsForm lib r x) → ¬ (c.method = b!"POST" ∧ c.path.isObject = true ∧ c.multipart.isSome = true) := by
    rintro hf ⟨_, _, h⟩; rw [R.noForm hf] at h; cases h
  cases h with
  | listBuckets hm ha hs =>
    refine ⟨(nopost hm (by decide)), ?_, rfl⟩
    rw [findHandler_shape, R.shape hs hm, R.root ha]; rfl
  | createBucket hm ha hs ht hx hb =>
    refine ⟨(nopost hm (by decide)), ?_, ?_⟩
    · rw [findHandler_shape, R.shape hs hm, R.bucket ha]
      generalize (c.header b!"x-amz-copy-source").isSome = copy
      cases copy <;> rfl
    · obtain ⟨s, hv, hb⟩ := hb
      obtain ⟨x, hx'⟩ := assign_bool.mpr hb
      have hxml := xmlBody_text (parse := fun s => if lib.xmlCreateBucket s = true then some () else none) (a := ()) ht (by simp only [hx, if_true])
      simp only [Op.handler, extract, unwrapBucketPath, R.bucket ha, R.headerValue hv, hx', hxml]
      rfl
  | headBucket hm ha hs =>
    refine ⟨(nopost hm (by decide)), ?_, ?_⟩
    · rw [findHandler_shape, R.shape hs hm, R.bucket ha]; rfl
    · simp only [Op.handler, extract, unwrapBucketPath, R.bucket ha]; rfl
  | deleteBucket hm ha hs =>
    refine ⟨(nopost hm (by decide)), ?_, ?_⟩
    · rw [findHandler_shape, R.shape hs hm, R.bucket ha]; rfl
    · simp only [Op.handler, extract, unwrapBucketPath, R.bucket ha]; rfl
  | getBucketLocation hm ha hs =>
    refine ⟨(nopost hm (by decide)), ?_, ?_⟩
    · rw [findHandler_shape, R.shape hs hm, R.bucket ha]; rfl
    · simp only [Op.handler, extract, unwrapBucketPath, R.bucket ha]; rfl
  | listObjects hm ha hs hp hk =>
    refine ⟨(nopost hm (by decide)), ?_, ?_⟩
    · rw [findHandler_shape, R.shape hs hm, R.bucket ha, R.listType hs (by decide)]; rfl
    · obtain ⟨s, i, hv, hi⟩ := hk
      simp only [Op.handler, extract, unwrapBucketPath, R.bucket ha, R.queryValue hv, R.queryValue hp, assign_i64.mpr hi]; rfl
  | listObjectsV2 hm ha hs h2 hp hk ho =>
    refine ⟨(nopost hm (by decide)), ?_, ?_⟩
    · rw [findHandler_shape, R.shape hs hm, R.bucket ha, R.queryValue (x := some b!"2") h2]; rfl
    · obtain ⟨s, i, hv, hi⟩ := hk
      obtain ⟨s', hv', hb⟩ := ho
      obtain ⟨x, hx'⟩ := assign_bool.mpr hb
      simp only [Op.handler, extract, unwrapBucketPath, R.bucket ha, R.queryValue hv, R.queryValue hp, R.queryValue hv', hx', assign_i64.mpr hi]; rfl
  | deleteObjects hm ha hs hf ht hx hb =>
    refine ⟨(noform hf), ?_, ?_⟩
    · rw [findHandler_shape, R.shape hs hm, R.bucket ha]; rfl
    · obtain ⟨s, hv, hb⟩ := hb
      obtain ⟨x, hx'⟩ := assign_bool.mpr hb
      simp only [Op.handler, extract, unwrapBucketPath, R.bucket ha, R.headerValue hv, hx', xmlBody_text ht hx]
      rfl
  | @postObject b k f ct n fm hm' m fs hs' s hm ha hs hu hct hk hlen hn h1 h2 h3 h4 h5 h6 =>
    have hmul : c.multipart = some f := by
      cases ct with
      | none => obtain ⟨_, hi, _⟩ := hu; exact absurd hi.2.choose_spec.choose_spec.1 (hct _)
      | some v => exact R.onlyForm f v hu hct
    refine ⟨(nobucket ha), ?_, ?_⟩
    · rw [findHandler_shape, R.shape hs hm, R.bucket ha, hmul]; rfl
    · obtain ⟨l, hv, hi⟩ := hn
      have hmeth : c.method = b!"POST" := R.method.trans hm
      have hkey : findField f.fields b!"key" = some k := fieldValue_unique (v := some k) hk
      have hck : checkKey k = true := by simp [checkKey]; omega
      have e1 : collectMeta (f.fields.map fun p => (p.1.map toLower, p.2)) = fm := (fieldMeta_collect f).unique h1
      have e2 : collectMeta c.headers = hm' := (R.headerMeta h2.functional).unique h2
      have e3 : findField f.fields b!"x-amz-storage-class" = fs := fieldValue_unique h4
      have e4 := R.headerValue h5
      have e5 : formMeta f hm' = m := by
        simp only [formMeta, e1]
        rcases h3 with ⟨rfl, rfl⟩ | ⟨hne, rfl⟩
        · rfl
        · cases m with
          | none => exact absurd rfl hne
          | some m => rfl
      have e6 : assignField f b!"x-amz-storage-class" hs' = s := by
        simp only [assignField, e3]
        rcases h6 with ⟨rfl, rfl⟩ | ⟨hne, rfl⟩
        · rfl
        · cases s with
          | none => exact absurd rfl hne
          | some m => rfl
      have ea : putAddress c = .ret (b, k) := by
        have hfk : formKey f = .ret k := by simp only [formKey, hkey, hck, if_true]
        simp only [putAddress, hmeth, if_true, unwrapBucketPath, R.bucket ha, hmul, unwrap]
        show (formKey f).bind _ = _
        rw [hfk]; rfl
      have : extractPut c = .ret ⟨b, k, some f.file.toBody, n, m, s⟩ := by
        simp only [extractPut, ea, R.headerValue hv, assign_i64.mpr hi]
        show Prog.ret (putBody c _) = _
        simp only [putBody, hmul, fromMultipart, e2, e4, e5, e6]
      simp only [Op.handler, extract, this]; rfl
  | getObject hm ha hs hr =>
    refine ⟨(nopost hm (by decide)), ?_, ?_⟩
    · rw [findHandler_shape, R.shape hs hm, R.object ha]; rfl
    · simp only [Op.handler, extract, unwrapObjectPath, R.object ha, R.headerValue hr]; rfl
  | headObject hm ha hs =>
    refine ⟨(nopost hm (by decide)), ?_, ?_⟩
    · rw [findHandler_shape, R.shape hs hm, R.object ha]; rfl
    · simp only [Op.handler, extract, unwrapObjectPath, R.object ha]; rfl
  | @putObject b k n m s hm ha hs hc hn hmeta hsc =>
    refine ⟨(nopost hm (by decide)), ?_, ?_⟩
    · rw [findHandler_shape, R.shape hs hm, R.object ha, R.headerValue hc]; rfl
    · obtain ⟨l, hv, hi⟩ := hn
      have hmeth : c.method = b!"PUT" := R.method.trans hm
      have hmul : c.multipart = none := R.noForm fun x hx => by have := hx.1; rw [hm] at this; exact absurd this (by decide)
      have e2 : collectMeta c.headers = m := (R.headerMeta hmeta.functional).unique hmeta
      have ea : putAddress c = .ret (b, k) := by
        simp only [putAddress, hmeth, if_true, unwrapObjectPath, R.object ha]
        rfl
      have : extractPut c = .ret ⟨b, k, some c.body, n, m, s⟩ := by
        simp only [extractPut, ea, R.headerValue hv, assign_i64.mpr hi]
        show Prog.ret (putBody c _) = _
        simp only [putBody, hmul, e2, R.headerValue hsc]
      simp only [Op.handler, extract, this]; rfl
  | copyObject hm ha hs hc h1 h2 h3 h4 =>
    refine ⟨(nopost hm (by decide)), ?_, ?_⟩
    · rw [findHandler_shape, R.shape hs hm, R.object ha, R.headerValue hc]; rfl
    · simp only [Op.handler, extract, unwrapObjectPath, R.object ha, R.headerValue hc, unwrap]
      show (if copySourceTryMatch _ = true then _ else _) = _
      rw [if_pos (tryMatch_source h1 h2 h4)]; rfl
  | deleteObject hm ha hs hb =>
    refine ⟨(nopost hm (by decide)), ?_, ?_⟩
    · rw [findHandler_shape, R.shape hs hm, R.object ha]; rfl
    · obtain ⟨s, hv, hb⟩ := hb
      obtain ⟨x, hx'⟩ := assign_bool.mpr hb
      simp only [Op.handler, extract, unwrapObjectPath, R.object ha, R.headerValue hv, hx']; rfl
  | createMultipartUpload hm ha hs hf =>
    refine ⟨(noform hf), ?_, ?_⟩
    · rw [findHandler_shape, R.shape hs hm, R.object ha]; rfl
    · simp only [Op.handler, extract, unwrapObjectPath, R.object ha]; rfl
  | @uploadPart b k id ns n l hm ha hs hc hns hi hid hl =>
    refine ⟨(nopost hm (by decide)), ?_, ?_⟩
    · rw [findHandler_shape, R.shape hs hm, R.object ha, R.headerValue hc]; rfl
    · obtain ⟨s, hv, hl⟩ := hl
      simp only [Op.handler, extract, unwrapObjectPath, R.object ha, R.queryValue (x := some ns) hns, R.queryValue (x := some id) hid, unwrap,
        R.headerValue hv, assign_i64.mpr hl]
      show (orFail _ (parseI64 ns)).bind _ = _
      rw [parseI64_iff.mpr hi]; rfl
  | @completeMultipartUpload b k id s parts hm ha hs hf ht hx hid =>
    refine ⟨(noform hf), ?_, ?_⟩
    · rw [findHandler_shape, R.shape hs hm, R.object ha]; rfl
    · simp only [Op.handler, extract, unwrapObjectPath, R.object ha, R.queryValue (x := some id) hid, unwrap, xmlBody_text ht hx]
      rfl

theorem dispatch_requests {cfg : Cfg} {ext : Ext} {lib : Lib} {env : Env} {r : Req} {c : Ctx} (R : Admits lib r c) {o : Op}
    (h : Requests lib env r c.body o) : dispatch cfg ext lib env c = (opProg cfg ext o).bind (respond o.handler) :=
  have d := requests_dispatched R h
  dispatch_of d.form d.find d.extracted

end S3
