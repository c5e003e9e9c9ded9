import Verif.Lemmas.MetaText
import Verif.Lemmas.Served
import Verif.Props.SampleHttp
import Verif.Props.Frame
import Verif.Props.Put
/-! C55, C56, C57, C64, C67: which operation a request runs, panics, errors, metadata headers. -/
namespace S3
open Spec

variable (cfg : Cfg) (ext : Ext) (lib : Lib) (auth : Option Provider) (env : Env)

/-- **C55** Every admitted request of the operation table runs the operation it asks for, with the arguments it gives; the
response has the status of the operation and carries the metadata of the answer. -/
theorem C55_operation {r : Req} {c : Ctx} (h : admit lib auth r = .ok c) {o : Op} (ho : Requests lib env r c.body o) (fs : FS) :
    afterServed cfg ext lib auth env r fs = after cfg ext o fs ∧
    (∀ e, answer cfg ext o fs = .err e → served cfg ext lib auth env r fs = .err e) ∧
    (∀ a, answer cfg ext o fs = .ok a → ∀ m : Option Meta, a.meta = m.getD [] →
      (∀ l, m = some l → ∀ p ∈ l, Sendable (b!"x-amz-meta-" ++ p.1) p.2) →
      served cfg ext lib auth env r fs = .ok ⟨successStatus o, metaHeaders m, a⟩) := by
  have hd : handle cfg ext lib auth env r = (opProg cfg ext o).bind (respond o.handler) := by
    rw [handle_ok h]; exact dispatch_requests (ready_of_admit h) ho
  obtain ⟨h1, h2, h3⟩ := run_respond (cfg := cfg) (p := opProg cfg ext o) (h := o.handler) (fs := fs)
  simp only [served, afterServed, hd]
  refine ⟨h1, h2, fun a ha m hm hs => ?_⟩
  rw [h3 a ha, respond_sendable hm hs, handler_status]
  rfl

/-- **C55** (partial) An admitted request for an operation the server has is refused at once, or runs an operation that it
asks for. Missing from the full property: requests for operations the server does not have, for which it is false, see
`C55_subresource_fails`; requests that give a header or query parameter twice with different values. -/
theorem C55_operation_partial {r : Req} {c : Ctx} (h : admit lib auth r = .ok c) (hn : NoRepeats r) (hs : Supported lib r) :
    (∃ e, handle cfg ext lib auth env r = .fail e) ∨
    ∃ o hd, Requests lib env r c.body o ∧ handle cfg ext lib auth env r = (opProg cfg ext o).bind (respond hd) ∧
      hd.status = successStatus o := by
  have R := ready_of_admit h
  rw [handle_ok h, dispatch]
  split
  · exact .inl ⟨_, rfl⟩
  · rename_i hform
    split
    · rename_i hd hf
      have := extract_sound (cfg := cfg) (ext := ext) (env := env) R hn hs hf hform
      simp only [runHandler]
      generalize extract lib env c hd = p at this
      cases p with
      | ret o =>
        obtain ⟨rfl, ho | ⟨e, he⟩⟩ := this
        · exact .inr ⟨o, o.handler, ho, rfl, handler_status o⟩
        · left
          refine ⟨e, ?_⟩
          simp only [Prog.bind, he]
      | fail e => exact .inl ⟨e, rfl⟩
      | _ => exact this.elim
    · exact .inl ⟨_, rfl⟩

/-- **C55** A request for which the table has no operation by its method and address is answered NotSupported: another
method, or the root with a method other than GET (and not the upload of a part). -/
theorem C55_not_supported {r : Req} {c : Ctx} (h : admit lib auth r = .ok c)
    (hm : (r.method ∉ [b!"GET", b!"HEAD", b!"PUT", b!"POST", b!"DELETE"]) ∨
      (At r .root ∧ r.method ≠ b!"GET" ∧ ¬ (r.method = b!"PUT" ∧ HasParam r b!"partNumber" ∧ HasParam r b!"uploadId"))) :
    handle cfg ext lib auth env r = .fail .NotSupported := by
  have R := ready_of_admit h
  have hnone : findHandler c = none := by
    rw [findHandler, List.find?_eq_none]
    intro hd _ hmatch
    rcases hm with hm | ⟨hroot, hget, hpart⟩
    · rw [← R.method] at hm
      simp only [List.mem_cons, not_or] at hm
      obtain ⟨m1, m2, m3, m4, m5, _⟩ := hm
      cases hd <;> simp_all [isMatch]
    · rw [← R.method] at hget hpart
      rw [← R.hasParam, ← R.hasParam] at hpart
      have hp := R.root hroot
      cases hd <;> simp_all [isMatch, S3Path.isObject, S3Path.isBucket, S3Path.isRoot]
  rw [handle_ok h, dispatch]
  split
  · rename_i hf
    exfalso
    rcases hm with hm | ⟨hroot, _, _⟩
    · rw [← R.method, hf.1] at hm; exact absurd hm (by decide)
    · rw [R.root hroot] at hf; exact absurd hf.2.1 (by decide)
  · rw [hnone]

/-- requests without credentials -/
def Sample.plain (method path : Bytes) (query : Option Bytes) (headers : List (Bytes × Bytes)) (body : Body) : Req :=
  { method, path, query, headers, body }

/-- the reply, without the answer -/
def Sample.status (o : Outcome Reply) : Option Nat := match o with
  | .ok r => some r.status
  | _ => none

/-- C55 fails: a request to delete the policy of a bucket deletes the bucket with its objects, a request to abort an upload
deletes the object, a request to set the access list of an object overwrites the object, and one for the access list of a bucket
is answered with the list of the objects. -/
theorem C55_subresource_fails :
    ∃ (cfg : Cfg) (ext : Ext) (lib : Lib) (env : Env) (fs : FS) (policy abort acl list : Req) (objects : List (Bytes × Nat)), WF fs ∧
      stored cfg fs b!"aaa" b!"x" = some b!"hello" ∧
      (policy.method = b!"DELETE" ∧ At policy (.bucket b!"aaa") ∧ HasParam policy b!"policy" ∧
        stored cfg (afterServed cfg ext lib none env policy fs) b!"aaa" b!"x" = none) ∧
      (abort.method = b!"DELETE" ∧ At abort (.object b!"aaa" b!"x") ∧ HasParam abort b!"uploadId" ∧
        stored cfg (afterServed cfg ext lib none env abort fs) b!"aaa" b!"x" = none) ∧
      (acl.method = b!"PUT" ∧ At acl (.object b!"aaa" b!"x") ∧ HasParam acl b!"acl" ∧
        stored cfg (afterServed cfg ext lib none env acl fs) b!"aaa" b!"x" = some b!"<acl/>") ∧
      (list.method = b!"GET" ∧ At list (.bucket b!"aaa") ∧ HasParam list b!"acl" ∧
        served cfg ext lib none env list fs = .ok ⟨200, [], .objects objects⟩) := by
  have hat : ∀ p a, Addresses p a → urlDecode p = some p → ∀ m q h b, At (Sample.plain m p q h b) a := fun p a h hd _ _ _ _ => ⟨p, hd, h⟩
  have hb : LegalBucket b!"aaa" := (C02_bucket_name_rule _).mp (by decide +kernel)
  refine ⟨Sample.cfg, Sample.ext, Sample.lib, Sample.env, Sample.fs, Sample.plain b!"DELETE" b!"/aaa" (some b!"policy") [] [],
    Sample.plain b!"DELETE" b!"/aaa/x" (some b!"uploadId=u") [] [], Sample.plain b!"PUT" b!"/aaa/x" (some b!"acl") [] [some b!"<acl/>"],
    Sample.plain b!"GET" b!"/aaa" (some b!"acl") [] [], [(b!"x", 5)], Sample.fs_wf, by decide +kernel,
    ⟨rfl, hat _ _ (.bucket _ hb) (by decide +kernel) _ _ _ _, ⟨[], by decide +kernel⟩, by decide +kernel⟩,
    ⟨rfl, hat _ _ (.object _ b!"x" hb (by decide) (by decide)) (by decide +kernel) _ _ _ _, ⟨b!"u", by decide +kernel⟩, by decide +kernel⟩,
    ⟨rfl, hat _ _ (.object _ b!"x" hb (by decide) (by decide)) (by decide +kernel) _ _ _ _, ⟨[], by decide +kernel⟩, by decide +kernel⟩,
    ⟨rfl, hat _ _ (.bucket _ hb) (by decide +kernel) _ _ _ _, ⟨[], by decide +kernel⟩, by decide +kernel⟩⟩

/-- **C56** (partial) The only requests that make the server panic are the admitted requests PUT to the root with `partNumber`
and `uploadId`; all others are answered (or, if a listing is not given enough steps by the model, still run), whatever the other
requests do to the file tree meanwhile. Missing from the full property: those requests, see `C56_panic_fails`. -/
theorem C56_panic_partial (rs : List Req) (sched : List Nat) (fs : FS) (i : Nat) (r : Req) (hr : rs[i]? = some r) :
    (∃ c, admit lib auth r = .ok c) ∧ r.method = b!"PUT" ∧ At r .root ∧ HasParam r b!"partNumber" ∧ HasParam r b!"uploadId" ↔
    ((runPar cfg sched (rs.map (handle cfg ext lib auth env)) fs).1[i]?.bind Prog.outcome) = some .panic := by
  have hi : (rs.map (handle cfg ext lib auth env))[i]? = some (handle cfg ext lib auth env r) := by
    rw [List.getElem?_map, hr]; rfl
  constructor
  · rintro ⟨⟨c, hc⟩, h1, h2, h3, h4⟩
    have R := ready_of_admit hc
    have : handle cfg ext lib auth env r = .panic := by
      rw [handle_ok hc]
      exact dispatch_panic ⟨R.method.trans h1, R.root h2, (R.hasParam _).mpr h3, (R.hasParam _).mpr h4⟩
    obtain ⟨q, hq, rfl⟩ := par_thread (cfg := cfg) (P := fun p => p = .panic) (fun p fs h => by rw [h]; rfl) sched _ fs hi this
    rw [hq]; rfl
  · intro hp
    have hbad : ¬ Fails (fun _ => True) (handle cfg ext lib auth env r) := by
      intro hf
      obtain ⟨q, hq, hP⟩ := par_thread (cfg := cfg) Ends.step sched _ fs hi hf
      rw [hq] at hp
      cases q <;> simp only [Option.bind_some, Prog.outcome, Option.some.injEq, reduceCtorEq] at hp
      exact hP
    cases hc : admit lib auth r with
    | error e => exact absurd (by rw [handle_error hc]; trivial) hbad
    | ok c =>
      have R := ready_of_admit hc
      rw [handle_ok hc] at hbad
      have := Classical.byContradiction fun hx => hbad (dispatch_total hx)
      obtain ⟨h1, h2, h3, h4⟩ := this
      exact ⟨⟨c, rfl⟩, R.method.symm.trans h1, R.atRoot h2, (R.hasParam _).mp h3, (R.hasParam _).mp h4⟩

/-- C56 fails: `PUT /?partNumber=1&uploadId=u`, with or without a provider of keys. -/
theorem C56_panic_fails :
    ∃ (cfg : Cfg) (ext : Ext) (lib : Lib) (env : Env) (p : Provider) (r r' : Req) (fs : FS), WF fs ∧ CryptoLaw lib.crypto ∧
      served cfg ext lib none env r fs = .panic ∧ served cfg ext lib (some p) env r' fs = .panic :=
  ⟨Sample.cfg, Sample.ext, Sample.lib, Sample.env, Sample.provider, Sample.plain b!"PUT" b!"/" (some b!"partNumber=1&uploadId=u") [] [],
    Sample.signedRequest b!"PUT" b!"/" b!"/" (some b!"partNumber=1&uploadId=u") Sample.helloHash [] [some Sample.hello],
    Sample.fs, Sample.fs_wf, Sample.cryptoLaw, by decide +kernel, by decide +kernel⟩

/-- **C57** (partial) A PUT with `partNumber` and `uploadId` and without `x-amz-copy-source` changes the content of no object with a
plain key, that at its own address included, whatever becomes of it. Missing from the full property: upload ids with a `/`, keys that
are not plain, and requests with `x-amz-copy-source`, for which it is false, see `C57_part_copy_fails`. -/
theorem C57_part_partial {r : Req} {b k : Bytes} (hm : r.method = b!"PUT") (ha : At r (.object b k)) (h1 : HasParam r b!"partNumber")
    (h2 : HasParam r b!"uploadId") (hid : ∀ id, (b!"uploadId", id) ∈ queryOf r → (47 : UInt8) ∉ id)
    (hc : ∀ v, (b!"x-amz-copy-source", v) ∉ r.headers) {fs : FS} (hw : WF fs)
    {b' k' : Bytes} {cs : List Bytes} (hb : LegalBucket b') (hk : PlainKey k' cs) :
    stored cfg (afterServed cfg ext lib auth env r fs) b' k' = stored cfg fs b' k' := by
  simp only [afterServed]
  cases hadm : admit lib auth r with
  | error e => rw [handle_error hadm]; rfl
  | ok c =>
    have R := ready_of_admit hadm
    rw [handle_ok hadm]
    have hmeth : c.method = b!"PUT" := R.method.trans hm
    have hf : findHandler c = some .uploadPart := by
      rw [findHandler_shape]
      have : c.shape = ⟨b!"PUT", .object b k, true, (c.query b!"uploads").isSome, (c.query b!"delete").isSome, (c.query b!"location").isSome,
        c.query b!"list-type", true, false, c.multipart.isSome⟩ := by
        simp only [Ctx.shape, hmeth, R.object ha, (R.hasParam _).mpr h1, (R.hasParam _).mpr h2, (R.header_none _).mpr hc, Option.isSome_none]
      rw [this]; rfl
    have hd : dispatch cfg ext lib env c = runHandler cfg ext lib env c .uploadPart := by
      simp only [dispatch, hf]
      rw [if_neg (by rw [hmeth]; intro h; exact absurd h.1 (by decide))]
    rw [hd, runHandler]
    have hx : FailOr (fun o => ∃ id n, o = .uploadPart id n (some c.body) ∧ (47 : UInt8) ∉ id) (extract lib env c .uploadPart) := by
      simp only [extract]
      refine FailOr.bind (failOr_object (by rw [R.object ha]; rfl)) fun bk hp => FailOr.bind (failOr_unwrap ((R.hasParam _).mpr h1)) fun ns hns =>
        FailOr.bind (failOr_orFail _ _) fun n hi => FailOr.bind (failOr_unwrap ((R.hasParam _).mpr h2)) fun id hid' =>
        FailOr.bind (failOr_assign _ _) fun l hl => ⟨id, n, rfl, hid id (R.query_mem _ _ hid')⟩
    generalize extract lib env c .uploadPart = p at hx
    cases p with
    | ret o =>
      obtain ⟨id, n, rfl, hid⟩ := hx
      show stored cfg (run cfg ((opProg cfg ext _).bind _) fs).2 b' k' = _
      rw [run_respond.1]
      have hother : ∃ k₀ cs₀, PlainKey k₀ cs₀ ∧ k₀ ≠ k' := by
        by_cases h : k' = b!"a"
        · exact ⟨b!"b", [b!"b"], ⟨by decide, by decide, by intro c hc; rw [List.mem_singleton] at hc; subst hc; exact ⟨by decide, by decide, by decide, by decide⟩⟩,
            by rw [h]; decide⟩
        · exact ⟨b!"a", [b!"a"], ⟨by decide, by decide, by intro c hc; rw [List.mem_singleton] at hc; subst hc; exact ⟨by decide, by decide, by decide, by decide⟩⟩,
            fun e => h e.symm⟩
      obtain ⟨k₀, cs₀, hk₀, hne⟩ := hother
      have hb' := (C02_bucket_name_rule b').mpr hb
      have := (C15_frame_partial cfg ext (.uploadPart id n (some c.body)) fs hw hb' hk₀ hb' hk hid (fun h => hne h.2)).1
      simp only [stored, objectPath_plain cfg hb' hk]
      simpa using this
    | fail e => rfl
    | _ => exact hx.elim

/-- C57 fails: an UploadPartCopy replaces the object. -/
theorem C57_part_copy_fails :
    ∃ (cfg : Cfg) (ext : Ext) (lib : Lib) (env : Env) (r : Req) (fs : FS), WF fs ∧ r.method = b!"PUT" ∧ At r (.object b!"aaa" b!"x") ∧
      HasParam r b!"partNumber" ∧ HasParam r b!"uploadId" ∧ (b!"x-amz-copy-source", b!"bbb/y") ∈ r.headers ∧
      stored cfg fs b!"aaa" b!"x" = some b!"hello" ∧ stored cfg fs b!"bbb" b!"y" = some b!"world!" ∧
      stored cfg (afterServed cfg ext lib none env r fs) b!"aaa" b!"x" = some b!"world!" :=
  ⟨Sample.cfg, Sample.ext, Sample.lib, Sample.env,
    Sample.plain b!"PUT" b!"/aaa/x" (some b!"partNumber=1&uploadId=u") [(b!"x-amz-copy-source", b!"bbb/y")] [], Sample.fs, Sample.fs_wf, rfl,
    ⟨_, by decide +kernel, .object b!"aaa" b!"x" ((C02_bucket_name_rule _).mp (by decide +kernel)) (by decide) (by decide)⟩,
    ⟨b!"1", by decide +kernel⟩, ⟨b!"u", by decide +kernel⟩, by decide +kernel, by decide +kernel, by decide +kernel, by decide +kernel⟩

/-- **C67** An operation ends only with the errors of its list, at whatever times other requests change the file tree. -/
theorem C67_operation_errors (os : List Op) (sched : List Nat) (fs : FS) (i : Nat) (o : Op) (ho : os[i]? = some o) (e : S3ErrorCode)
    (h : ((runPar cfg sched (os.map (opProg cfg ext)) fs).1[i]?.bind Prog.outcome) = some (.err e)) : e ∈ operationErrors o := by
  have hi : (os.map (opProg cfg ext))[i]? = some (opProg cfg ext o) := by rw [List.getElem?_map, ho]; rfl
  obtain ⟨q, hq, hP⟩ := par_thread (cfg := cfg) Ends.step sched _ fs hi (fails_op cfg ext o)
  rw [hq] at h
  cases q <;> simp only [Option.bind_some, Prog.outcome, Option.some.injEq, reduceCtorEq, Outcome.err.injEq] at h
  subst h
  exact hP

/-- **C64** (partial) After a successful PutObject request (or form upload) with user metadata that can be sent in headers, GET and HEAD
requests for the object are answered with these metadata as headers, and no others; after one without metadata with none, if there were
none before. Missing from the full property: metadata of forms that cannot be sent in headers, for which it is false (`C64_form_metadata_fails`);
an upload without metadata over old metadata (`C19_metadata_fails`). -/
theorem C64_metadata_partial (hl : MetaLaw ext) {r g h : Req} {c cg ch : Ctx} (hc : admit lib auth r = .ok c) (hcg : admit lib auth g = .ok cg)
    (hch : admit lib auth h = .ok ch) {i : PutInput} (hr : Requests lib env r c.body (.putObject i)) (hi : ObjectPut i)
    (hg : Requests lib env g cg.body (.getObject i.bucket i.key none env.wants)) (hh : Requests lib env h ch.body (.headObject i.bucket i.key))
    {fs : FS} (hw : WF fs) {rep : Reply} (ok : served cfg ext lib auth env r fs = .ok rep)
    (hsend : ∀ l, i.metadata = some l → ∀ p ∈ l, Sendable (b!"x-amz-meta-" ++ p.1) p.2)
    (hold : i.metadata = none → storedMeta cfg ext fs i.bucket i.key = some none)
    (hlen : ∀ body, i.body = some body → (received body).length ≤ i64Max) :
    (∃ n e body, served cfg ext lib auth env g (afterServed cfg ext lib auth env r fs)
      = .ok ⟨200, metaHeaders i.metadata, .object n i.metadata e body⟩) ∧
    (∃ n, served cfg ext lib auth env h (afterServed cfg ext lib auth env r fs) = .ok ⟨200, metaHeaders i.metadata, .head n i.metadata⟩) := by
  obtain ⟨p1, p2, _⟩ := C55_operation cfg ext lib auth env hc hr fs
  have hok : ∃ a, answer cfg ext (.putObject i) fs = .ok a := by
    have hd : handle cfg ext lib auth env r = (opProg cfg ext (.putObject i)).bind (respond (Op.putObject i).handler) := by
      rw [handle_ok hc]; exact dispatch_requests (ready_of_admit hc) hr
    rw [served, hd] at ok
    exact run_respond_ok ok
  obtain ⟨a, ha⟩ := hok
  obtain ⟨⟨n, e, body, h1⟩, n', h2⟩ := C19_metadata_partial hl hi
    (requests_validMeta hc hr fun l he p hp => sendable_name (hsend l he p hp)) hw ha hold hlen env.wants
  rw [p1]
  exact ⟨⟨n, e, body, (C55_operation cfg ext lib auth env hcg hg _).2.2 _ h1 _ rfl hsend⟩,
    n', (C55_operation cfg ext lib auth env hch hh _).2.2 _ h2 _ rfl hsend⟩

/-- **C64** (partial) The same for headers: the metadata headers of a PUT request come back exactly. Header names are those that HTTP allows,
in lower case (what `hyper` hands over). Missing: an upload without metadata over old metadata (`C19_metadata_fails`). -/
theorem C64_header_metadata_partial (hl : MetaLaw ext) {r g h : Req} {c cg ch : Ctx} (hc : admit lib auth r = .ok c) (hcg : admit lib auth g = .ok cg)
    (hch : admit lib auth h = .ok ch) {i : PutInput} (hput : r.method = b!"PUT") (hr : Requests lib env r c.body (.putObject i)) (hi : ObjectPut i)
    (hg : Requests lib env g cg.body (.getObject i.bucket i.key none env.wants)) (hh : Requests lib env h ch.body (.headObject i.bucket i.key))
    {fs : FS} (hw : WF fs) {rep : Reply} (ok : served cfg ext lib auth env r fs = .ok rep)
    (hnames : ∀ p ∈ r.headers, p.1 ≠ [] ∧ p.1.length ≤ 65535 ∧ ∀ b ∈ p.1, isTchar b = true ∧ toLower b = b)
    (hold : i.metadata = none → storedMeta cfg ext fs i.bucket i.key = some none)
    (hlen : ∀ body, i.body = some body → (received body).length ≤ i64Max) :
    ∃ rg rh, served cfg ext lib auth env g (afterServed cfg ext lib auth env r fs) = .ok rg ∧
      served cfg ext lib auth env h (afterServed cfg ext lib auth env r fs) = .ok rh ∧
      ∀ n v, n ≠ [] → (((b!"x-amz-meta-" ++ n, v) ∈ rg.metadata ↔ (b!"x-amz-meta-" ++ n, v) ∈ r.headers) ∧
        ((b!"x-amz-meta-" ++ n, v) ∈ rh.metadata ↔ (b!"x-amz-meta-" ++ n, v) ∈ r.headers)) := by
  have hmeta : MetaOf (headerMeta r) i.metadata := by
    generalize ho : Op.putObject i = o at hr
    cases hr <;> cases ho
    · rename_i h _ _ _ _ _ _ _ _ _ _ _ _ _; rw [hput] at h; exact absurd h (by decide)
    · assumption
  have hsend : ∀ l, i.metadata = some l → ∀ p ∈ l, Sendable (b!"x-amz-meta-" ++ p.1) p.2 := by
    intro l he p hp
    rw [he] at hmeta
    have hin := ((hmeta.2.2 p.1 p.2).mp hp).2
    obtain ⟨n1, n2, n3⟩ := hnames _ hin
    exact ⟨n1, n2, n3, admitted_value hc hin⟩
  obtain ⟨⟨n, e, body, h1⟩, n', h2⟩ := C64_metadata_partial cfg ext lib auth env hl hc hcg hch hr hi hg hh hw ok hsend hold hlen
  refine ⟨_, _, h1, h2, fun n v hn => ?_⟩
  have key : (b!"x-amz-meta-" ++ n, v) ∈ metaHeaders i.metadata ↔ (b!"x-amz-meta-" ++ n, v) ∈ r.headers := by
    cases hx : i.metadata with
    | none =>
      rw [hx] at hmeta
      simp only [metaHeaders, Option.getD_none, List.map_nil, List.not_mem_nil, false_iff]
      exact hmeta n v hn
    | some l =>
      rw [hx] at hmeta
      simp only [metaHeaders, Option.getD_some, List.mem_map, Prod.mk.injEq, List.append_cancel_left_eq]
      constructor
      · rintro ⟨⟨n', v'⟩, hp, rfl, rfl⟩; exact ((hmeta.2.2 _ _).mp hp).2
      · intro hp; exact ⟨(n, v), (hmeta.2.2 _ _).mpr ⟨hn, hp⟩, rfl, rfl⟩
  exact ⟨key, key⟩

/-- a form upload with metadata whose value has a line feed in it -/
def Sample.formLine : Req := Sample.formUpload (Sample.formFields b!"cG9saWN5" b!"k" ++ [(b!"x-amz-meta-a", b!"1\n2")])
/-- the GET for it -/
def Sample.getK : Req := Sample.signedRequest b!"GET" b!"/abc/k" b!"/abc/k" none b!"UNSIGNED-PAYLOAD" [] []

/-- C64 fails: after a successful form upload with metadata that hold a line feed, GET requests for the object are answered with an
internal error. -/
theorem C64_form_metadata_fails :
    ∃ (cfg : Cfg) (ext : Ext) (lib : Lib) (p : Provider) (env : Env) (r g : Req) (f : Form) (fs : FS), WF fs ∧ MetaLaw ext ∧ CryptoLaw lib.crypto ∧
      UploadsForm lib r f ∧ LastField f.fields b!"x-amz-meta-a" b!"1\n2" ∧ At g (.object b!"abc" b!"k") ∧ g.method = b!"GET" ∧
      Sample.status (served cfg ext lib (some p) env r fs) = some 200 ∧
      stored cfg (afterServed cfg ext lib (some p) env r fs) b!"abc" b!"k" = some b!"content" ∧
      served cfg ext lib (some p) env g (afterServed cfg ext lib (some p) env r fs) = .err .InternalError := by
  have hf : (match transformMultipart b!"B" Sample.formLine.body with
      | .ok f => findField f.fields b!"x-amz-meta-a" == some b!"1\n2"
      | .error _ => false) = true := by decide +kernel
  cases hx : transformMultipart b!"B" Sample.formLine.body with
  | error e => rw [hx] at hf; cases hf
  | ok f =>
    rw [hx] at hf
    simp only [beq_iff_eq] at hf
    refine ⟨Sample.cfg, Sample.ext, Sample.lib, Sample.provider, Sample.env, Sample.formLine, Sample.getK, f, Sample.fs, Sample.fs_wf,
      Sample.ext_roundtrip, Sample.cryptoLaw, ⟨b!"B", ⟨rfl, b!"multipart/form-data; boundary=B", ⟨true, some b!"B"⟩, by decide +kernel,
      by decide +kernel, rfl, rfl⟩, hx⟩, ((C53_field_lookup _ _).1 _).mp hf,
      ⟨_, by decide +kernel, .object b!"abc" b!"k" ((C02_bucket_name_rule _).mp (by decide +kernel)) (by decide) (by decide)⟩, rfl,
      by decide +kernel, by decide +kernel, by decide +kernel⟩

/-! Non-vacuity -/

/-- `PUT /aaa/n` with two metadata headers -/
def Sample.metaPut : Req :=
  Sample.plain b!"PUT" b!"/aaa/n" none [(b!"content-length", b!"3"), (b!"x-amz-meta-b", b!"2"), (b!"x-amz-meta-a", b!"1")] [some b!"abc"]

theorem Sample.selects_none {r : Req} (h : r.query = none) : Selects r [] := by
  intro n _
  simp only [HasParam, queryOf, h, List.not_mem_nil, exists_const]

theorem Sample.at_object {r : Req} {b k : Bytes} (h1 : r.path = b!"/" ++ b ++ b!"/" ++ k) (h2 : urlDecode r.path = some r.path)
    (hb : checkBucketName b = true) (hk : k ≠ []) (hl : k.length ≤ 1024) : At r (.object b k) :=
  ⟨_, h2, h1 ▸ .object b k ((C02_bucket_name_rule _).mp hb) hk hl⟩

theorem Sample.value_header {r : Req} {n v : Bytes} (h : (r.headers.filter fun p => p.1 == n) = [(n, v)]) : HeaderValue r n (some v) := by
  have hm : ∀ w, (n, w) ∈ r.headers ↔ (n, w) ∈ (r.headers.filter fun p => p.1 == n) := by intro w; simp
  refine ⟨?_, fun w hw => ?_⟩
  · rw [hm, h]; simp
  · rw [hm, h] at hw; simpa using hw

theorem Sample.no_header {r : Req} {n : Bytes} (h : (r.headers.filter fun p => p.1 == n) = []) : HeaderValue r n none := by
  intro v hv
  have : (n, v) ∈ (r.headers.filter fun p => p.1 == n) := by simpa using hv
  rw [h] at this; cases this

theorem Sample.metaPut_requests (env : Env) :
    Requests Sample.lib env Sample.metaPut Sample.metaPut.body
      (.putObject ⟨b!"aaa", b!"n", some [some b!"abc"], some 3, some [(b!"a", b!"1"), (b!"b", b!"2")], none⟩) := by
  refine .putObject rfl (Sample.at_object rfl (by decide +kernel) (by decide +kernel) (by decide) (by decide)) (Sample.selects_none rfl)
    (Sample.no_header (by decide +kernel)) ⟨some b!"3", Sample.value_header (by decide +kernel), ?_⟩ ?_ (Sample.no_header (by decide +kernel))
  · exact parseI64_iff.mp (by decide +kernel)
  · refine ⟨by decide, by decide +kernel, fun n v => ?_⟩
    simp only [headerMeta, Sample.metaPut, Sample.plain, List.mem_cons, Prod.mk.injEq, List.not_mem_nil, or_false]
    constructor
    · rintro (⟨rfl, rfl⟩ | ⟨rfl, rfl⟩) <;> exact ⟨by decide, by decide⟩
    · rintro ⟨hn, ⟨h, _⟩ | ⟨h, rfl⟩ | ⟨h, rfl⟩⟩
      · exact absurd h (by simp)
      · exact .inr ⟨by simpa using h, rfl⟩
      · exact .inl ⟨by simpa using h, rfl⟩

/-- the hypotheses of `C55_operation` and `C64_header_metadata_partial` are met, and the reply is as they say -/
example : Sample.admitted none Sample.metaPut = true ∧
    served Sample.cfg Sample.ext Sample.lib none Sample.env Sample.metaPut Sample.fs = .ok ⟨200, [], .etag (some b!"\"md5:3\"")⟩ ∧
    served Sample.cfg Sample.ext Sample.lib none Sample.env (Sample.plain b!"GET" b!"/aaa/n" none [] [])
      (afterServed Sample.cfg Sample.ext Sample.lib none Sample.env Sample.metaPut Sample.fs)
      = .ok ⟨200, [(b!"x-amz-meta-a", b!"1"), (b!"x-amz-meta-b", b!"2")],
          .object 3 (some [(b!"a", b!"1"), (b!"b", b!"2")]) b!"\"md5:3\"" (some b!"abc")⟩ ∧
    Sample.status (served Sample.cfg Sample.ext Sample.lib none Sample.env (Sample.plain b!"HEAD" b!"/aaa/n" none [] [])
      (afterServed Sample.cfg Sample.ext Sample.lib none Sample.env Sample.metaPut Sample.fs)) = some 200 :=
  ⟨by decide +kernel, by decide +kernel, by decide +kernel, by decide +kernel⟩

/-- the hypotheses of `C55_operation_partial` are met -/
example : NoRepeats Sample.metaPut ∧ Supported Sample.lib Sample.metaPut := by
  refine ⟨⟨fun n v w h => (by cases h), fun n v w h h' => ?_⟩, .plain (Sample.selects_none rfl)⟩
  simp only [Sample.metaPut, Sample.plain, List.mem_cons, Prod.mk.injEq, List.not_mem_nil, or_false] at h h'
  rcases h with ⟨rfl, rfl⟩ | ⟨rfl, rfl⟩ | ⟨rfl, rfl⟩ <;> rcases h' with ⟨h, rfl⟩ | ⟨h, rfl⟩ | ⟨h, rfl⟩ <;> first | rfl | (exact absurd h (by decide))

/-- the hypotheses of `C55_not_supported`, and of `C57_part_partial` are met -/
example : Sample.failsWith (handle Sample.cfg Sample.ext Sample.lib none Sample.env (Sample.plain b!"PATCH" b!"/aaa/x" none [] [])) .NotSupported = true ∧
    Sample.status (served Sample.cfg Sample.ext Sample.lib none Sample.env
      (Sample.plain b!"PUT" b!"/aaa/x" (some b!"partNumber=1&uploadId=u") [] [some b!"part"]) Sample.fs) = some 200 ∧
    Sample.status (served Sample.cfg Sample.ext Sample.lib none Sample.env
      (Sample.plain b!"DELETE" b!"/aaa/x" none [] []) Sample.fs) = some 204 := ⟨by decide +kernel, by decide +kernel, by decide +kernel⟩

/-- errors of C67 that occur -/
example : answer Sample.cfg Sample.ext (.getObject b!"aaa" b!"no" none fun _ => 1) Sample.fs = .err .NoSuchKey ∧
    answer Sample.cfg Sample.ext (.getObject b!"aaa" b!"x" (some b!"bytes=9-") fun _ => 1) Sample.fs = .err .InvalidRange ∧
    answer Sample.cfg Sample.ext (.headBucket b!"ccc") Sample.fs = .err .NoSuchBucket ∧
    answer Sample.cfg Sample.ext (.createBucket b!"aaa") Sample.fs = .err .BucketAlreadyExists :=
  ⟨by decide +kernel, by decide +kernel, by decide +kernel, by decide +kernel⟩

end S3
