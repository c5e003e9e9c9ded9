import Verif.Props.Response
import Verif.Props.CopySource
import Verif.Props.Frame
/-! C87: times in responses. C88: the document that answers CopyObject. -/
namespace S3
open Spec

/-! ### the notations denote one time -/

theorem fixed_split {w n n' : Nat} {a b r r' : Bytes} (ha : Spec.Fixed w n a) (hb : Spec.Fixed w n' b) (h : a ++ r = b ++ r') :
    n = n' ∧ r = r' := by
  obtain ⟨h1, h2⟩ := List.append_inj h (ha.1.trans hb.1.symm)
  subst h1
  exact ⟨ha.2.2.symm.trans hb.2.2, h2⟩

theorem httpDate_fields {s : Bytes} {t t' : Int} (h : HttpDate s t) (h' : HttpDate s t') : t = t' := by
  obtain ⟨y, mo, d, hh, mi, se, nm, mn, ys, ds, hs, mis, ses, hc, l1, l2, l3, f1, f2, f3, f4, f5, m1, m2, e, ht⟩ := h
  obtain ⟨y', mo', d', hh', mi', se', nm', mn', ys', ds', hs', mis', ses', hc', l1', l2', l3', f1', f2', f3', f4', f5', m1', m2', e', ht'⟩ := h'
  have hn : nm.length = nm'.length := by
    have : ∀ n ∈ dayNames, n.length = 3 := by decide
    rw [this _ (List.mem_of_getElem? m2), this _ (List.mem_of_getElem? m2')]
  have hl : mn.length = mn'.length := by
    have : ∀ n ∈ monthNames, n.length = 3 := by decide
    rw [this _ (List.mem_of_getElem? m1), this _ (List.mem_of_getElem? m1')]
  rw [e] at e'
  simp only [List.append_assoc] at e'
  obtain ⟨-, e'⟩ := List.append_inj e' hn
  have e' := List.append_cancel_left e'
  obtain ⟨rfl, e'⟩ := fixed_split f2 f2' e'
  have e' := List.append_cancel_left e'
  obtain ⟨hm, e'⟩ := List.append_inj e' hl
  have e' := List.append_cancel_left e'
  obtain ⟨rfl, e'⟩ := fixed_split f1 f1' e'
  have e' := List.append_cancel_left e'
  obtain ⟨rfl, e'⟩ := fixed_split f3 f3' e'
  have e' := List.append_cancel_left e'
  obtain ⟨rfl, e'⟩ := fixed_split f4 f4' e'
  have e' := List.append_cancel_left e'
  obtain ⟨rfl, e'⟩ := fixed_split f5 f5' e'
  obtain ⟨a1, a2, -, -⟩ := calendar_days_iff.mp hc
  obtain ⟨b1, b2, -, -⟩ := calendar_days_iff.mp hc'
  have hmo : mo = mo' := by
    rw [← hm] at m1'
    have : ∀ i < 12, ∀ j < 12, monthNames[i]? = monthNames[j]? → i = j := by decide
    have := this (mo - 1) (by omega) (mo' - 1) (by omega) (m1.trans m1'.symm)
    omega
  subst hmo
  rw [ht, ht']

theorem httpDate_text_unique {s s' : Bytes} {t : Int} (h : HttpDate s t) (h' : HttpDate s' t) : s = s' := by
  obtain ⟨y, mo, d, hh, mi, se, nm, mn, ys, ds, hs, mis, ses, hc, l1, l2, l3, f1, f2, f3, f4, f5, m1, m2, e, ht⟩ := h
  obtain ⟨y', mo', d', hh', mi', se', nm', mn', ys', ds', hs', mis', ses', hc', l1', l2', l3', f1', f2', f3', f4', f5', m1', m2', e', ht'⟩ := h'
  rw [ht] at ht'
  simp only [secondsUtc] at ht'
  have hd : dayNumber y mo d = dayNumber y' mo' d' := by omega
  have hh1 : hh = hh' := by omega
  have hm1 : mi = mi' := by omega
  have hs1 : se = se' := by omega
  obtain ⟨y1, mo1, d1⟩ := dayNumber_inj hc hc' hd
  subst y1 mo1 d1 hh1 hm1 hs1
  rw [e, e']
  rw [m1] at m1'
  rw [m2] at m2'
  cases m1'; cases m2'
  rw [fixed_unique f1 f1', fixed_unique f2 f2', fixed_unique f3 f3', fixed_unique f4 f4', fixed_unique f5 f5']

/-- **C87** The notation of HTTP denotes one time, and a time has one such notation. -/
theorem C87_http_date_unique {s s' : Bytes} {t t' : Int} (h : HttpDate s t) (h' : HttpDate s' t') : s = s' ↔ t = t' :=
  ⟨fun e => httpDate_fields h (e ▸ h'), fun e => httpDate_text_unique h (e ▸ h')⟩

/-- **C87** A text in the notation of RFC 3339 denotes one time, if it is not before the year 0. -/
theorem C87_rfc3339_unique {s : Bytes} {t t' : Int} {n n' : Nat} (h : Rfc3339 s t n) (h' : Rfc3339 s t' n')
    (h0 : secondsUtc 0 1 1 0 0 0 ≤ t) (h0' : secondsUtc 0 1 1 0 0 0 ≤ t') : t = t' ∧ n = n' := by
  have e : secondsUtc 0 1 1 0 0 0 = -(epochSeconds : Int) := by
    rw [secondsUtc, epoch, year0, epochSeconds]; omega
  rw [e] at h0 h0'
  have p := parse_spec h (by omega)
  rw [parse_spec h' (by omega)] at p
  have p := Option.some.inj p
  have p1 := congrArg Prod.fst p
  have p2 := congrArg Prod.snd p
  dsimp only at p1 p2
  exact ⟨by omega, p2.symm⟩

/-! ### C87: conversions -/

/-- **C87** The text that stands for the time of a file in listings denotes that time, to the nanosecond, whatever the local time zone. -/
theorem C87_file_time (off : ZoneOffset) (t : Time) : Rfc3339 (toRfc3339 off t) t.secs t.nanos := rfc3339_text off t

/-- **C87** Whatever text a storage gives for the time of an object in the notation of RFC 3339, with whatever offset and whatever number of
digits of the fraction, in the years 0 to 9999: the header `Last-Modified` denotes the same time, to the second. -/
theorem C87_last_modified {s : Bytes} {t : Int} {n : Nat} (h : Rfc3339 s t n) (h0 : secondsUtc 0 1 1 0 0 0 ≤ t)
    (h1 : t < secondsUtc 10000 1 1 0 0 0) : ∃ v, rfc3339ToLastModified s = some v ∧ HttpDate v t := by
  have e0 : secondsUtc 0 1 1 0 0 0 = -(epochSeconds : Int) := by
    rw [secondsUtc, epoch, year0, epochSeconds]; omega
  have e1 : secondsUtc 10000 1 1 0 0 0 = (3652425 * 86400 : Nat) - (epochSeconds : Int) := by
    rw [secondsUtc, epoch, year10000, epochSeconds]; omega
  rw [e0] at h0
  rw [e1] at h1
  have p := parse_spec h (by omega)
  refine ⟨_, by rw [rfc3339ToLastModified, p]; rfl, ?_⟩
  have hd := httpDate_text (s := (t + epochSeconds).toNat) (by omega)
  rwa [show (((t + epochSeconds).toNat : Nat) : Int) - epochSeconds = t by omega] at hd

/-- a time in New York, with a fraction -/
example : Rfc3339 b!"2024-02-29T19:30:00.123456789-05:00" 1709253000 123456789 :=
  ⟨2024, 2, 29, 19, 30, 0, b!"2024", b!"02", b!"29", b!"19", b!"30", b!"00", b!".123456789", b!"-05:00", -300,
    ⟨by decide, .inr (.inr ⟨rfl, .inr ⟨rfl, by decide⟩⟩)⟩, by decide, by decide, by decide, ⟨rfl, by decide, rfl⟩, ⟨rfl, by decide, rfl⟩, ⟨rfl, by decide, rfl⟩,
    ⟨rfl, by decide, rfl⟩, ⟨rfl, by decide, rfl⟩, ⟨rfl, by decide, rfl⟩, .inr ⟨b!"123456789", rfl, by decide, by decide, by decide⟩,
    .inr ⟨b!"05", b!"00", 5, 0, ⟨rfl, by decide, rfl⟩, ⟨rfl, by decide, rfl⟩, by decide, by decide, .inr ⟨rfl, rfl⟩⟩, rfl, by
      rw [secondsUtc, epoch, dayNumber, sum_years]; rfl⟩

/-- and its header -/
example : rfc3339ToLastModified b!"2024-02-29T19:30:00.123456789-05:00" = some b!"Fri, 01 Mar 2024 00:30:00 GMT" := by decide +kernel

/-! ### C87: responses -/

variable (cfg : Cfg) (ext : Ext) (lib : Lib) (auth : Option Provider) (env : Env)

variable {cfg ext lib auth env} in
/-- a request of the operation table answered 200: the response is made from the answer of the operation -/
theorem response_of_ok {r : Req} {c : Ctx} (h : admit lib auth r = .ok c) {o : Op} (ho : Requests lib env r c.body o) {x : Texts} {fs : FS}
    {res : Response} (ok : responded cfg ext lib auth env x r fs = .ok res) (hs : res.status = 200) :
    ∃ a m, answer cfg ext o fs = .ok a ∧ metadataHeaders a.meta = some m ∧
      makeResponse x c o.handler ⟨o.handler.status, m, a⟩ = .ret res := by
  have R := ready_of_admit h
  have d := requests_dispatched R ho
  have hd : handle cfg ext lib auth env r = (opProg cfg ext o).bind (respond o.handler) := by
    rw [handle_ok h]; exact dispatch_requests R ho
  have e : hyperCall cfg ext lib auth env x r = finish (makeResponse x c o.handler) (errorResponse x) (handle cfg ext lib auth env r) := by
    rw [hyperCall, handleResponse, h, handle_ok h]
    simp only
    rw [dispatchResponse, if_neg d.form, d.find, dispatch, if_neg d.form, d.find]
    rfl
  obtain ⟨a, ha⟩ := answer_of_ok h ho ok hs
  have hrun := (run_respond (cfg := cfg) (p := opProg cfg ext o) (h := o.handler) (fs := fs)).2.2 a ha
  rw [responded, e] at ok
  rcases finish_inv (fun a => (makeResponse_ret x c o.handler a).imp fun _ h => h.1) (errorResponse_ret x) ok with
    ⟨rep, h1, h2⟩ | ⟨e', h1, h2⟩
  · rw [hd, hrun, respond] at h1
    cases hm : metadataHeaders a.meta with
    | none => rw [hm] at h1; cases h1
    | some m =>
      rw [hm] at h1
      cases h1
      exact ⟨a, m, ha, hm, h2⟩
  · rw [hd, hrun, respond] at h1
    cases hm : metadataHeaders a.meta with
    | some m => rw [hm] at h1; cases h1
    | none =>
      rw [hm] at h1
      cases h1
      exact absurd ((errorResponse_status h2).symm.trans hs) (by decide)

/-- the header names of metadata -/
theorem metadata_name {m : Meta} {hs : List (Bytes × Bytes)} (h : metadataHeaders m = some hs) {n v : Bytes} (hn : (n, v) ∈ hs) :
    ∃ t, n = b!"x-amz-meta-" ++ t := by
  rw [(metadataHeaders_iff.mp h).2, List.mem_map] at hn
  obtain ⟨p, _, hp⟩ := hn
  refine ⟨p.1.map toLower, ?_⟩
  have e : (metaPrefix ++ p.1).map toLower = n := congrArg Prod.fst hp
  rw [← e, List.map_append]
  rfl

/-- a header of a response that is not metadata -/
theorem header_iff {l m : List (Bytes × Bytes)} {n v w : Bytes} (hm : ∀ v, (n, v) ∉ m) (hl : ∀ v, (n, v) ∈ l ↔ v = w) :
    (n, v) ∈ l ++ m ↔ v = w := by
  rw [List.mem_append, hl]
  exact ⟨fun h => h.resolve_right (hm v), .inl⟩

/-- **C87** A GET answered 200 has one header `Last-Modified`: the time of the last modification of the object it reads, in the notation of
HTTP, to the second; the local time zone does not matter. -/
theorem C87_get {r : Req} {c : Ctx} (h : admit lib auth r = .ok c) {b k : Bytes} {rg : Option Bytes}
    (ho : Requests lib env r c.body (.getObject b k rg env.wants)) {x : Texts} {fs : FS} {res : Response}
    (ok : responded cfg ext lib auth env x r fs = .ok res) (hs : res.status = 200) (v : Bytes) :
    (b!"last-modified", v) ∈ res.headers ↔ HttpDate v (x.modified b k).secs := by
  obtain ⟨a, m, ha, hm, hr⟩ := response_of_ok h ho ok hs
  have R := ready_of_admit h
  have hp : c.path = .object b k := by
    cases ho with
    | getObject _ hat _ _ => exact R.object hat
  have hb : c.bucketName = b ∧ c.keyName = k := by simp [Ctx.bucketName, Ctx.keyName, hp]
  obtain ⟨o, _, rfl⟩ := answer_get.mp ha
  obtain ⟨t, ht, hh⟩ := get_headers x c o.1.contentLength o.1.metadata o.1.etag o.2
  rw [hb.1, hb.2] at ht
  simp only [makeResponse, Op.handler, hh, document] at hr
  injection hr with hr
  rw [← hr]
  have key : (b!"last-modified", v) ∈ [(b!"last-modified", t), (b!"content-length", natDigits o.1.contentLength), (b!"etag", o.1.etag)] ++ m ↔ v = t := by
    apply header_iff
    · intro v hv
      obtain ⟨s, hs⟩ := metadata_name hm hv
      exact absurd (List.cons.inj hs).1 (by decide)
    · intro v
      simp
  rw [key]
  exact ⟨fun e => e ▸ ht, fun hv => ((C87_http_date_unique hv ht).mpr rfl)⟩

/-- **C87** The same for a HEAD. -/
theorem C87_head {r : Req} {c : Ctx} (h : admit lib auth r = .ok c) {b k : Bytes}
    (ho : Requests lib env r c.body (.headObject b k)) {x : Texts} {fs : FS} {res : Response}
    (ok : responded cfg ext lib auth env x r fs = .ok res) (hs : res.status = 200) (v : Bytes) :
    (b!"last-modified", v) ∈ res.headers ↔ HttpDate v (x.modified b k).secs := by
  obtain ⟨a, m, ha, hm, hr⟩ := response_of_ok h ho ok hs
  have R := ready_of_admit h
  have hp : c.path = .object b k := by
    cases ho with
    | headObject _ hat _ => exact R.object hat
  have hb : c.bucketName = b ∧ c.keyName = k := by simp [Ctx.bucketName, Ctx.keyName, hp]
  obtain ⟨o, _, rfl⟩ := answer_head.mp ha
  obtain ⟨t, ht, hh⟩ := head_headers x c o.1 o.2
  rw [hb.1, hb.2] at ht
  simp only [makeResponse, Op.handler, hh, document] at hr
  injection hr with hr
  rw [← hr]
  have key : (b!"last-modified", v) ∈ [(b!"last-modified", t), (b!"content-length", natDigits o.1),
      (b!"content-type", b!"application/octet-stream")] ++ m ↔ v = t := by
    apply header_iff
    · intro v hv
      obtain ⟨s, hs⟩ := metadata_name hm hv
      exact absurd (List.cons.inj hs).1 (by decide)
    · intro v
      simp
  rw [key]
  exact ⟨fun e => e ▸ ht, fun hv => ((C87_http_date_unique hv ht).mpr rfl)⟩

/-! ### C75: UploadPart -/

/-- **C75** An UploadPart answered 200 has one `ETag` header, the quoted MD5 of the content sent, and the content was received whole. -/
theorem C75_upload_part {r : Req} {c : Ctx} (h : admit lib auth r = .ok c) {u : Bytes} {n : Int} {body : Body}
    (ho : Requests lib env r c.body (.uploadPart u n (some body))) (hu : (47 : UInt8) ∉ u) {x : Texts} {fs : FS} (hw : WF fs) {res : Response}
    (ok : responded cfg ext lib auth env x r fs = .ok res) (hs : res.status = 200) :
    unbroken body ∧ ∀ v, (b!"etag", v) ∈ res.headers ↔ v = quoted (ext.md5hex (received body)) := by
  obtain ⟨a, m, ha, hm, hr⟩ := response_of_ok h ho ok hs
  obtain ⟨e, he, rfl⟩ := answer_uploadPart ha
  obtain ⟨h1, h2, _, _⟩ := uploadPart_run hu hw he
  refine ⟨h1, fun v => ?_⟩
  simp only [makeResponse, Op.handler, answerHeaders, document] at hr
  injection hr with hr
  rw [← hr, ← h2]
  apply header_iff
  · intro v hv
    obtain ⟨s, hs⟩ := metadata_name hm hv
    exact absurd (List.cons.inj hs).1 (by decide)
  · intro v
    simp [optHeader]

/-- the hypotheses of `C75_upload_part` are met -/
example : ∃ c res, admit Sample.lib none (Sample.plain b!"PUT" b!"/aaa/n" (some b!"partNumber=1&uploadId=id1") [] [some b!"one"]) = .ok c ∧
    Requests Sample.lib Sample.env (Sample.plain b!"PUT" b!"/aaa/n" (some b!"partNumber=1&uploadId=id1") [] [some b!"one"]) c.body
      (.uploadPart b!"id1" 1 (some [some b!"one"])) ∧
    responded Sample.cfg Sample.ext Sample.lib none Sample.env Sample.texts
      (Sample.plain b!"PUT" b!"/aaa/n" (some b!"partNumber=1&uploadId=id1") [] [some b!"one"]) Sample.fs = .ok res ∧ res.status = 200 ∧
    (b!"etag", b!"\"md5:3\"") ∈ res.headers := by
  obtain ⟨c, hc, hb⟩ := Sample.admit_of (r := Sample.plain b!"PUT" b!"/aaa/n" (some b!"partNumber=1&uploadId=id1") [] [some b!"one"]) (by decide +kernel)
  refine ⟨c, ⟨200, [(b!"etag", b!"\"md5:3\"")], some []⟩, hc, ?_, by decide +kernel, rfl, by decide⟩
  rw [hb]
  exact .uploadPart (l := none) rfl (Sample.at_object (b := b!"aaa") (k := b!"n") rfl (by decide +kernel) (by decide +kernel) (by decide) (by decide))
    (Sample.selects_of (by decide +kernel)) (Sample.no_header (by decide +kernel))
    (Sample.only_query (v := b!"1") (by decide +kernel) (by decide +kernel)) (parseI64_iff.mp (by decide +kernel))
    (Sample.only_query (by decide +kernel) (by decide +kernel)) ⟨none, Sample.no_header (by decide +kernel), trivial⟩

/-! ### C88: CopyObject -/

/-- **C88** (partial) The document that answers a CopyObject: `ETag` is the quoted MD5 of what is stored at the destination, `LastModified`
denotes the time of the last modification of the source. Missing: the time should be that of the new object, see `C88_copy_time_fails`; keys
of the source with dot components or slashes at the ends. -/
theorem C88_copy_partial (hmd5 : ∀ s, CleanText (quoted (ext.md5hex s))) {r : Req} {c : Ctx} (h : admit lib auth r = .ok c) {b k sb sk : Bytes}
    {scs : List Bytes} (ho : Requests lib env r c.body (.copyObject b k (sb ++ b!"/" ++ sk))) (hsb : LegalBucket sb) (hsk : PlainKey sk scs)
    (x : Texts) {fs : FS} (hw : WF fs) {a : Answer} (ha : answer cfg ext (.copyObject b k (sb ++ b!"/" ++ sk)) fs = .ok a) :
    ∃ res es content, responded cfg ext lib auth env x r fs = .ok res ∧ Shows res 200 es ∧
      stored cfg (afterResponded cfg ext lib auth env x r fs) b k = some content ∧
      textsAt [b!"CopyObjectResult", b!"ETag"] es = [quoted (ext.md5hex content)] ∧
      Times (textsAt [b!"CopyObjectResult", b!"LastModified"] es) [x.modified sb sk] := by
  have R := ready_of_admit h
  obtain ⟨h1, _, h3⟩ := responded_of (cfg := cfg) (ext := ext) h ho x fs
  have hp : LegalBucket b ∧ c.copySource = some (sb, sk) := by
    generalize hsrc : sb ++ b!"/" ++ sk = src at ho
    cases ho with
    | @copyObject _ _ sb' sk' _ hat _ hv l1 l2 l3 l4 =>
      obtain ⟨rfl, rfl⟩ := C62_copy_source_unique _ _ _ _ hsb l1 hsrc
      refine ⟨?_, ?_⟩
      · obtain ⟨p, _, hp⟩ := hat
        cases hp; assumption
      · simp only [Ctx.copySource, R.headerValue hv, (C62_copy_source _ sb sk).mpr ⟨rfl, l1, l2, l3, l4⟩]
  have hsrc : copySourceFromHeader (sb ++ b!"/" ++ sk) = .ok (sb, sk) := by
    generalize hsrc : sb ++ b!"/" ++ sk = src at ho
    cases ho with
    | @copyObject _ _ sb' sk' _ hat _ hv l1 l2 l3 l4 =>
      obtain ⟨rfl, rfl⟩ := C62_copy_source_unique _ _ _ _ hsb l1 hsrc
      exact (C62_copy_source _ sb sk).mpr ⟨rfl, l1, l2, l3, l4⟩
  obtain ⟨content, hst, rfl⟩ := (C13_etag_partial hw a).2.2.2.2 b k _ sb sk scs hp.1 hsrc hsb hsk ha
  obtain ⟨doc, d1, d2⟩ := ((Part.element (gt := x.gt) (n := b!"ETag") (by decide) (hmd5 content)).append
    (Part.element (n := b!"LastModified") (by decide) (clean_timeText x (x.modified sb sk)))).rooted (n := b!"CopyObjectResult") (by decide)
  obtain ⟨res, r1, r2⟩ := makeResponse_doc (x := x) (c := c) (h := .copyObject)
    (rep := ⟨200, [], .etag (some (quoted (ext.md5hex content)))⟩) (by simp only [document, hp.2]; rfl) d1 d2
  exact ⟨res, _, content, h3 _ ha none rfl (by simp) res r1, r2, by rw [h1]; exact hst, rfl, times_map x (fun _ : Unit => x.modified sb sk) [()]⟩

/-- the source was written at the new year, everything else a day later -/
def Sample.later : Texts :=
  { Sample.texts with modified := fun _ k => if k = b!"x" then Sample.newYear else ⟨1577923200, 0, by decide, by decide⟩ }

/-- copy `aaa/x` to `aaa/n` -/
def Sample.copy : Req := Sample.plain b!"PUT" b!"/aaa/n" none [(b!"x-amz-copy-source", b!"aaa/x")] []

/-- **C88** (negation) The time in the answer to a CopyObject is not the time of the new object: a HEAD of it gives another one. -/
theorem C88_copy_time_fails :
    ∃ (cfg : Cfg) (ext : Ext) (lib : Lib) (env : Env) (x : Texts) (fs : FS) (copy head : Req) (es : List XmlEntry) (s v : Bytes), WF fs ∧
      At copy (.object b!"aaa" b!"n") ∧ At head (.object b!"aaa" b!"n") ∧ copy.method = b!"PUT" ∧ head.method = b!"HEAD" ∧
      Sample.reads (responded cfg ext lib none env x copy fs) = some es ∧ textsAt [b!"CopyObjectResult", b!"LastModified"] es = [s] ∧
      Sample.headerOf (responded cfg ext lib none env x head (afterResponded cfg ext lib none env x copy fs)) b!"last-modified" = some v ∧
      (∃ t t' n, Rfc3339 s t n ∧ HttpDate v t' ∧ t ≠ t') := by
  refine ⟨Sample.cfg, Sample.ext, Sample.lib, Sample.env, Sample.later, Sample.fs, Sample.copy, Sample.plain b!"HEAD" b!"/aaa/n" none [] [],
    [([b!"CopyObjectResult", b!"ETag"], b!"\"md5:5\""), ([b!"CopyObjectResult", b!"LastModified"], Sample.later.timeText Sample.newYear),
      ([b!"CopyObjectResult"], [])],
    Sample.later.timeText Sample.newYear, lastModifiedText (1577923200 + epochSeconds), Sample.fs_wf,
    Sample.at_object rfl (by decide +kernel) (by decide +kernel) (by decide) (by decide),
    Sample.at_object rfl (by decide +kernel) (by decide +kernel) (by decide) (by decide), rfl, rfl,
    by decide +kernel, by decide +kernel, by decide +kernel, _, _, _, rfc3339_text _ _,
    (lastModified_text ⟨0, by decide⟩ ⟨1577923200, 0, by decide, by decide⟩).2, by decide⟩

/-- the hypotheses of C88 are met -/
example : ∃ c a, admit Sample.lib none Sample.copy = .ok c ∧
    Requests Sample.lib Sample.env Sample.copy c.body (.copyObject b!"aaa" b!"n" (b!"aaa" ++ b!"/" ++ b!"x")) ∧ LegalBucket b!"aaa" ∧
    PlainKey b!"x" [b!"x"] ∧ WF Sample.fs ∧ answer Sample.cfg Sample.ext (.copyObject b!"aaa" b!"n" (b!"aaa" ++ b!"/" ++ b!"x")) Sample.fs = .ok a := by
  obtain ⟨c, hc, _⟩ := Sample.admit_of (r := Sample.copy) (by decide +kernel)
  exact ⟨c, .etag (some b!"\"md5:5\""), hc, .copyObject rfl (Sample.at_object rfl (by decide +kernel) (by decide +kernel) (by decide) (by decide))
    (Sample.selects_none rfl) (Sample.value_header (by decide +kernel)) (Sample.legal (by decide +kernel)) (by decide) (by decide) (by decide),
    Sample.legal (by decide +kernel), plain1 (by decide), Sample.fs_wf, by decide +kernel⟩

/-- the hypotheses of `C87_get` are met, with the header -/
example : ∃ c res, admit Sample.lib none (Sample.plain b!"GET" b!"/aaa/x" none [] []) = .ok c ∧
    Requests Sample.lib Sample.env (Sample.plain b!"GET" b!"/aaa/x" none [] []) c.body (.getObject b!"aaa" b!"x" none Sample.env.wants) ∧
    responded Sample.cfg Sample.ext Sample.lib none Sample.env Sample.texts (Sample.plain b!"GET" b!"/aaa/x" none [] []) Sample.fs = .ok res ∧
    res.status = 200 ∧ (b!"last-modified", b!"Wed, 01 Jan 2020 00:00:00 GMT") ∈ res.headers := by
  obtain ⟨c, hc, _⟩ := Sample.admit_of (r := Sample.plain b!"GET" b!"/aaa/x" none [] []) (by decide +kernel)
  refine ⟨c, ⟨200, [(b!"last-modified", b!"Wed, 01 Jan 2020 00:00:00 GMT"), (b!"content-length", b!"5"), (b!"etag", b!"\"md5:5\"")],
    some b!"hello"⟩, hc, .getObject rfl (Sample.at_object rfl (by decide +kernel) (by decide +kernel) (by decide) (by decide))
    (Sample.selects_none rfl) (Sample.no_header (by decide +kernel)), by decide +kernel, rfl, by decide⟩

end S3
