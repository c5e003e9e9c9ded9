import Verif.Lemmas.XmlBody
import Verif.Props.Client
/-! C90, C91, C92, C93: requests with XML documents. -/
namespace S3
open Spec

variable {cfg : Cfg} {ext : Ext} {lib : Lib} {auth : Option Provider} {env : Env}

/-! ### C90: DeleteObjects -/

/-- **C90** (partial) However a client writes the document of a DeleteObjects request, the objects under the keys in it are deleted, and no other one;
the response names those that were stored. Missing: keys with white space at their ends and what is missing in C26 and C73. Neither the quiet mode `q`
nor the versions in `objs` make a difference, see `C90_quiet_fails` and `C90_version_fails`. -/
theorem C90_delete_document_partial (hlaw : XmlLaw lib) {r : Req} {c : Ctx} (h : admit lib auth r = .ok c) {b s : Bytes} (hm : r.method = b!"POST")
    (hat : At r (.bucket b)) (hs : Selects r [b!"delete"]) (hf : ∀ x, ¬ IsForm lib r x) (hh : HeaderBool r b!"x-amz-bypass-governance-retention")
    (ht : Text c.body s) {root : XmlNode} {objs : List (Bytes × Option Bytes)} {q : Option Bool} (hd : Document root s) (hr : DeleteRequest root objs q)
    (x : Texts) (hn : (objs.map (·.1)).Nodup) {fs : FS} (hw : WF fs)
    (hk : ∀ k ∈ objs.map (·.1), ∃ cs, PlainKey k cs ∧ ¬ IsDir fs (cfg.root ++ b :: cs)) (hc : ∀ k ∈ objs.map (·.1), CleanText k) :
    (∃ res es, responded cfg ext lib auth env x r fs = .ok res ∧ Shows res 200 es ∧
      textsAt [b!"DeleteResult", b!"Deleted", b!"Key"] es = (objs.map (·.1)).filter fun k => (stored cfg fs b k).isSome) ∧
    (∀ k ∈ objs.map (·.1), stored cfg (afterResponded cfg ext lib auth env x r fs) b k = none) ∧
    ∀ b' k' cs, LegalBucket b' → PlainKey k' cs → ¬ (b' = b ∧ k' ∈ objs.map (·.1)) →
      stored cfg (afterResponded cfg ext lib auth env x r fs) b' k' = stored cfg fs b' k' := by
  have ho : Requests lib env r c.body (.deleteObjects b (objs.map (·.1))) :=
    .deleteObjects hm hat hs hf ht (by rw [Lib.xmlDelete, hlaw.document _ _ hd]; exact readDelete_request hr) hh
  have hb : LegalBucket b := by
    obtain ⟨p, _, hp⟩ := hat
    cases hp <;> assumption
  obtain ⟨h1, h2⟩ := C73_delete_objects_partial cfg ext lib auth env h ho x hb hn hw hk hc
  refine ⟨h1, h2, fun b' k' cs hb' hk' hne => ?_⟩
  rw [(responded_of (cfg := cfg) (ext := ext) h ho x fs).1]
  have hb1 := (C02_bucket_name_rule b').mpr hb'
  have hst : ∀ fs' : FS, stored cfg fs' b' k' = contentAt fs' (plainFile cfg b' k') := fun fs' => by
    simp [stored, objectPath_plain cfg hb1 hk', plainFile_eq hk']
  rw [hst, hst]
  refine ((C26_delete_objects_partial (ext := ext) hb hn hw hk).2.2 _ fun k hk1 e => hne ?_).2
  obtain ⟨cs1, hp1, _⟩ := hk k hk1
  rw [plainFile_eq hk', plainFile_eq hp1] at e
  have e := List.append_cancel_left e
  injection e with e1 e2
  refine ⟨e1, ?_⟩
  rw [hk'.text, e2, ← hp1.text]
  exact hk1

/-! ### C91: CompleteMultipartUpload -/

theorem numbers_of {parts : List (Int × Bytes)} : ∀ {cnt : Int}, (∀ (j : Nat) p, parts[j]? = some p → p.1 = cnt + j + 1) →
    parts.map (fun p => some p.1) = numbers cnt parts.length := by
  induction parts with
  | nil => intro cnt _; rfl
  | cons p ps ih =>
    intro cnt h
    have h0 := h 0 p rfl
    simp only [List.map_cons, List.length_cons, numbers, List.cons.injEq, Option.some.injEq]
    refine ⟨by simpa using h0, ih fun j q hj => ?_⟩
    have := h (j + 1) q (by simpa using hj)
    rw [this]; omega

/-- **C91** (partial) However a client writes the document of a CompleteMultipartUpload request: if it lists the parts 1 to n of the upload, then the object
consists of what was last uploaded as these parts, in their order. Missing: what is missing in C24 and C74. The ETags in the document make no
difference, see `C91_etag_fails`. -/
theorem C91_complete_document_partial (hlaw : XmlLaw lib) (hmd5 : ∀ s, CleanText (quoted (ext.md5hex s))) {r : Req} {c : Ctx}
    (h : admit lib auth r = .ok c) {b k u s : Bytes} (hm : r.method = b!"POST") (hat : At r (.object b k)) (hs : Selects r [b!"uploadId"])
    (hf : ∀ x, ¬ IsForm lib r x) (ht : Text c.body s) (hid : OnlyQuery r b!"uploadId" u) {root : XmlNode} {parts : List (Int × Bytes)}
    (hd : Document root s) (hr : CompleteRequest root parts) (x : Texts) {cs : List Bytes} (hu : (47 : UInt8) ∉ u) (hk : PlainKey k cs)
    (hck : CleanText k) (hfit : ∀ c ∈ cs, Fits c) {os : List Op} {fs : FS} (hw : WF fs) (hos : Uploads cfg ext u os fs) (contents : List Bytes)
    (hlen : parts.length = contents.length) (hnum : ∀ (j : Nat) p, parts[j]? = some p → p.1 = j + 1)
    (hparts : ∀ (j : Nat) c, contents[j]? = some c → lastPart u (j + 1) os = some c)
    (hdir : IsDir (afterAll cfg ext os fs) (cfg.root ++ b :: cs).dropLast) (hfree : ¬ IsDir (afterAll cfg ext os fs) (cfg.root ++ b :: cs)) :
    stored cfg (afterResponded cfg ext lib auth env x r (afterAll cfg ext os fs)) b k = some contents.flatten ∧
    ∃ res es, responded cfg ext lib auth env x r (afterAll cfg ext os fs) = .ok res ∧ Shows res 200 es ∧
      textsAt [b!"CompleteMultipartUploadResult", b!"Bucket"] es = [b] ∧ textsAt [b!"CompleteMultipartUploadResult", b!"Key"] es = [k] ∧
      textsAt [b!"CompleteMultipartUploadResult", b!"ETag"] es = [quoted (ext.md5hex contents.flatten)] := by
  have hp : parts.map (fun p => some p.1) = numbers 0 contents.length := by
    rw [← hlen]; exact numbers_of fun j p hj => by rw [hnum j p hj]; omega
  have ho : Requests lib env r c.body (.completeMultipartUpload b k u (some (numbers 0 contents.length))) :=
    .completeMultipartUpload hm hat hs hf ht (by rw [Lib.xmlComplete, hlaw.document _ _ hd, ← hp]; exact readComplete_request hr) hid
  have hb : LegalBucket b := by
    obtain ⟨p, _, hp⟩ := hat
    cases hp <;> assumption
  obtain ⟨h1, h2, _⟩ := C24_multipart_partial (cfg := cfg) (ext := ext) hu ((C02_bucket_name_rule b).mpr hb) hk hfit hw hos contents hparts hdir hfree
  obtain ⟨res, es, content, c1, c2, c3, c4, c5, c6⟩ := C74_complete_partial cfg ext lib auth env hmd5 h ho x hck (wf_afterAll hw) h1
  have : stored cfg (afterResponded cfg ext lib auth env x r (afterAll cfg ext os fs)) b k = some contents.flatten := by
    rw [(responded_of (cfg := cfg) (ext := ext) h ho x _).1]; exact h2
  refine ⟨this, res, es, c1, c2, c3, c4, ?_⟩
  rw [this] at c5
  injection c5 with c5
  rw [c6, c5]

/-! ### C92: locations -/

/-- **C92** (partial) However a client writes the document of a CreateBucket request, or without a document, the bucket is created if its name is free,
and a GetBucketLocation request that follows is answered; the location in the response is always empty, see `C92_location_fails`. -/
theorem C92_location_partial (hlaw : XmlLaw lib) {r rg : Req} {c cg : Ctx} (h : admit lib auth r = .ok c) (hg : admit lib auth rg = .ok cg) {b s : Bytes}
    (hm : r.method = b!"PUT") (hat : At r (.bucket b)) (hs : Selects r []) (hh : HeaderBool r b!"x-amz-bucket-object-lock-enabled")
    (ht : Text c.body s) (hd : White s ∨ ∃ location, Document (createRequest location) s) {envg : Env}
    (hgo : Requests lib envg rg cg.body (.getBucketLocation b)) (x xg : Texts) {fs : FS} (hw : WF fs) (hroot : IsDir fs cfg.root)
    (hfree : fs.lookup (bucketDir cfg b) = none) :
    (∃ res, responded cfg ext lib auth env x r fs = .ok res ∧ res.status = 200) ∧
    ∃ res es, responded cfg ext lib auth envg xg rg (afterResponded cfg ext lib auth env x r fs) = .ok res ∧ Shows res 200 es ∧
      textsAt [b!"LocationConstraint"] es = [[]] := by
  have hx : lib.xmlCreateBucket s = true := by
    rcases hd with hd | ⟨l, hd⟩
    · rw [Lib.xmlCreateBucket, hlaw.none _ hd]; rfl
    · rw [Lib.xmlCreateBucket, hlaw.document _ _ hd]; exact readCreateBucket_request l
  have ho : Requests lib env r c.body (.createBucket b) := .createBucket hm hat hs ht hx hh
  have hb : LegalBucket b := by
    obtain ⟨p, _, hp⟩ := hat
    cases hp <;> assumption
  obtain ⟨a1, _, _, _, _, a2, _⟩ := (C22_create_bucket (cfg := cfg) (ext := ext) hw hroot hb).2 hfree
  obtain ⟨h1, _, h3⟩ := responded_of (cfg := cfg) (ext := ext) h ho x fs
  refine ⟨?_, ?_⟩
  · obtain ⟨res, r1, r2⟩ := makeResponse_ret x c .createBucket ⟨200, [], .done⟩
    exact ⟨res, h3 _ a1 none rfl (by simp) res r1, r2⟩
  · rw [h1]
    obtain ⟨_, _, g3⟩ := responded_of (cfg := cfg) (ext := ext) hg hgo xg (after cfg ext (.createBucket b) fs)
    obtain ⟨doc, d1, d2⟩ : ∃ doc, xmlDocument xg.gt (elementEvents b!"LocationConstraint" []) = some doc ∧
        readXml doc = some [([b!"LocationConstraint"], [])] := by
      cases xg.gt <;> exact ⟨_, rfl, by decide +kernel⟩
    obtain ⟨res, r1, r2⟩ := makeResponse_doc (x := xg) (c := cg) (h := .getBucketLocation) (rep := ⟨200, [], .done⟩) rfl d1 d2
    exact ⟨res, _, g3 _ a2 none rfl (by simp) res r1, r2, rfl⟩

/-! ### examples and witnesses -/

theorem Sample.lib_xml : XmlLaw Sample.lib := plainXml_law rfl

theorem Sample.raw {t : Bytes} (h : (t.all fun c => c != 60 && c != 38) = true) : Escaped t t := by
  induction t with
  | nil => exact .nil
  | cons c t ih =>
    simp only [List.all_cons, Bool.and_eq_true, bne_iff_ne, ne_eq] at h
    exact .raw h.1.1 h.1.2 (ih (by simpa using h.2))

theorem Sample.plainText {t : Bytes} (h : (utf8Valid t && t != [] && (t.all fun c => decide (32 ≤ c ∧ c ≠ 62)) && t.head?.all (fun c => !isWhite c) &&
    t.getLast?.all fun c => !isWhite c) = true) : PlainText t := by
  simp only [Bool.and_eq_true, bne_iff_ne, ne_eq] at h
  refine ⟨h.1.1.1.1, h.1.1.1.2, clean_all h.1.1.2, fun c hc hw => ?_⟩
  have := isWhite_iff.mpr hw
  rcases hc with hc | hc
  · have h1 := h.1.2
    rw [hc] at h1
    simp [this] at h1
  · have h1 := h.2
    rw [hc] at h1
    simp [this] at h1

/-- an element with a text, as it is, and what follows -/
theorem Sample.writes {n t : Bytes} (hn : xmlName n = true) (ht : (utf8Valid t && t != [] && (t.all fun c => decide (32 ≤ c ∧ c ≠ 62)) &&
    t.head?.all (fun c => !isWhite c) && t.getLast?.all fun c => !isWhite c) = true) (he : (t.all fun c => c != 60 && c != 38) = true) {rest : List XmlNode}
    {sr : Bytes} (hr : Written rest sr) : Written (.elem n [.text t] :: rest) ([] ++ b!"<" ++ n ++ [] ++ b!">" ++ t ++ b!"</" ++ n ++ b!">" ++ sr) :=
  .leaf (by simp [White]) hn (.inl rfl) (Sample.plainText ht) (Sample.raw he) hr

theorem Sample.writes_nil : Written [] [] := .nil (by simp [White])

/-- a document that asks for the quiet mode; the key of its object is written with an entity -/
def Sample.quietDoc : Bytes := b!"<Delete xmlns=\"urn:x\">\n<Object><Key>d&amp;e</Key></Object><Object><Key>x</Key></Object><Quiet>true</Quiet></Delete>"

def Sample.quietRoot : XmlNode := .elem b!"Delete" ([(b!"d&e", none), (b!"x", none)].map objectElement ++ [quietElement true])

theorem Sample.quiet_document : Document Sample.quietRoot Sample.quietDoc := by
  refine ⟨[], Sample.quietDoc, .inl rfl, ?_, rfl⟩
  have h1 : Written [.elem b!"Key" [.text b!"d&e"]] _ := .leaf (w := []) (a := []) (by simp [White]) (by decide) (.inl rfl)
    (Sample.plainText (by decide +kernel)) (.raw (by decide) (by decide) (.amp (.raw (by decide) (by decide) .nil))) Sample.writes_nil
  have h2 := Sample.writes (n := b!"Key") (t := b!"x") (by decide) (by decide +kernel) (by decide) Sample.writes_nil
  have h3 := Sample.writes (n := b!"Quiet") (t := b!"true") (by decide) (by decide +kernel) (by decide) Sample.writes_nil
  have h4 : Written _ _ := .node (w := b!"\n") (n := b!"Object") (a := []) (by simp [White]) (by decide) (.inl rfl) h1
    (.node (w := []) (n := b!"Object") (a := []) (by simp [White]) (by decide) (.inl rfl) h2 h3)
  exact .node (w := []) (n := b!"Delete") (a := b!" xmlns=\"urn:x\"") (by simp [White]) (by decide)
    (.inr ⟨b!"urn:x", rfl, by decide⟩) h4 Sample.writes_nil

def Sample.quietReq : Req := Sample.plain b!"POST" b!"/aaa" (some b!"delete") [] [some Sample.quietDoc]

theorem Sample.not_form {r : Req} (h : (r.headers.all fun p => p.1 != b!"content-type") = true) : ∀ x, ¬ IsForm Sample.lib r x := by
  rintro x ⟨_, v, _, hv, _⟩
  have := List.all_eq_true.mp h _ hv
  simp at this

/-- the hypotheses of C90 are met -/
example : ∃ c, admit Sample.lib none Sample.quietReq = .ok c ∧ Sample.quietReq.method = b!"POST" ∧ At Sample.quietReq (.bucket b!"aaa") ∧
    Selects Sample.quietReq [b!"delete"] ∧ (∀ x, ¬ IsForm Sample.lib Sample.quietReq x) ∧
    HeaderBool Sample.quietReq b!"x-amz-bypass-governance-retention" ∧ Text c.body Sample.quietDoc ∧ Document Sample.quietRoot Sample.quietDoc ∧
    DeleteRequest Sample.quietRoot [(b!"d&e", none), (b!"x", none)] (some true) ∧
    (∀ k ∈ [b!"d&e", b!"x"], ∃ cs, PlainKey k cs ∧ ¬ IsDir Sample.fs (Sample.cfg.root ++ b!"aaa" :: cs)) ∧ ∀ k ∈ [b!"d&e", b!"x"], CleanText k := by
  obtain ⟨c, hc, hb⟩ := Sample.admit_of (r := Sample.quietReq) (by decide +kernel)
  refine ⟨c, hc, rfl, Sample.at_bucket rfl (by decide +kernel) (by decide +kernel), Sample.selects_of (by decide +kernel), Sample.not_form (by decide),
    ⟨none, Sample.no_header (by decide +kernel), .inl rfl⟩, by rw [hb]; exact ⟨show none ∉ _ by decide +kernel, by decide +kernel⟩, Sample.quiet_document,
    .quietLast (by simp), ?_, ?_⟩
  · intro k hk
    simp only [List.mem_cons, List.not_mem_nil, or_false] at hk
    rcases hk with rfl | rfl
    · exact ⟨_, plain1 (by decide), by unfold IsDir; decide +kernel⟩
    · exact ⟨_, plain1 (by decide), by unfold IsDir; decide +kernel⟩
  · intro k hk
    simp only [List.mem_cons, List.not_mem_nil, or_false] at hk
    rcases hk with rfl | rfl <;> exact clean_all (by decide +kernel)

/-- a request with a document to a path, and what the model needs to read it -/
def Sample.post (path query doc : Bytes) : Req := Sample.plain b!"POST" path (some query) [] [some doc]

/-- **C90** (negation) In quiet mode the response is to name only the keys that could not be deleted (S3 API reference); here it names the deleted one. -/
theorem C90_quiet_fails :
    ∃ (cfg : Cfg) (ext : Ext) (lib : Lib) (e : Exchange) (c : Ctx) (s : Bytes) (root : XmlNode) (fs : FS), XmlLaw lib ∧ admit lib none e.req = .ok c ∧
      Text c.body s ∧ Document root s ∧ DeleteRequest root [(b!"d&e", none), (b!"x", none)] (some true) ∧ stored cfg fs b!"aaa" b!"x" = some b!"hello" ∧
      Asks lib none e (.deleteObjects b!"aaa" [b!"d&e", b!"x"]) ∧
      ∃ res es, responded cfg ext lib none e.env e.texts e.req fs = .ok res ∧ Shows res 200 es ∧
        textsAt [b!"DeleteResult", b!"Deleted", b!"Key"] es = [b!"x"] := by
  obtain ⟨c, hc, hb⟩ := Sample.admit_of (r := Sample.quietReq) (by decide +kernel)
  have ht : Text c.body Sample.quietDoc := by rw [hb]; exact ⟨show none ∉ _ by decide +kernel, by decide +kernel⟩
  have hk : ∀ k ∈ [b!"d&e", b!"x"], ∃ cs, PlainKey k cs ∧ ¬ IsDir Sample.fs (Sample.cfg.root ++ b!"aaa" :: cs) := by
    intro k hk
    simp only [List.mem_cons, List.not_mem_nil, or_false] at hk
    rcases hk with rfl | rfl <;> exact ⟨_, plain1 (by decide), by unfold IsDir; decide +kernel⟩
  have hcl : ∀ k ∈ [b!"d&e", b!"x"], CleanText k := by
    intro k hk
    simp only [List.mem_cons, List.not_mem_nil, or_false] at hk
    rcases hk with rfl | rfl <;> exact clean_all (by decide +kernel)
  have hat : At Sample.quietReq (.bucket b!"aaa") := Sample.at_bucket rfl (by decide +kernel) (by decide +kernel)
  have hh : HeaderBool Sample.quietReq b!"x-amz-bypass-governance-retention" := ⟨none, Sample.no_header (by decide +kernel), .inl rfl⟩
  have hr : DeleteRequest Sample.quietRoot [(b!"d&e", none), (b!"x", none)] (some true) := .quietLast (by simp)
  obtain ⟨⟨res, es, h1, h2, h3⟩, _⟩ := C90_delete_document_partial (cfg := Sample.cfg) (ext := Sample.ext) (env := Sample.env) Sample.lib_xml hc rfl hat
    (Sample.selects_of (by decide +kernel)) (Sample.not_form (by decide)) hh ht Sample.quiet_document hr Sample.texts (by decide) Sample.fs_wf hk hcl
  refine ⟨Sample.cfg, Sample.ext, Sample.lib, Sample.exchange Sample.quietReq, c, _, _, Sample.fs, Sample.lib_xml, hc, ht, Sample.quiet_document, hr,
    by decide +kernel, ⟨c, hc, .deleteObjects rfl hat (Sample.selects_of (by decide +kernel)) (Sample.not_form (by decide)) ht
      (by rw [Lib.xmlDelete, Sample.lib_xml.document _ _ Sample.quiet_document]; exact readDelete_request hr) hh⟩, res, es, h1, h2, ?_⟩
  rw [h3]; decide +kernel

/-- a document that asks for the deletion of a version -/
def Sample.versionDoc : Bytes := b!"<Delete><Object><Key>x</Key><VersionId>v9</VersionId></Object></Delete>"

theorem Sample.version_document : Document (.elem b!"Delete" ([(b!"x", some b!"v9")].map objectElement)) Sample.versionDoc := by
  refine ⟨[], Sample.versionDoc, .inl rfl, ?_, rfl⟩
  have h1 := Sample.writes (n := b!"Key") (t := b!"x") (by decide) (by decide +kernel) (by decide)
    (Sample.writes (n := b!"VersionId") (t := b!"v9") (by decide) (by decide +kernel) (by decide) Sample.writes_nil)
  exact .node (w := []) (n := b!"Delete") (a := []) (by simp [White]) (by decide) (.inl rfl)
    (.node (w := []) (n := b!"Object") (a := []) (by simp [White]) (by decide) (.inl rfl) h1 Sample.writes_nil) Sample.writes_nil

/-- **C90** (negation) A request to delete one version of an object, which the server never made, deletes the object. -/
theorem C90_version_fails :
    ∃ (cfg : Cfg) (ext : Ext) (lib : Lib) (e : Exchange) (c : Ctx) (s : Bytes) (root : XmlNode) (fs : FS), XmlLaw lib ∧ admit lib none e.req = .ok c ∧
      Text c.body s ∧ Document root s ∧ DeleteRequest root [(b!"x", some b!"v9")] none ∧ Asks lib none e (.deleteObjects b!"aaa" [b!"x"]) ∧
      stored cfg fs b!"aaa" b!"x" = some b!"hello" ∧ stored cfg (afterExchanges cfg ext lib none [e] fs) b!"aaa" b!"x" = none := by
  obtain ⟨c, hc, hb⟩ := Sample.admit_of (r := Sample.post b!"/aaa" b!"delete" Sample.versionDoc) (by decide +kernel)
  have ht : Text c.body Sample.versionDoc := by rw [hb]; exact ⟨show none ∉ _ by decide +kernel, by decide +kernel⟩
  have hr : DeleteRequest (.elem b!"Delete" ([(b!"x", some b!"v9")].map objectElement)) [(b!"x", some b!"v9")] none := .plain (by simp)
  exact ⟨Sample.cfg, Sample.ext, Sample.lib, Sample.exchange (Sample.post b!"/aaa" b!"delete" Sample.versionDoc), c, _, _, Sample.fs, Sample.lib_xml, hc, ht,
    Sample.version_document, hr, ⟨c, hc, .deleteObjects rfl (Sample.at_bucket rfl (by decide +kernel) (by decide +kernel))
      (Sample.selects_of (by decide +kernel)) (Sample.not_form (by decide)) ht
      (by rw [Lib.xmlDelete, Sample.lib_xml.document _ _ Sample.version_document]; exact readDelete_request hr)
      ⟨none, Sample.no_header (by decide +kernel), .inl rfl⟩⟩, by decide +kernel, by decide +kernel⟩

/-! #### multipart uploads -/

/-- a document that lists one part, with an ETag that no part has -/
def Sample.completeDoc : Bytes :=
  b!"<CompleteMultipartUpload><Part><PartNumber>1</PartNumber><ETag>\"wrong\"</ETag></Part></CompleteMultipartUpload>"

def Sample.completeRoot : XmlNode :=
  .elem b!"CompleteMultipartUpload" [.elem b!"Part" [leaf b!"PartNumber" b!"1", leaf b!"ETag" b!"\"wrong\""]]

theorem Sample.complete_document : Document Sample.completeRoot Sample.completeDoc := by
  refine ⟨[], Sample.completeDoc, .inl rfl, ?_, rfl⟩
  have h1 := Sample.writes (n := b!"PartNumber") (t := b!"1") (by decide) (by decide +kernel) (by decide)
    (Sample.writes (n := b!"ETag") (t := b!"\"wrong\"") (by decide) (by decide +kernel) (by decide) Sample.writes_nil)
  exact .node (w := []) (n := b!"CompleteMultipartUpload") (a := []) (by simp [White]) (by decide) (.inl rfl)
    (.node (w := []) (n := b!"Part") (a := []) (by simp [White]) (by decide) (.inl rfl) h1 Sample.writes_nil) Sample.writes_nil

theorem Sample.complete_request : CompleteRequest Sample.completeRoot [(1, b!"\"wrong\"")] :=
  ⟨_, .cons (.numberFirst (parseI64_iff.mp (by decide +kernel))) .nil, rfl⟩

/-- CompleteMultipartUpload of the upload `id1` for the object `aaa/y` -/
def Sample.completeReq : Req := Sample.post b!"/aaa/y" b!"uploadId=id1" Sample.completeDoc

/-- UploadPart of part 1 of an upload `id1`, for the object `aaa/x` -/
def Sample.partReq : Req := Sample.plain b!"PUT" b!"/aaa/x" (some b!"partNumber=1&uploadId=id1") [] [some b!"one"]

theorem Sample.asks_part : Asks Sample.lib none (Sample.exchange Sample.partReq) (.uploadPart b!"id1" 1 (some [some b!"one"])) :=
  Sample.asks (by decide +kernel) (.uploadPart (b := b!"aaa") (k := b!"x") (ns := b!"1") (l := none) rfl
    (Sample.at_object rfl (by decide +kernel) (by decide +kernel) (by decide) (by decide)) (Sample.selects_of (by decide +kernel))
    (Sample.no_header (by decide +kernel)) (Sample.only_query (by decide +kernel) (by decide +kernel)) (parseI64_iff.mp (by decide +kernel))
    (Sample.only_query (by decide +kernel) (by decide +kernel)) ⟨none, Sample.no_header (by decide +kernel), trivial⟩)

theorem Sample.complete_at : At Sample.completeReq (.object b!"aaa" b!"y") :=
  Sample.at_object rfl (by decide +kernel) (by decide +kernel) (by decide) (by decide)

theorem Sample.asks_complete : Asks Sample.lib none (Sample.exchange Sample.completeReq) (.completeMultipartUpload b!"aaa" b!"y" b!"id1" (some [some 1])) :=
  Sample.asks (by decide +kernel) (.completeMultipartUpload (s := Sample.completeDoc) rfl Sample.complete_at (Sample.selects_of (by decide +kernel))
    (Sample.not_form (by decide)) ⟨show none ∉ _ by decide +kernel, by decide +kernel⟩
    (by rw [Lib.xmlComplete, Sample.lib_xml.document _ _ Sample.complete_document]; exact readComplete_request Sample.complete_request)
    (Sample.only_query (by decide +kernel) (by decide +kernel)))

/-- the hypotheses of `C74_complete_partial` are met (the clean ETags: see the next example) -/
example : Asks Sample.lib none (Sample.exchange Sample.completeReq) (.completeMultipartUpload b!"aaa" b!"y" b!"id1" (some [some 1])) ∧ CleanText b!"y" ∧
    answer Sample.cfg Sample.ext (.completeMultipartUpload b!"aaa" b!"y" b!"id1" (some [some 1]))
      (afterAll Sample.cfg Sample.ext [.uploadPart b!"id1" 1 (some [some b!"one"])] Sample.fs) = .ok (.etag (some b!"\"md5:3\"")) :=
  ⟨Sample.asks_complete, clean_all (by decide +kernel), by decide +kernel⟩

/-- the hypotheses of C91 are met -/
example : (∀ s, CleanText (quoted (Sample.ext.md5hex s))) ∧
    (∃ c, admit Sample.lib none Sample.completeReq = .ok c ∧ Text c.body Sample.completeDoc) ∧ Sample.completeReq.method = b!"POST" ∧
    At Sample.completeReq (.object b!"aaa" b!"y") ∧
    Selects Sample.completeReq [b!"uploadId"] ∧ (∀ x, ¬ IsForm Sample.lib Sample.completeReq x) ∧ OnlyQuery Sample.completeReq b!"uploadId" b!"id1" ∧
    Document Sample.completeRoot Sample.completeDoc ∧ CompleteRequest Sample.completeRoot [(1, b!"\"wrong\"")] ∧ PlainKey b!"y" [b!"y"] ∧
    CleanText b!"y" ∧ Uploads Sample.cfg Sample.ext b!"id1" [.uploadPart b!"id1" 1 (some [some b!"one"])] Sample.fs ∧
    lastPart b!"id1" 1 [.uploadPart b!"id1" 1 (some [some b!"one"])] = some b!"one" ∧
    IsDir (afterAll Sample.cfg Sample.ext [.uploadPart b!"id1" 1 (some [some b!"one"])] Sample.fs) (Sample.cfg.root ++ b!"aaa" :: [b!"y"]).dropLast ∧
    ¬ IsDir (afterAll Sample.cfg Sample.ext [.uploadPart b!"id1" 1 (some [some b!"one"])] Sample.fs) (Sample.cfg.root ++ b!"aaa" :: [b!"y"]) := by
  obtain ⟨c, hc, hb⟩ := Sample.admit_of (r := Sample.completeReq) (by decide +kernel)
  refine ⟨?_, ⟨c, hc, by rw [hb]; exact ⟨show none ∉ _ by decide +kernel, by decide +kernel⟩⟩, rfl, Sample.complete_at,
    Sample.selects_of (by decide +kernel), Sample.not_form (by decide), Sample.only_query (by decide +kernel) (by decide +kernel),
    Sample.complete_document, Sample.complete_request, plain1 (by decide), clean_all (by decide +kernel),
    ⟨by simp [LeavesUpload], fun _ _ _ => ⟨.etag (some b!"\"md5:3\""), by decide +kernel⟩, trivial⟩, by decide,
    by unfold IsDir; decide +kernel, by unfold IsDir; decide +kernel⟩
  intro s
  refine clean_of fun c hc => ?_
  simp only [quoted, Sample.ext, List.mem_append, List.mem_cons, List.not_mem_nil, or_false] at hc
  rcases hc with (rfl | (rfl | rfl | rfl | rfl) | hc) | rfl <;> first | decide | skip
  exact (by decide +kernel : ∀ n : Fin 256, isDigit (UInt8.ofNat n) = true → 32 ≤ UInt8.ofNat n ∧ UInt8.ofNat n ≠ 62) |> fun h =>
    forall_byte (P := fun c => isDigit c = true → 32 ≤ c ∧ c ≠ 62) h c ((natDigits_spec s.length).2.1 c hc)

/-- **C91** (negation) CompleteMultipartUpload accepts a document with an ETag that is not the one the part was answered with. -/
theorem C91_etag_fails :
    ∃ (cfg : Cfg) (ext : Ext) (lib : Lib) (e e' : Exchange) (c : Ctx) (s tag : Bytes) (root : XmlNode) (fs : FS), XmlLaw lib ∧
      Asks lib none e (.uploadPart b!"id1" 1 (some [some b!"one"])) ∧ admit lib none e'.req = .ok c ∧ Text c.body s ∧ Document root s ∧
      CompleteRequest root [(1, tag)] ∧ Asks lib none e' (.completeMultipartUpload b!"aaa" b!"y" b!"id1" (some [some 1])) ∧
      (∃ res, responded cfg ext lib none e.env e.texts e.req fs = .ok res ∧ res.status = 200 ∧ ∃ t, HasETag res t ∧ t ≠ tag) ∧
      (∃ res, responded cfg ext lib none e'.env e'.texts e'.req (afterExchanges cfg ext lib none [e] fs) = .ok res ∧ res.status = 200) ∧
      stored cfg (afterExchanges cfg ext lib none [e, e'] fs) b!"aaa" b!"y" = some b!"one" := by
  obtain ⟨c, hc, hb⟩ := Sample.admit_of (r := Sample.completeReq) (by decide +kernel)
  refine ⟨Sample.cfg, Sample.ext, Sample.lib, Sample.exchange Sample.partReq, Sample.exchange Sample.completeReq, c, Sample.completeDoc, _, _, Sample.fs,
    Sample.lib_xml, Sample.asks_part, hc, by rw [hb]; exact ⟨show none ∉ _ by decide +kernel, by decide +kernel⟩, Sample.complete_document,
    Sample.complete_request, Sample.asks_complete,
    Sample.response_is (f := fun r => r.status == 200 && r.headers == [(b!"etag", b!"\"md5:3\"")]) (by decide +kernel) fun r h => ?_,
    Sample.response_is (f := fun r => r.status == 200) (by decide +kernel) fun _ h => by simpa using h, by decide +kernel⟩
  simp only [Bool.and_eq_true, beq_iff_eq] at h
  exact ⟨h.1, b!"\"md5:3\"", fun v => by rw [h.2]; simp, by decide⟩

/-- **C93** (negation) Without any CreateMultipartUpload before, a part is accepted for an upload of the object `aaa/x`; the upload is then completed
for another object. -/
theorem C93_upload_id_fails :
    ∃ (cfg : Cfg) (ext : Ext) (lib : Lib) (e e' : Exchange) (fs : FS),
      Asks lib none e (.uploadPart b!"id1" 1 (some [some b!"one"])) ∧ At e.req (.object b!"aaa" b!"x") ∧
      Asks lib none e' (.completeMultipartUpload b!"aaa" b!"y" b!"id1" (some [some 1])) ∧ At e'.req (.object b!"aaa" b!"y") ∧
      (∃ res, responded cfg ext lib none e.env e.texts e.req fs = .ok res ∧ res.status = 200) ∧
      (∃ res, responded cfg ext lib none e'.env e'.texts e'.req (afterExchanges cfg ext lib none [e] fs) = .ok res ∧ res.status = 200) ∧
      stored cfg (afterExchanges cfg ext lib none [e, e'] fs) b!"aaa" b!"y" = some b!"one" :=
  ⟨Sample.cfg, Sample.ext, Sample.lib, Sample.exchange Sample.partReq, Sample.exchange Sample.completeReq, Sample.fs,
    Sample.asks_part, Sample.at_object rfl (by decide +kernel) (by decide +kernel) (by decide) (by decide), Sample.asks_complete, Sample.complete_at,
    Sample.response_is (f := fun r => r.status == 200) (by decide +kernel) fun _ h => by simpa using h,
    Sample.response_is (f := fun r => r.status == 200) (by decide +kernel) fun _ h => by simpa using h, by decide +kernel⟩

/-! #### locations -/

def Sample.locationDoc : Bytes :=
  b!"<CreateBucketConfiguration><LocationConstraint>eu-west-1</LocationConstraint></CreateBucketConfiguration>"

theorem Sample.location_document : Document (createRequest b!"eu-west-1") Sample.locationDoc := by
  refine ⟨[], Sample.locationDoc, .inl rfl, ?_, rfl⟩
  have h1 := Sample.writes (n := b!"LocationConstraint") (t := b!"eu-west-1") (by decide) (by decide +kernel) (by decide) Sample.writes_nil
  exact .node (w := []) (n := b!"CreateBucketConfiguration") (a := []) (by simp [White]) (by decide) (.inl rfl) h1 Sample.writes_nil

def Sample.createReq : Req := Sample.plain b!"PUT" b!"/ccc" none [] [some Sample.locationDoc]
def Sample.locationReq : Req := Sample.plain b!"GET" b!"/ccc" (some b!"location") [] []

/-- **C92** (negation) A bucket is created with a location; GetBucketLocation then gives another one. (The hypotheses of C92 are met here.) -/
theorem C92_location_fails :
    ∃ (cfg : Cfg) (ext : Ext) (lib : Lib) (e e' : Exchange) (c : Ctx) (b s location : Bytes) (fs : FS), XmlLaw lib ∧ WF fs ∧ IsDir fs cfg.root ∧
      fs.lookup (bucketDir cfg b) = none ∧ admit lib none e.req = .ok c ∧ Text c.body s ∧ Document (createRequest location) s ∧ location ≠ [] ∧
      Asks lib none e (.createBucket b) ∧ Asks lib none e' (.getBucketLocation b) ∧
      (∃ res, responded cfg ext lib none e.env e.texts e.req fs = .ok res ∧ res.status = 200) ∧
      ∃ res es, responded cfg ext lib none e'.env e'.texts e'.req (afterExchanges cfg ext lib none [e] fs) = .ok res ∧ Shows res 200 es ∧
        textsAt [b!"LocationConstraint"] es = [[]] := by
  obtain ⟨c, hc, hb⟩ := Sample.admit_of (r := Sample.createReq) (by decide +kernel)
  obtain ⟨cg, hcg, _⟩ := Sample.admit_of (r := Sample.locationReq) (by decide +kernel)
  have ht : Text c.body Sample.locationDoc := by rw [hb]; exact ⟨show none ∉ _ by decide +kernel, by decide +kernel⟩
  have hat : At Sample.createReq (.bucket b!"ccc") := Sample.at_bucket rfl (by decide +kernel) (by decide +kernel)
  have hh : HeaderBool Sample.createReq b!"x-amz-bucket-object-lock-enabled" := ⟨none, Sample.no_header (by decide +kernel), .inl rfl⟩
  have hgo : Requests Sample.lib Sample.env Sample.locationReq cg.body (.getBucketLocation b!"ccc") :=
    .getBucketLocation rfl (Sample.at_bucket rfl (by decide +kernel) (by decide +kernel)) (Sample.selects_of (by decide +kernel))
  have hroot : IsDir Sample.fs Sample.cfg.root := by unfold IsDir; decide +kernel
  have hfree : Sample.fs.lookup (bucketDir Sample.cfg b!"ccc") = none := by decide +kernel
  obtain ⟨h1, h2⟩ := C92_location_partial (cfg := Sample.cfg) (ext := Sample.ext) (env := Sample.env) Sample.lib_xml hc hcg rfl hat
    (Sample.selects_none rfl) hh ht (.inr ⟨_, Sample.location_document⟩) hgo Sample.texts Sample.texts Sample.fs_wf hroot hfree
  refine ⟨Sample.cfg, Sample.ext, Sample.lib, Sample.exchange Sample.createReq, Sample.exchange Sample.locationReq, c, _, _, _, Sample.fs, Sample.lib_xml,
    Sample.fs_wf, hroot, hfree, hc, ht, Sample.location_document, by decide, ⟨c, hc, .createBucket rfl hat (Sample.selects_none rfl) ht
      (by rw [Lib.xmlCreateBucket, Sample.lib_xml.document _ _ Sample.location_document]; exact readCreateBucket_request _) hh⟩, ⟨cg, hcg, hgo⟩, h1, h2⟩

end S3
