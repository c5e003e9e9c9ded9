import Verif.Spec.MachineClient
import Verif.Props.Machine
import Verif.Props.XmlBody
/-! C132: over HTTP the server is the abstract machine. -/
namespace S3
open Spec

variable {cfg : Cfg} {ext : Ext} {lib : Lib} {auth : Option Provider} {A : Bytes → Bytes → Prop} {place : Bytes → Bytes → List Bytes}
  {s : Machine} {fs : FS}

theorem records_step (h : SendableRecords A s) {o : Op} (ho : (Served A o ∧ Sends o) ∨ Watching o) :
    SendableRecords A (s.after place o) := by
  rcases ho with ⟨ho, hs⟩ | ho
  · cases o with
    | putObject i =>
      intro b k m hA hr
      simp only [Machine.after] at hr
      cases hb : i.body with
      | none => simp only [hb] at hr; exact h b k m hA hr
      | some body =>
        simp only [hb] at hr
        by_cases hk : classKnown i = false
        · rw [if_pos hk] at hr; exact h b k m hA hr
        · rw [if_neg hk] at hr
          cases hm : i.metadata with
          | none => simp only [hm] at hr; exact h b k m hA hr
          | some m' =>
            simp only [hm] at hr
            by_cases hn : none ∈ body
            · rw [if_pos hn] at hr; exact h b k m hA hr
            · rw [if_neg hn] at hr
              simp only [upd] at hr
              split at hr
              · cases hr
                rw [← hm]; exact hs
              · exact h b k m hA hr
    | copyObject b' k' src =>
      obtain ⟨_, sb, sk, hsrc, has⟩ := ho
      intro b k m hA hr
      simp only [Machine.after, hsrc] at hr
      cases hs' : s.bytes (place sb sk) with
      | none => simp only [hs'] at hr; exact h b k m hA hr
      | some c =>
        simp only [hs'] at hr
        by_cases hf : s.folder (place b' k').dropLast = true
        · rw [if_pos hf] at hr
          cases hrec : s.record sb sk with
          | absent => simp only [hrec] at hr; exact h b k m hA hr
          | unreadable =>
            simp only [hrec, upd, ite_self] at hr
            split at hr
            · cases hr
            · exact h b k m hA hr
          | is m' =>
            simp only [hrec, upd] at hr
            split at hr
            · split at hr
              · cases hr
              · cases hr; exact h sb sk m has hrec
            · exact h b k m hA hr
        · rw [if_neg hf] at hr; exact h b k m hA hr
    | uploadPart u n body => cases body <;> exact fun b k m hA hr => h b k m hA hr
    | completeMultipartUpload b' k' u l =>
      cases l with
      | none => exact fun b k m hA hr => h b k m hA hr
      | some l =>
        intro b k m hA hr
        simp only [Machine.after] at hr
        split at hr
        · exact h b k m hA hr
        · exact h b k m hA hr
    | _ => exact fun b k m hA hr => h b k m hA hr
  · have : s.after place o = s := by cases o <;> first | rfl | exact ho.elim
    rw [this]; exact h

theorem records_all (h : SendableRecords A s) {os : List Op} (ho : ∀ o ∈ os, (Served A o ∧ Sends o) ∨ Watching o) :
    SendableRecords A (s.afterAll place os) := by
  induction os generalizing s with
  | nil => exact h
  | cons o os ih => exact ih (records_step h (ho o (by simp))) fun o' ho' => ho o' (List.mem_cons_of_mem _ ho')

theorem found_sendable (h : SendableRecords A s) {b k : Bytes} (ha : A b k) {m : Option Meta} (hm : (s.record b k).found = some m) :
    SendableMeta m := by
  cases hr : s.record b k with
  | absent => rw [hr] at hm; cases hm; exact fun l hl => nomatch hl
  | unreadable => rw [hr] at hm; cases hm
  | is m' => rw [hr] at hm; cases hm; exact h b k m' ha hr

/-- the request is answered with the metadata of `(b, k)` -/
def Spec.Shown : Op → Bytes → Bytes → Prop
  | .getObject b' k' _ _, b, k => (b, k) = (b', k')
  | .headObject b' k', b, k => (b, k) = (b', k')
  | _, _, _ => False

theorem shown_served {o : Op} (ho : Served A o) {b k : Bytes} (h : Shown o b k) : A b k := by
  cases o <;> simp only [Shown] at h <;> first | exact h.elim | (cases h; exact ho)

/-- one request: the response shows the answer of the machine -/
theorem machine_renders (he0 : ext.metaDec [] = none) (hmd5 : ∀ s, CleanText (quoted (ext.md5hex s))) (hS : Spelled cfg.root A place)
    (h : Embodies cfg ext A place s fs) {e : Exchange} {o : Op} (hsend : SendableRecords (Shown o) s) (he : Asks lib auth e o) (ho : Served A o)
    (hdoc : Documented e.req o) (hm : CleanMessage e.texts) :
    ∃ res a, responded cfg ext lib auth e.env e.texts e.req fs = .ok res ∧ s.answer ext place o = some a ∧ Renders res o a := by
  obtain ⟨c, hc, hr⟩ := he
  have R := ready_of_admit hc
  have ha := C131_answer hS he0 h ho
  have err : ∀ code, s.answer ext place o = some (.err code) →
      ∃ res a, responded cfg ext lib auth e.env e.texts e.req fs = .ok res ∧ s.answer ext place o = some a ∧ Renders res o a := by
    intro code hcode
    rw [hcode, Option.some.injEq] at ha
    obtain ⟨res, r1, r2⟩ := reports (cfg := cfg) (ext := ext) hm hc hr ha.symm
    exact ⟨res, _, r1, hcode, by unfold Renders; exact r2⟩
  have ok : ∀ a, s.answer ext place o = some (.ok a) → ∀ m : Option Meta, a.meta = m.getD [] → SendableMeta m → ∀ res,
      makeResponse e.texts c o.handler ⟨successStatus o, metaHeaders m, a⟩ = .ret res → Renders res o (.ok a) →
      ∃ res a, responded cfg ext lib auth e.env e.texts e.req fs = .ok res ∧ s.answer ext place o = some a ∧ Renders res o a := by
    intro a hok m h1 h2 res h3 h4
    rw [hok, Option.some.injEq] at ha
    exact ⟨res, _, (responded_of (cfg := cfg) (ext := ext) hc hr e.texts fs).2.2 a ha.symm m h1 h2 res h3, hok, h4⟩
  have noMeta : SendableMeta none := fun l hl => nomatch hl
  have docs : ∀ a, s.answer ext place o = some (.ok a) → a.meta = [] → ∀ evs, document e.texts c o.handler a = some evs → ∀ doc es,
      xmlDocument e.texts.gt evs = some doc → readXml doc = some es → (∀ res, Shows res (successStatus o) es → Renders res o (.ok a)) →
      ∃ res a, responded cfg ext lib auth e.env e.texts e.req fs = .ok res ∧ s.answer ext place o = some a ∧ Renders res o a := by
    intro a hok hmeta evs h1 doc es h2 h3 h4
    obtain ⟨res, r1, r2⟩ := makeResponse_doc (x := e.texts) (c := c) (h := o.handler) (rep := ⟨successStatus o, metaHeaders none, a⟩) h1 h2 h3
    exact ok a hok none (by rw [hmeta]; rfl) noMeta res r1 (h4 res r2)
  cases o with
  | putObject i =>
    cases hk : classKnown i with
    | false => exact err .InvalidStorageClass (by simp only [Machine.answer, hk]; rfl)
    | true =>
      cases hb : i.body with
      | none => exact err .IncompleteBody (by simp only [Machine.answer, hk, hb]; rfl)
      | some body =>
        by_cases hn : none ∈ body
        · exact err .InternalError (by simp only [Machine.answer, hk, hb, if_pos hn]; rfl)
        · refine ok (.etag (some (quoted (ext.md5hex (received body))))) (by simp only [Machine.answer, hk, hb, if_neg hn]; rfl) none rfl noMeta
            _ (by simp only [makeResponse, Op.handler, answerHeaders, document]; rfl) ⟨rfl, fun v => ?_⟩
          simp [optHeader, metaHeaders]
  | uploadPart u n body =>
    cases body with
    | none => exact err .IncompleteBody rfl
    | some body =>
      by_cases hn : none ∈ body
      · exact err .InternalError (by simp only [Machine.answer]; rw [if_pos hn])
      · refine ok (.etag (some (quoted (ext.md5hex (received body))))) (by simp only [Machine.answer]; rw [if_neg hn]) none rfl noMeta
          _ (by simp only [makeResponse, Op.handler, answerHeaders, document]; rfl) ⟨rfl, fun v => ?_⟩
        simp [optHeader, metaHeaders]
  | getObject b k rg wants =>
    cases hx : askedRange rg with
    | none => exact err .InvalidRequest (by simp only [Machine.answer, hx])
    | some x =>
      cases hs : s.bytes (place b k) with
      | none => exact err .NoSuchKey (by simp only [Machine.answer, hx, hs])
      | some content =>
        cases hsl : slice content.length x with
        | none => exact err .InvalidRange (by simp only [Machine.answer, hx, hs, hsl])
        | some ol =>
          obtain ⟨start, len⟩ := ol
          cases hf : (s.record b k).found with
          | none => exact err .InternalError (by simp only [Machine.answer, hx, hs, hsl, hf])
          | some m =>
            by_cases hlen : len ≤ i64Max
            · obtain ⟨t, _, hh⟩ := get_headers e.texts c len m (quoted (ext.md5hex content)) (some ((content.drop start).take len))
              refine ok (.object len m (quoted (ext.md5hex content)) (some ((content.drop start).take len)))
                (by simp only [Machine.answer, hx, hs, hsl, hf]; rw [if_pos hlen]) m rfl (found_sendable hsend rfl hf) _ (by
                  simp only [makeResponse, Op.handler, hh, document, Answer.content]; rfl) ⟨rfl, rfl, ?_, ?_, ?_⟩
              · intro v
                exact header_iff (not_meta (by decide)) (fun v => by simp)
              · refine ⟨_, natDigits_spec _, fun v => ?_⟩
                exact header_iff (not_meta (by decide)) (fun v => by simp)
              · intro n v
                exact meta_headers (by simp) n v
            · exact err .InternalError (by simp only [Machine.answer, hx, hs, hsl, hf]; rw [if_neg hlen])
  | headObject b k =>
    cases hs : s.bytes (place b k) with
    | none => exact err .NoSuchKey (by simp only [Machine.answer, hs])
    | some content =>
      cases hf : (s.record b k).found with
      | none => exact err .InternalError (by simp only [Machine.answer, hs, hf])
      | some m =>
        by_cases hlen : content.length ≤ i64Max
        · obtain ⟨t, _, hh⟩ := head_headers e.texts c content.length m
          refine ok (.head content.length m) (by simp only [Machine.answer, hs, hf]; rw [if_pos hlen]) m rfl (found_sendable hsend rfl hf) _ (by
              simp only [makeResponse, Op.handler, hh, document, Answer.content]; rfl) ⟨rfl, rfl, ?_, ?_⟩
          · refine ⟨_, natDigits_spec _, fun v => ?_⟩
            exact header_iff (not_meta (by decide)) (fun v => by simp)
          · intro n v
            exact meta_headers (by simp) n v
        · exact err .InternalError (by simp only [Machine.answer, hs, hf]; rw [if_neg hlen])
  | deleteObject b k =>
    cases hs : s.bytes (place b k) with
    | none => exact err .InternalError (by simp only [Machine.answer, hs])
    | some content =>
      exact ok .done (by simp only [Machine.answer, hs]) none rfl noMeta _
        (by simp only [makeResponse, Op.handler, answerHeaders, document]; rfl) ⟨rfl, rfl⟩
  | deleteObjects b ks =>
    by_cases hd : (deleteEach place b s.bytes (holding place s.bytes b ks)).1 = true
    · let g : Bytes → List XmlEntry := fun k => [([b!"Deleted", b!"Key"], k), ([b!"Deleted"], [])]
      obtain ⟨out, part⟩ := Part.flatMap (gt := e.texts.gt) (f := fun k => stackEvents b!"Deleted" (elementEvents b!"Key" k)) (g := g)
        (holding place s.bytes b ks) fun k hk' =>
          (Part.element (n := b!"Key") (by decide) (hdoc k (List.mem_filter.mp hk').1)).stack (n := b!"Deleted") (by decide)
      obtain ⟨doc, d1, d2⟩ := part.rooted (n := b!"DeleteResult") (by decide)
      refine docs (.keys (holding place s.bytes b ks)) (by simp only [Machine.answer]; rw [if_pos hd]) rfl _ rfl doc _ d1 d2 fun res hres =>
        ⟨_, hres, ?_⟩
      rw [textsAt_append, textsAt_below, textsAt_flatMap (f := fun k => [k]) (fun k => rfl), flatMap_one]
      show _ ++ [] = _
      simp
    · exact err .InternalError (by simp only [Machine.answer]; rw [if_neg hd])
  | createMultipartUpload u =>
    have hp : ∃ b k, c.path = .object b k ∧ LegalBucket b ∧ CleanText k := by
      cases hr with
      | @createMultipartUpload b k _ hat _ _ =>
        refine ⟨b, k, R.object hat, ?_, hdoc.2 b k hat⟩
        obtain ⟨p, _, hp⟩ := hat
        cases hp; assumption
    obtain ⟨b, k, hp, hb, hk⟩ := hp
    obtain ⟨doc, d1, d2⟩ := (((Part.element (gt := e.texts.gt) (n := b!"Bucket") (by decide) (clean_bucket hb)).append
      (Part.element (n := b!"Key") (by decide) hk)).append (Part.element (n := b!"UploadId") (by decide) hdoc.1)).rooted
      (n := b!"InitialMultipartUploadResult") (by decide)
    exact docs (.uploadId u) rfl rfl _ (by simp only [document, Op.handler, Ctx.bucketName, Ctx.keyName, hp]) doc _ d1 d2 fun res hres =>
      ⟨_, b!"InitialMultipartUploadResult", hres, rfl⟩
  | completeMultipartUpload b k u l =>
    cases l with
    | none => exact err .InvalidPart rfl
    | some l =>
      cases hf : s.folder (place b k).dropLast with
      | false => exact err .InternalError (by simp only [Machine.answer, hf]; rfl)
      | true =>
        cases hr1 : assemble (s.parts u) 0 [] l with
        | mk r1 r23 =>
          obtain ⟨content, rest⟩ := r23
          cases r1 with
          | false => exact err .InternalError (by simp only [Machine.answer, hf, hr1]; rfl)
          | true =>
            have hp : c.path = .object b k ∧ LegalBucket b := by
              cases hr with
              | completeMultipartUpload _ hat _ _ _ _ _ =>
                refine ⟨R.object hat, ?_⟩
                obtain ⟨p, _, hp⟩ := hat
                cases hp; assumption
            obtain ⟨doc, d1, d2⟩ := (((Part.element (gt := e.texts.gt) (n := b!"Bucket") (by decide) (clean_bucket hp.2)).append
              (Part.element (n := b!"Key") (by decide) hdoc)).append (Part.element (n := b!"ETag") (by decide) (hmd5 content))).rooted
              (n := b!"CompleteMultipartUploadResult") (by decide)
            exact docs (.etag (some (quoted (ext.md5hex content)))) (by simp only [Machine.answer, hf, hr1]; rfl) rfl _
              (by simp only [document, Op.handler, Ctx.bucketName, Ctx.keyName, hp.1]; rfl) doc _ d1 d2 fun res hres => ⟨_, hres, rfl, rfl, rfl⟩
  | copyObject b k src =>
    obtain ⟨_, sb, sk, hsrc, _⟩ := ho
    have hcs : c.copySource = some (sb, sk) := by
      cases hr with
      | @copyObject _ _ sb' sk' _ hat _ hv l1 l2 l3 l4 => simp only [Ctx.copySource, R.headerValue hv, hsrc]
    cases hs : s.bytes (place sb sk) with
    | none => exact err .InternalError (by simp only [Machine.answer, hsrc, hs])
    | some content =>
      cases hf : s.folder (place b k).dropLast with
      | false => exact err .InternalError (by simp only [Machine.answer, hsrc, hs, hf]; rfl)
      | true =>
        obtain ⟨doc, d1, d2⟩ := ((Part.element (gt := e.texts.gt) (n := b!"ETag") (by decide) (hmd5 (copied (place b k) (place sb sk) content))).append
          (Part.element (n := b!"LastModified") (by decide) (clean_timeText e.texts (e.texts.modified sb sk)))).rooted
            (n := b!"CopyObjectResult") (by decide)
        exact docs (.etag (some (quoted (ext.md5hex (copied (place b k) (place sb sk) content)))))
          (by simp only [Machine.answer, hsrc, hs, hf]; rfl) rfl _
          (by simp only [document, Op.handler, hcs]; rfl) doc _ d1 d2 fun res hres => ⟨_, hres, rfl⟩
  | createBucket b =>
    cases hf : s.folder [b] with
    | true => exact err .BucketAlreadyExists (by simp only [Machine.answer, hf]; rfl)
    | false =>
      exact ok .done (by simp only [Machine.answer, hf]; rfl) none rfl noMeta _
        (by simp only [makeResponse, Op.handler, answerHeaders, document]; rfl) (show (_ : Nat) = 200 from rfl)
  | deleteBucket b =>
    cases hf : s.folder [b] with
    | false => exact err .InternalError (by simp only [Machine.answer, hf]; rfl)
    | true =>
      exact ok .done (by simp only [Machine.answer, hf]; rfl) none rfl noMeta _
        (by simp only [makeResponse, Op.handler, answerHeaders, document]; rfl) ⟨rfl, rfl⟩
  | headBucket b =>
    cases hf : s.folder [b] with
    | false => exact err .NoSuchBucket (by simp only [Machine.answer, hf]; rfl)
    | true =>
      exact ok .done (by simp only [Machine.answer, hf]; rfl) none rfl noMeta _
        (by simp only [makeResponse, Op.handler, answerHeaders, document]; rfl) (show (_ : Nat) = 200 from rfl)
  | getBucketLocation b =>
    cases hf : s.folder [b] with
    | false => exact err .NoSuchBucket (by simp only [Machine.answer, hf]; rfl)
    | true =>
      obtain ⟨doc, d1, d2⟩ : ∃ doc, xmlDocument e.texts.gt (elementEvents b!"LocationConstraint" []) = some doc ∧
          readXml doc = some [([b!"LocationConstraint"], [])] := by
        cases e.texts.gt <;> exact ⟨_, rfl, by decide +kernel⟩
      exact docs .done (by simp only [Machine.answer, hf]; rfl) rfl _ rfl doc _ d1 d2 fun res hres => ⟨_, hres, rfl⟩
  | _ => exact ho.elim

/-- **C132** A client sends HTTP requests one after the other: about the addresses in `A` in any spelling, about buckets,
about parts of uploads; requests that are refused and requests that only read come in between. Every response to a request
the machine knows shows exactly the answer of the machine that has made the same changes. -/
theorem C132_client (hl : MetaLaw ext) (he0 : ext.metaDec [] = none) (hmd5 : ∀ s, CleanText (quoted (ext.md5hex s)))
    (hS : Spelled cfg.root A place) (h : Embodies cfg ext A place s fs) (hs : SendableRecords A s) {hist : List Exchange} {os : List Op}
    (hist_os : Meaning cfg ext lib auth hist os) (hos : ∀ o ∈ os, (Served A o ∧ Sends o) ∨ Watching o) {e : Exchange} {o : Op}
    (he : Asks lib auth e o) (ho : Served A o) (hdoc : Documented e.req o) (hm : CleanMessage e.texts) :
    ∃ res a, responded cfg ext lib auth e.env e.texts e.req (afterExchanges cfg ext lib auth hist fs) = .ok res ∧
      (s.afterAll place os).answer ext place o = some a ∧ Renders res o a := by
  rw [afterExchanges_meaning hist_os]
  exact machine_renders he0 hmd5 hS (C131_machine hl he0 hS h os fun o ho => (hos o ho).imp (·.1) id).1
    (fun b k m hk => records_all hs hos b k m (shown_served ho hk)) he ho hdoc hm

/-- **C132** (from the start) The same for a server started on an empty directory, with the machine that starts empty. -/
theorem C132_from_empty (hl : MetaLaw ext) (he0 : ext.metaDec [] = none) (hmd5 : ∀ s, CleanText (quoted (ext.md5hex s)))
    (hS : Spelled cfg.root A place) (hw : WF fs) (hroot : IsDir fs cfg.root) (hempty : ∀ q, q ≠ [] → fs.lookup (cfg.root ++ q) = none)
    {hist : List Exchange} {os : List Op} (hist_os : Meaning cfg ext lib auth hist os)
    (hos : ∀ o ∈ os, (Served A o ∧ Sends o) ∨ Watching o) {e : Exchange} {o : Op}
    (he : Asks lib auth e o) (ho : Served A o) (hdoc : Documented e.req o) (hm : CleanMessage e.texts) :
    ∃ res a, responded cfg ext lib auth e.env e.texts e.req (afterExchanges cfg ext lib auth hist fs) = .ok res ∧
      (Machine.fresh.afterAll place os).answer ext place o = some a ∧ Renders res o a :=
  C132_client hl he0 hmd5 hS (embodies_fresh hS hw hroot hempty) (fun _ _ _ _ hr => nomatch hr) hist_os hos he ho hdoc hm

/-- the ETags of the server can be written in a document -/
theorem realExt_clean (order : Meta → Meta) (s : Bytes) : CleanText (quoted ((realExt order).md5hex s)) := by
  have hex : ∀ b : UInt8, ((32 : UInt8) ≤ hexLower (b >>> 4) ∧ hexLower (b >>> 4) ≠ 62) ∧ (32 : UInt8) ≤ hexLower (b &&& 15) ∧ hexLower (b &&& 15) ≠ 62 := by
    apply forall_byte; decide +kernel
  refine clean_of fun c hc => ?_
  simp only [quoted, realExt, toHex, List.mem_append, List.mem_cons, List.not_mem_nil, or_false, List.mem_flatMap] at hc
  rcases hc with (rfl | ⟨b, _, rfl | rfl⟩) | rfl
  · decide
  · exact (hex b).1
  · exact (hex b).2
  · decide

/-! #### a sample -/

/-- an upload with metadata under `aaa/d/../x`, a part, a request without a legal bucket -/
def Sample.oddExchanges : List Req :=
  [Sample.plain b!"PUT" b!"/aaa/d/../x" none [(b!"x-amz-meta-a", b!"1")] [some b!"new"], Sample.partReq, Sample.plain b!"GET" b!"/A" none [] []]

def Sample.oddAsked : List Op :=
  [.putObject ⟨b!"aaa", b!"d/../x", some [some b!"new"], none, some [(b!"a", b!"1")], none⟩, .uploadPart b!"id1" 1 (some [some b!"one"])]

/-- the hypotheses of C132 are met. The object can be read under the other spelling of its key, there without metadata; the
machine says so, and the server does it. -/
example : (∀ s, CleanText (quoted ((realExt id).md5hex s))) ∧ Spelled Sample.cfg.root Sample.spellings Sample.placeOf ∧
    Meaning Sample.cfg (realExt id) Sample.lib none (Sample.oddExchanges.map Sample.exchange) Sample.oddAsked ∧
    (∀ o ∈ Sample.oddAsked, (Served Sample.spellings o ∧ Sends o) ∨ Watching o) ∧
    Asks Sample.lib none (Sample.exchange (Sample.plain b!"GET" b!"/aaa/x" none [(b!"range", b!"bytes=1-")] []))
      (.getObject b!"aaa" b!"x" (some b!"bytes=1-") Sample.env.wants) ∧
    Served Sample.spellings (.getObject b!"aaa" b!"x" (some b!"bytes=1-") Sample.env.wants) ∧ CleanMessage Sample.texts ∧
    (Machine.fresh.afterAll Sample.placeOf Sample.oddAsked).answer (realExt id) Sample.placeOf
        (.getObject b!"aaa" b!"x" (some b!"bytes=1-") Sample.env.wants)
      = some (.ok (.object 2 none (quoted ((realExt id).md5hex b!"new")) (some b!"ew"))) ∧
    (Machine.fresh.afterAll Sample.placeOf Sample.oddAsked).answer (realExt id) Sample.placeOf (.headObject b!"aaa" b!"d/../x")
      = some (.ok (.head 3 (some [(b!"a", b!"1")]))) := by
  refine ⟨realExt_clean id, Sample.spelled, ?_, ?_, ?_, (by decide : _ ∈ _), ?_, by decide +kernel, by decide +kernel⟩
  · refine .asks (Sample.asks (by decide +kernel) (.putObject rfl
        (Sample.at_object rfl (by decide +kernel) (by decide +kernel) (by decide) (by decide)) (Sample.selects_none rfl)
        (Sample.no_header (by decide +kernel)) ⟨none, Sample.no_header (by decide +kernel), trivial⟩ ?_ (Sample.no_header (by decide +kernel)))) ?_
    · refine ⟨by decide, by decide, fun n v => ?_⟩
      simp only [headerMeta, Sample.plain, List.mem_cons, List.not_mem_nil, or_false, Prod.mk.injEq]
      constructor
      · rintro ⟨rfl, rfl⟩
        exact ⟨by decide, by decide, rfl⟩
      · rintro ⟨_, h, rfl⟩
        exact ⟨List.append_cancel_left (as := b!"x-amz-meta-") (bs := n) (cs := b!"a") h, rfl⟩
    refine .asks Sample.asks_part (.refused (err := .InvalidBucketName) ?_ .nil)
    have h : (match admit Sample.lib none (Sample.plain b!"GET" b!"/A" none [] []) with | .ok _ => false | .error e => e == .InvalidBucketName) = true := by
      decide +kernel
    cases hc : admit Sample.lib none (Sample.plain b!"GET" b!"/A" none [] []) with
    | error e =>
      rw [hc] at h
      simp only [beq_iff_eq] at h
      simp only [handle, Sample.exchange, hc, h]
      rfl
    | ok c => rw [hc] at h; cases h
  · intro o ho
    simp only [Sample.oddAsked, List.mem_cons, List.not_mem_nil, or_false] at ho
    rcases ho with rfl | rfl
    · refine .inl ⟨⟨(by decide : _ ∈ _), ?_⟩, ?_⟩
      · intro m hm
        cases hm
        exact ⟨by decide, by decide +kernel⟩
      · intro l hl
        cases hl
        unfold Sendable
        decide +kernel
    · exact .inl ⟨⟨by decide, by decide +kernel⟩, trivial⟩
  · exact Sample.asks (by decide +kernel) (.getObject rfl (Sample.at_object rfl (by decide +kernel) (by decide +kernel) (by decide) (by decide))
      (Sample.selects_none rfl) (Sample.value_header (by decide +kernel)))
  · intro m hm
    cases hm
    exact clean_all (by decide +kernel)

end S3
