import Verif.Spec.Client
import Verif.Props.History
import Verif.Props.Time
/-! C89: over HTTP the server is a map. -/
namespace S3
open Spec

variable {cfg : Cfg} {ext : Ext} {lib : Lib} {auth : Option Provider}

/-- a refused request changes nothing -/
theorem afterResponded_refused {e : Exchange} {err : S3ErrorCode} (h : handle cfg ext lib auth e.env e.req = .fail err) (fs : FS) :
    afterResponded cfg ext lib auth e.env e.texts e.req fs = fs := by
  obtain ⟨K, hK, hc⟩ := hyperCall_eq cfg ext lib auth e.env e.texts e.req
  rw [afterResponded, hc, (finish_run (fun a => (hK a).imp fun _ h => h.1) (errorResponse_ret e.texts) _ fs).1, h]
  rfl

/-- the tree after the exchanges is the tree after the operations -/
theorem afterExchanges_meaning {hist : List Exchange} {os : List Op} (h : Meaning cfg ext lib auth hist os) (fs : FS) :
    afterExchanges cfg ext lib auth hist fs = afterAll cfg ext os fs := by
  induction h generalizing fs with
  | nil => rfl
  | @asks e o hist os he _ ih =>
    obtain ⟨c, hc, ho⟩ := he
    simp only [afterExchanges, List.foldl_cons, afterAll] at ih ⊢
    rw [(responded_of (cfg := cfg) (ext := ext) hc ho e.texts fs).1]
    exact ih _
  | @refused e err hist os he _ ih =>
    simp only [afterExchanges, List.foldl_cons] at ih ⊢
    rw [afterResponded_refused he]
    exact ih _

/-- the metadata kept for addresses in `A` can be sent -/
def SendableStore (A : Bytes → Bytes → Prop) (s : Store) : Prop := ∀ b k, A b k → SendableMeta (s.md b k)

theorem sendable_step {A D : Bytes → Bytes → Prop} {s : Store} (h : SendableStore A s) {o : Op}
    (ho : (Known A D o ∧ Sends o) ∨ Unrelated A o) : SendableStore A (s.after o) := by
  intro b k hA
  rcases ho with ⟨hk, hs⟩ | hu
  · cases o with
    | putObject i =>
      simp only [Store.after]
      cases hm : i.metadata with
      | none => exact h b k hA
      | some m =>
        simp only [upd]
        split
        · rw [← hm]; exact hs
        · exact h b k hA
    | copyObject b' k' src =>
      obtain ⟨_, _, sb, sk, hsrc, hsA, _⟩ := hk
      simp only [Store.after, hsrc]
      cases s.obj sb sk with
      | none => exact h b k hA
      | some c =>
        simp only
        cases hm : s.md sb sk with
        | none => exact h b k hA
        | some m =>
          simp only [upd]
          split
          · rw [← hm]; exact h sb sk hsA
          · exact h b k hA
    | deleteObject b' k' => exact h b k hA
    | _ => exact h b k hA
  · rw [(after_other (hu b k hA) s).2]
    exact h b k hA

theorem sendable_all {A D : Bytes → Bytes → Prop} {s : Store} (h : SendableStore A s) {os : List Op}
    (ho : ∀ o ∈ os, (Known A D o ∧ Sends o) ∨ Unrelated A o) : SendableStore A (s.afterAll os) := by
  induction os generalizing s with
  | nil => exact h
  | cons o os ih => exact ih (sendable_step h (ho o (by simp))) fun o' ho' => ho o' (List.mem_cons_of_mem _ ho')

theorem not_meta {n : Bytes} {m : Option Meta} (hn : n.head? ≠ some 120) (v : Bytes) : (n, v) ∉ metaHeaders m := by
  simp only [metaHeaders, List.mem_map, not_exists, not_and]
  intro p _ hp
  have := congrArg Prod.fst hp
  simp only at this
  rw [← this] at hn
  exact hn rfl

theorem meta_headers {l : List (Bytes × Bytes)} {m : Option Meta} (hl : ∀ n v, (b!"x-amz-meta-" ++ n, v) ∉ l) (n v : Bytes) :
    (b!"x-amz-meta-" ++ n, v) ∈ l ++ metaHeaders m ↔ (n, v) ∈ m.getD [] := by
  rw [List.mem_append, metaHeaders, List.mem_map]
  constructor
  · rintro (h | ⟨p, hp, e⟩)
    · exact absurd h (hl n v)
    · have h1 : p.1 = n := List.append_cancel_left (congrArg Prod.fst e)
      have h2 : p.2 = v := congrArg Prod.snd e
      subst h1 h2
      exact hp
  · intro h
    exact .inr ⟨(n, v), h, rfl⟩

/-- the response to an error of an operation -/
theorem reports {e : Exchange} (hm : CleanMessage e.texts) {c : Ctx} (hc : admit lib auth e.req = .ok c) {o : Op}
    (ho : Requests lib e.env e.req c.body o) {fs : FS} {code : S3ErrorCode} (ha : answer cfg ext o fs = .err code) :
    ∃ res, responded cfg ext lib auth e.env e.texts e.req fs = .ok res ∧ Reports res code.httpStatus code.asStr := by
  obtain ⟨res, es, h1, h2, h3, _⟩ := C72_error_document cfg ext lib auth e.env e.texts hm e.req fs
    ((C55_operation cfg ext lib auth e.env hc ho fs).2.1 code ha)
  exact ⟨res, h1, es, h2, h3⟩

/-- one request: what the client sees -/
theorem client_sees (hmd5 : ∀ s, CleanText (quoted (ext.md5hex s))) {A D : Bytes → Bytes → Prop} (hA : PrefixFree A) {s : Store} {fs : FS}
    (h : Represents cfg ext A D s fs) (hsend : SendableStore A s) {e : Exchange} {o : Op} (he : Asks lib auth e o) (ho : Known A D o)
    (hm : CleanMessage e.texts) :
    ∃ res, responded cfg ext lib auth e.env e.texts e.req fs = .ok res ∧ Sees ext s res o := by
  obtain ⟨c, hc, hr⟩ := he
  have ha := known_answer hA h ho
  obtain ⟨_, _, h3⟩ := responded_of (cfg := cfg) (ext := ext) hc hr e.texts fs
  cases o with
  | putObject i =>
    obtain ⟨_, ⟨body, hb, _, _⟩, _⟩ := ho
    simp only [Store.answer, hb, Option.map_some, Option.some.injEq] at ha
    refine ⟨_, h3 _ ha.symm none rfl (by simp) _ (by simp only [makeResponse, Op.handler, answerHeaders, document]; rfl), body, hb, rfl, ?_⟩
    intro v
    simp [optHeader, metaHeaders]
  | getObject b k rg wants =>
    obtain ⟨hAb, rfl⟩ := ho
    simp only [Store.answer] at ha
    simp only [Sees]
    cases hobj : s.obj b k with
    | none =>
      simp only [hobj, Option.some.injEq] at ha
      exact reports hm hc hr ha.symm
    | some content =>
      simp only [hobj, Option.some.injEq] at ha
      obtain ⟨t, _, hh⟩ := get_headers e.texts c content.length (s.md b k) (quoted (ext.md5hex content)) (some content)
      refine ⟨_, h3 _ ha.symm (s.md b k) rfl (hsend b k hAb) _ (by
        simp only [makeResponse, Op.handler, hh, document, Answer.content]; rfl), rfl, rfl, ?_, ?_, ?_⟩
      · intro v
        exact header_iff (not_meta (by decide)) (fun v => by simp)
      · refine ⟨_, natDigits_spec _, fun v => ?_⟩
        exact header_iff (not_meta (by decide)) (fun v => by simp)
      · intro n v
        exact meta_headers (by simp) n v
  | headObject b k =>
    simp only [Store.answer] at ha
    simp only [Sees]
    cases hobj : s.obj b k with
    | none =>
      simp only [hobj, Option.some.injEq] at ha
      exact reports hm hc hr ha.symm
    | some content =>
      simp only [hobj, Option.some.injEq] at ha
      obtain ⟨t, _, hh⟩ := head_headers e.texts c content.length (s.md b k)
      refine ⟨_, h3 _ ha.symm (s.md b k) rfl (hsend b k ho) _ (by
        simp only [makeResponse, Op.handler, hh, document, Answer.content]; rfl), rfl, rfl, ?_, ?_⟩
      · refine ⟨_, natDigits_spec _, fun v => ?_⟩
        exact header_iff (not_meta (by decide)) (fun v => by simp)
      · intro n v
        exact meta_headers (by simp) n v
  | deleteObject b k =>
    simp only [Store.answer] at ha
    simp only [Sees]
    cases hobj : s.obj b k with
    | none =>
      simp only [hobj, Option.some.injEq] at ha
      exact reports hm hc hr ha.symm
    | some content =>
      simp only [hobj, Option.some.injEq] at ha
      exact ⟨_, h3 _ ha.symm none rfl (by simp) _ (by simp only [makeResponse, Op.handler, answerHeaders, document]; rfl), rfl, rfl⟩
  | copyObject b k src =>
    obtain ⟨_, _, sb, sk, hsrc, hsA, _⟩ := ho
    simp only [Store.answer, hsrc] at ha
    obtain ⟨hs1, hsb, hs2⟩ := (C62_copy_source _ sb sk).mp hsrc
    have hcs : c.copySource = some (sb, sk) := by
      have R := ready_of_admit hc
      cases hr with
      | @copyObject _ _ sb' sk' _ hat _ hv l1 l2 l3 l4 => simp only [Ctx.copySource, R.headerValue hv, hsrc]
    cases hobj : s.obj sb sk with
    | none =>
      simp only [hobj, Option.some.injEq] at ha
      obtain ⟨res, r1, r2⟩ := reports hm hc hr ha.symm
      exact ⟨res, r1, sb, sk, hs1, hsb, by rw [hobj]; exact r2⟩
    | some content =>
      simp only [hobj, Option.some.injEq] at ha
      obtain ⟨doc, d1, d2⟩ := ((Part.element (gt := e.texts.gt) (n := b!"ETag") (by decide) (hmd5 content)).append
        (Part.element (n := b!"LastModified") (by decide) (clean_timeText e.texts (e.texts.modified sb sk)))).rooted
          (n := b!"CopyObjectResult") (by decide)
      obtain ⟨res, r1, r2⟩ := makeResponse_doc (x := e.texts) (c := c) (h := .copyObject)
        (rep := ⟨200, [], .etag (some (quoted (ext.md5hex content)))⟩) (by simp only [document, hcs]; rfl) d1 d2
      exact ⟨res, h3 _ ha.symm none rfl (by simp) res r1, sb, sk, hs1, hsb, by rw [hobj]; exact ⟨_, r2, rfl⟩⟩
  | _ => exact ho.elim

/-- **C89** (partial) A client sends requests one after the other, mixed with requests that are refused and with requests about other
addresses. Every response about an address in `A` is the one of a map from addresses to contents and metadata that has made the same
changes: status, content, ETag, length, metadata, and error documents. Missing: copies of an object onto itself and copies into folders that
do not exist, for which it is false (`C89_client_fails`, `C14_copy_into_new_folder_fails`); keys that are folders of one another or have dot
components; ranges (C08); metadata that cannot be sent in headers (C64). The map is that of `Spec/Store`: deleting what does not exist is an
error, and metadata outlive their object (C17, C19). -/
theorem C89_client_partial (hl : MetaLaw ext) (hmd5 : ∀ s, CleanText (quoted (ext.md5hex s))) {A D : Bytes → Bytes → Prop} (hA : PrefixFree A)
    {s : Store} {fs : FS} (h : Represents cfg ext A D s fs) (hs : ∀ b k, A b k → SendableMeta (s.md b k)) {hist : List Exchange} {os : List Op}
    (hist_os : Meaning cfg ext lib auth hist os) (hos : ∀ o ∈ os, (Known A D o ∧ Sends o) ∨ Unrelated A o) {e : Exchange} {o : Op}
    (he : Asks lib auth e o) (ho : Known A D o) (hm : CleanMessage e.texts) :
    ∃ res, responded cfg ext lib auth e.env e.texts e.req (afterExchanges cfg ext lib auth hist fs) = .ok res ∧
      Sees ext (s.afterAll os) res o := by
  rw [afterExchanges_meaning hist_os]
  exact client_sees hmd5 hA (C14_map_refinement_partial hl hA h os fun o ho => (hos o ho).imp (·.1) id).1 (sendable_all hs hos) he ho hm

/-- **C89** (partial) The same for a server that starts with a storage directory without files: the map starts empty. -/
theorem C89_from_empty_partial (hl : MetaLaw ext) (hmd5 : ∀ s, CleanText (quoted (ext.md5hex s))) {A D : Bytes → Bytes → Prop}
    (hA : PrefixFree A) {fs : FS} (hw : WF fs) (hroot : IsDir fs cfg.root) (hfiles : ∀ q, cfg.root <+: q → contentAt fs q = none)
    (hnames : ∀ b k cs, A b k → PlainKey k cs → ∀ c ∈ b :: metadataName b k :: cs, nameOk c = true)
    (hfree : ∀ b k cs, A b k → PlainKey k cs → ¬ IsDir fs (cfg.root ++ b :: cs) ∧ ¬ IsDir fs (cfg.root ++ [metadataName b k]))
    (hD : ∀ b k cs, A b k → PlainKey k cs → D b k → IsDir fs (cfg.root ++ b :: cs).dropLast) {hist : List Exchange} {os : List Op}
    (hist_os : Meaning cfg ext lib auth hist os) (hos : ∀ o ∈ os, (Known A D o ∧ Sends o) ∨ Unrelated A o) {e : Exchange} {o : Op}
    (he : Asks lib auth e o) (ho : Known A D o) (hm : CleanMessage e.texts) :
    ∃ res, responded cfg ext lib auth e.env e.texts e.req (afterExchanges cfg ext lib auth hist fs) = .ok res ∧
      Sees ext (Store.afterAll ⟨fun _ _ => none, fun _ _ => none⟩ os) res o :=
  C89_client_partial hl hmd5 hA (represents_fresh hw hroot hfiles hnames hfree hD) (fun _ _ _ l hl => nomatch hl) hist_os hos he ho hm

/-- **C89** Requests for operations the server has, which give no header and no parameter twice, always have a meaning: each is refused at once or
asks for an operation. -/
theorem C89_meaning (hist : List Exchange) (hn : ∀ e ∈ hist, NoRepeats e.req ∧ Supported lib e.req) :
    ∃ os, Meaning cfg ext lib auth hist os := by
  induction hist with
  | nil => exact ⟨[], .nil⟩
  | cons e hist ih =>
    obtain ⟨os, h⟩ := ih fun e' he' => hn e' (List.mem_cons_of_mem _ he')
    cases hc : admit lib auth e.req with
    | error err => exact ⟨os, .refused (err := err) (by simp only [handle, hc]; rfl) h⟩
    | ok c =>
      rcases C55_operation_partial cfg ext lib auth e.env hc (hn e (by simp)).1 (hn e (by simp)).2 with ⟨err, he⟩ | ⟨o, _, ho, _⟩
      · exact ⟨os, .refused he h⟩
      · exact ⟨o :: os, .asks ⟨c, hc, ho⟩ h⟩

def Sample.exchange (r : Req) : Exchange := ⟨Sample.env, Sample.texts, r⟩

theorem Sample.asks {r : Req} {o : Op} (h : (match admit Sample.lib none r with | .ok c => c.body == r.body | .error _ => false) = true)
    (ho : Requests Sample.lib Sample.env r r.body o) : Asks Sample.lib none (Sample.exchange r) o := by
  obtain ⟨c, hc, hb⟩ := Sample.admit_of h
  exact ⟨c, hc, by rw [hb]; exact ho⟩

theorem Sample.refused {r : Req} {err : S3ErrorCode} (h : (match admit Sample.lib none r with | .ok _ => false | .error e => e == err) = true) :
    handle Sample.cfg Sample.ext Sample.lib none (Sample.exchange r).env (Sample.exchange r).req = .fail err := by
  cases hc : admit Sample.lib none r with
  | error e =>
    rw [hc] at h
    simp only [beq_iff_eq] at h
    simp only [handle, Sample.exchange, hc, h]
    rfl
  | ok c => rw [hc] at h; cases h

theorem Sample.response_is {o : Outcome Response} {f : Response → Bool} {P : Response → Prop}
    (h : (match o with | .ok r => f r | _ => false) = true) (hP : ∀ r, f r = true → P r) : ∃ res, o = .ok res ∧ P res := by
  cases o with
  | ok r => exact ⟨r, rfl, hP r h⟩
  | _ => cases h

/-- PUT of `aaa/x` with metadata, copy to `aaa/z`, DELETE of `aaa/x`, a request without a legal bucket, GET of `aaa/z` -/
def Sample.exchanges : List Req :=
  [Sample.plain b!"PUT" b!"/aaa/x" none [(b!"x-amz-meta-a", b!"1")] [some b!"new"],
   Sample.plain b!"PUT" b!"/aaa/z" none [(b!"x-amz-copy-source", b!"aaa/x")] [],
   Sample.plain b!"DELETE" b!"/aaa/x" none [] [],
   Sample.plain b!"GET" b!"/A" none [] []]

def Sample.asked : List Op :=
  [.putObject ⟨b!"aaa", b!"x", some [some b!"new"], none, some [(b!"a", b!"1")], none⟩, .copyObject b!"aaa" b!"z" b!"aaa/x",
   .deleteObject b!"aaa" b!"x"]

/-- the hypotheses of C89 are met; the client reads the copy with its metadata -/
example : MetaLaw Sample.ext ∧ PrefixFree Sample.addr ∧
    Represents Sample.cfg Sample.ext Sample.addr (fun b _ => b = b!"aaa") Sample.store Sample.fs ∧
    (∀ b k, Sample.addr b k → SendableMeta (Sample.store.md b k)) ∧
    Meaning Sample.cfg Sample.ext Sample.lib none (Sample.exchanges.map Sample.exchange) Sample.asked ∧
    (∀ o ∈ Sample.asked, (Known Sample.addr (fun b _ => b = b!"aaa") o ∧ Sends o) ∨ Unrelated Sample.addr o) ∧
    Asks Sample.lib none (Sample.exchange (Sample.plain b!"GET" b!"/aaa/z" none [] [])) (.getObject b!"aaa" b!"z" none Sample.env.wants) ∧
    Known Sample.addr (fun b _ => b = b!"aaa") (.getObject b!"aaa" b!"z" none Sample.env.wants) ∧
    Sample.headerOf (responded Sample.cfg Sample.ext Sample.lib none Sample.env Sample.texts (Sample.plain b!"GET" b!"/aaa/z" none [] [])
      (afterExchanges Sample.cfg Sample.ext Sample.lib none (Sample.exchanges.map Sample.exchange) Sample.fs)) b!"x-amz-meta-a" = some b!"1" := by
  refine ⟨Sample.ext_roundtrip, Sample.prefixFree, Sample.represents, (fun _ _ _ l hl => nomatch hl), ?_, ?_, ?_, ?_, by decide +kernel⟩
  · refine .asks (Sample.asks (by decide +kernel) (.putObject rfl
        (Sample.at_object rfl (by decide +kernel) (by decide +kernel) (by decide) (by decide)) (Sample.selects_none rfl)
        (Sample.no_header (by decide +kernel)) ⟨none, Sample.no_header (by decide +kernel), trivial⟩ ?_ (Sample.no_header (by decide +kernel)))) ?_
    · refine ⟨by decide, by decide, fun n v => ?_⟩
      simp only [headerMeta, Sample.plain, List.mem_cons, List.not_mem_nil, or_false, Prod.mk.injEq]
      constructor
      · rintro ⟨rfl, rfl⟩
        exact ⟨by decide, by decide, rfl⟩
      · rintro ⟨_, h, rfl⟩
        exact ⟨List.append_cancel_left (as := b!"x-amz-meta-") (bs := n) (cs := b!"a") h, rfl⟩
    refine .asks (Sample.asks (by decide +kernel) (.copyObject (sb := b!"aaa") (sk := b!"x") rfl
        (Sample.at_object rfl (by decide +kernel) (by decide +kernel) (by decide) (by decide))
        (Sample.selects_none rfl) (Sample.value_header (by decide +kernel)) (Sample.legal (by decide +kernel)) (by decide) (by decide) (by decide))) ?_
    refine .asks (Sample.asks (by decide +kernel) (.deleteObject rfl
        (Sample.at_object rfl (by decide +kernel) (by decide +kernel) (by decide) (by decide)) (Sample.selects_none rfl)
        ⟨none, Sample.no_header (by decide +kernel), .inl rfl⟩)) ?_
    exact .refused (Sample.refused (err := .InvalidBucketName) (by decide +kernel)) .nil
  · intro o ho
    simp only [Sample.asked, List.mem_cons, List.not_mem_nil, or_false] at ho
    rcases ho with rfl | rfl | rfl
    · refine .inl ⟨⟨by simp [Sample.addr], ⟨_, rfl, by unfold unbroken; decide +kernel, by decide +kernel⟩, .inl rfl, ?_⟩, ?_⟩
      · intro m hm
        cases hm
        exact ⟨by decide, by decide +kernel⟩
      · intro l hl
        cases hl
        unfold Sendable
        decide +kernel
    · exact .inl ⟨⟨by simp [Sample.addr], rfl, b!"aaa", b!"x", by decide +kernel, by simp [Sample.addr], by decide⟩, trivial⟩
    · exact .inl ⟨(show Sample.addr _ _ by simp [Sample.addr]), trivial⟩
  · exact Sample.asks (by decide +kernel) (.getObject rfl (Sample.at_object rfl (by decide +kernel) (by decide +kernel) (by decide) (by decide))
      (Sample.selects_none rfl) (Sample.no_header (by decide +kernel)))
  · exact ⟨by simp [Sample.addr], rfl⟩

/-- **C89** (negation) A copy of an object onto itself is answered 200, and the GET that follows finds nothing in it. -/
theorem C89_client_fails :
    ∃ (cfg : Cfg) (ext : Ext) (lib : Lib) (A D : Bytes → Bytes → Prop) (s : Store) (fs : FS) (e e' : Exchange) (src : Bytes),
      MetaLaw ext ∧ PrefixFree A ∧ Represents cfg ext A D s fs ∧ Asks lib none e (.copyObject b!"aaa" b!"x" src) ∧
      About A (.copyObject b!"aaa" b!"x" src) ∧ Asks lib none e' (.getObject b!"aaa" b!"x" none e'.env.wants) ∧
      (s.after (.copyObject b!"aaa" b!"x" src)).obj b!"aaa" b!"x" = some b!"hello" ∧
      (∃ res, responded cfg ext lib none e.env e.texts e.req fs = .ok res ∧ res.status = 200) ∧
      ∃ res, responded cfg ext lib none e'.env e'.texts e'.req (afterExchanges cfg ext lib none [e] fs) = .ok res ∧ res.status = 200 ∧
        res.body = some [] := by
  refine ⟨Sample.cfg, Sample.ext, Sample.lib, Sample.addr, _, Sample.store, Sample.fs,
    Sample.exchange (Sample.plain b!"PUT" b!"/aaa/x" none [(b!"x-amz-copy-source", b!"aaa/x")] []),
    Sample.exchange (Sample.plain b!"GET" b!"/aaa/x" none [] []), b!"aaa/x", Sample.ext_roundtrip, Sample.prefixFree, Sample.represents, ?_, ?_, ?_,
    by decide +kernel, Sample.response_is (f := fun r => r.status == 200) (by decide +kernel) fun _ h => by simpa using h,
    Sample.response_is (f := fun r => r.status == 200 && r.body == some []) (by decide +kernel) fun _ h => by simpa using h⟩
  · exact Sample.asks (by decide +kernel) (.copyObject (sb := b!"aaa") (sk := b!"x") rfl
      (Sample.at_object rfl (by decide +kernel) (by decide +kernel) (by decide) (by decide))
      (Sample.selects_none rfl) (Sample.value_header (by decide +kernel)) (Sample.legal (by decide +kernel)) (by decide) (by decide) (by decide))
  · exact ⟨by simp [Sample.addr], b!"aaa", b!"x", by decide +kernel, by simp [Sample.addr]⟩
  · exact Sample.asks (by decide +kernel) (.getObject rfl (Sample.at_object rfl (by decide +kernel) (by decide +kernel) (by decide) (by decide))
      (Sample.selects_none rfl) (Sample.no_header (by decide +kernel)))

end S3
