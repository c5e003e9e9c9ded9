import Verif.Lemmas.Response
import Verif.Props.Dispatch
import Verif.Props.Listing
import Verif.Props.Etag
import Verif.Props.Concurrent
import Verif.Props.Signature
/-! C71 to C76: what clients read in the responses. -/
namespace S3
open Spec

variable (cfg : Cfg) (ext : Ext) (lib : Lib) (auth : Option Provider) (env : Env)

/-! ### clean texts -/

theorem clean_of {s : Bytes} (h : ∀ c ∈ s, 32 ≤ c ∧ c ≠ 62) : CleanText s where
  chars c hc := .inl (h c hc).1
  cdata := by
    rintro ⟨a, b, rfl⟩
    exact (h 62 (by simp)).2 rfl

theorem clean_all {s : Bytes} (h : (s.all fun c => decide (32 ≤ c ∧ c ≠ 62)) = true) : CleanText s :=
  clean_of fun c hc => of_decide_eq_true (List.all_eq_true.mp h c hc)

theorem clean_code (e : S3ErrorCode) : CleanText e.asStr := by
  refine clean_all ?_
  cases e <;> decide +kernel

theorem clean_numeral (n : Nat) : CleanText (natDigits n) := by
  refine clean_of fun c hc => ?_
  have := (natDigits_spec n).2.1 c hc
  simp only [isDigit, Bool.and_eq_true, decide_eq_true_eq] at this
  refine ⟨UInt8.le_trans (by decide) this.1, fun e => ?_⟩
  subst e
  exact absurd this.2 (by decide)

theorem clean_bucket {b : Bytes} (h : LegalBucket b) : CleanText b := by
  refine clean_of fun c hc => ?_
  rcases h.chars c hc with (⟨h, h'⟩ | ⟨h, h'⟩) | rfl | rfl
  · refine ⟨UInt8.le_trans (by decide) h, ?_⟩
    rintro rfl; exact absurd h (by decide)
  · refine ⟨UInt8.le_trans (by decide) h, ?_⟩
    rintro rfl; exact absurd h' (by decide)
  · decide
  · decide

/-! ### texts at a path -/

theorem textsAt_append (p : List Bytes) (a b : List XmlEntry) : textsAt p (a ++ b) = textsAt p a ++ textsAt p b := by
  simp [textsAt]

theorem textsAt_below (n : Bytes) (p : List Bytes) (es : List XmlEntry) : textsAt (n :: p) (es.map fun e => (n :: e.1, e.2)) = textsAt p es := by
  induction es with
  | nil => rfl
  | cons e es ih =>
    simp only [textsAt, List.map_cons, List.filter_cons] at ih ⊢
    have : ((n :: e.1) == (n :: p)) = (e.1 == p) := by simp
    rw [this]
    cases e.1 == p
    · simpa using ih
    · simpa using ih

theorem textsAt_flatMap {α : Type} {p : List Bytes} {g : α → List XmlEntry} {f : α → List Bytes} (h : ∀ a, textsAt p (g a) = f a) (l : List α) :
    textsAt p (l.flatMap g) = l.flatMap f := by
  induction l with
  | nil => rfl
  | cons a l ih => rw [List.flatMap_cons, textsAt_append, h, ih, List.flatMap_cons]

theorem flatMap_one {α β : Type} (f : α → β) (l : List α) : (l.flatMap fun a => [f a]) = l.map f := by
  induction l with
  | nil => rfl
  | cons a l ih => simp [ih]

theorem flatMap_none {α β : Type} (l : List α) : (l.flatMap fun _ => ([] : List β)) = [] := by simp

theorem textsAt_opt_ne {n m : Bytes} (h : n ≠ m) (t : Option Bytes) : textsAt [m] (optEntry n t) = [] := by
  cases t with
  | none => rfl
  | some t => simp [textsAt, optEntry, h]

theorem textsAt_opt_deep {n : Bytes} {p : List Bytes} (h : p.length ≠ 1) (t : Option Bytes) : textsAt p (optEntry n t) = [] := by
  cases t with
  | none => rfl
  | some t =>
    have : ([n] == p) = false := by
      rw [beq_eq_false_iff_ne]
      rintro rfl; exact h rfl
    simp [textsAt, optEntry, this]

theorem textsAt_opt (n : Bytes) (t : Option Bytes) : textsAt [n] (optEntry n t) = t.toList := by
  cases t with
  | none => rfl
  | some t => simp [textsAt, optEntry]

theorem clean_time {s : Bytes} {t : Int} {n : Nat} (h : Rfc3339 s t n) : CleanText s := by
  obtain ⟨y, mo, d, hh, mi, se, ys, mos, ds, hs, mis, ses, f, z, off, -, -, -, -, f1, f2, f3, f4, f5, f6, hf, hz, rfl, -⟩ := h
  refine clean_of fun c hc => ?_
  have dig : ∀ {w n : Nat} {s : Bytes}, Spec.Fixed w n s → c ∈ s → 32 ≤ c ∧ c ≠ 62 := by
    intro w n s hs hc
    have := hs.2.1 c hc
    simp only [isDigit, Bool.and_eq_true, decide_eq_true_eq] at this
    refine ⟨UInt8.le_trans (by decide) this.1, ?_⟩
    rintro rfl
    exact absurd this.2 (by decide)
  have hz' : c ∈ z → 32 ≤ c ∧ c ≠ 62 := by
    rcases hz with ⟨rfl, _⟩ | ⟨hs, ms, h, m, a, b, _, _, ⟨rfl, _⟩ | ⟨rfl, _⟩⟩
    · simp; rintro rfl; decide
    · simp only [List.mem_append, List.mem_singleton]
      rintro (((rfl | h) | rfl) | h)
      · decide
      · exact dig a h
      · decide
      · exact dig b h
    · simp only [List.mem_append, List.mem_singleton]
      rintro (((rfl | h) | rfl) | h)
      · decide
      · exact dig a h
      · decide
      · exact dig b h
  have hf' : c ∈ f → 32 ≤ c ∧ c ≠ 62 := by
    rcases hf with ⟨rfl, _⟩ | ⟨ds, rfl, _, a, _⟩
    · simp
    · simp only [List.mem_append, List.mem_singleton]
      rintro (rfl | h)
      · decide
      · exact dig ⟨rfl, a, rfl⟩ h
  simp only [List.mem_append, List.mem_singleton] at hc
  rcases hc with ((((((((((((h | rfl) | h) | rfl) | h) | rfl) | h) | rfl) | h) | rfl) | h) | h) | h)
  · exact dig f1 h
  · decide
  · exact dig f2 h
  · decide
  · exact dig f3 h
  · decide
  · exact dig f4 h
  · decide
  · exact dig f5 h
  · decide
  · exact dig f6 h
  · exact hf' h
  · exact hz' h

theorem clean_timeText (x : Texts) (t : Time) : CleanText (x.timeText t) := clean_time (rfc3339_text _ t)

theorem times_map {α : Type} (x : Texts) (f : α → Time) (l : List α) : Times (l.map fun a => x.timeText (f a)) (l.map f) := by
  refine ⟨by simp, fun i s n hs hn => ?_⟩
  rw [List.getElem?_map] at hs hn
  cases h : l[i]? with
  | none => rw [h] at hs; cases hs
  | some a =>
    rw [h] at hs hn
    have hs := Option.some.inj hs
    have hn := Option.some.inj hn
    dsimp only at hs
    rw [← hs, ← hn]
    exact rfc3339_text _ _

/-- the headers of a GET and of a HEAD -/
theorem get_headers (x : Texts) (c : Ctx) (n : Nat) (m : Option Meta) (e : Bytes) (body : Option Bytes) :
    ∃ t, HttpDate t (x.modified c.bucketName c.keyName).secs ∧
      answerHeaders x c .getObject (.object n m e body) = some [(b!"last-modified", t), (b!"content-length", natDigits n), (b!"etag", e)] := by
  obtain ⟨h1, h2⟩ := lastModified_text (x.zone (x.modified c.bucketName c.keyName).secs) (x.modified c.bucketName c.keyName)
  exact ⟨_, h2, by simp only [answerHeaders, Texts.timeText, h1, Option.map_some]⟩

theorem head_headers (x : Texts) (c : Ctx) (n : Nat) (m : Option Meta) :
    ∃ t, HttpDate t (x.modified c.bucketName c.keyName).secs ∧
      answerHeaders x c .headObject (.head n m) =
        some [(b!"last-modified", t), (b!"content-length", natDigits n), (b!"content-type", b!"application/octet-stream")] := by
  obtain ⟨h1, h2⟩ := lastModified_text (x.zone (x.modified c.bucketName c.keyName).secs) (x.modified c.bucketName c.keyName)
  exact ⟨_, h2, by simp only [answerHeaders, Texts.timeText, h1, Option.map_some]⟩

theorem numerals_map {α : Type} (f : α → Nat) (l : List α) : Numerals (l.map fun a => natDigits (f a)) (l.map f) := by
  refine ⟨by simp, fun i s n hs hn => ?_⟩
  simp only [List.getElem?_map] at hs hn
  cases h : l[i]? with
  | none => rw [h] at hs; cases hs
  | some a =>
    rw [h] at hs hn
    cases hs; cases hn
    exact natDigits_spec _

/-! ### the response to a request of the operation table -/

variable {cfg ext lib auth env} in
theorem responded_of {r : Req} {c : Ctx} (h : admit lib auth r = .ok c) {o : Op} (ho : Requests lib env r c.body o) (x : Texts) (fs : FS) :
    afterResponded cfg ext lib auth env x r fs = after cfg ext o fs ∧
    (∀ e res, answer cfg ext o fs = .err e → errorResponse x e = .ret res → responded cfg ext lib auth env x r fs = .ok res) ∧
    (∀ a, answer cfg ext o fs = .ok a → ∀ m : Option Meta, a.meta = m.getD [] →
      (∀ l, m = some l → ∀ p ∈ l, Sendable (b!"x-amz-meta-" ++ p.1) p.2) →
      ∀ res, makeResponse x c o.handler ⟨successStatus o, metaHeaders m, a⟩ = .ret res → responded cfg ext lib auth env x r fs = .ok res) := by
  have R := ready_of_admit h
  have d := requests_dispatched R ho
  have e : hyperCall cfg ext lib auth env x r = finish (makeResponse x c o.handler) (errorResponse x) (handle cfg ext lib auth env r) := by
    rw [hyperCall, handleResponse, h, handle_ok h]
    simp only
    rw [dispatchResponse, if_neg d.form, d.find, dispatch, if_neg d.form, d.find]
    rfl
  obtain ⟨f1, f2, f3⟩ := finish_run (cfg := cfg) (K := makeResponse x c o.handler) (k := errorResponse x)
    (fun a => (makeResponse_ret x c o.handler a).imp fun _ h => h.1) (errorResponse_ret x) (handle cfg ext lib auth env r) fs
  obtain ⟨s1, s2, s3⟩ := C55_operation cfg ext lib auth env h ho fs
  simp only [responded, afterResponded, e]
  exact ⟨f1.trans s1, fun e res he hres => f3 e res (s2 e he) hres, fun a ha m hm hs res hres => f2 _ res (s3 a ha m hm hs) hres⟩

variable {cfg ext lib auth env} in
theorem responded_inv {x : Texts} {r : Req} {fs : FS} {res : Response} (h : responded cfg ext lib auth env x r fs = .ok res) :
    (∃ rep, served cfg ext lib auth env r fs = .ok rep ∧ res.status = rep.status) ∨
    ∃ e, served cfg ext lib auth env r fs = .err e ∧ errorResponse x e = .ret res := by
  obtain ⟨K, hK, hc⟩ := hyperCall_eq cfg ext lib auth env x r
  rw [responded, hc] at h
  rcases finish_inv (fun a => (hK a).imp fun _ h => h.1) (errorResponse_ret x) h with ⟨rep, h1, h2⟩ | ⟨e, h1, h2⟩
  · obtain ⟨res', h3, h4⟩ := hK rep
    rw [h3] at h2
    cases h2
    exact .inl ⟨rep, h1, h4⟩
  · exact .inr ⟨e, h1, h2⟩

theorem operation_error_status (o : Op) : ∀ e ∈ operationErrors o, e.httpStatus ≠ 200 := by
  cases o <;> simp only [operationErrors] <;> decide

variable {cfg ext lib auth env} in
/-- a request of the operation table answered 200: the operation succeeded -/
theorem answer_of_ok {r : Req} {c : Ctx} (h : admit lib auth r = .ok c) {o : Op} (ho : Requests lib env r c.body o) {x : Texts} {fs : FS}
    {res : Response} (ok : responded cfg ext lib auth env x r fs = .ok res) (hs : res.status = 200) : ∃ a, answer cfg ext o fs = .ok a := by
  have hd : handle cfg ext lib auth env r = (opProg cfg ext o).bind (respond o.handler) := by
    rw [handle_ok h]; exact dispatch_requests (ready_of_admit h) ho
  rcases responded_inv ok with ⟨rep, hrep, _⟩ | ⟨e, he, hres⟩
  · rw [served, hd] at hrep
    exact run_respond_ok hrep
  · have hstat := (errorResponse_status hres).symm.trans hs
    have hf : Fails (fun e => e ∈ operationErrors o ∨ e = .InternalError) ((opProg cfg ext o).bind (respond o.handler)) :=
      ((fails_op cfg ext o).mono fun e h => .inl h).bind fun a => fails_respond (.inr rfl) _ a
    rw [served, hd] at he
    rcases (hf.run fs).1 e he with h | h
    · exact absurd hstat (operation_error_status o e h)
    · subst h; exact absurd hstat (by decide)

/-- a document among the responses -/
theorem makeResponse_doc {x : Texts} {c : Ctx} {h : Handler} {rep : Reply} {evs : List XmlEvent} {doc : Bytes} {es : List XmlEntry}
    (hd : document x c h rep.answer = some evs) (h1 : xmlDocument x.gt evs = some doc) (h2 : readXml doc = some es) :
    ∃ res, makeResponse x c h rep = .ret res ∧ Shows res rep.status es := by
  obtain ⟨hs, hh⟩ := answerHeaders_some x c h rep.answer
  exact ⟨_, by simp only [makeResponse, hh, hd, h1]; rfl, rfl, by simp, doc, rfl, h2⟩

/-! ### C71: listings -/

/-- the keys stored in a bucket can be written in a document -/
def Spec.CleanKeys (cfg : Cfg) (fs : FS) (b : Bytes) : Prop := ∀ k cs, PlainKey k cs → stored cfg fs b k ≠ none → CleanText k

/-- what a client reads in a listing: the objects of the bucket with the prefix, each once, in ascending order, with their sizes and the times
of their modification; and not that there are more of them -/
def Spec.ListingShows (cfg : Cfg) (fs : FS) (modified : Bytes → Bytes → Time) (b : Bytes) (pfx : Option Bytes) (es : List XmlEntry) : Prop :=
  ∃ l : List (Bytes × Nat), l.Pairwise (fun x y => x.1 < y.1) ∧
    (∀ k n, (k, n) ∈ l ↔ ∃ cs c, PlainKey k cs ∧ stored cfg fs b k = some c ∧ n = c.length ∧ matchesPrefix pfx k) ∧
    textsAt [b!"ListBucketResult", b!"Contents", b!"Key"] es = l.map (·.1) ∧
    Numerals (textsAt [b!"ListBucketResult", b!"Contents", b!"Size"] es) (l.map (·.2)) ∧
    Times (textsAt [b!"ListBucketResult", b!"Contents", b!"LastModified"] es) (l.map fun o => modified b o.1) ∧
    textsAt [b!"ListBucketResult", b!"Name"] es = [b] ∧
    b!"true" ∉ textsAt [b!"ListBucketResult", b!"IsTruncated"] es

/-- entries of one object -/
def contentsEntries (x : Texts) (b : Bytes) (o : Bytes × Nat) : List XmlEntry :=
  [([b!"Contents", b!"Key"], o.1), ([b!"Contents", b!"LastModified"], x.timeText (x.modified b o.1)), ([b!"Contents", b!"Size"], natDigits o.2),
   ([b!"Contents"], [])]

theorem part_contents {gt : Bool} {x : Texts} {b : Bytes} {o : Bytes × Nat} (hk : CleanText o.1) :
    ∃ out, Part gt (contentsEvents x b o) out (contentsEntries x b o) :=
  Part.stack (n := b!"Contents") (by decide) (((Part.element (n := b!"Key") (by decide) hk).append
    (Part.element (n := b!"LastModified") (by decide) (clean_timeText x _))).append (Part.element (n := b!"Size") (by decide) (clean_numeral _)))

/-- entries of a listing below the root -/
def listingEntries (x : Texts) (l : List (Bytes × Nat)) (b : Bytes) (d e : Option Bytes) : List XmlEntry :=
  l.flatMap (contentsEntries x b) ++ [([b!"Name"], b)] ++ optEntry b!"Delimiter" d ++ optEntry b!"EncodingType" e

theorem part_listing {gt : Bool} {x : Texts} {l : List (Bytes × Nat)} {b : Bytes} {d e : Option Bytes}
    (hl : ∀ o ∈ l, CleanText o.1) (hb : CleanText b) (hd : ∀ v, d = some v → CleanText v) (he : ∀ v, e = some v → CleanText v) :
    ∃ out, Part gt (l.flatMap (contentsEvents x b) ++ elementEvents b!"Name" b ++ optElement b!"Delimiter" d ++ optElement b!"EncodingType" e) out
      (listingEntries x l b d e) := by
  obtain ⟨o1, h1⟩ := Part.flatMap (gt := gt) l fun o ho => part_contents (x := x) (b := b) (hl o ho)
  obtain ⟨o2, h2⟩ := Part.opt (gt := gt) (n := b!"Delimiter") (by decide) hd
  obtain ⟨o3, h3⟩ := Part.opt (gt := gt) (n := b!"EncodingType") (by decide) he
  exact ⟨_, ((h1.append (Part.element (n := b!"Name") (by decide) hb)).append h2).append h3⟩

theorem listing_texts (x : Texts) (l : List (Bytes × Nat)) (b : Bytes) (d e : Option Bytes) :
    textsAt [b!"Contents", b!"Key"] (listingEntries x l b d e) = l.map (·.1) ∧
    textsAt [b!"Contents", b!"Size"] (listingEntries x l b d e) = (l.map fun o => natDigits o.2) ∧
    textsAt [b!"Name"] (listingEntries x l b d e) = [b] ∧ textsAt [b!"KeyCount"] (listingEntries x l b d e) = [] ∧
    textsAt [b!"Contents", b!"LastModified"] (listingEntries x l b d e) = (l.map fun o => x.timeText (x.modified b o.1)) ∧
    textsAt [b!"IsTruncated"] (listingEntries x l b d e) = [] := by
  have k : ∀ o, textsAt [b!"Contents", b!"Key"] (contentsEntries x b o) = [o.1] := fun o => rfl
  have s : ∀ o, textsAt [b!"Contents", b!"Size"] (contentsEntries x b o) = [natDigits o.2] := fun o => rfl
  have t : ∀ o, textsAt [b!"Contents", b!"LastModified"] (contentsEntries x b o) = [x.timeText (x.modified b o.1)] := fun o => rfl
  have n : ∀ o, textsAt [b!"Name"] (contentsEntries x b o) = [] := fun o => rfl
  have c : ∀ o, textsAt [b!"KeyCount"] (contentsEntries x b o) = [] := fun o => rfl
  have i : ∀ o, textsAt [b!"IsTruncated"] (contentsEntries x b o) = [] := fun o => rfl
  refine ⟨?_, ?_, ?_, ?_, ?_, ?_⟩
  · rw [listingEntries, textsAt_append, textsAt_append, textsAt_append, textsAt_opt_deep (by decide), textsAt_opt_deep (by decide),
      textsAt_flatMap k, flatMap_one, show textsAt [b!"Contents", b!"Key"] [([b!"Name"], b)] = [] from rfl]
    simp
  · rw [listingEntries, textsAt_append, textsAt_append, textsAt_append, textsAt_opt_deep (by decide), textsAt_opt_deep (by decide),
      textsAt_flatMap s, flatMap_one, show textsAt [b!"Contents", b!"Size"] [([b!"Name"], b)] = [] from rfl]
    simp
  · rw [listingEntries, textsAt_append, textsAt_append, textsAt_append, textsAt_opt_ne (by decide), textsAt_opt_ne (by decide),
      textsAt_flatMap n, flatMap_none, show textsAt [b!"Name"] [([b!"Name"], b)] = [b] from rfl]
    simp
  · rw [listingEntries, textsAt_append, textsAt_append, textsAt_append, textsAt_opt_ne (by decide), textsAt_opt_ne (by decide),
      textsAt_flatMap c, flatMap_none, show textsAt [b!"KeyCount"] [([b!"Name"], b)] = [] from rfl]
    simp
  · rw [listingEntries, textsAt_append, textsAt_append, textsAt_append, textsAt_opt_deep (by decide), textsAt_opt_deep (by decide),
      textsAt_flatMap t, flatMap_one, show textsAt [b!"Contents", b!"LastModified"] [([b!"Name"], b)] = [] from rfl]
    simp
  · rw [listingEntries, textsAt_append, textsAt_append, textsAt_append, textsAt_opt_ne (by decide), textsAt_opt_ne (by decide),
      textsAt_flatMap i, flatMap_none, show textsAt [b!"IsTruncated"] [([b!"Name"], b)] = [] from rfl]
    simp

/-- **C71** (partial) The document that answers ListObjects shows exactly the objects of the bucket, and does not say that there
are more. Missing from the full property:
keys, delimiters and encoding types with control characters or `]]>`, for which it is false, see `C71_listing_fails`. -/
theorem C71_listing_partial {r : Req} {c : Ctx} (h : admit lib auth r = .ok c) {b : Bytes} {pfx : Option Bytes}
    (ho : Requests lib env r c.body (.listObjects b pfx env.fuel)) (x : Texts) {fs : FS} (hw : WF fs)
    (hl : Listable cfg fs b) (hk : CleanKeys cfg fs b) (hf : fs.nodes.length < env.fuel)
    (hq : ∀ n ∈ [b!"delimiter", b!"encoding-type"], ∀ v, (n, v) ∈ queryOf r → CleanText v) :
    ∃ res es, responded cfg ext lib auth env x r fs = .ok res ∧ Shows res 200 es ∧ ListingShows cfg fs x.modified b pfx es := by
  have R := ready_of_admit h
  obtain ⟨l, ha, _, hs, hm⟩ := C20_listing_partial (ext := ext) hw hl pfx hf
  have hp : c.path = .bucket b ∧ LegalBucket b := by
    cases ho with
    | listObjects _ hat _ _ _ =>
      refine ⟨R.bucket hat, ?_⟩
      obtain ⟨p, _, hp⟩ := hat
      cases hp <;> assumption
  have hclean : ∀ o ∈ l, CleanText o.1 := by
    rintro ⟨k, n⟩ ho
    obtain ⟨cs, c', h1, h2, _⟩ := (hm k n).mp ho
    exact hk k cs h1 (by rw [h2]; simp)
  obtain ⟨out, part⟩ := part_listing (gt := x.gt) (x := x) hclean (clean_bucket hp.2)
    (d := c.query b!"delimiter") (e := c.query b!"encoding-type")
    (fun v hv => hq b!"delimiter" (by decide) v (R.query_mem _ _ hv))
    (fun v hv => hq b!"encoding-type" (by decide) v (R.query_mem _ _ hv))
  obtain ⟨doc, d1, d2⟩ := part.rooted (n := b!"ListBucketResult") (by decide)
  obtain ⟨res, r1, r2⟩ := makeResponse_doc (x := x) (c := c) (h := .listObjects) (rep := ⟨200, [], .objects l⟩) (by
    simp only [document, Ctx.bucketName, hp.1]) d1 d2
  refine ⟨res, _, (responded_of h ho x fs).2.2 (.objects l) ha none rfl (by simp) res r1, r2, l, hs, hm, ?_⟩
  obtain ⟨t1, t2, t3, _, t5, t6⟩ := listing_texts x l b (c.query b!"delimiter") (c.query b!"encoding-type")
  refine ⟨?_, ?_, ?_, ?_, ?_⟩
  · rw [textsAt_append, textsAt_below, t1]; exact List.append_nil _
  · rw [textsAt_append, textsAt_below, t2]
    show Numerals (_ ++ []) _
    rw [List.append_nil]
    exact numerals_map _ l
  · rw [textsAt_append, textsAt_below, t5]
    show Times (_ ++ []) _
    rw [List.append_nil]
    exact times_map x _ l
  · rw [textsAt_append, textsAt_below, t3]; rfl
  · rw [textsAt_append, textsAt_below, t6]; exact fun h => nomatch h

/-- **C71** (partial) The same for ListObjectsV2; `KeyCount` is the number of objects shown. Missing as in `C71_listing_partial`. -/
theorem C71_listing_v2_partial {r : Req} {c : Ctx} (h : admit lib auth r = .ok c) {b : Bytes} {pfx : Option Bytes}
    (ho : Requests lib env r c.body (.listObjectsV2 b pfx env.fuel)) (x : Texts) {fs : FS} (hw : WF fs)
    (hl : Listable cfg fs b) (hk : CleanKeys cfg fs b) (hf : fs.nodes.length < env.fuel)
    (hq : ∀ n ∈ [b!"delimiter", b!"encoding-type"], ∀ v, (n, v) ∈ queryOf r → CleanText v) :
    ∃ res es, responded cfg ext lib auth env x r fs = .ok res ∧ Shows res 200 es ∧ ListingShows cfg fs x.modified b pfx es ∧
      Numerals (textsAt [b!"ListBucketResult", b!"KeyCount"] es) [(textsAt [b!"ListBucketResult", b!"Contents", b!"Key"] es).length] := by
  have R := ready_of_admit h
  obtain ⟨l, _, ha, hs, hm⟩ := C20_listing_partial (ext := ext) hw hl pfx hf
  have hp : c.path = .bucket b ∧ LegalBucket b := by
    cases ho with
    | listObjectsV2 _ hat _ _ _ _ _ =>
      refine ⟨R.bucket hat, ?_⟩
      obtain ⟨p, _, hp⟩ := hat
      cases hp <;> assumption
  have hclean : ∀ o ∈ l, CleanText o.1 := by
    rintro ⟨k, n⟩ ho
    obtain ⟨cs, c', h1, h2, _⟩ := (hm k n).mp ho
    exact hk k cs h1 (by rw [h2]; simp)
  obtain ⟨out, part⟩ := part_listing (gt := x.gt) (x := x) hclean (clean_bucket hp.2)
    (d := c.query b!"delimiter") (e := c.query b!"encoding-type")
    (fun v hv => hq b!"delimiter" (by decide) v (R.query_mem _ _ hv))
    (fun v hv => hq b!"encoding-type" (by decide) v (R.query_mem _ _ hv))
  obtain ⟨doc, d1, d2⟩ := (part.append (Part.element (n := b!"KeyCount") (by decide) (clean_numeral l.length))).rooted
    (n := b!"ListBucketResult") (by decide)
  obtain ⟨res, r1, r2⟩ := makeResponse_doc (x := x) (c := c) (h := .listObjectsV2) (rep := ⟨200, [], .objectsV2 l.length l⟩) (by
    simp only [document, Ctx.bucketName, hp.1]) d1 d2
  obtain ⟨t1, t2, t3, t4, t5, t6⟩ := listing_texts x l b (c.query b!"delimiter") (c.query b!"encoding-type")
  have e1 : textsAt [b!"ListBucketResult", b!"Contents", b!"Key"]
      ((listingEntries x l b (c.query b!"delimiter") (c.query b!"encoding-type") ++ [([b!"KeyCount"], natDigits l.length)]).map
        (fun e => (b!"ListBucketResult" :: e.1, e.2)) ++ [([b!"ListBucketResult"], [])]) = l.map (·.1) := by
    rw [textsAt_append, textsAt_below, textsAt_append, t1]
    show (_ ++ []) ++ [] = _
    simp
  refine ⟨res, _, (responded_of h ho x fs).2.2 (.objectsV2 l.length l) ha none rfl (by simp) res r1, r2, ⟨l, hs, hm, e1, ?_, ?_, ?_, ?_⟩, ?_⟩
  · rw [textsAt_append, textsAt_below, textsAt_append, t2]
    show Numerals ((_ ++ []) ++ []) _
    rw [List.append_nil, List.append_nil]
    exact numerals_map _ l
  · rw [textsAt_append, textsAt_below, textsAt_append, t5]
    show Times ((_ ++ []) ++ []) _
    rw [List.append_nil, List.append_nil]
    exact times_map x _ l
  · rw [textsAt_append, textsAt_below, textsAt_append, t3]; rfl
  · rw [textsAt_append, textsAt_below, textsAt_append, t6]; exact fun h => nomatch h
  · rw [e1, textsAt_append, textsAt_below, textsAt_append, t4]
    show Numerals (([] ++ [natDigits l.length]) ++ []) _
    rw [List.length_map]
    exact numerals_map (fun n : Nat => n) [l.length]

/-! ### C72: errors -/

/-- **C72** Whatever requests are served concurrently, in whatever state and under whatever schedule: a request that is refused is
answered with the status of the error code and a document that names the code; the connection is never dropped with an error. -/
theorem C72_error_documents (js : List (Texts × Req)) (sched : List Nat) (fs : FS) (i : Nat) (x : Texts) (r : Req)
    (hi : js[i]? = some (x, r)) (hm : ∀ m, x.message = some m → CleanText m) :
    (∀ e, ((runPar cfg sched ((js.map (·.2)).map (handle cfg ext lib auth env)) fs).1[i]?.bind Prog.outcome) = some (.err e) →
      ∃ res es, responseAt cfg ext lib auth env js sched fs i = some (.ok res) ∧ Shows res e.httpStatus es ∧
        textsAt [b!"Error", b!"Code"] es = [e.asStr] ∧ textsAt [b!"Error", b!"Message"] es = x.message.toList) ∧
    ∀ e, responseAt cfg ext lib auth env js sched fs i ≠ some (.err e) := by
  obtain ⟨K, hK, hp⟩ := hyperCall_par cfg ext lib auth env js sched fs
  simp only [responseAt, hp i x r hi]
  generalize (runPar cfg sched ((js.map (·.2)).map (handle cfg ext lib auth env)) fs).1[i]? = q
  cases q with
  | none => exact ⟨fun e h => (by cases h), fun e h => (by cases h)⟩
  | some q =>
    simp only [Option.map_some, Option.bind_some]
    cases q with
    | ret a =>
      obtain ⟨res, h, _⟩ := hK i a
      simp only [finish, Prog.bind, h, Prog.catch, Prog.outcome]
      exact ⟨fun e h => (by cases h), fun e h => (by cases h)⟩
    | fail e =>
      obtain ⟨res, h, hs⟩ := errorResponse_shows x hm e (clean_code e)
      simp only [finish, Prog.bind, Prog.catch, Prog.outcome, h]
      refine ⟨?_, fun e h => (by cases h)⟩
      rintro e' ⟨⟩
      refine ⟨res, _, rfl, hs, ?_, ?_⟩
      · rw [textsAt_append, textsAt_below, textsAt_append, textsAt_opt_ne (by decide)]; rfl
      · rw [textsAt_append, textsAt_below, textsAt_append, textsAt_opt]
        show ([] ++ _) ++ [] = _
        simp
    | panic => exact ⟨fun e h => (by cases h), fun e h => (by cases h)⟩
    | diverge => exact ⟨fun e h => (by cases h), fun e h => (by cases h)⟩
    | sys c k => exact ⟨fun e h => (by cases h), fun e h => (by cases h)⟩

/-- **C72** A refused request that is served alone, in the same words. -/
theorem C72_error_document (x : Texts) (hm : ∀ m, x.message = some m → CleanText m) (r : Req) (fs : FS) {e : S3ErrorCode}
    (he : served cfg ext lib auth env r fs = .err e) :
    ∃ res es, responded cfg ext lib auth env x r fs = .ok res ∧ Shows res e.httpStatus es ∧
      textsAt [b!"Error", b!"Code"] es = [e.asStr] ∧ textsAt [b!"Error", b!"Message"] es = x.message.toList := by
  obtain ⟨K, hK, hc⟩ := hyperCall_eq cfg ext lib auth env x r
  obtain ⟨res, h, hs⟩ := errorResponse_shows x hm e (clean_code e)
  obtain ⟨_, _, f3⟩ := finish_run (cfg := cfg) (K := K) (k := errorResponse x) (fun a => (hK a).imp fun _ h => h.1) (errorResponse_ret x)
    (handle cfg ext lib auth env r) fs
  refine ⟨res, _, by rw [responded, hc]; exact f3 e res he h, hs, ?_, ?_⟩
  · rw [textsAt_append, textsAt_below, textsAt_append, textsAt_opt_ne (by decide)]; rfl
  · rw [textsAt_append, textsAt_below, textsAt_append, textsAt_opt]
    show ([] ++ _) ++ [] = _
    simp

/-! ### C73: DeleteObjects -/

/-- **C73** (partial) The document that answers DeleteObjects names the keys that were stored, in the order of the request, and after it
they are gone. Missing: keys with control characters or `]]>` (not readable in the document), repeated keys (C26), keys with dot
components or slashes at the ends, keys that name directories. -/
theorem C73_delete_objects_partial {r : Req} {c : Ctx} (h : admit lib auth r = .ok c) {b : Bytes} {ks : List Bytes}
    (ho : Requests lib env r c.body (.deleteObjects b ks)) (x : Texts) (hb : LegalBucket b) (hn : ks.Nodup) {fs : FS} (hw : WF fs)
    (hk : ∀ k ∈ ks, ∃ cs, PlainKey k cs ∧ ¬ IsDir fs (cfg.root ++ b :: cs)) (hc : ∀ k ∈ ks, CleanText k) :
    (∃ res es, responded cfg ext lib auth env x r fs = .ok res ∧ Shows res 200 es ∧
      textsAt [b!"DeleteResult", b!"Deleted", b!"Key"] es = ks.filter fun k => (stored cfg fs b k).isSome) ∧
    ∀ k ∈ ks, stored cfg (afterResponded cfg ext lib auth env x r fs) b k = none := by
  obtain ⟨ha, hg, _⟩ := C26_delete_objects_partial (ext := ext) hb hn hw hk
  obtain ⟨h1, _, h3⟩ := responded_of (cfg := cfg) (ext := ext) h ho x fs
  refine ⟨?_, by rw [h1]; exact hg⟩
  let g : Bytes → List XmlEntry := fun k => [([b!"Deleted", b!"Key"], k), ([b!"Deleted"], [])]
  obtain ⟨out, part⟩ := Part.flatMap (gt := x.gt) (f := fun k => stackEvents b!"Deleted" (elementEvents b!"Key" k)) (g := g)
    (ks.filter fun k => (stored cfg fs b k).isSome) fun k hk' =>
      (Part.element (n := b!"Key") (by decide) (hc k (List.mem_filter.mp hk').1)).stack (n := b!"Deleted") (by decide)
  obtain ⟨doc, d1, d2⟩ := part.rooted (n := b!"DeleteResult") (by decide)
  obtain ⟨res, r1, r2⟩ := makeResponse_doc (x := x) (c := c) (h := .deleteObjects)
    (rep := ⟨200, [], .keys (ks.filter fun k => (stored cfg fs b k).isSome)⟩) rfl d1 d2
  refine ⟨res, _, h3 _ ha none rfl (by simp) res r1, r2, ?_⟩
  rw [textsAt_append, textsAt_below, textsAt_flatMap (f := fun k => [k]) (fun k => rfl), flatMap_one]
  show _ ++ [] = _
  simp

/-! ### C74: multipart uploads -/

/-- **C74** (partial) The document that answers CompleteMultipartUpload names bucket and key, and its `ETag` is the quoted MD5 of what is
stored there. Missing: keys with control characters or `]]>`. -/
theorem C74_complete_partial (hmd5 : ∀ s, CleanText (quoted (ext.md5hex s))) {r : Req} {c : Ctx} (h : admit lib auth r = .ok c) {b k u : Bytes}
    {parts : Option (List (Option Int))} (ho : Requests lib env r c.body (.completeMultipartUpload b k u parts)) (x : Texts) (hk : CleanText k)
    {fs : FS} (hw : WF fs) {a : Answer} (ha : answer cfg ext (.completeMultipartUpload b k u parts) fs = .ok a) :
    ∃ res es content, responded cfg ext lib auth env x r fs = .ok res ∧ Shows res 200 es ∧
      textsAt [b!"CompleteMultipartUploadResult", b!"Bucket"] es = [b] ∧ textsAt [b!"CompleteMultipartUploadResult", b!"Key"] es = [k] ∧
      stored cfg (afterResponded cfg ext lib auth env x r fs) b k = some content ∧
      textsAt [b!"CompleteMultipartUploadResult", b!"ETag"] es = [quoted (ext.md5hex content)] := by
  have R := ready_of_admit h
  obtain ⟨h1, _, h3⟩ := responded_of (cfg := cfg) (ext := ext) h ho x fs
  obtain ⟨content, hst, rfl⟩ := (C13_etag_partial hw a).2.2.1 b k u parts ha
  have hp : c.path = .object b k ∧ LegalBucket b := by
    cases ho with
    | completeMultipartUpload _ hat _ _ _ _ _ =>
      refine ⟨R.object hat, ?_⟩
      obtain ⟨p, _, hp⟩ := hat
      cases hp; assumption
  obtain ⟨doc, d1, d2⟩ := (((Part.element (gt := x.gt) (n := b!"Bucket") (by decide) (clean_bucket hp.2)).append
    (Part.element (n := b!"Key") (by decide) hk)).append (Part.element (n := b!"ETag") (by decide) (hmd5 content))).rooted
    (n := b!"CompleteMultipartUploadResult") (by decide)
  obtain ⟨res, r1, r2⟩ := makeResponse_doc (x := x) (c := c) (h := .completeMultipartUpload)
    (rep := ⟨200, [], .etag (some (quoted (ext.md5hex content)))⟩) (by
      simp only [document, Ctx.bucketName, Ctx.keyName, hp.1]; rfl) d1 d2
  exact ⟨res, _, content, h3 _ ha none rfl (by simp) res r1, r2, rfl, rfl, by rw [h1]; exact hst, rfl⟩

/-- **C74** (partial) The document that answers CreateMultipartUpload names bucket and key and gives the upload id. Missing: keys with
control characters or `]]>`; the name of the root element, see `C74_create_fails`. -/
theorem C74_create_partial {r : Req} {c : Ctx} (h : admit lib auth r = .ok c) {b k : Bytes} (hat : At r (.object b k))
    (ho : Requests lib env r c.body (.createMultipartUpload env.uuid)) (x : Texts) (hk : CleanText k) (hu : CleanText env.uuid) (fs : FS) :
    ∃ res es root, responded cfg ext lib auth env x r fs = .ok res ∧ Shows res 200 es ∧
      textsAt [root, b!"Bucket"] es = [b] ∧ textsAt [root, b!"Key"] es = [k] ∧ textsAt [root, b!"UploadId"] es = [env.uuid] := by
  have R := ready_of_admit h
  have hp : c.path = .object b k ∧ LegalBucket b := by
    refine ⟨R.object hat, ?_⟩
    obtain ⟨p, _, hp⟩ := hat
    cases hp; assumption
  obtain ⟨doc, d1, d2⟩ := (((Part.element (gt := x.gt) (n := b!"Bucket") (by decide) (clean_bucket hp.2)).append
    (Part.element (n := b!"Key") (by decide) hk)).append (Part.element (n := b!"UploadId") (by decide) hu)).rooted
    (n := b!"InitialMultipartUploadResult") (by decide)
  obtain ⟨res, r1, r2⟩ := makeResponse_doc (x := x) (c := c) (h := .createMultipartUpload) (rep := ⟨200, [], .uploadId env.uuid⟩) (by
      simp only [document, Ctx.bucketName, Ctx.keyName, hp.1]) d1 d2
  exact ⟨res, _, b!"InitialMultipartUploadResult", (responded_of (cfg := cfg) (ext := ext) h ho x fs).2.2 (.uploadId env.uuid) rfl none rfl
    (by simp) res r1, r2, rfl, rfl, rfl⟩

/-- **C74** (negation) No answer to CreateMultipartUpload has the root element of the S3 API reference, `InitiateMultipartUploadResult`. -/
theorem C74_create_fails {r : Req} {c : Ctx} (h : admit lib auth r = .ok c) {b k : Bytes} (hat : At r (.object b k))
    (ho : Requests lib env r c.body (.createMultipartUpload env.uuid)) (x : Texts) (hk : CleanText k) (hu : CleanText env.uuid) (fs : FS) :
    ∃ res es, responded cfg ext lib auth env x r fs = .ok res ∧ Shows res 200 es ∧
      ∀ p, textsAt (b!"InitiateMultipartUploadResult" :: p) es = [] := by
  have R := ready_of_admit h
  have hp : c.path = .object b k ∧ LegalBucket b := by
    refine ⟨R.object hat, ?_⟩
    obtain ⟨p, _, hp⟩ := hat
    cases hp; assumption
  obtain ⟨doc, d1, d2⟩ := (((Part.element (gt := x.gt) (n := b!"Bucket") (by decide) (clean_bucket hp.2)).append
    (Part.element (n := b!"Key") (by decide) hk)).append (Part.element (n := b!"UploadId") (by decide) hu)).rooted
    (n := b!"InitialMultipartUploadResult") (by decide)
  obtain ⟨res, r1, r2⟩ := makeResponse_doc (x := x) (c := c) (h := .createMultipartUpload) (rep := ⟨200, [], .uploadId env.uuid⟩) (by
      simp only [document, Ctx.bucketName, Ctx.keyName, hp.1]) d1 d2
  refine ⟨res, _, (responded_of (cfg := cfg) (ext := ext) h ho x fs).2.2 (.uploadId env.uuid) rfl none rfl (by simp) res r1, r2, fun p => ?_⟩
  have key : ∀ q : List Bytes, (b!"InitialMultipartUploadResult" :: q == b!"InitiateMultipartUploadResult" :: p) = false := by
    intro q
    rw [beq_eq_false_iff_ne]
    intro e
    exact absurd (List.cons.inj e).1 (by decide)
  simp only [textsAt, List.map_cons, List.map_nil, List.cons_append, List.nil_append, List.filter_cons, key,
    List.filter_nil]
  rfl

/-! ### C76: ListBuckets -/

/-- **C76** The document that answers ListBuckets names every bucket once, with the time of its creation: the directories with a legal bucket
name. -/
theorem C76_list_buckets {r : Req} {c : Ctx} (h : admit lib auth r = .ok c) (ho : Requests lib env r c.body .listBuckets) (x : Texts)
    {fs : FS} (hw : WF fs) (hr : IsDir fs cfg.root) :
    ∃ res es l, responded cfg ext lib auth env x r fs = .ok res ∧ Shows res 200 es ∧
      textsAt [b!"ListAllMyBucketsResult", b!"Buckets", b!"Bucket", b!"Name"] es = l ∧ l.Nodup ∧
      Times (textsAt [b!"ListAllMyBucketsResult", b!"Buckets", b!"Bucket", b!"CreationDate"] es) (l.map x.created) ∧
      ∀ b, b ∈ l ↔ LegalBucket b ∧ IsDir fs (bucketDir cfg b) := by
  obtain ⟨l, ha, hn, hl⟩ := C21_list_buckets (ext := ext) hw hr
  let g : Bytes → List XmlEntry := fun n => [([b!"Bucket", b!"CreationDate"], x.timeText (x.created n)), ([b!"Bucket", b!"Name"], n), ([b!"Bucket"], [])]
  obtain ⟨o1, p1⟩ := Part.flatMap (gt := x.gt)
    (f := fun n => stackEvents b!"Bucket" (elementEvents b!"CreationDate" (x.timeText (x.created n)) ++ elementEvents b!"Name" n)) (g := g) l fun n hn =>
      ((Part.element (n := b!"CreationDate") (by decide) (clean_timeText x _)).append
        (Part.element (n := b!"Name") (by decide) (clean_bucket ((hl n).mp hn).1))).stack (n := b!"Bucket") (by decide)
  obtain ⟨o2, p2⟩ := p1.stack (n := b!"Buckets") (by decide)
  obtain ⟨doc, d1, d2⟩ := p2.rooted (n := b!"ListAllMyBucketsResult") (by decide)
  obtain ⟨res, r1, r2⟩ := makeResponse_doc (x := x) (c := c) (h := .listBuckets) (rep := ⟨200, [], .buckets l⟩) rfl d1 d2
  refine ⟨res, _, l, (responded_of (cfg := cfg) (ext := ext) h ho x fs).2.2 _ ha none rfl (by simp) res r1, r2, ?_, hn, ?_, hl⟩
  · rw [textsAt_append, textsAt_below, textsAt_append, textsAt_below, textsAt_flatMap (f := fun n => [n]) (fun n => rfl), flatMap_one]
    show (_ ++ []) ++ [] = _
    simp
  · rw [textsAt_append, textsAt_below, textsAt_append, textsAt_below,
      textsAt_flatMap (f := fun n => [x.timeText (x.created n)]) (fun n => rfl), flatMap_one]
    show Times ((_ ++ []) ++ []) _
    rw [List.append_nil, List.append_nil]
    exact times_map x _ l

/-! ### C75: headers -/

/-- **C75** (partial) Over HTTP: after a PUT (or form upload) that was answered 200, the PUT's `ETag` header is the quoted MD5 of the content
sent; a GET is answered 200 with that `ETag`, with the content and with its length as `Content-Length`; a HEAD with the same length and no
content. Missing: keys with dot components or slashes at the ends, stale metadata (as in C19 and C64), contents larger than an `i64`. -/
theorem C75_put_get_partial (hl : MetaLaw ext) {r g h : Req} {c cg ch : Ctx} (hc : admit lib auth r = .ok c) (hcg : admit lib auth g = .ok cg)
    (hch : admit lib auth h = .ok ch) {i : PutInput} (hr : Requests lib env r c.body (.putObject i)) (hi : ObjectPut i)
    (hg : Requests lib env g cg.body (.getObject i.bucket i.key none env.wants)) (hh : Requests lib env h ch.body (.headObject i.bucket i.key))
    {fs : FS} (hw : WF fs) (x xg xh : Texts) {res : Response} (ok : responded cfg ext lib auth env x r fs = .ok res) (hst : res.status = 200)
    (hsend : ∀ l, i.metadata = some l → ∀ p ∈ l, Sendable (b!"x-amz-meta-" ++ p.1) p.2)
    (hold : i.metadata = none → storedMeta cfg ext fs i.bucket i.key = some none)
    (hlen : ∀ body, i.body = some body → (received body).length ≤ i64Max) :
    ∃ body resg resh, i.body = some body ∧ unbroken body ∧
      (∀ v, (b!"etag", v) ∈ res.headers ↔ v = quoted (ext.md5hex (received body))) ∧
      responded cfg ext lib auth env xg g (afterResponded cfg ext lib auth env x r fs) = .ok resg ∧
      resg.status = 200 ∧ resg.body = some (received body) ∧
      (∀ v, (b!"etag", v) ∈ resg.headers ↔ v = quoted (ext.md5hex (received body))) ∧
      (∃ v, (b!"content-length", v) ∈ resg.headers ∧ IsNumeral v (received body).length) ∧
      responded cfg ext lib auth env xh h (afterResponded cfg ext lib auth env x r fs) = .ok resh ∧
      resh.status = 200 ∧ resh.body = some [] ∧
      (∃ v, (b!"content-length", v) ∈ resh.headers ∧ IsNumeral v (received body).length) := by
  obtain ⟨a, ha⟩ := answer_of_ok hc hr ok hst
  obtain ⟨p1, _, p3⟩ := responded_of (cfg := cfg) (ext := ext) hc hr x fs
  obtain ⟨e, _, hd⟩ := put_done hi hw ha
  obtain ⟨body, hb, hu, hs, _⟩ := hd.body
  obtain ⟨content, hs', rfl⟩ := (C13_etag_partial hw a).1 i hi ha
  rw [hs] at hs'
  cases hs'
  have hmeta := put_meta hl hi (requests_validMeta hc hr fun l he p hp => sendable_name (hsend l he p hp)) hw ha
  have hmeta : storedMeta cfg ext (after cfg ext (.putObject i) fs) i.bucket i.key = some i.metadata := by
    rw [hmeta]
    cases hx : i.metadata with
    | some m => rfl
    | none => exact hold hx
  obtain ⟨g1, g2⟩ := get_stored hs hmeta (hlen body hb) env.wants
  rw [p1]
  have hmem : ∀ (n v : Bytes), (n, v) ∈ metaHeaders i.metadata → ∃ t, n = b!"x-amz-meta-" ++ t := by
    intro n v hv
    simp only [metaHeaders, List.mem_map] at hv
    obtain ⟨p, _, hp⟩ := hv
    exact ⟨p.1, (congrArg Prod.fst hp).symm⟩
  have hne : ∀ t : Bytes, b!"etag" ≠ b!"x-amz-meta-" ++ t := by
    intro t ht
    exact absurd (List.cons.inj ht).1 (by decide)
  have hput := p3 _ ha none rfl (by simp) _ (by simp only [makeResponse, Op.handler, answerHeaders, document, Answer.content]; rfl)
  rw [ok] at hput
  have hres := Outcome.ok.inj hput
  obtain ⟨tg, _, hhg⟩ := get_headers xg cg (received body).length i.metadata (quoted (ext.md5hex (received body))) (some (received body))
  obtain ⟨th, _, hhh⟩ := head_headers xh ch (received body).length i.metadata
  refine ⟨body, _, _, hb, hu, ?_, (responded_of hcg hg xg _).2.2 _ g1 _ rfl hsend _ (by
      simp only [makeResponse, Op.handler, hhg, document, Answer.content]; rfl), rfl, rfl, ?_, ?_,
    (responded_of hch hh xh _).2.2 _ g2 _ rfl hsend _ (by simp only [makeResponse, Op.handler, hhh, document, Answer.content]; rfl), rfl, rfl, ?_⟩
  · intro v
    rw [hres]
    simp [optHeader, metaHeaders]
  · intro v
    simp only [List.mem_append, List.mem_cons, Prod.mk.injEq, List.not_mem_nil, or_false]
    constructor
    · rintro ((⟨h, _⟩ | ⟨h, _⟩ | ⟨_, h⟩) | h)
      · exact absurd h (by decide)
      · exact absurd h (by decide)
      · exact h
      · obtain ⟨t, ht⟩ := hmem _ _ h
        exact absurd ht (hne t)
    · rintro rfl
      exact .inl (.inr (.inr ⟨trivial, rfl⟩))
  · exact ⟨natDigits (received body).length, by simp, natDigits_spec _⟩
  · exact ⟨natDigits (received body).length, by simp, natDigits_spec _⟩

/-! ### witnesses and examples -/

namespace Sample

/-- 2020-01-01T00:00:00Z -/
def newYear : Time := ⟨1577836800, 0, by decide, by decide⟩

/-- the same time for all, in central Europe in winter -/
def texts : Texts :=
  { gt := false, message := some b!"refused", zone := fun _ => ⟨60, by decide⟩, modified := fun _ _ => newYear, created := fun _ => newYear }

/-- the body of a response -/
def doc (o : Outcome Response) : Option Bytes := match o with
  | .ok r => r.body
  | _ => none

/-- what a client reads -/
def reads (o : Outcome Response) : Option (List XmlEntry) := (doc o).bind readXml

/-- a header of a response -/
def headerOf (o : Outcome Response) (n : Bytes) : Option Bytes := match o with
  | .ok r => (r.headers.find? fun p => p.1 == n).map (·.2)
  | _ => none

/-- list the bucket `aaa` -/
def list : Req := plain b!"GET" b!"/aaa" none [] []

end Sample

/-- the document that answers a listing -/
example : Sample.doc (responded Sample.cfg Sample.ext Sample.lib none Sample.env Sample.texts Sample.list Sample.fs) =
    some (b!"<?xml version=\"1.0\" encoding=\"UTF-8\"?><ListBucketResult><Contents><Key>x</Key>" ++
      b!"<LastModified>2020-01-01T01:00:00+01:00</LastModified><Size>5</Size></Contents><Name>aaa</Name></ListBucketResult>") := by decide +kernel

/-- an error document -/
example : Sample.doc (responded Sample.cfg Sample.ext Sample.lib none Sample.env Sample.texts (Sample.plain b!"GET" b!"/aaa/no" none [] []) Sample.fs) =
    some (b!"<?xml version=\"1.0\" encoding=\"UTF-8\"?><Error><Code>NoSuchKey</Code><Message>refused</Message></Error>") := by decide +kernel

/-- **C71** (negation) A stored key with a control character makes the listing of its bucket unreadable, and so does a delimiter with one; a
key with a carriage return is shown as another key. -/
theorem C71_listing_fails :
    ∃ (cfg : Cfg) (ext : Ext) (lib : Lib) (env : Env) (x : Texts) (fs : FS) (bad cr list delimiter : Req) (doc doc' doc'' : Bytes) (es : List XmlEntry),
      WF fs ∧ Sample.status (served cfg ext lib none env bad fs) = some 200 ∧ Sample.status (served cfg ext lib none env cr fs) = some 200 ∧
      Sample.doc (responded cfg ext lib none env x list (afterServed cfg ext lib none env bad fs)) = some doc ∧ readXml doc = none ∧
      Sample.doc (responded cfg ext lib none env x delimiter fs) = some doc' ∧ readXml doc' = none ∧
      Sample.doc (responded cfg ext lib none env x list (afterServed cfg ext lib none env cr fs)) = some doc'' ∧ readXml doc'' = some es ∧
      At cr (.object b!"aaa" b!"a\rb") ∧
      textsAt [b!"ListBucketResult", b!"Contents", b!"Key"] es = [b!"a\nb", b!"x"] ∧
      stored cfg (afterServed cfg ext lib none env cr fs) b!"aaa" b!"a\nb" = none := by
  refine ⟨Sample.cfg, Sample.ext, Sample.lib, Sample.env, Sample.texts, Sample.fs, Sample.plain b!"PUT" b!"/aaa/a%01" none [] [some b!"1"],
    Sample.plain b!"PUT" b!"/aaa/a%0Db" none [] [some b!"1"], Sample.list, Sample.plain b!"GET" b!"/aaa" (some b!"delimiter=%01") [] [],
    (Sample.doc (responded Sample.cfg Sample.ext Sample.lib none Sample.env Sample.texts Sample.list (afterServed Sample.cfg Sample.ext Sample.lib none Sample.env (Sample.plain b!"PUT" b!"/aaa/a%01" none [] [some b!"1"]) Sample.fs))).get (by decide +kernel),
    (Sample.doc (responded Sample.cfg Sample.ext Sample.lib none Sample.env Sample.texts (Sample.plain b!"GET" b!"/aaa" (some b!"delimiter=%01") [] []) Sample.fs)).get (by decide +kernel),
    (Sample.doc (responded Sample.cfg Sample.ext Sample.lib none Sample.env Sample.texts Sample.list (afterServed Sample.cfg Sample.ext Sample.lib none Sample.env (Sample.plain b!"PUT" b!"/aaa/a%0Db" none [] [some b!"1"]) Sample.fs))).get (by decide +kernel),
    (Sample.reads (responded Sample.cfg Sample.ext Sample.lib none Sample.env Sample.texts Sample.list (afterServed Sample.cfg Sample.ext Sample.lib none Sample.env (Sample.plain b!"PUT" b!"/aaa/a%0Db" none [] [some b!"1"]) Sample.fs))).get (by decide +kernel),
    Sample.fs_wf, by decide +kernel, by decide +kernel, by decide +kernel, by decide +kernel, by decide +kernel, by decide +kernel, by decide +kernel, by decide +kernel,
    ?_, by decide +kernel, by decide +kernel⟩
  exact ⟨b!"/aaa/a\rb", by decide +kernel, .object b!"aaa" b!"a\rb" (Sample.legal (by decide +kernel)) (by decide) (by decide)⟩

/-- **C75** (negation) A HEAD is answered without the `ETag` that the PUT and a GET of the same object give. -/
theorem C75_head_etag_fails :
    ∃ (cfg : Cfg) (ext : Ext) (lib : Lib) (env : Env) (x : Texts) (fs : FS) (put get head : Req), WF fs ∧
      At put (.object b!"aaa" b!"n") ∧ At get (.object b!"aaa" b!"n") ∧ At head (.object b!"aaa" b!"n") ∧
      put.method = b!"PUT" ∧ get.method = b!"GET" ∧ head.method = b!"HEAD" ∧
      Sample.headerOf (responded cfg ext lib none env x put fs) b!"etag" = some b!"\"md5:3\"" ∧
      Sample.headerOf (responded cfg ext lib none env x get (afterResponded cfg ext lib none env x put fs)) b!"etag" = some b!"\"md5:3\"" ∧
      Sample.headerOf (responded cfg ext lib none env x head (afterResponded cfg ext lib none env x put fs)) b!"content-length" = some b!"3" ∧
      Sample.headerOf (responded cfg ext lib none env x head (afterResponded cfg ext lib none env x put fs)) b!"etag" = none :=
  ⟨Sample.cfg, Sample.ext, Sample.lib, Sample.env, Sample.texts, Sample.fs, Sample.metaPut, Sample.plain b!"GET" b!"/aaa/n" none [] [],
    Sample.plain b!"HEAD" b!"/aaa/n" none [] [], Sample.fs_wf,
    Sample.at_object rfl (by decide +kernel) (by decide +kernel) (by decide) (by decide),
    Sample.at_object rfl (by decide +kernel) (by decide +kernel) (by decide) (by decide),
    Sample.at_object rfl (by decide +kernel) (by decide +kernel) (by decide) (by decide), rfl, rfl, rfl,
    by decide +kernel, by decide +kernel, by decide +kernel, by decide +kernel⟩

/-- a check of the keys of a bucket -/
def cleanCheck (cfg : Cfg) (fs : FS) (b : Bytes) : Bool :=
  checkBucketName b && fs.nodes.all fun e =>
    !((bucketDir cfg b).isPrefixOf e.1) || ((joinWith 47 (e.1.drop (bucketDir cfg b).length)).all fun c => decide (32 ≤ c ∧ c ≠ 62))

theorem cleanKeys_of {cfg : Cfg} {fs : FS} {b : Bytes} (h : cleanCheck cfg fs b = true) : CleanKeys cfg fs b := by
  simp only [cleanCheck, Bool.and_eq_true, List.all_eq_true] at h
  obtain ⟨h1, h4⟩ := h
  intro k cs hk hs
  rw [stored_plain h1 hk, contentAt] at hs
  split at hs
  · rename_i i hi
    have := h4 _ (mem_of_lookup (by simp) hi)
    have hp : (bucketDir cfg b).isPrefixOf (cfg.root ++ b :: cs) = true := isPrefixOf_iff.mpr ⟨cs, by simp [bucketDir]⟩
    have hd : (cfg.root ++ b :: cs).drop (bucketDir cfg b).length = cs := by
      rw [show cfg.root ++ b :: cs = bucketDir cfg b ++ cs by simp [bucketDir]]; simp
    simp only [hp, Bool.not_true, Bool.false_or, hd, List.all_eq_true] at this
    rw [hk.text]
    exact clean_of fun c hc => of_decide_eq_true (this c hc)
  · exact absurd rfl hs

theorem Sample.admit_of {r : Req} (h : (match admit Sample.lib none r with | .ok c => c.body == r.body | .error _ => false) = true) :
    ∃ c, admit Sample.lib none r = .ok c ∧ c.body = r.body := by
  cases hc : admit Sample.lib none r with
  | error e => rw [hc] at h; cases h
  | ok c => rw [hc] at h; exact ⟨c, rfl, by simpa using h⟩

theorem Sample.at_bucket {r : Req} {b : Bytes} (h1 : r.path = b!"/" ++ b) (h2 : urlDecode r.path = some r.path) (hb : checkBucketName b = true) :
    At r (.bucket b) := ⟨_, h2, h1 ▸ .bucket b ((C02_bucket_name_rule _).mp hb)⟩

theorem Sample.selects_of {r : Req} {names : List Bytes}
    (h : (subresources.all fun n => ((queryOf r).any fun p => p.1 == n) == names.contains n) = true) : Selects r names := by
  intro n hn
  have := List.all_eq_true.mp h n hn
  rw [beq_iff_eq] at this
  constructor
  · rintro ⟨v, hv⟩
    have : names.contains n = true := by
      rw [← this, List.any_eq_true]
      exact ⟨_, hv, by simp⟩
    simpa using this
  · intro hm
    have hc : ((queryOf r).any fun p => p.1 == n) = true := by
      rw [this]; simpa using hm
    rw [List.any_eq_true] at hc
    obtain ⟨p, hp, he⟩ := hc
    rw [beq_iff_eq] at he
    exact ⟨p.2, by rw [← he]; exact hp⟩

theorem Sample.no_query {r : Req} {n : Bytes} (h : ((queryOf r).all fun p => p.1 != n) = true) : QueryValue r n none := by
  rintro ⟨v, hv⟩
  have := List.all_eq_true.mp h _ hv
  simp at this

/-- list with the prefix `d/`, version 2 -/
def Sample.list2 : Req := Sample.plain b!"GET" b!"/aaa" (some b!"list-type=2&prefix=d%2F&delimiter=%2F") [] []

theorem Sample.fs3_wf : WF Sample.fs3 := wf_after Sample.fs_wf

/-- the hypotheses of C71 are met: a listing of the sample bucket -/
example : ∃ res es, responded Sample.cfg Sample.ext Sample.lib none Sample.env Sample.texts Sample.list Sample.fs3 = .ok res ∧ Shows res 200 es ∧
    ListingShows Sample.cfg Sample.fs3 Sample.texts.modified b!"aaa" none es := by
  obtain ⟨c, hc, hb⟩ := Sample.admit_of (r := Sample.list) (by decide +kernel)
  exact C71_listing_partial Sample.cfg Sample.ext Sample.lib none Sample.env hc (b := b!"aaa") (pfx := none)
    (.listObjects rfl (Sample.at_bucket rfl (by decide +kernel) (by decide +kernel)) (Sample.selects_none rfl)
      (Sample.no_query (by decide +kernel)) ⟨none, none, Sample.no_query (by decide +kernel), trivial⟩)
    Sample.texts Sample.fs3_wf (listable_of (by decide +kernel))
    (cleanKeys_of (by decide +kernel)) (by decide +kernel) (by
      intro n _ v hv
      cases hv)

/-- version 2, with a prefix and a delimiter -/
example : ∃ res es, responded Sample.cfg Sample.ext Sample.lib none Sample.env Sample.texts Sample.list2 Sample.fs3 = .ok res ∧ Shows res 200 es ∧
    ListingShows Sample.cfg Sample.fs3 Sample.texts.modified b!"aaa" (some b!"d/") es := by
  obtain ⟨c, hc, hb⟩ := Sample.admit_of (r := Sample.list2) (by decide +kernel)
  obtain ⟨res, es, h1, h2, h3, _⟩ := C71_listing_v2_partial Sample.cfg Sample.ext Sample.lib none Sample.env hc (b := b!"aaa") (pfx := some b!"d/")
    (.listObjectsV2 rfl (Sample.at_bucket rfl (by decide +kernel) (by decide +kernel)) (Sample.selects_of (by decide +kernel))
      (Sample.only_query (by decide +kernel) (by decide +kernel))
      (Sample.only_query (by decide +kernel) (by decide +kernel)) ⟨none, none, Sample.no_query (by decide +kernel), trivial⟩
      ⟨none, Sample.no_query (by decide +kernel), .inl rfl⟩)
    Sample.texts Sample.fs3_wf (listable_of (by decide +kernel))
    (cleanKeys_of (by decide +kernel)) (by decide +kernel) (by
      intro n hn v hv
      have : (queryOf Sample.list2).all (fun p => p.2.all fun c => decide (32 ≤ c ∧ c ≠ 62)) = true := by decide +kernel
      exact clean_all (List.all_eq_true.mp this _ hv))
  exact ⟨res, es, h1, h2, h3⟩

/-- the document of version 2 -/
example : Sample.reads (responded Sample.cfg Sample.ext Sample.lib none Sample.env Sample.texts Sample.list2 Sample.fs3) =
    some [([b!"ListBucketResult", b!"Contents", b!"Key"], b!"d/e"),
      ([b!"ListBucketResult", b!"Contents", b!"LastModified"], b!"2020-01-01T01:00:00+01:00"),
      ([b!"ListBucketResult", b!"Contents", b!"Size"], b!"7"), ([b!"ListBucketResult", b!"Contents"], []),
      ([b!"ListBucketResult", b!"Name"], b!"aaa"), ([b!"ListBucketResult", b!"Delimiter"], b!"/"),
      ([b!"ListBucketResult", b!"KeyCount"], b!"1"), ([b!"ListBucketResult"], [])] := by decide +kernel

/-- the hypotheses of C72 are met: a refused request among others -/
example : served Sample.cfg Sample.ext Sample.lib none Sample.env (Sample.plain b!"GET" b!"/aaa/no" none [] []) Sample.fs = .err .NoSuchKey ∧
    Sample.texts.message = some b!"refused" ∧ CleanText b!"refused" := ⟨by decide +kernel, rfl, clean_all (by decide +kernel)⟩

/-- the hypotheses of C75 are met -/
example : ∃ c cg ch res, admit Sample.lib none Sample.metaPut = .ok c ∧ admit Sample.lib none (Sample.plain b!"GET" b!"/aaa/n" none [] []) = .ok cg ∧
    admit Sample.lib none (Sample.plain b!"HEAD" b!"/aaa/n" none [] []) = .ok ch ∧
    Requests Sample.lib Sample.env Sample.metaPut c.body
      (.putObject ⟨b!"aaa", b!"n", some [some b!"abc"], some 3, some [(b!"a", b!"1"), (b!"b", b!"2")], none⟩) ∧
    Requests Sample.lib Sample.env (Sample.plain b!"GET" b!"/aaa/n" none [] []) cg.body (.getObject b!"aaa" b!"n" none Sample.env.wants) ∧
    Requests Sample.lib Sample.env (Sample.plain b!"HEAD" b!"/aaa/n" none [] []) ch.body (.headObject b!"aaa" b!"n") ∧
    responded Sample.cfg Sample.ext Sample.lib none Sample.env Sample.texts Sample.metaPut Sample.fs = .ok res ∧ res.status = 200 := by
  obtain ⟨c, hc, hb⟩ := Sample.admit_of (r := Sample.metaPut) (by decide +kernel)
  obtain ⟨cg, hcg, _⟩ := Sample.admit_of (r := Sample.plain b!"GET" b!"/aaa/n" none [] []) (by decide +kernel)
  obtain ⟨ch, hch, _⟩ := Sample.admit_of (r := Sample.plain b!"HEAD" b!"/aaa/n" none [] []) (by decide +kernel)
  refine ⟨c, cg, ch, ⟨200, [(b!"etag", b!"\"md5:3\"")], some []⟩, hc, hcg, hch, ?_, ?_, ?_, by decide +kernel, rfl⟩
  · rw [hb]; exact Sample.metaPut_requests Sample.env
  · exact .getObject rfl (Sample.at_object rfl (by decide +kernel) (by decide +kernel) (by decide) (by decide)) (Sample.selects_none rfl)
      (Sample.no_header (by decide +kernel))
  · exact .headObject rfl (Sample.at_object rfl (by decide +kernel) (by decide +kernel) (by decide) (by decide)) (Sample.selects_none rfl)

/-- the hypotheses of C73 are met: `k1` is not stored; `C26` shows the rest -/
example : ∃ c, admit Sample.lib none (Sample.plain b!"POST" b!"/aaa" (some b!"delete") [] [some Sample.delDoc]) = .ok c ∧
    Requests Sample.lib Sample.env (Sample.plain b!"POST" b!"/aaa" (some b!"delete") [] [some Sample.delDoc]) c.body (.deleteObjects b!"aaa" [b!"k1", b!"k2"]) := by
  obtain ⟨c, hc, hb⟩ := Sample.admit_of (r := Sample.plain b!"POST" b!"/aaa" (some b!"delete") [] [some Sample.delDoc]) (by decide +kernel)
  refine ⟨c, hc, ?_⟩
  rw [hb]
  refine .deleteObjects rfl (Sample.at_bucket rfl (by decide +kernel) (by decide +kernel)) (Sample.selects_of (by decide +kernel)) ?_
    (s := Sample.delDoc) ⟨show none ∉ _ by decide +kernel, by decide +kernel⟩ (by decide +kernel) ⟨none, Sample.no_header (by decide +kernel), .inl rfl⟩
  rintro x ⟨_, v, _, hv, _⟩
  cases hv

/-- what the client reads after a deletion of `k1` and `k2`, of which `k2` was stored -/
example : Sample.reads (responded Sample.cfg Sample.ext Sample.lib none Sample.env Sample.texts
      (Sample.plain b!"POST" b!"/aaa" (some b!"delete") [] [some Sample.delDoc])
      (afterServed Sample.cfg Sample.ext Sample.lib none Sample.env (Sample.plain b!"PUT" b!"/aaa/k2" none [] [some b!"1"]) Sample.fs)) =
    some [([b!"DeleteResult", b!"Deleted", b!"Key"], b!"k2"), ([b!"DeleteResult", b!"Deleted"], []), ([b!"DeleteResult"], [])] := by decide +kernel

/-- the hypotheses of C74 are met, and of C76 -/
example : (∃ c, admit Sample.lib none (Sample.plain b!"POST" b!"/aaa/n" (some b!"uploads") [] []) = .ok c ∧
      Requests Sample.lib Sample.env (Sample.plain b!"POST" b!"/aaa/n" (some b!"uploads") [] []) c.body (.createMultipartUpload Sample.env.uuid)) ∧
    CleanText Sample.env.uuid ∧
    (∃ c, admit Sample.lib none (Sample.plain b!"GET" b!"/" none [] []) = .ok c ∧
      Requests Sample.lib Sample.env (Sample.plain b!"GET" b!"/" none [] []) c.body .listBuckets) ∧ IsDir Sample.fs Sample.cfg.root := by
  obtain ⟨c, hc, _⟩ := Sample.admit_of (r := Sample.plain b!"POST" b!"/aaa/n" (some b!"uploads") [] []) (by decide +kernel)
  obtain ⟨c', hc', _⟩ := Sample.admit_of (r := Sample.plain b!"GET" b!"/" none [] []) (by decide +kernel)
  refine ⟨⟨c, hc, .createMultipartUpload rfl
    (Sample.at_object (b := b!"aaa") (k := b!"n") rfl (by decide +kernel) (by decide +kernel) (by decide) (by decide))
    (Sample.selects_of (by decide +kernel)) ?_⟩, clean_all (by decide +kernel),
    ⟨c', hc', .listBuckets rfl ⟨b!"/", by decide +kernel, .root⟩ (Sample.selects_none rfl)⟩, show Sample.fs.lookup _ = _ by decide +kernel⟩
  rintro x ⟨_, v, _, hv, _⟩
  cases hv

/-- the documents of C74 and C76 -/
example : Sample.reads (responded Sample.cfg Sample.ext Sample.lib none Sample.env Sample.texts
      (Sample.plain b!"POST" b!"/aaa/n" (some b!"uploads") [] []) Sample.fs) =
      some [([b!"InitialMultipartUploadResult", b!"Bucket"], b!"aaa"), ([b!"InitialMultipartUploadResult", b!"Key"], b!"n"),
        ([b!"InitialMultipartUploadResult", b!"UploadId"], b!"00000000-0000-4000-8000-000000000000"), ([b!"InitialMultipartUploadResult"], [])] ∧
    (Sample.reads (responded Sample.cfg Sample.ext Sample.lib none Sample.env Sample.texts (Sample.plain b!"GET" b!"/" none [] []) Sample.fs)).map
      (textsAt [b!"ListAllMyBucketsResult", b!"Buckets", b!"Bucket", b!"Name"]) = some [b!"bbb", b!"aaa"] :=
  ⟨by decide +kernel, by decide +kernel⟩

end S3
