import Verif.Lemmas.Looks
import Verif.Props.Pieces
import Verif.Props.Crawl
import Verif.Props.Response
/-! C130: listings on a server on which directories change while they are read. -/
namespace S3
open Spec

variable {cfg : Cfg} {ext : Ext} {lib : Lib} {auth : Option Provider}

/-- What a client reads in a listing of the objects of `b`; `during fs`: the file tree was like this at some moment meanwhile. The keys stand
in ascending order and start with the prefix. Each of them was stored at some moment, and the size beside it was that of what had this
name at some moment (the object, or a folder). An object that was stored at every moment stands there exactly once. The bucket was there
at some moment, and nothing is said to be left out. -/
def Spec.GlimpseShows (cfg : Cfg) (during : FS → Prop) (b : Bytes) (pfx : Option Bytes) (es : List XmlEntry) : Prop :=
  ∃ l : List (Bytes × Nat), l.Pairwise (fun x y => x.1 < y.1 ∨ x.1 = y.1) ∧
    (∀ k m, (k, m) ∈ l → matchesPrefix pfx k ∧ ∃ cs, PlainKey k cs ∧ (∃ fs, during fs ∧ stored cfg fs b k ≠ none) ∧
      ∃ fs, during fs ∧ ((∃ c, stored cfg fs b k = some c ∧ m = c.length) ∨ (IsDir fs (cfg.root ++ b :: cs) ∧ m = cfg.dirLen))) ∧
    (∀ k cs, PlainKey k cs → matchesPrefix pfx k → (∀ fs, during fs → stored cfg fs b k ≠ none) → (l.map (·.1)).count k = 1) ∧
    textsAt [b!"ListBucketResult", b!"Contents", b!"Key"] es = l.map (·.1) ∧
    Numerals (textsAt [b!"ListBucketResult", b!"Contents", b!"Size"] es) (l.map (·.2)) ∧
    textsAt [b!"ListBucketResult", b!"Name"] es = [b] ∧
    b!"true" ∉ textsAt [b!"ListBucketResult", b!"IsTruncated"] es ∧
    ∃ fs, during fs ∧ IsDir fs (bucketDir cfg b)

/-! ### from the answer to the response -/

theorem sees_wrap {J : FS → Prop} {R : Answer → Prop} {x : Texts} {c : Ctx} {h : Handler} {p : Prog Answer} (hs : Sees cfg J R (· = .InternalError) p) :
    Sees cfg J (fun res => res.status = 200 → ∃ a m, R a ∧ metadataHeaders a.meta = some m ∧ makeResponse x c h ⟨h.status, m, a⟩ = .ret res)
      (fun _ => True) (wrap x c h p) := by
  have err : ∀ e, e = S3ErrorCode.InternalError → ∃ res, errorResponse x e = .ret res ∧ res.status ≠ 200 := by
    rintro e rfl
    obtain ⟨res, hres⟩ := errorResponse_ret x .InternalError
    exact ⟨res, hres, by rw [errorResponse_status hres]; decide⟩
  induction p with
  | ret a =>
    rw [wrap, Prog.bind, respond]
    cases hm : metadataHeaders a.meta with
    | none =>
      obtain ⟨res, h1, h2⟩ := err _ rfl
      show Sees cfg J _ _ (errorResponse x .InternalError)
      rw [h1]
      exact fun h => absurd h h2
    | some m =>
      obtain ⟨res, hres, _⟩ := makeResponse_ret x c h ⟨h.status, m, a⟩
      simp only [Prog.bind, hres, Prog.catch]
      exact fun _ => ⟨a, m, hs, hm, hres⟩
  | fail e =>
    obtain ⟨res, h1, h2⟩ := err e hs
    show Sees cfg J _ _ (errorResponse x e)
    rw [h1]
    exact fun h => absurd h h2
  | sys c k ih => exact ⟨hs.1, fun r hr => ih r (hs.2 r hr)⟩
  | _ => trivial

/-- the document of a listing -/
theorem listing_document {x : Texts} {c : Ctx} {b : Bytes} (hp : c.path = .bucket b) (hb : LegalBucket b) {o : Op} {pfx : Option Bytes} {a : Answer}
    {l : List (Bytes × Nat)} (hl : Lists b pfx o a l) (hclean : ∀ o ∈ l, CleanText o.1) (hd : ∀ v, c.query b!"delimiter" = some v → CleanText v)
    (he : ∀ v, c.query b!"encoding-type" = some v → CleanText v) :
    ∃ res es, makeResponse x c o.handler ⟨o.handler.status, [], a⟩ = .ret res ∧ Shows res 200 es ∧
      textsAt [b!"ListBucketResult", b!"Contents", b!"Key"] es = l.map (·.1) ∧
      Numerals (textsAt [b!"ListBucketResult", b!"Contents", b!"Size"] es) (l.map (·.2)) ∧
      textsAt [b!"ListBucketResult", b!"Name"] es = [b] ∧ b!"true" ∉ textsAt [b!"ListBucketResult", b!"IsTruncated"] es := by
  obtain ⟨out, part⟩ := part_listing (gt := x.gt) (x := x) hclean (clean_bucket hb) hd he
  obtain ⟨t1, t2, t3, _, _, t6⟩ := listing_texts x l b (c.query b!"delimiter") (c.query b!"encoding-type")
  cases hl with
  | v1 =>
    obtain ⟨doc, d1, d2⟩ := part.rooted (n := b!"ListBucketResult") (by decide)
    obtain ⟨res, r1, r2⟩ := makeResponse_doc (x := x) (c := c) (h := .listObjects) (rep := ⟨200, [], .objects l⟩) (by
      simp only [document, Ctx.bucketName, hp]) d1 d2
    refine ⟨res, _, r1, r2, ?_, ?_, ?_, ?_⟩
    · rw [textsAt_append, textsAt_below, t1]; exact List.append_nil _
    · rw [textsAt_append, textsAt_below, t2]
      show Numerals (_ ++ []) _
      rw [List.append_nil]
      exact numerals_map _ l
    · rw [textsAt_append, textsAt_below, t3]; rfl
    · rw [textsAt_append, textsAt_below, t6]; exact fun h => nomatch h
  | v2 =>
    obtain ⟨doc, d1, d2⟩ := (part.append (Part.element (n := b!"KeyCount") (by decide) (clean_numeral l.length))).rooted
      (n := b!"ListBucketResult") (by decide)
    obtain ⟨res, r1, r2⟩ := makeResponse_doc (x := x) (c := c) (h := .listObjectsV2) (rep := ⟨200, [], .objectsV2 l.length l⟩) (by
      simp only [document, Ctx.bucketName, hp]) d1 d2
    refine ⟨res, _, r1, r2, ?_, ?_, ?_, ?_⟩
    · rw [textsAt_append, textsAt_below, textsAt_append, t1]
      show (_ ++ []) ++ [] = _
      simp
    · rw [textsAt_append, textsAt_below, textsAt_append, t2]
      show Numerals ((_ ++ []) ++ []) _
      rw [List.append_nil, List.append_nil]
      exact numerals_map _ l
    · rw [textsAt_append, textsAt_below, textsAt_append, t3]; rfl
    · rw [textsAt_append, textsAt_below, textsAt_append, t6]; exact fun h => nomatch h

/-! ### what the walk means -/

theorem sees_listing {J : FS → Prop} {b : Bytes} (hb : checkBucketName b = true) {pfx : Option Bytes} {o : Op} (ho : IsListing b pfx o) :
    Sees cfg J (fun a => ∃ l l₀ ps, Lists b pfx o a l ∧ l = isort objLe l₀ ∧ Strolled cfg J (bucketDir cfg b) pfx [bucketDir cfg b] l₀ ps)
      (· = .InternalError) (opProg cfg ext o) := by
  have hbp : bucketPath cfg b = some ⟨bucketDir cfg b, false⟩ := bucketPath_legal cfg hb
  obtain ⟨fuel, rfl | rfl⟩ := ho
  · simp only [opProg, listObjects, bind_eq, pure_eq, hbp]
    show Sees cfg J _ _ (((listLoop ..).bind _).bind _)
    refine Sees.bind (R := fun l => ∃ l₀ ps, l = isort objLe l₀ ∧ Strolled cfg J (bucketDir cfg b) pfx [bucketDir cfg b] l₀ ps)
      (Sees.bind (sees_listLoop fuel _) fun l ⟨ps, h⟩ => ⟨l, ps, rfl, h⟩) ?_
    rintro l ⟨l₀, ps, h1, h2⟩
    exact ⟨l, l₀, ps, .v1 _ _, h1, h2⟩
  · simp only [opProg, listObjectsV2, bind_eq, pure_eq, hbp]
    show Sees cfg J _ _ (((listLoop ..).bind _).bind _)
    refine Sees.bind (R := fun r => ∃ l₀ ps, r = (l₀.length, isort objLe l₀) ∧ Strolled cfg J (bucketDir cfg b) pfx [bucketDir cfg b] l₀ ps)
      (Sees.bind (sees_listLoop fuel _) ?_) ?_
    · rintro l ⟨ps, h⟩
      split
      · exact ⟨l, ps, rfl, h⟩
      · rfl
    · rintro _ ⟨l₀, ps, rfl, h2⟩
      refine ⟨isort objLe l₀, l₀, ps, ?_, rfl, h2⟩
      show Lists b pfx _ (.objectsV2 l₀.length (isort objLe l₀)) _
      rw [show l₀.length = (isort objLe l₀).length from (isort_perm objLe l₀).length_eq.symm]
      exact .v2 _ _

/-- a file below the bucket, at some moment -/
theorem seen_plain {J : FS → Prop} {b : Bytes} (hb : checkBucketName b = true) (ht : ∀ fs, J fs → TextKeys cfg fs b) {p : Path}
    (hpre : bucketDir cfg b <+: p) (hne : bucketDir cfg b ≠ p) (h : SeenFile J p) :
    ∃ cs, p = cfg.root ++ b :: cs ∧ PlainKey (relKey (bucketDir cfg b) p) cs ∧ ∃ fs, J fs ∧ stored cfg fs b (relKey (bucketDir cfg b) p) ≠ none := by
  obtain ⟨fs, i, hw, hj, hl⟩ := h
  obtain ⟨cs, h1, h2, _⟩ := file_plain hw (cfg := cfg) (b := b)
    (mem_sub.mpr ⟨mem_of_lookup (by rintro e; rw [e, lookup_nil] at hl; cases hl) hl, hpre, fun e => hne e.symm⟩)
  simp only at h1
  rw [h1] at hl ⊢
  have hs : stored cfg fs b (joinWith 47 cs) ≠ none := by rw [stored_plain hb h2, contentAt, hl]; simp
  have hkey : relKey (bucketDir cfg b) (cfg.root ++ b :: cs) = joinWith 47 cs := by
    rw [show cfg.root ++ b :: cs = bucketDir cfg b ++ cs by simp [bucketDir], relKey_eq]
    exact utf8Lossy_valid (ht fs hj _ _ h2 hs)
  rw [hkey]
  exact ⟨cs, rfl, h2, fs, hj, hs⟩

/-- **C130** A listing of objects that is answered 200 while any number of other requests - uploads, deletions, copies, creations and
deletions of buckets, other listings - are served in pieces and directories change while they are read: the document shows the objects that are there
all the time, each exactly once, and nothing that was not there at some moment between the request and the response. (Keys that are
not text or cannot be written in XML are `C20` and `C71`.) -/
theorem C130_listing {w : LookEpoch} (hs : w.Serves cfg ext lib auth) {fs : FS} (hw : WF fs) (hf : w.Faithful cfg fs) {n : Nat} {x : Exchange} {o : Op}
    {b : Bytes} {pfx : Option Bytes} (hn : w.requests[n]? = some x) (hx : Asks lib auth x o) (ho : IsListing b pfx o)
    (ht : ∀ fs', w.During cfg fs n fs' → TextKeys cfg fs' b ∧ CleanKeys cfg fs' b)
    (hq : ∀ m ∈ [b!"delimiter", b!"encoding-type"], ∀ v, (m, v) ∈ queryOf x.req → CleanText v)
    {res : Response} (h : w.response cfg fs n = some (.ok res)) (h200 : res.status = 200) :
    ∃ es, Shows res 200 es ∧ GlimpseShows cfg (w.During cfg fs n) b pfx es := by
  obtain ⟨c, hc, hr⟩ := hx
  have R := ready_of_admit hc
  have hp : c.path = .bucket b ∧ LegalBucket b := by
    obtain ⟨fuel, rfl | rfl⟩ := ho
    · cases hr with
      | listObjects _ hat _ _ _ =>
        refine ⟨R.bucket hat, ?_⟩
        obtain ⟨p, _, hp⟩ := hat
        cases hp <;> assumption
    · cases hr with
      | listObjectsV2 _ hat _ _ _ _ _ =>
        refine ⟨R.bucket hat, ?_⟩
        obtain ⟨p, _, hp⟩ := hat
        cases hp <;> assumption
  have hb := (C02_bucket_name_rule _).mpr hp.2
  have hlt := (List.getElem?_eq_some_iff.mp hn).1
  rw [← hs.1] at hlt
  have hpc := hs.2 n x _ hn (List.getElem?_eq_getElem hlt)
  rw [hyperCall_asks hc hr] at hpc
  obtain ⟨q', h1, h2⟩ := looks_sees hf hw (List.getElem?_eq_getElem hlt)
    (pieces_sees hpc _ rfl (sees_wrap (x := x.texts) (c := c) (h := o.handler) (sees_listing (ext := ext) hb ho))) w.glances.length
  rw [List.take_length] at h1
  rw [LookEpoch.response, h1] at h
  have hq' : q' = .ret res := by
    cases q' <;> simp [Prog.outcome] at h
    rw [h]
  subst hq'
  obtain ⟨a, m, ⟨l, l₀, ps, hl, hsort, hk⟩, hm, hmake⟩ := h2 h200
  have hsp := isort_perm objLe l₀
  have hkey : ∀ y ∈ ps, ∃ cs, y.1 = cfg.root ++ b :: cs ∧ PlainKey (relKey (bucketDir cfg b) y.1) cs ∧
      ∃ fs', w.During cfg fs n fs' ∧ stored cfg fs' b (relKey (bucketDir cfg b) y.1) ≠ none := fun y hy => by
    obtain ⟨d, hd, hpre, hne⟩ := hk.below y hy
    rw [List.mem_singleton.mp hd] at hpre hne
    exact seen_plain hb (fun fs' h => (ht fs' h).1) hpre hne (hk.match_ y hy).2.1
  have hm0 : m = [] := by cases hl <;> cases hm <;> rfl
  subst hm0
  obtain ⟨res', es, d1, d2, d3, d4, d5, d6⟩ := listing_document (x := x.texts) hp.1 hp.2 hl (by
      rintro ⟨k, m⟩ hkm
      rw [hsort, hsp.mem_iff, hk.objs] at hkm
      obtain ⟨y, hy, e⟩ := List.mem_map.mp hkm
      cases e
      obtain ⟨cs, h3, h4, fs', h5, h6⟩ := hkey y hy
      exact (ht fs' h5).2 _ _ h4 h6)
    (fun v hv => hq b!"delimiter" (by decide) v (R.query_mem _ _ hv)) (fun v hv => hq b!"encoding-type" (by decide) v (R.query_mem _ _ hv))
  rw [hmake] at d1
  cases d1
  refine ⟨es, d2, l, ?_, ?_, ?_, d3, d4, d5, d6, ?_⟩
  · rw [hsort]
    refine (isort_sorted (le := objLe) (fun a b c => bytesLe_trans a.1 b.1 c.1) (fun a b => bytesLe_total a.1 b.1) l₀).imp fun {y z} h1 => ?_
    exact (bytesLe_iff.mp h1).imp bytesCmp_lt_iff.mp id
  · intro k m hm
    rw [hsort, hsp.mem_iff, hk.objs] at hm
    obtain ⟨y, hy, e⟩ := List.mem_map.mp hm
    cases e
    obtain ⟨cs, h3, h4, fs', h5, h6⟩ := hkey y hy
    obtain ⟨k1, k2, fs₁, hw₁, hj₁, k3⟩ := hk.match_ y hy
    refine ⟨filteredOut_iff.mp k1, cs, h4, ⟨fs', h5, h6⟩, fs₁, hj₁, ?_⟩
    rw [stored_plain hb h4, ← h3]
    rcases k3 with ⟨i, k3, k4⟩ | ⟨k3, k4⟩
    · exact .inl ⟨_, by rw [contentAt, k3], k4⟩
    · exact .inr ⟨k3, k4⟩
  · intro k cs hpk hpfx hall
    have hpath : cfg.root ++ b :: cs = bucketDir cfg b ++ cs := by simp [bucketDir]
    have hkk : relKey (bucketDir cfg b) (cfg.root ++ b :: cs) = k := by
      have hnow : ∃ fs', w.During cfg fs n fs' := by
        obtain ⟨fs', _, h2, _⟩ := hk.open_ _ (List.mem_singleton.mpr rfl)
        exact ⟨fs', h2⟩
      obtain ⟨fs', h5⟩ := hnow
      rw [hpath, relKey_eq, ← hpk.text]
      exact utf8Lossy_valid ((ht fs' h5).1 _ _ hpk (hall fs' h5))
    have hcount := hk.lasting (cfg.root ++ b :: cs) (fun fs' hw' hj' => by
        have := hall fs' hj'
        rw [stored_plain hb hpk, contentAt] at this
        split at this
        · exact ⟨_, by assumption⟩
        · exact absurd rfl this) (by rw [hkk]; exact filteredOut_iff.mpr hpfx)
    rw [hsort, (hsp.map _).count_eq, hk.objs, List.map_map]
    have h1 : [bucketDir cfg b].countP (aboveB (cfg.root ++ b :: cs)) = 1 := by
      rw [List.countP_cons, if_pos (aboveB_iff.mpr ⟨⟨cs, hpath.symm⟩, by
        rw [hpath]; intro e; exact hpk.nonempty (List.self_eq_append_right.mp e)⟩)]
      rfl
    rw [h1] at hcount
    rw [← hcount, List.count_eq_countP, List.count_eq_countP, List.countP_map, List.countP_map]
    refine List.countP_congr fun y hy => ?_
    obtain ⟨cs', h3, h4, _⟩ := hkey y hy
    simp only [Function.comp, beq_iff_eq]
    constructor
    · intro e
      rw [e] at h4
      rw [h3, plainKey_unique h4 hpk]
    · intro e
      rw [e, hkk]
  · obtain ⟨fs', _, h2, h3⟩ := hk.open_ _ (List.mem_singleton.mpr rfl)
    exact ⟨fs', h2, h3⟩

theorem legal_lossy {b : Bytes} (h : checkBucketName b = true) : utf8Lossy b = b :=
  utf8Lossy_valid (utf8Valid_ascii fun c hc => by
    rcases ((C02_bucket_name_rule _).mp h).chars c hc with (⟨_, h⟩ | ⟨_, h⟩) | h | h
    · exact UInt8.lt_of_le_of_lt h (by decide)
    · exact UInt8.lt_of_le_of_lt h (by decide)
    · rw [h]; decide
    · rw [h]; decide)

/-- **C130** Likewise ListBuckets: a bucket that is there all the time is named exactly once, and each name that stands there is a legal name
and that of a directory that was there at some moment. -/
theorem C130_buckets {w : LookEpoch} (hs : w.Serves cfg ext lib auth) {fs : FS} (hw : WF fs) (hf : w.Faithful cfg fs) {n : Nat} {x : Exchange}
    (hn : w.requests[n]? = some x) (hx : Asks lib auth x .listBuckets) {res : Response} (h : w.response cfg fs n = some (.ok res)) (h200 : res.status = 200) :
    ∃ es l, Shows res 200 es ∧ textsAt [b!"ListAllMyBucketsResult", b!"Buckets", b!"Bucket", b!"Name"] es = l ∧
      (∀ b ∈ l, LegalBucket b ∧ ∃ fs', w.During cfg fs n fs' ∧ IsDir fs' (bucketDir cfg b)) ∧
      ∀ b, LegalBucket b → (∀ fs', w.During cfg fs n fs' → IsDir fs' (bucketDir cfg b)) → l.count b = 1 := by
  obtain ⟨c, hc, hr⟩ := hx
  have hlt := (List.getElem?_eq_some_iff.mp hn).1
  rw [← hs.1] at hlt
  have hpc := hs.2 n x _ hn (List.getElem?_eq_getElem hlt)
  rw [hyperCall_asks hc hr] at hpc
  have hsees : Sees cfg (w.During cfg fs n) (fun a => ∃ l, a = .buckets l ∧ ∃ es, Glimpse (fun fs' => WF fs' ∧ w.During cfg fs n fs') cfg.root es ∧
      l = (es.filter fun e => e.2 && checkBucketName (utf8Lossy e.1)).map fun e => utf8Lossy e.1) (· = .InternalError) (opProg cfg ext .listBuckets) :=
    Sees.bind sees_listBuckets fun l hl => ⟨l, rfl, hl⟩
  obtain ⟨q', h1, h2⟩ := looks_sees hf hw (List.getElem?_eq_getElem hlt)
    (pieces_sees hpc _ rfl (sees_wrap (x := x.texts) (c := c) (h := Op.handler .listBuckets) hsees)) w.glances.length
  rw [List.take_length] at h1
  rw [LookEpoch.response, h1] at h
  have hq' : q' = .ret res := by
    cases q' <;> simp [Prog.outcome] at h
    rw [h]
  subst hq'
  obtain ⟨a, m, ⟨l, rfl, es, hg, hl⟩, hm, hmake⟩ := h2 h200
  cases hm
  have hmem : ∀ b ∈ l, LegalBucket b ∧ ∃ fs', w.During cfg fs n fs' ∧ IsDir fs' (bucketDir cfg b) := by
    intro b hb
    rw [hl] at hb
    obtain ⟨⟨m, t⟩, he, rfl⟩ := List.mem_map.mp hb
    obtain ⟨he1, he2⟩ := List.mem_filter.mp he
    simp only [Bool.and_eq_true] at he2
    obtain ⟨rfl, he3⟩ := he2
    obtain ⟨fs', ⟨_, hd⟩, nd, h3, h4⟩ := hg.entry _ he1
    refine ⟨(C02_bucket_name_rule _).mp he3, fs', hd, ?_⟩
    dsimp only at h3 h4 ⊢
    rw [IsDir, bucketDir, legal_ascii he3, h3]
    cases nd with
    | dir => rfl
    | file i => simp at h4
  let g : Bytes → List XmlEntry := fun n => [([b!"Bucket", b!"CreationDate"], x.texts.timeText (x.texts.created n)), ([b!"Bucket", b!"Name"], n), ([b!"Bucket"], [])]
  obtain ⟨o1, p1⟩ := Part.flatMap (gt := x.texts.gt)
    (f := fun n => stackEvents b!"Bucket" (elementEvents b!"CreationDate" (x.texts.timeText (x.texts.created n)) ++ elementEvents b!"Name" n)) (g := g) l fun n hn =>
      ((Part.element (n := b!"CreationDate") (by decide) (clean_timeText x.texts _)).append
        (Part.element (n := b!"Name") (by decide) (clean_bucket (hmem n hn).1))).stack (n := b!"Bucket") (by decide)
  obtain ⟨o2, p2⟩ := p1.stack (n := b!"Buckets") (by decide)
  obtain ⟨doc, d1, d2⟩ := p2.rooted (n := b!"ListAllMyBucketsResult") (by decide)
  obtain ⟨res', r1, r2⟩ := makeResponse_doc (x := x.texts) (c := c) (h := .listBuckets) (rep := ⟨200, [], .buckets l⟩) rfl d1 d2
  have hmake : makeResponse x.texts c .listBuckets ⟨200, [], .buckets l⟩ = .ret res := hmake
  rw [hmake] at r1
  cases r1
  refine ⟨_, l, r2, ?_, hmem, ?_⟩
  · rw [textsAt_append, textsAt_below, textsAt_append, textsAt_below, textsAt_flatMap (f := fun n => [n]) (fun n => rfl), flatMap_one]
    show (_ ++ []) ++ [] = _
    simp
  · intro b hb hall
    have h3 := glimpse_once hg (n := b) (t := true) fun fs' _ hj => ⟨.dir, hall fs' hj, rfl⟩
    have hb' := (C02_bucket_name_rule _).mpr hb
    rw [hl, List.count_eq_countP, List.countP_map, List.countP_filter, List.countP_eq_length_filter]
    have h4 : (es.filter fun e => (((· == b) ∘ fun e => utf8Lossy e.1) e && (e.2 && checkBucketName (utf8Lossy e.1)))) = (es.filter fun e => e.1 == b).filter (·.2) := by
      rw [List.filter_filter]
      refine List.filter_congr fun e _ => ?_
      simp only [Function.comp]
      by_cases h5 : e.1 = b
      · subst h5
        simp [legal_lossy hb', hb']
      · by_cases h6 : utf8Lossy e.1 = b
        · exact absurd ((legal_ascii (h6 ▸ hb')).symm.trans h6) h5
        · rw [beq_eq_false_iff_ne.mpr h5, beq_eq_false_iff_ne.mpr h6, Bool.false_and, Bool.and_false]
    rw [h4, h3]
    rfl

/-! ### the others -/

open Classical in
/-- **C130** The requests beside the listings do what they would do without them: there is a run of the server on which they are served with the same
strides, in which no directory is read while it changes (so that `C129` speaks about it), with the same responses and with the same file
tree at the end. -/
theorem C130_others {w : LookEpoch} (hs : w.Serves cfg ext lib auth) {fs : FS} (hw : WF fs)
    (hl : ∀ n es, (n, .look es) ∈ w.glances → ∀ x, w.requests[n]? = some x → ∃ o, Listing o ∧ Asks lib auth x o) :
    ∃ v : PieceEpoch, v.requests = w.requests ∧ v.Serves cfg ext lib auth ∧ v.leaves cfg fs = w.leaves cfg fs ∧
      (∀ n, (∀ es, (n, .look es) ∉ w.glances) → v.response cfg fs n = w.response cfg fs n ∧ ∀ s, (n, s) ∈ v.strides ↔ (n, .stride s) ∈ w.glances) := by
  let L : Nat → Bool := fun n => decide (∃ es, (n, Glance.look es) ∈ w.glances)
  have hL : ∀ n, L n = true ↔ ∃ es, (n, Glance.look es) ∈ w.glances := fun n => by simp [L]
  obtain ⟨h1, h2⟩ := without_looks (cfg := cfg) (L := L) w.glances (ps := w.threads) (ps' := w.threads) hw (fun i es h => (hL i).mpr ⟨es, h⟩)
    (fun i p hi hp => by
      obtain ⟨es, he⟩ := (hL i).mp hi
      have hlt := (List.getElem?_eq_some_iff.mp hp).1
      rw [hs.1] at hlt
      obtain ⟨o, ho, c, hc, hr⟩ := hl i es he _ (List.getElem?_eq_getElem hlt)
      have hpc := hs.2 i _ p (List.getElem?_eq_getElem hlt) hp
      rw [hyperCall_asks hc hr] at hpc
      exact pieces_safe closed_looking hpc ((through_wrap _ c o.handler).2 _ _ (looking_op ho)))
    rfl (fun _ _ => rfl)
  refine ⟨⟨w.requests, w.threads, kept L w.glances⟩, rfl, hs, h1, fun n hn => ?_⟩
  have hLn : L n = false := by
    rw [Bool.eq_false_iff]
    intro h
    obtain ⟨es, he⟩ := (hL n).mp h
    exact hn es he
  refine ⟨?_, fun s => ?_⟩
  · show (runParS cfg _ _ fs).1[n]?.bind _ = _
    rw [h2 n hLn]
    rfl
  · simp only [kept, List.mem_filterMap]
    constructor
    · rintro ⟨⟨i, g⟩, hg, h3⟩
      cases g with
      | look es => cases h3
      | stride s' =>
        dsimp only at h3
        split at h3
        · cases h3
        · cases h3; exact hg
    · intro h
      exact ⟨_, h, by simp [hLn]⟩

/-! ### witnesses and examples -/

/-- a check of what is found in a directory -/
def Sample.glimpseCheck (w : LookEpoch) (fs : FS) (d : Path) (es : List (Bytes × Bool)) (s u : Nat) : Bool :=
  let trees := ((List.range (u + 1)).filter fun i => decide (s ≤ i)).map fun i => w.tree Sample.cfg fs i
  decide (s ≤ u) && trees.any (fun f => f.lookup d == some .dir) && es.all (fun e => trees.any fun f => (dirEntries (f.kids d)).contains e) &&
    (dirEntries ((w.tree Sample.cfg fs s).kids d)).all fun e =>
      trees.any (fun f => (dirEntries (f.kids d)).all fun e' => e'.1 != e.1) || es.any fun e' => es.filter (fun e => e.1 == e'.1) == [(e.1, e'.2)]

theorem Sample.glimpse_of {w : LookEpoch} {fs : FS} (hw : WF fs) {d : Path} {es : List (Bytes × Bool)} {s u : Nat}
    (h : Sample.glimpseCheck w fs d es s u = true) : Glimpse (fun fs' => ∃ i, s ≤ i ∧ i ≤ u ∧ fs' = w.tree Sample.cfg fs i) d es := by
  simp only [Sample.glimpseCheck, Bool.and_eq_true, decide_eq_true_eq, List.any_eq_true, List.all_eq_true, List.mem_map, List.mem_filter,
    List.mem_range, Bool.or_eq_true, beq_iff_eq, List.contains_iff_mem] at h
  obtain ⟨⟨⟨hsu, fs', ⟨i, ⟨hi, hi'⟩, rfl⟩, hd⟩, he⟩, ho⟩ := h
  have wf : ∀ i, WF (w.tree Sample.cfg fs i) := fun i => runParL_wf hw
  refine ⟨⟨_, ⟨i, hi', by omega, rfl⟩, hd⟩, fun e hm => ?_, fun n hn => ?_⟩
  · obtain ⟨_, ⟨i, ⟨hi, hi'⟩, rfl⟩, h2⟩ := he e hm
    exact ⟨_, ⟨i, hi', by omega, rfl⟩, (mem_readDir (wf i)).mp h2⟩
  · obtain ⟨t, ht⟩ := hn _ ⟨s, Nat.le_refl _, hsu, rfl⟩
    rcases ho (n, t) ((mem_readDir (wf s)).mpr ht) with ⟨_, ⟨i, ⟨hi, hi'⟩, rfl⟩, h2⟩ | ⟨e', he', h2⟩
    · obtain ⟨t', ht'⟩ := hn _ ⟨i, hi', by omega, rfl⟩
      have := h2 (n, t') ((mem_readDir (wf i)).mpr ht')
      simp at this
    · have h3 : e' ∈ es.filter (fun e => e.1 == e'.1) := List.mem_filter.mpr ⟨he', beq_self_eq_true _⟩
      rw [h2, List.mem_singleton] at h3
      have h4 : e'.1 = n := by rw [h3]
      rw [h4] at h2
      exact ⟨_, h2⟩

/-- some requests, served in pieces on a server on which directories change while they are read -/
def Sample.lookRun (xs : List Exchange) (glances : List (Nat × Glance)) : LookEpoch :=
  ⟨xs, (Sample.chopRun xs []).threads, glances, fun _ => 0, fun _ => glances.length⟩

theorem Sample.lookRun_serves (xs : List Exchange) (glances : List (Nat × Glance)) :
    (Sample.lookRun xs glances).Serves Sample.cfg Sample.ext Sample.lib none := Sample.chopRun_serves xs []

theorem Sample.lookRun_faithful {xs : List Exchange} {glances : List (Nat × Glance)} {fs : FS} (hw : WF fs) {d : Path}
    (hd : ∀ (t n : Nat) es p k, glances[t]? = some (n, .look es) →
      (runParL Sample.cfg (glances.take t) (Sample.lookRun xs glances).threads fs).1[n]? = some (.sys (.readDir p) k) →
      p.comps = d ∧ Sample.glimpseCheck (Sample.lookRun xs glances) fs d es 0 glances.length = true) :
    (Sample.lookRun xs glances).Faithful Sample.cfg fs := by
  refine ⟨fun t n g hg => ⟨Nat.zero_le _, (List.getElem?_eq_some_iff.mp hg).1⟩, fun t n es p k hg hp => ?_⟩
  obtain ⟨rfl, h⟩ := hd t n es p k hg hp
  have hlt : t < glances.length := (List.getElem?_eq_some_iff.mp hg).1
  exact ⟨0, glances.length, Nat.le_refl _, Nat.zero_le _, Nat.le_of_lt hlt, Nat.le_refl _, Sample.glimpse_of hw h⟩

def Sample.strides (n m : Nat) : List (Nat × Glance) := List.replicate m (n, .stride (.call .none))

def Sample.webList : Exchange := Sample.exchange Sample.list

theorem Sample.webList_asks : Asks Sample.lib none Sample.webList (.listObjects b!"aaa" none Sample.env.fuel) :=
  Sample.asks (by decide +kernel) (.listObjects rfl (Sample.at_bucket rfl (by decide +kernel) (by decide +kernel)) (Sample.selects_none rfl)
    (Sample.no_query (by decide +kernel)) ⟨none, none, Sample.no_query (by decide +kernel), trivial⟩)

theorem Sample.webBuckets_asks : Asks Sample.lib none Sample.webBuckets .listBuckets :=
  Sample.asks (by decide +kernel) (.listBuckets rfl ⟨b!"/", by decide +kernel, .root⟩ (Sample.selects_none rfl))

/-- While the bucket is read, `x` is deleted and stored anew. It is found before and after, and `d` is found once. -/
def Sample.twiceRun : LookEpoch := Sample.lookRun [Sample.webList, Sample.webDelete, Sample.webPut]
  (Sample.strides 1 1 ++ Sample.strides 2 8 ++ [(0, .look [(b!"x", false), (b!"d", true), (b!"x", false)])] ++ Sample.strides 0 4)

/-- what a thread waits for -/
def Sample.waits : Option (Prog Response) → Option Path
  | some (.sys (.readDir p) _) => some p.comps
  | _ => none

theorem Sample.waits_of {o : Option (Prog Response)} {p : OsPath} {k} (h : o = some (.sys (.readDir p) k)) {d : Path} (hd : Sample.waits o = some d) :
    p.comps = d := by
  subst h
  exact Option.some.inj hd

theorem Sample.twice_faithful : Sample.twiceRun.Faithful Sample.cfg Sample.fs3 := by
  refine Sample.lookRun_faithful Sample.fs3_wf (d := Sample.cfg.root ++ [b!"aaa"]) fun t n es p k hg hp => ?_
  have ht : t = 9 := by
    by_cases h : t < 14
    · have h0 : ∀ t < 14, t ≠ 9 → (match (Sample.twiceRun.glances)[t]? with | some (_, .look _) => true | _ => false) = false := by decide +kernel
      refine Classical.byContradiction fun hne => ?_
      have := h0 t h hne
      rw [show Sample.twiceRun.glances[t]? = _ from hg] at this
      exact nomatch this
    · rw [List.getElem?_eq_none (by simp [Sample.strides]; omega)] at hg
      cases hg
  subst ht
  cases hg
  exact ⟨Sample.waits_of hp (by decide +kernel), by decide +kernel⟩

/-- the response to the listing -/
def Sample.firstAnswer (w : LookEpoch) (fs : FS) : Response := match w.response Sample.cfg fs 0 with
  | some (.ok r) => r
  | _ => ⟨0, [], none⟩

/-- **C130** (negation) An object that is replaced while its bucket is listed can be shown twice. -/
theorem C130_twice_fails : ∃ (cfg : Cfg) (ext : Ext) (lib : Lib) (fs : FS) (w : LookEpoch) (x : Exchange) (res : Response) (es : List XmlEntry),
    WF fs ∧ w.Serves cfg ext lib none ∧ w.Faithful cfg fs ∧ w.requests[0]? = some x ∧
    Asks lib none x (.listObjects b!"aaa" none x.env.fuel) ∧ w.response cfg fs 0 = some (.ok res) ∧ Shows res 200 es ∧
    textsAt [b!"ListBucketResult", b!"Contents", b!"Key"] es = [b!"d/e", b!"x", b!"x"] :=
  ⟨Sample.cfg, Sample.ext, Sample.lib, Sample.fs3, Sample.twiceRun, Sample.webList, Sample.firstAnswer Sample.twiceRun Sample.fs3,
    ((Sample.firstAnswer Sample.twiceRun Sample.fs3).body.bind readXml).get (by decide +kernel), Sample.fs3_wf, Sample.lookRun_serves _ _,
    Sample.twice_faithful, rfl, Sample.webList_asks, by decide +kernel,
    ⟨by decide +kernel, by decide +kernel, (Sample.firstAnswer Sample.twiceRun Sample.fs3).body.get (by decide +kernel), by decide +kernel, by decide +kernel⟩,
    by decide +kernel⟩

/-- the hypotheses of `C130_listing` are met by this run, and of `C130_others` -/
example : (∃ es, Shows (Sample.firstAnswer Sample.twiceRun Sample.fs3) 200 es ∧
      GlimpseShows Sample.cfg (Sample.twiceRun.During Sample.cfg Sample.fs3 0) b!"aaa" none es) ∧
    ∃ v : PieceEpoch, v.requests = Sample.twiceRun.requests ∧ v.Serves Sample.cfg Sample.ext Sample.lib none ∧
      v.leaves Sample.cfg Sample.fs3 = Sample.twiceRun.leaves Sample.cfg Sample.fs3 ∧
      v.response Sample.cfg Sample.fs3 2 = Sample.twiceRun.response Sample.cfg Sample.fs3 2 := by
  have all : ∀ i < 15, listableCheck Sample.cfg (Sample.twiceRun.tree Sample.cfg Sample.fs3 i) b!"aaa" = true ∧
      cleanCheck Sample.cfg (Sample.twiceRun.tree Sample.cfg Sample.fs3 i) b!"aaa" = true := by decide +kernel
  refine ⟨C130_listing (ext := Sample.ext) (lib := Sample.lib) (auth := none) (x := Sample.webList) (Sample.lookRun_serves _ _) Sample.fs3_wf Sample.twice_faithful rfl
    Sample.webList_asks ⟨_, .inl rfl⟩ ?_ ?_ (by decide +kernel) (by decide +kernel), ?_⟩
  · rintro _ ⟨i, _, hi, rfl⟩
    have hi : i ≤ 14 := hi
    exact ⟨(listable_of (all i (by omega)).1).text, cleanKeys_of (all i (by omega)).2⟩
  · intro m _ v hv
    cases hv
  · obtain ⟨v, h1, h2, h3, h4⟩ := C130_others (w := Sample.twiceRun) (Sample.lookRun_serves _ _) Sample.fs3_wf (by
      intro n es h x hx
      have hn : n = 0 := by
        simp [Sample.twiceRun, Sample.lookRun, Sample.strides] at h
        exact h.1
      subst hn
      cases hx
      exact ⟨.listObjects b!"aaa" none Sample.env.fuel, trivial, Sample.webList_asks⟩)
    refine ⟨v, h1, h2, h3, (h4 2 fun es h => ?_).1⟩
    simp [Sample.twiceRun, Sample.lookRun, Sample.strides] at h

/-- While the root is read, `ccc` is created and `bbb` deleted; `ccc` is found and `bbb` not, though it is deleted only after `aaa` and `ccc` are
found. -/
def Sample.allRun : LookEpoch := Sample.lookRun [Sample.webBuckets, Sample.webMake, Sample.webDrop]
  (Sample.strides 1 2 ++ [(0, .look [(b!"ccc", true), (b!"aaa", true)])] ++ Sample.strides 2 1 ++ Sample.strides 0 2)

theorem Sample.all_faithful : Sample.allRun.Faithful Sample.cfg Sample.fs := by
  refine Sample.lookRun_faithful Sample.fs_wf (d := Sample.cfg.root) fun t n es p k hg hp => ?_
  have ht : t = 2 := by
    by_cases h : t < 6
    · have h0 : ∀ t < 6, t ≠ 2 → (match (Sample.allRun.glances)[t]? with | some (_, .look _) => true | _ => false) = false := by decide +kernel
      refine Classical.byContradiction fun hne => ?_
      have := h0 t h hne
      rw [show Sample.allRun.glances[t]? = _ from hg] at this
      exact nomatch this
    · rw [List.getElem?_eq_none (by simp [Sample.strides]; omega)] at hg
      cases hg
  subst ht
  cases hg
  exact ⟨Sample.waits_of hp (by decide +kernel), by decide +kernel⟩

/-- the hypotheses of `C130_buckets` are met -/
example : WF Sample.fs ∧ Sample.allRun.Serves Sample.cfg Sample.ext Sample.lib none ∧ Sample.allRun.Faithful Sample.cfg Sample.fs ∧
    Sample.allRun.requests[0]? = some Sample.webBuckets ∧ Asks Sample.lib none Sample.webBuckets .listBuckets ∧
    Sample.allRun.response Sample.cfg Sample.fs 0 = some (.ok (Sample.firstAnswer Sample.allRun Sample.fs)) ∧
    (Sample.firstAnswer Sample.allRun Sample.fs).status = 200 ∧
    ((Sample.firstAnswer Sample.allRun Sample.fs).body.bind readXml).map
      (textsAt [b!"ListAllMyBucketsResult", b!"Buckets", b!"Bucket", b!"Name"]) = some [b!"ccc", b!"aaa"] :=
  ⟨Sample.fs_wf, Sample.lookRun_serves _ _, Sample.all_faithful, rfl, Sample.webBuckets_asks, by decide +kernel, by decide +kernel, by decide +kernel⟩

end S3
