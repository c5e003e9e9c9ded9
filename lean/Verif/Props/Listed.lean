import Verif.Props.Paging
import Verif.Props.Clock
/-! C116: what is listed can be read, what can be read is listed. -/
namespace S3
open Spec

variable (cfg : Cfg) (ext : Ext) (lib : Lib) (auth : Option Provider) (env : Env)

/-- the metadata of the object can be read and sent -/
def Spec.MetaFine (cfg : Cfg) (ext : Ext) (fs : FS) (b k : Bytes) : Prop :=
  ∃ m, storedMeta cfg ext fs b k = some m ∧ ∀ l, m = some l → ∀ p ∈ l, Sendable (b!"x-amz-meta-" ++ p.1) p.2

/-- **C116** (partial) A client that lists a bucket, by either kind of listing, and then asks for what it has seen: every key in the listing
can be read, by a GET that is answered 200 with as many bytes as the listing says (and so announced in `Content-Length`) and by a HEAD that
announces them; and every key that a GET of which is answered 200 is in the listing, if it has the prefix. Missing from the full property: keys
that are other spellings of a place (dot components, doubled slashes), for which the second half is false, see `C116_unlisted_fails`; contents
larger than an `i64`; metadata that cannot be sent, see C64; texts with control characters or `]]>`, as in C71. -/
theorem C116_listed_partial {b : Bytes} {pfx : Option Bytes} {r : Req} {c : Ctx} (hc : admit lib auth r = .ok c)
    (ho : Requests lib env r c.body (.listObjects b pfx env.fuel) ∨ Requests lib env r c.body (.listObjectsV2 b pfx env.fuel)) (x : Texts)
    {fs : FS} (hw : WF fs) (hl : Listable cfg fs b) (hk : CleanKeys cfg fs b) (hf : fs.nodes.length < env.fuel)
    (hq : ∀ n ∈ [b!"delimiter", b!"encoding-type"], ∀ v, (n, v) ∈ queryOf r → CleanText v) :
    ∃ res es, responded cfg ext lib auth env x r fs = .ok res ∧ Shows res 200 es ∧
      (∀ (i : Nat) (k s : Bytes), (textsAt [b!"ListBucketResult", b!"Contents", b!"Key"] es)[i]? = some k →
        (textsAt [b!"ListBucketResult", b!"Contents", b!"Size"] es)[i]? = some s → MetaFine cfg ext fs b k →
        ∃ n, IsNumeral s n ∧ (n ≤ i64Max →
          (∀ (g : Req) (cg : Ctx) (xg : Texts), admit lib auth g = .ok cg → Requests lib env g cg.body (.getObject b k none env.wants) →
            ∃ resg content, responded cfg ext lib auth env xg g fs = .ok resg ∧ resg.status = 200 ∧ resg.body = some content ∧ content.length = n ∧
              ∃ v, (b!"content-length", v) ∈ resg.headers ∧ IsNumeral v n) ∧
          ∀ (g : Req) (cg : Ctx) (xg : Texts), admit lib auth g = .ok cg → Requests lib env g cg.body (.headObject b k) →
            ∃ resg, responded cfg ext lib auth env xg g fs = .ok resg ∧ resg.status = 200 ∧
              ∃ v, (b!"content-length", v) ∈ resg.headers ∧ IsNumeral v n)) ∧
      ∀ (k : Bytes) (cs : Path) (range : Option Bytes) (g : Req) (cg : Ctx) (xg : Texts) (resg : Response), PlainKey k cs → matchesPrefix pfx k →
        admit lib auth g = .ok cg → Requests lib env g cg.body (.getObject b k range env.wants) →
        responded cfg ext lib auth env xg g fs = .ok resg → resg.status = 200 →
        k ∈ textsAt [b!"ListBucketResult", b!"Contents", b!"Key"] es := by
  have key : ∃ res es, responded cfg ext lib auth env x r fs = .ok res ∧ Shows res 200 es ∧ ListingShows cfg fs x.modified b pfx es := by
    rcases ho with ho | ho
    · exact C71_listing_partial cfg ext lib auth env hc ho x hw hl hk hf hq
    · obtain ⟨res, es, h1, h2, h3, _⟩ := C71_listing_v2_partial cfg ext lib auth env hc ho x hw hl hk hf hq
      exact ⟨res, es, h1, h2, h3⟩
  obtain ⟨res, es, h1, h2, l, hs, hm, t1, t2, _, _, _⟩ := key
  refine ⟨res, es, h1, h2, fun i k s hki hsi hmeta => ?_, fun k cs range g cg xg resg hp hpf hcg hog hr hst => ?_⟩
  · rw [t1] at hki
    rw [List.getElem?_map, Option.map_eq_some_iff] at hki
    obtain ⟨⟨k', n⟩, hi, rfl⟩ := hki
    refine ⟨n, t2.2 i s n hsi (by rw [List.getElem?_map, hi]; rfl), fun hn => ?_⟩
    obtain ⟨cs, content, g1, g2, rfl, _⟩ := (hm k' n).mp (List.mem_of_getElem? hi)
    obtain ⟨md, hmd, hsend⟩ := hmeta
    obtain ⟨a1, a2⟩ := get_stored (cfg := cfg) (ext := ext) g2 hmd hn env.wants
    refine ⟨fun g cg xg hcg hog => ?_, fun g cg xg hcg hog => ?_⟩
    · obtain ⟨t, _, hh⟩ := get_headers xg cg content.length md (quoted (ext.md5hex content)) (some content)
      refine ⟨_, content, (responded_of hcg hog xg fs).2.2 _ a1 md rfl hsend _ (by
        simp only [makeResponse, Op.handler, hh, document, Answer.content]; rfl), rfl, rfl, rfl, natDigits content.length, by simp, natDigits_spec _⟩
    · obtain ⟨t, _, hh⟩ := head_headers xg cg content.length md
      refine ⟨_, (responded_of hcg hog xg fs).2.2 _ a2 md rfl hsend _ (by
        simp only [makeResponse, Op.handler, hh, document, Answer.content]; rfl), rfl, natDigits content.length, by simp, natDigits_spec _⟩
  · obtain ⟨a, ha⟩ := answer_of_ok hcg hog hr hst
    obtain ⟨content, hcontent⟩ := get_ok_stored ha
    rw [t1]
    exact List.mem_map.mpr ⟨(k, content.length), (hm k _).mpr ⟨cs, content, hp, hcontent, rfl, hpf⟩, rfl⟩

/-- **C116** (negation) A GET of `./x` is answered 200 though no listing shows that key; and a HEAD of `d`, which is only a prefix of keys. -/
theorem C116_unlisted_fails :
    ∃ (cfg : Cfg) (ext : Ext) (lib : Lib) (env : Env) (x : Texts) (fs : FS) (list get head : Req) (keys : List Bytes), WF fs ∧
      list.method = b!"GET" ∧ At list (.bucket b!"aaa") ∧ list.query = none ∧ get.method = b!"GET" ∧ At get (.object b!"aaa" b!"./x") ∧
      head.method = b!"HEAD" ∧ At head (.object b!"aaa" b!"d") ∧
      Sample.listed (responded cfg ext lib none env x list fs) = some keys ∧ b!"./x" ∉ keys ∧ b!"d" ∉ keys ∧
      Sample.code (responded cfg ext lib none env x get fs) = some 200 ∧ Sample.code (responded cfg ext lib none env x head fs) = some 200 :=
  ⟨Sample.cfg, Sample.ext, Sample.lib, Sample.env, Sample.texts, Sample.servedTree Sample.putDeep Sample.fs, Sample.list,
    Sample.plain b!"GET" b!"/aaa/./x" none [] [], Sample.plain b!"HEAD" b!"/aaa/d" none [] [], [b!"d/y", b!"x"], run_wf _ _ Sample.fs_wf, rfl,
    Sample.at_bucket rfl (by decide +kernel) (by decide +kernel), rfl, rfl,
    Sample.at_object rfl (by decide +kernel) (by decide +kernel) (by decide) (by decide), rfl,
    Sample.at_object rfl (by decide +kernel) (by decide +kernel) (by decide) (by decide), by decide +kernel, by decide, by decide,
    by decide +kernel, by decide +kernel⟩

/-- the hypotheses of `C116_listed_partial` are met: the listing of a bucket, a GET of a key in it, a GET of a key with a folder -/
example : ∃ c cg, admit Sample.lib none Sample.list = .ok c ∧ admit Sample.lib none Sample.getX = .ok cg ∧
    Requests Sample.lib Sample.env Sample.list c.body (.listObjects b!"aaa" none Sample.env.fuel) ∧
    Requests Sample.lib Sample.env Sample.getX cg.body (.getObject b!"aaa" b!"x" none Sample.env.wants) ∧
    Listable Sample.cfg Sample.fs3 b!"aaa" ∧ CleanKeys Sample.cfg Sample.fs3 b!"aaa" ∧ Sample.fs3.nodes.length < Sample.env.fuel ∧
    Sample.listed (responded Sample.cfg Sample.ext Sample.lib none Sample.env Sample.texts Sample.list Sample.fs3) = some [b!"d/e", b!"x"] ∧
    MetaFine Sample.cfg Sample.ext Sample.fs3 b!"aaa" b!"x" := by
  obtain ⟨c, hc, hb⟩ := Sample.admit_of (r := Sample.list) (by decide +kernel)
  obtain ⟨cg, hcg, _⟩ := Sample.admit_of (r := Sample.getX) (by decide +kernel)
  refine ⟨c, cg, hc, hcg, .listObjects rfl (Sample.at_bucket rfl (by decide +kernel) (by decide +kernel)) (Sample.selects_none rfl)
      (Sample.no_query (by decide +kernel)) ⟨none, none, Sample.no_query (by decide +kernel), trivial⟩,
    .getObject rfl (Sample.at_object rfl (by decide +kernel) (by decide +kernel) (by decide) (by decide)) (Sample.selects_none rfl)
      (Sample.no_header (by decide +kernel)), listable_of (by decide +kernel), cleanKeys_of (by decide +kernel), by decide +kernel, by decide +kernel,
    none, by decide +kernel, fun l h => nomatch h⟩

end S3
