import Verif.Spec.Paging
import Verif.Props.Unread
/-! C115: listing a bucket page by page. -/
namespace S3
open Spec

variable (cfg : Cfg) (ext : Ext) (lib : Lib) (auth : Option Provider) (env : Env)

/-- **C115** (partial) A client that lists a bucket page by page, by either kind of listing and with whatever limits and markers, sees every
object of the bucket with the prefix exactly once, in ascending order, as of its first request; it is never told to go on for ever. Missing
from the full property: pages are no larger than the client asks, which is false, see `C115_page_size_fails`; texts with control characters or
`]]>`, as in C71. -/
theorem C115_pages_partial {b : Bytes} {pfx : Option Bytes} {r : Nat → Req} (x : Nat → Texts) {fs : Nat → FS} {c : Ctx}
    (hc : admit lib auth (r 0) = .ok c)
    (ho : Requests lib env (r 0) c.body (.listObjects b pfx env.fuel) ∨ Requests lib env (r 0) c.body (.listObjectsV2 b pfx env.fuel))
    (hw : WF (fs 0)) (hl : Listable cfg (fs 0) b) (hk : CleanKeys cfg (fs 0) b) (hf : (fs 0).nodes.length < env.fuel)
    (hq : ∀ n ∈ [b!"delimiter", b!"encoding-type"], ∀ v, (n, v) ∈ queryOf (r 0) → CleanText v) :
    ∃ keys : List Bytes, keys.Pairwise (fun k k' => k < k') ∧
      (∀ k, k ∈ keys ↔ ∃ cs, PlainKey k cs ∧ stored cfg (fs 0) b k ≠ none ∧ matchesPrefix pfx k) ∧
      ∀ seen, Pages (pageOf cfg ext lib auth env r x fs) 0 seen ↔ seen = keys := by
  have key : ∃ res es, responded cfg ext lib auth env (x 0) (r 0) (fs 0) = .ok res ∧ Shows res 200 es ∧
      ListingShows cfg (fs 0) (x 0).modified b pfx es := by
    rcases ho with ho | ho
    · exact C71_listing_partial cfg ext lib auth env hc ho (x 0) hw hl hk hf hq
    · obtain ⟨res, es, h1, h2, h3, _⟩ := C71_listing_v2_partial cfg ext lib auth env hc ho (x 0) hw hl hk hf hq
      exact ⟨res, es, h1, h2, h3⟩
  obtain ⟨res, es, h1, h2, l, hs, hm, t1, _, _, _, t6⟩ := key
  have only : ∀ es', pageOf cfg ext lib auth env r x fs 0 es' → es' = es := by
    rintro es' ⟨res', h1', h2'⟩
    rw [h1] at h1'
    cases h1'
    obtain ⟨d, e1, e2⟩ := h2.body
    obtain ⟨d', e1', e2'⟩ := h2'.body
    rw [e1] at e1'
    cases e1'
    rw [e2] at e2'
    exact (Option.some.inj e2').symm
  refine ⟨l.map (·.1), List.pairwise_map.mpr hs, fun k => ?_, fun seen => ⟨fun h => ?_, ?_⟩⟩
  · rw [List.mem_map]
    constructor
    · rintro ⟨⟨k', n⟩, hkn, rfl⟩
      obtain ⟨cs, content, g1, g2, _, g3⟩ := (hm k' n).mp hkn
      exact ⟨cs, g1, by rw [g2]; simp, g3⟩
    · rintro ⟨cs, g1, g2, g3⟩
      obtain ⟨content, g2⟩ := Option.ne_none_iff_exists'.mp g2
      exact ⟨(k, content.length), (hm k _).mpr ⟨cs, content, g1, g2, rfl, g3⟩, rfl⟩
  · cases h with
    | last h _ => rw [only _ h, t1]
    | more h ht _ => rw [only _ h] at ht; exact absurd ht t6
  · rintro rfl
    rw [← t1]
    exact .last ⟨res, h1, h2⟩ t6

/-- **C115** (negation) A page shows more keys than the client allows. -/
theorem C115_page_size_fails :
    ∃ (cfg : Cfg) (ext : Ext) (lib : Lib) (env : Env) (x : Texts) (fs : FS) (list : Req), WF fs ∧ At list (.bucket b!"aaa") ∧
      list.method = b!"GET" ∧ OnlyQuery list b!"max-keys" b!"1" ∧
      Sample.listed (responded cfg ext lib none env x list fs) = some [b!"d/y", b!"x"] := by
  refine ⟨Sample.cfg, Sample.ext, Sample.lib, Sample.env, Sample.texts, Sample.servedTree Sample.putDeep Sample.fs,
    Sample.plain b!"GET" b!"/aaa" (some b!"max-keys=1") [] [], run_wf _ _ Sample.fs_wf,
    Sample.at_bucket rfl (by decide +kernel) (by decide +kernel), rfl, ?_, by decide +kernel⟩
  have : queryOf (Sample.plain b!"GET" b!"/aaa" (some b!"max-keys=1") [] []) = [(b!"max-keys", b!"1")] := by decide +kernel
  refine ⟨by rw [this]; exact List.mem_singleton.mpr rfl, fun w hw => ?_⟩
  rw [this] at hw
  exact (Prod.mk.inj (List.mem_singleton.mp hw)).2

/-- requests for pages of two keys -/
def Sample.twoAtATime (i : Nat) : Req :=
  if i = 0 then Sample.plain b!"GET" b!"/aaa" (some b!"max-keys=2") [] [] else Sample.plain b!"GET" b!"/aaa" (some b!"max-keys=2&marker=x") [] []

/-- the hypotheses of `C115_pages_partial` are met: a bucket with several objects, listed two at a time -/
example : ∃ keys : List Bytes, keys.Pairwise (fun k k' => k < k') ∧
    (∀ k, k ∈ keys ↔ ∃ cs, PlainKey k cs ∧ stored Sample.cfg Sample.fs3 b!"aaa" k ≠ none ∧ matchesPrefix none k) ∧
    ∀ seen, Pages (pageOf Sample.cfg Sample.ext Sample.lib none Sample.env
      Sample.twoAtATime
      (fun _ => Sample.texts) fun _ => Sample.fs3) 0 seen ↔ seen = keys := by
  obtain ⟨c, hc, hb⟩ := Sample.admit_of (r := Sample.plain b!"GET" b!"/aaa" (some b!"max-keys=2") [] []) (by decide +kernel)
  refine C115_pages_partial Sample.cfg Sample.ext Sample.lib none Sample.env (r := Sample.twoAtATime) (fs := fun _ => Sample.fs3) (b := b!"aaa") (pfx := none) _ hc
    (.inl (.listObjects rfl (Sample.at_bucket rfl (by decide +kernel) (by decide +kernel)) (Sample.selects_of (by decide +kernel))
      (Sample.no_query (by decide +kernel)) ⟨some b!"2", some 2, Sample.only_query (by decide +kernel) (by decide +kernel), parseI64_iff.mp (by decide +kernel)⟩))
    Sample.fs3_wf (listable_of (by decide +kernel)) (cleanKeys_of (by decide +kernel)) (by decide +kernel) ?_
  intro n hn v hv
  have : (queryOf (Sample.plain b!"GET" b!"/aaa" (some b!"max-keys=2") [] [])).all (fun p => p.2.all fun c => decide (32 ≤ c ∧ c ≠ 62)) = true := by
    decide +kernel
  exact clean_all (List.all_eq_true.mp this _ hv)

end S3
