import Verif.Props.MachineRounds
/-! C135: what uploads at the same time leave, wherever they store their objects. -/
namespace S3
open Spec

variable {cfg : Cfg} {ext : Ext} {lib : Lib} {auth : Option Provider} {A : Bytes → Bytes → Prop} {place : Bytes → Bytes → List Bytes}
  {s : Machine} {fs : FS} {w : PieceEpoch} {os : List Op}

/-- **C135** Any number of uploads, of a whole tree of objects for example, together with any other requests that are about other objects: an
upload whose body arrives unbroken and whose own calls do not fail succeeds if it is answered, whether its folders were there, or made by
itself, or made by others meanwhile. It is answered with the ETag of its body, and its body is the object. -/
theorem C135_upload (hl : MetaLaw ext) (he : ext.metaDec [] = none) (hmd5 : ∀ s, CleanText (quoted (ext.md5hex s)))
    (hS : Spelled cfg.root A place) (hp : PlainPlaces A place) (h : Embodies cfg ext A place s fs) (hs : SendableRecords A s)
    (ht : Together cfg ext lib auth A place s w os) {n : Nat} {x : Exchange} {i : PutInput} (hn : w.requests[n]? = some x)
    (ho : os[n]? = some (.putObject i)) (hacc : Acceptable i) {body : Body} (hbody : i.body = some body) (hub : unbroken body)
    (hok : ∀ f, (n, .call f) ∈ w.strides → f = .none) {r : Outcome Response} (hr : w.response cfg fs n = some r) (hm : CleanMessage x.texts) :
    (∃ res, r = .ok res ∧ res.status = 200 ∧ HasETag res (quoted (ext.md5hex (received body)))) ∧
    stored cfg (w.leaves cfg fs) i.bucket i.key = some (received body) ∧
    IsDir (w.leaves cfg fs) (cfg.root ++ (place i.bucket i.key).dropLast) := by
  have hck : classKnown i = true := (acceptable_iff.mp hacc).2
  have hA := ht.writes (List.mem_of_getElem? ho) (b := i.bucket) (k := i.key) rfl
  have hu := ht.undisturbed ho (fun h => h)
  obtain ⟨res, a, h1, h2, h3⟩ := C134_response he hmd5 hS hp h hs ht hn ho hok (.inl fun h => h) hr trivial hm
  have hans : s.answer ext place (.putObject i) = some (.ok (.etag (some (quoted (ext.md5hex (received body)))))) := by
    have hnb : none ∉ body := hub
    simp [Machine.answer, hck, hbody, hnb]
  rw [hans] at h2
  cases h2
  obtain ⟨_, k1, _, k2⟩ := round_alone hS hp h ht hn ho hu hok hr
  refine ⟨⟨res, h1, h3⟩, ?_, k2 i rfl hacc⟩
  rw [(k1 _ _ rfl).1, stored_names (hS.names _ _ hA), (C131_step hl he hS h (.inl hu.1)).bytes _ _ hA]
  simp [Machine.after, hbody, hck, setBytes]

/-! ### the hypotheses are met -/

/-- two objects in one folder -/
def Sample.pair (b k : Bytes) : Prop := (b, k) ∈ [(b!"aaa", b!"d/x"), (b!"aaa", b!"d/y")]

def Sample.pairAt (b k : Bytes) : List Bytes := b :: (if k = b!"d/x" then [b!"d", b!"x"] else [b!"d", b!"y"])

theorem Sample.pair_cases {b k : Bytes} (h : Sample.pair b k) : b = b!"aaa" ∧ (k = b!"d/x" ∨ k = b!"d/y") := by
  simp only [Sample.pair, List.mem_cons, Prod.mk.injEq, List.not_mem_nil, or_false] at h
  rcases h with ⟨rfl, rfl⟩ | ⟨rfl, rfl⟩ <;> simp

theorem Sample.pair_plain : PlainPlaces Sample.pair Sample.pairAt := fun b k h => by
  obtain ⟨rfl, rfl | rfl⟩ := Sample.pair_cases h <;>
    exact ⟨Sample.bucket_legal _ (by simp), _, plain2 (a := b!"d") ⟨by decide, by decide, by decide, by decide⟩ ⟨by decide, by decide, by decide, by decide⟩, rfl⟩

theorem Sample.pair_spelled : Spelled Sample.cfg.root Sample.pair Sample.pairAt := by
  refine ⟨fun b k h => ?_, fun b k b' k' h h' => ?_, fun b k h => ?_⟩
  · obtain ⟨rfl, rfl | rfl⟩ := Sample.pair_cases h <;>
      exact Sample.names (by decide +kernel) (by decide) (by decide +kernel) (by decide +kernel)
  · obtain ⟨rfl, rfl | rfl⟩ := Sample.pair_cases h <;>
      obtain ⟨rfl, rfl | rfl⟩ := Sample.pair_cases h' <;> decide +kernel
  · obtain ⟨rfl, rfl | rfl⟩ := Sample.pair_cases h <;> decide +kernel

theorem Sample.pair_apart : Apart b!"aaa" b!"d/x" b!"aaa" b!"d/y" ∧ Apart b!"aaa" b!"d/y" b!"aaa" b!"d/x" := by
  have hx := Sample.pair_plain b!"aaa" b!"d/x" (by decide : _ ∈ _)
  have hy := Sample.pair_plain b!"aaa" b!"d/y" (by decide : _ ∈ _)
  have hn : ∀ {k k' : Bytes}, k.length = 3 → k'.length = 3 → ¬ Nested k k' := by
    rintro k k' hk hl ⟨t, rfl⟩
    simp [hk] at hl
  exact ⟨⟨⟨hy.1, hy.2.imp fun _ h => h.1, by decide⟩, fun _ => hn rfl rfl, fun _ => hn rfl rfl⟩,
    ⟨⟨hx.1, hx.2.imp fun _ h => h.1, by decide⟩, fun _ => hn rfl rfl, fun _ => hn rfl rfl⟩⟩

def Sample.pairPut (k body : Bytes) : Exchange := Sample.exchange (Sample.plain b!"PUT" (b!"/aaa/" ++ k) none [] [some body])

def Sample.pairInput (k body : Bytes) : PutInput := ⟨b!"aaa", k, some [some body], none, none, none⟩

theorem Sample.pair_asks {k body : Bytes} (h : (k, body) = (b!"d/x", b!"one") ∨ (k, body) = (b!"d/y", b!"two")) :
    Asks Sample.lib none (Sample.pairPut k body) (.putObject (Sample.pairInput k body)) := by
  rcases h with h | h <;> cases h <;>
  · refine Sample.asks (by decide +kernel) (.putObject rfl
      (Sample.at_object rfl (by decide +kernel) (by decide +kernel) (by decide) (by decide)) (Sample.selects_none rfl)
      (Sample.no_header (by decide +kernel)) ⟨none, Sample.no_header (by decide +kernel), trivial⟩ ?_ (Sample.no_header (by decide +kernel)))
    intro n v _ hh
    simp [headerMeta, Sample.plain] at hh

/-- the calls of two uploads, by turns -/
def Sample.pairRun : PieceEpoch := Sample.roundRun [Sample.pairPut b!"d/x" b!"one", Sample.pairPut b!"d/y" b!"two"]
  (List.replicate 24 [(0, .call .none), (1, .call .none)]).flatten

def Sample.pairOps : List Op := [.putObject (Sample.pairInput b!"d/x" b!"one"), .putObject (Sample.pairInput b!"d/y" b!"two")]

theorem Sample.pair_together : Together Sample.cfg (realExt id) Sample.lib none Sample.pair Sample.pairAt Machine.fresh Sample.pairRun
    Sample.pairOps := by
  have hx := Sample.pair_plain b!"aaa" b!"d/x" (by decide : _ ∈ _)
  have hy := Sample.pair_plain b!"aaa" b!"d/y" (by decide : _ ∈ _)
  refine ⟨Sample.roundRun_serves _ _, rfl, fun n x o hx ho => ?_, fun o ho => ?_, fun o ho b k hw => ?_, ?_⟩
  · rcases n with _ | _ | n <;> cases hx <;> cases ho
    · exact Sample.pair_asks (.inl rfl)
    · exact Sample.pair_asks (.inr rfl)
  · simp only [Sample.pairOps, List.mem_cons, List.not_mem_nil, or_false] at ho
    rcases ho with rfl | rfl
    · exact .inr ⟨⟨(by decide : _ ∈ _), fun m hm => nomatch hm⟩, put_about hx.1 (hx.2.choose_spec.1)⟩
    · exact .inr ⟨⟨(by decide : _ ∈ _), fun m hm => nomatch hm⟩, put_about hy.1 (hy.2.choose_spec.1)⟩
  · simp only [Sample.pairOps, List.mem_cons, List.not_mem_nil, or_false] at ho
    rcases ho with rfl | rfl <;> exact hw.elim
  · refine .cons (fun o ho => ?_) (.cons (fun o ho => nomatch ho) .nil)
    obtain rfl := List.mem_singleton.mp ho
    exact ⟨.inr ⟨⟨hy.1, hy.2.imp fun _ h => h.1⟩, fun b k h => by cases h; exact Sample.pair_apart.1, fun u n h => h.elim⟩,
      .inr ⟨⟨hx.1, hx.2.imp fun _ h => h.1⟩, fun b k h => by cases h; exact Sample.pair_apart.2, fun u n h => h.elim⟩⟩

/-- In an empty storage directory, without a bucket, two objects are uploaded into one folder at the same time: both requests make the bucket
and the folder, each of them finds some of them made by the other, and both succeed. -/
example : Embodies Sample.cfg (realExt id) Sample.pair Sample.pairAt Machine.fresh Sample.emptyStore ∧
    Together Sample.cfg (realExt id) Sample.lib none Sample.pair Sample.pairAt Machine.fresh Sample.pairRun Sample.pairOps ∧
    Finished Sample.cfg Sample.pairRun Sample.pairOps Sample.emptyStore ∧
    (∀ i, .putObject i ∈ Sample.pairOps → Acceptable i) ∧
    FoldersFree Sample.cfg b!"aaa" [b!"d", b!"x"] Sample.emptyStore ∧ ¬ IsDir Sample.emptyStore (Sample.cfg.root ++ [b!"aaa"]) ∧
    (∀ n ∈ [0, 1], (Sample.webStatus (Sample.pairRun.response Sample.cfg Sample.emptyStore n)).map Prod.fst = some 200) ∧
    stored Sample.cfg (Sample.pairRun.leaves Sample.cfg Sample.emptyStore) b!"aaa" b!"d/y" = some b!"two" := by
  have hE := embodies_fresh (ext := realExt id) Sample.pair_spelled Sample.emptyStore_wf Sample.emptyStore_root Sample.emptyStore_bare
  have hx := Sample.pair_plain b!"aaa" b!"d/x" (by decide : _ ∈ _)
  refine ⟨hE, Sample.pair_together, ⟨?_, fun n o ho hn => Option.isSome_iff_exists.mp ?_⟩, ?_,
    round_free Sample.pair_spelled hE (k := b!"d/x") (by decide : _ ∈ _)
      (plain2 (a := b!"d") ⟨by decide, by decide, by decide, by decide⟩ ⟨by decide, by decide, by decide, by decide⟩) rfl,
    by unfold IsDir; decide +kernel, by decide +kernel, by decide +kernel⟩
  · simp [Sample.pairRun, Sample.roundRun]
  · rcases n with _ | _ | n <;> cases ho <;> decide +kernel
  · intro i hi
    simp only [Sample.pairOps, List.mem_cons, List.not_mem_nil, or_false, Op.putObject.injEq] at hi
    rcases hi with rfl | rfl <;> exact ⟨by simp [Sample.pairInput], .inl rfl⟩

end S3
