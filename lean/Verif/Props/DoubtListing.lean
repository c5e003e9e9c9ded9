import Verif.Props.Doubt
import Verif.Props.MachineListing
/-! C137: one state of the machine explains everything that is seen after requests have broken off, listings included. -/
namespace S3
open Spec

variable {cfg : Cfg} {ext : Ext} {lib : Lib} {auth : Option Provider} {A : Bytes → Bytes → Prop} {place : Bytes → Bytes → List Bytes}
  {s t : Machine} {d : Doubt} {fs : FS} {w : PieceEpoch} {os : List Op}

/-- no bucket contains a file but those of the addresses in `A` -/
def ClosedTree (cfg : Cfg) (A : Bytes → Bytes → Prop) (place : Bytes → Bytes → List Bytes) (fs : FS) : Prop :=
  ∀ b cs, LegalBucket b → cs ≠ [] → contentAt fs (cfg.root ++ b :: cs) ≠ none → ∃ b' k, A b' k ∧ place b' k = b :: cs

theorem round_closed (hS : Spelled cfg.root A place) (hp : PlainPlaces A place) (hw : WF fs) (ht : Together cfg ext lib auth A place s w os)
    (h : ClosedTree cfg A place fs) : ClosedTree cfg A place (w.leaves cfg fs) := by
  refine round_inv hp ht (J := ClosedTree cfg A place) (fun o ho _ t c f htw hj hc b cs hb hcs hn => ?_) hw h
  by_cases hwr : (opPerm cfg o).wr (cfg.root ++ b :: cs)
  · exact served_writes hS ((ht.known o ho).symm.imp (·.1) id) hb hcs hwr
  · obtain ⟨v, hv⟩ := Option.ne_none_iff_exists'.mp hn
    exact hj b cs hb hcs (by rw [(execF_noNew htw f).1 (fun hcw => hwr (ok_own hc hcw)) v hv]; exact Option.some_ne_none v)

theorem fair_closed (hl : MetaLaw ext) (he : ext.metaDec [] = none) (hS : Spelled cfg.root A place) (hp : PlainPlaces A place) {rs : List Round} :
    ∀ {s t : Machine} {d : Doubt} {fs : FS}, Embodies cfg ext A place t fs → d.Agrees s t → FairRounds cfg ext lib auth A place rs s d fs →
    ClosedTree cfg A place fs → ClosedTree cfg A place (afterRounds cfg ext lib auth rs fs) := by
  induction rs with
  | nil => exact fun _ _ _ h => h
  | cons r rs ih =>
    intro s t d fs h ha hr hc
    obtain ⟨t', h1, h2⟩ := fair_step hl he hS hp h ha hr.1
    refine ih h1 h2 hr.2 ?_
    cases r with
    | alone x o =>
      obtain ⟨⟨c, hc', hq⟩, ho⟩ := hr.1
      show ClosedTree cfg A place (afterResponded cfg ext lib auth x.env x.texts x.req fs)
      rw [(responded_of (cfg := cfg) (ext := ext) hc' hq x.texts fs).1]
      exact (closed_step (s := Machine.fresh) hS h.wf ⟨hc, fun _ h => (h rfl).elim⟩ ho).1
    | together w os => exact round_closed hS hp h.wf (together_of hr.1.1 ha hr.1.2) hc

theorem fair_known {rs : List Round} : ∀ {s : Machine} {d : Doubt} {fs : FS}, FairRounds cfg ext lib auth A place rs s d fs →
    ∀ r ∈ rs, ∀ o ∈ r.ops, Served A o ∨ Watching o := by
  induction rs with
  | nil => exact fun _ _ h => nomatch h
  | cons r rs ih =>
    intro s d fs hr r' hr' o ho
    rcases List.mem_cons.mp hr' with rfl | hr'
    · cases r' with
      | alone x o' => obtain rfl := List.mem_singleton.mp ho; exact hr.1.2
      | together w os => exact (hr.1.1.known o ho).symm.imp (·.1) id
    · exact ih hr.2 r' hr' o ho

theorem rounds_places {rs : List Round} {p : List Bytes} : ∀ {s : Machine}, (∀ r ∈ rs, ∀ o ∈ r.ops, Served A o ∨ Watching o) →
    (s.afterRounds place rs).bytes p ≠ none → s.bytes p ≠ none ∨ ∃ b k, A b k ∧ place b k = p := by
  induction rs with
  | nil => exact fun _ h => .inl h
  | cons r rs ih =>
    intro s hr h
    rcases ih (s := s.afterAll place r.ops) (fun r' h' => hr r' (List.mem_cons_of_mem _ h')) h with h | h
    · exact machine_places r.ops (hr r (List.mem_cons_self ..)) h
    · exact .inr h

open Classical in
/-- a state without bytes at other places than those of addresses in `A` -/
theorem closed_state (h : Embodies cfg ext A place t fs) (ha : d.Agrees s t) (hs : ∀ p, s.bytes p ≠ none → ∃ b k, A b k ∧ place b k = p)
    (hc : ClosedTree cfg A place fs) : ∃ t', Embodies cfg ext A place t' fs ∧ d.Agrees s t' ∧ Spec.Closed cfg A place t' fs := by
  refine ⟨{ t with bytes := fun p => if ∃ b k, A b k ∧ place b k = p then t.bytes p else s.bytes p },
    ⟨h.wf, h.root, fun b k hA => ?_, h.free, h.record, h.noDir, h.folders, h.parts⟩, ⟨fun p hp => ?_, ha.record, ha.parts, ha.folder⟩, hc, fun p hp => ?_⟩
  · simp only; rw [if_pos ⟨b, k, hA, rfl⟩]; exact h.bytes b k hA
  · simp only; split
    · exact ha.bytes p hp
    · rfl
  · simp only at hp
    split at hp
    · assumption
    · exact hs p hp

/-- what is the same in two states, in a bucket nothing is in doubt about -/
theorem lists_agree (ha : d.Agrees s t) {b : Bytes} (hd : ¬ d.Touches b) {pfx : Option Bytes} {l : List (Bytes × Nat)} (h : t.Lists b pfx l) : s.Lists b pfx l :=
  ⟨h.ascending, fun k n => (h.exactly k n).trans <| by
    constructor <;> rintro ⟨cs, c, hk, hs, hr⟩
    · exact ⟨cs, c, hk, by rw [← ha.bytes _ fun hb => hd (.inr ⟨cs, hb⟩)]; exact hs, hr⟩
    · exact ⟨cs, c, hk, by rw [ha.bytes _ fun hb => hd (.inr ⟨cs, hb⟩)]; exact hs, hr⟩⟩

/-- **C137** Requests have been served alone or at the same time, from an empty storage directory; any of the rounds may have been cut off at
any moment, on a disk that fails. Then there is one state of the machine - the one in which all requests have been done, but for what is in
doubt - that explains everything that can be seen from now on: both kinds of listings of every bucket show exactly its objects, or say that
there is no such bucket; the list of buckets is that of its buckets; and every request the machine knows gets the response that shows
the answer of the machine in this state, if what it shows of the metadata can be sent. -/
theorem C137_one_state (hl : MetaLaw ext) (he : ext.metaDec [] = none) (hmd5 : ∀ s, CleanText (quoted (ext.md5hex s)))
    (hS : Spelled cfg.root A place) (hp : PlainPlaces A place) (hw : WF fs) (hroot : IsDir fs cfg.root)
    (hempty : ∀ q, q ≠ [] → fs.lookup (cfg.root ++ q) = none) {rs : List Round}
    (hr : FairRounds cfg ext lib auth A place rs Machine.fresh .none fs)
    (htext : ∀ b k c cs, A b k → place b k = c :: cs → utf8Valid (joinWith 47 cs) = true ∧ CleanText (joinWith 47 cs))
    (hsize : ∀ p c, contentAt (afterRounds cfg ext lib auth rs fs) p = some c → c.length ≤ i64Max)
    (hn : (afterRounds cfg ext lib auth rs fs).nodes.length ≤ i64Max) :
    ∃ t, (doubtAfter cfg ext lib auth place rs .none fs).Agrees (Machine.fresh.afterRounds place rs) t ∧
      (∀ x b pfx, Asks lib auth x (.listObjects b pfx x.env.fuel) ∨ Asks lib auth x (.listObjectsV2 b pfx x.env.fuel) →
        (afterRounds cfg ext lib auth rs fs).nodes.length < x.env.fuel →
        (∀ n ∈ [b!"delimiter", b!"encoding-type"], ∀ v, (n, v) ∈ queryOf x.req → CleanText v) → CleanMessage x.texts →
        ∃ res, responded cfg ext lib auth x.env x.texts x.req (afterRounds cfg ext lib auth rs fs) = .ok res ∧
          if t.folder [b] then ∃ es, Shows res 200 es ∧ MachineShows t x.texts.modified b pfx es else Reports res 500 b!"InternalError") ∧
      (∃ l, answer cfg ext .listBuckets (afterRounds cfg ext lib auth rs fs) = .ok (.buckets l) ∧ l.Nodup ∧
        ∀ b, b ∈ l ↔ LegalBucket b ∧ t.folder [b] = true) ∧
      ∀ x o, Asks lib auth x o → Served A o → Documented x.req o → CleanMessage x.texts → SendableRecords (Shown o) t →
        ∃ res a, responded cfg ext lib auth x.env x.texts x.req (afterRounds cfg ext lib auth rs fs) = .ok res ∧
          t.answer ext place o = some a ∧ Renders res o a := by
  have h0 := embodies_fresh (ext := ext) hS hw hroot hempty
  obtain ⟨t', h1, h2⟩ := C136_history hl he hS hp h0 (.refl _ _) hr
  have hcl := fair_closed hl he hS hp h0 (.refl _ _) hr (closed_fresh (A := A) (place := place) hempty).1
  obtain ⟨t, h, ha, hc⟩ := closed_state h1 h2 (fun p hp' => (rounds_places (fair_known hr) hp').elim (fun h => (h rfl).elim) id) hcl
  have hL : Listed A place t := ⟨fun b k c cs hA e => (htext b k c cs hA e).1, fun p c hpc => by
    obtain ⟨b, k, hA, rfl⟩ := hc.2 p (by rw [hpc]; simp)
    exact hsize _ _ ((h.bytes b k hA).trans hpc)⟩
  exact ⟨t, ha, fun x b pfx hx hfuel hq hm => machine_shows h hc hL (fun b k c cs hA e => (htext b k c cs hA e).2) hx hn hfuel hq hm,
    machine_buckets h, fun x o hx ho hdoc hm hsend => machine_renders he hmd5 hS h hsend hx ho hdoc hm⟩

/-- **C137** In particular the listing of a bucket shows exactly the objects it would show if nothing had ever broken off, when nothing about
the bucket or an object in it is in doubt; and the list of buckets shows exactly those of these buckets that there would be. -/
theorem C137_certain (hl : MetaLaw ext) (he : ext.metaDec [] = none) (hmd5 : ∀ s, CleanText (quoted (ext.md5hex s)))
    (hS : Spelled cfg.root A place) (hp : PlainPlaces A place) (hw : WF fs) (hroot : IsDir fs cfg.root)
    (hempty : ∀ q, q ≠ [] → fs.lookup (cfg.root ++ q) = none) {rs : List Round}
    (hr : FairRounds cfg ext lib auth A place rs Machine.fresh .none fs)
    (htext : ∀ b k c cs, A b k → place b k = c :: cs → utf8Valid (joinWith 47 cs) = true ∧ CleanText (joinWith 47 cs))
    (hsize : ∀ p c, contentAt (afterRounds cfg ext lib auth rs fs) p = some c → c.length ≤ i64Max)
    (hn : (afterRounds cfg ext lib auth rs fs).nodes.length ≤ i64Max) :
    (∀ x b pfx, ¬ (doubtAfter cfg ext lib auth place rs .none fs).Touches b →
      Asks lib auth x (.listObjects b pfx x.env.fuel) ∨ Asks lib auth x (.listObjectsV2 b pfx x.env.fuel) →
      (afterRounds cfg ext lib auth rs fs).nodes.length < x.env.fuel →
      (∀ n ∈ [b!"delimiter", b!"encoding-type"], ∀ v, (n, v) ∈ queryOf x.req → CleanText v) → CleanMessage x.texts →
      ∃ res, responded cfg ext lib auth x.env x.texts x.req (afterRounds cfg ext lib auth rs fs) = .ok res ∧
        if (Machine.fresh.afterRounds place rs).folder [b] then
          ∃ es, Shows res 200 es ∧ MachineShows (Machine.fresh.afterRounds place rs) x.texts.modified b pfx es
        else Reports res 500 b!"InternalError") ∧
    ∃ l, answer cfg ext .listBuckets (afterRounds cfg ext lib auth rs fs) = .ok (.buckets l) ∧ l.Nodup ∧
      ∀ b, ¬ (doubtAfter cfg ext lib auth place rs .none fs).folder [b] →
        (b ∈ l ↔ LegalBucket b ∧ (Machine.fresh.afterRounds place rs).folder [b] = true) := by
  obtain ⟨t, ha, h1, ⟨l, h2, h3, h4⟩, _⟩ := C137_one_state hl he hmd5 hS hp hw hroot hempty hr htext hsize hn
  refine ⟨fun x b pfx hd hx hfuel hq hm => ?_, l, h2, h3, fun b hd => ?_⟩
  · obtain ⟨res, hres, hs⟩ := h1 x b pfx hx hfuel hq hm
    refine ⟨res, hres, ?_⟩
    rw [← ha.folder [b] fun h => hd (.inl h)]
    split
    · rename_i hf
      rw [if_pos hf] at hs
      obtain ⟨es, hes, l, hl, hrest⟩ := hs
      exact ⟨es, hes, l, lists_agree ha hd hl, hrest⟩
    · rename_i hf
      rw [if_neg hf] at hs
      exact hs
  · rw [← ha.folder [b] hd]; exact h4 b

/-- nothing is in doubt, written out -/
def Doubt.Nothing (d : Doubt) : Prop := (∀ p, ¬ d.bytes p) ∧ (∀ b k, ¬ d.record b k) ∧ (∀ u n, ¬ d.parts u n) ∧ ∀ q, ¬ d.folder q

theorem nothing_after (h : Doubt.Nothing d) (o : Op) : Doubt.Nothing (d.after place o) := by
  obtain ⟨h1, h2, h3, h4⟩ := h
  cases o with
  | putObject i =>
    simp only [Doubt.after]
    split
    · exact ⟨h1, h2, h3, h4⟩
    · split
      · exact ⟨h1, h2, h3, h4⟩
      · exact ⟨fun p h => h1 p h.1, fun b k h => h2 b k h.1, h3, fun q h => h4 q h.1⟩
  | deleteObject b k => exact ⟨fun p h => h1 p h.1, h2, h3, h4⟩
  | deleteObjects b ks => exact ⟨fun p h => h.elim (h1 p) fun ⟨⟨k, _, h⟩, _⟩ => h1 _ h, h2, h3, h4⟩
  | uploadPart u n b =>
    cases b
    · exact ⟨h1, h2, h3, h4⟩
    · exact ⟨h1, h2, fun u n h => h3 u n h.1, h4⟩
  | completeMultipartUpload b k u l =>
    cases l
    · exact ⟨h1, h2, h3, h4⟩
    · exact ⟨fun p h => h.elim (h1 p) fun h => h.1.elim (h4 _) fun ⟨n, _, h⟩ => h3 _ _ h, h2,
        fun u n h => h.elim (h3 u n) fun h => h.1.elim (h4 _) fun ⟨n, _, h⟩ => h3 _ _ h, h4⟩
  | copyObject b k src =>
    simp only [Doubt.after]
    split
    · exact ⟨h1, h2, h3, h4⟩
    · exact ⟨fun p h => h.elim (h1 p) fun h => h.1.elim (h4 _) (h1 _),
        fun b k h => h.elim (h2 b k) fun h => h.1.elim (fun h => h.elim (h4 _) (h1 _)) (h2 _ _), h3, h4⟩
  | createBucket b => exact ⟨h1, h2, h3, fun q h => h4 q h.1⟩
  | deleteBucket b => exact ⟨fun p h => h1 p h.1, h2, h3, fun q h => h4 q h.1⟩
  | _ => exact ⟨h1, h2, h3, h4⟩

theorem nothing_afterAll (os : List Op) : ∀ {d : Doubt}, Doubt.Nothing d → Doubt.Nothing (d.afterAll place os) := by
  induction os with
  | nil => exact id
  | cons o os ih => exact fun h => ih (nothing_after h o)

/-- when every request has been answered and nothing failed, nothing is in doubt -/
theorem sound_fair {rs : List Round} : ∀ {s : Machine} {d : Doubt} {fs : FS}, Doubt.Nothing d → SoundRounds cfg ext lib auth A place rs s fs →
    FairRounds cfg ext lib auth A place rs s d fs ∧ Doubt.Nothing (doubtAfter cfg ext lib auth place rs d fs) := by
  induction rs with
  | nil => exact fun h _ => ⟨trivial, h⟩
  | cons r rs ih =>
    intro s d fs h hr
    have h1 : r.Fair cfg ext lib auth A place s d ∧ Doubt.Nothing (r.doubt cfg place d fs) := by
      cases r with
      | alone x o => exact ⟨hr.1, nothing_after h o⟩
      | together w os =>
        obtain ⟨g1, g2, g3, g4⟩ := nothing_afterAll (place := place) os h
        have hb : ∀ o, ¬ BrokenOff cfg w os fs o := fun o ⟨n, hn, hw, hs⟩ =>
          hs ⟨fun f hf => hr.1.2.1 _ hf f rfl, hr.1.2.2 n o hn hw⟩
        exact ⟨⟨hr.1.1, fun _ _ _ _ _ => h.2.2.2 _⟩, fun p h => h.elim (g1 p) fun ⟨o, _, _, ho, _⟩ => hb o ho,
          fun b k h => h.elim (g2 b k) fun ⟨o, ho, _⟩ => hb o ho, fun u n h => h.elim (g3 u n) fun ⟨o, ho, _⟩ => hb o ho,
          fun q h => h.elim (g4 q) fun ⟨i, ho, _⟩ => hb _ ho⟩
    obtain ⟨h2, h3⟩ := ih h1.2 hr.2
    exact ⟨⟨h1.1, h2⟩, h3⟩

/-- **C137** When every request has been answered and nothing failed - requests at the same time included - the listings and the list of
buckets show exactly what the machine holds. -/
theorem C137_finished (hl : MetaLaw ext) (he : ext.metaDec [] = none) (hmd5 : ∀ s, CleanText (quoted (ext.md5hex s)))
    (hS : Spelled cfg.root A place) (hp : PlainPlaces A place) (hw : WF fs) (hroot : IsDir fs cfg.root)
    (hempty : ∀ q, q ≠ [] → fs.lookup (cfg.root ++ q) = none) {rs : List Round}
    (hr : SoundRounds cfg ext lib auth A place rs Machine.fresh fs)
    (htext : ∀ b k c cs, A b k → place b k = c :: cs → utf8Valid (joinWith 47 cs) = true ∧ CleanText (joinWith 47 cs))
    (hsize : ∀ p c, contentAt (afterRounds cfg ext lib auth rs fs) p = some c → c.length ≤ i64Max)
    (hn : (afterRounds cfg ext lib auth rs fs).nodes.length ≤ i64Max) :
    (∀ x b pfx, Asks lib auth x (.listObjects b pfx x.env.fuel) ∨ Asks lib auth x (.listObjectsV2 b pfx x.env.fuel) →
      (afterRounds cfg ext lib auth rs fs).nodes.length < x.env.fuel →
      (∀ n ∈ [b!"delimiter", b!"encoding-type"], ∀ v, (n, v) ∈ queryOf x.req → CleanText v) → CleanMessage x.texts →
      ∃ res, responded cfg ext lib auth x.env x.texts x.req (afterRounds cfg ext lib auth rs fs) = .ok res ∧
        if (Machine.fresh.afterRounds place rs).folder [b] then
          ∃ es, Shows res 200 es ∧ MachineShows (Machine.fresh.afterRounds place rs) x.texts.modified b pfx es
        else Reports res 500 b!"InternalError") ∧
    ∃ l, answer cfg ext .listBuckets (afterRounds cfg ext lib auth rs fs) = .ok (.buckets l) ∧ l.Nodup ∧
      ∀ b, b ∈ l ↔ LegalBucket b ∧ (Machine.fresh.afterRounds place rs).folder [b] = true := by
  obtain ⟨h1, h2⟩ := sound_fair (d := .none) ⟨fun _ => id, fun _ _ => id, fun _ _ => id, fun _ => id⟩ hr
  obtain ⟨g1, l, g2, g3, g4⟩ := C137_certain hl he hmd5 hS hp hw hroot hempty h1 htext hsize hn
  exact ⟨fun x b pfx => g1 x b pfx fun h => h.elim (h2.2.2.2 _) fun ⟨cs, h⟩ => h2.1 _ h, l, g2, g3, fun b => g4 b (h2.2.2.2 _)⟩

/-! ### the hypotheses are met -/

theorem Sample.sizes {fs : FS} (h : ∀ e ∈ fs.nodes, (contentAt fs e.1).all (fun c => decide (c.length ≤ i64Max)) = true) (p : List Bytes) (c : Bytes)
    (hc : contentAt fs p = some c) : c.length ≤ i64Max := by
  have hp : ∃ n, fs.lookup p = some n ∧ n ≠ .dir := by
    unfold contentAt at hc
    split at hc
    · rename_i e; exact ⟨_, e, by simp⟩
    · cases hc
  obtain ⟨n, hn, hd⟩ := hp
  have := h _ (mem_of_lookup (fun e => hd (by subst e; cases hn; rfl)) hn)
  rw [hc] at this
  simpa using this

/-- Of two uploads at the same time the second one is broken off, and then sent again: the bucket is listed with both objects. Before that
something about the bucket is in doubt, but nothing about any other. -/
example : FairRounds Sample.cfg (realExt id) Sample.lib none Sample.pair Sample.pairAt Sample.cutRounds Machine.fresh .none Sample.emptyStore ∧
    (∀ b k c cs, Sample.pair b k → Sample.pairAt b k = c :: cs → utf8Valid (joinWith 47 cs) = true ∧ CleanText (joinWith 47 cs)) ∧
    (∀ p c, contentAt (afterRounds Sample.cfg (realExt id) Sample.lib none Sample.cutRounds Sample.emptyStore) p = some c → c.length ≤ i64Max) ∧
    (afterRounds Sample.cfg (realExt id) Sample.lib none Sample.cutRounds Sample.emptyStore).nodes.length ≤ i64Max ∧
    (¬ (doubtAfter Sample.cfg (realExt id) Sample.lib none Sample.pairAt Sample.cutRounds .none Sample.emptyStore).Touches b!"aaa") ∧
    (doubtAfter Sample.cfg (realExt id) Sample.lib none Sample.pairAt (Sample.cutRounds.take 1) .none Sample.emptyStore).Touches b!"aaa" ∧
    (∀ b, b ≠ b!"aaa" →
      ¬ (doubtAfter Sample.cfg (realExt id) Sample.lib none Sample.pairAt (Sample.cutRounds.take 1) .none Sample.emptyStore).Touches b) ∧
    Asks Sample.lib none (Sample.exchange Sample.list) (.listObjects b!"aaa" none Sample.env.fuel) ∧
    (afterRounds Sample.cfg (realExt id) Sample.lib none Sample.cutRounds Sample.emptyStore).nodes.length < Sample.env.fuel ∧
    (∀ n ∈ [b!"delimiter", b!"encoding-type"], ∀ v, (n, v) ∈ queryOf Sample.list → CleanText v) ∧
    answer Sample.cfg (realExt id) (.listObjects b!"aaa" none 30)
      (afterRounds Sample.cfg (realExt id) Sample.lib none (Sample.cutRounds.take 1) Sample.emptyStore) = .ok (.objects [(b!"d/x", 3), (b!"d/y", 1)]) ∧
    answer Sample.cfg (realExt id) (.listObjects b!"aaa" none 30)
      (afterRounds Sample.cfg (realExt id) Sample.lib none Sample.cutRounds Sample.emptyStore) = .ok (.objects [(b!"d/x", 3), (b!"d/y", 3)]) := by
  have hb : (Doubt.none.afterAll Sample.pairAt Sample.pairOps).bytes = fun _ => False := by
    funext p; simp [Doubt.afterAll, Sample.pairOps, Doubt.after, Doubt.none, Sample.pairInput, classKnown]
  have hf : (Doubt.none.afterAll Sample.pairAt Sample.pairOps).folder = fun _ => False := by
    funext b; simp [Doubt.afterAll, Sample.pairOps, Doubt.after, Doubt.none, Sample.pairInput, classKnown]
  let D := (Doubt.none.afterAll Sample.pairAt Sample.pairOps).or
      (.left Sample.pairAt (BrokenOff Sample.cfg Sample.cutRun Sample.pairOps Sample.emptyStore))
  have nb : ∀ p, D.bytes p → p = [b!"aaa", b!"d", b!"y"] := by
    rintro p (h | ⟨o, b, k, ho, h, e⟩)
    · rw [hb] at h; exact h.elim
    · rw [Sample.cut_broken ho] at h
      rcases h with h | ⟨_, h, _⟩ | h
      · cases h; exact e.trans (by decide +kernel)
      · cases h
      · cases h
  have nf : ∀ p, D.folder p → onTheWay p [b!"aaa", b!"d", b!"y"] = true := by
    rintro p (h | ⟨i, ho, h⟩)
    · rw [hf] at h; exact h.elim
    · have := Sample.cut_broken ho
      cases this
      exact h
  refine ⟨⟨⟨Sample.cut_together, fun o ho b k hn => ?_⟩, ⟨Sample.pair_asks (.inr rfl), .inl ⟨(by decide : _ ∈ _), fun m hm => nomatch hm⟩⟩, trivial⟩,
    fun b k c cs h e => ?_, Sample.sizes (by decide +kernel), by decide +kernel, ?_, .inr ⟨[b!"d", b!"y"], .inr ⟨_, b!"aaa", b!"d/y", ⟨1, rfl, fun h => h, ?_⟩, .inl rfl, by decide +kernel⟩⟩, ?_, ?_,
    by decide +kernel, ?_, by decide +kernel, by decide +kernel⟩
  · simp only [Sample.pairOps, List.mem_cons, List.not_mem_nil, or_false] at ho
    rcases ho with rfl | rfl <;> exact hn.elim
  · obtain ⟨rfl, rfl | rfl⟩ := Sample.pair_cases h <;> cases e <;> exact ⟨by decide +kernel, clean_all (by decide +kernel)⟩
  · intro h
    simp only [Doubt.Touches, doubtAfter, Sample.cutRounds, Round.doubt, Doubt.after, Sample.pairInput] at h
    rw [if_neg (by decide +kernel)] at h
    rcases h with h | ⟨cs, h⟩
    · have := h.2
      exact absurd this (by decide +kernel)
    · have := nb _ h.1
      exact h.2 (this.trans (by decide +kernel))
  · rintro ⟨_, h⟩
    have := Option.isSome_iff_exists.mpr h
    exact absurd this (by decide +kernel)
  · rintro b hne (h | ⟨cs, h⟩)
    · have := nf _ h
      simp [onTheWay] at this
      exact hne this
    · exact hne (List.cons.inj (nb _ h)).1
  · exact Sample.asks (by decide +kernel) (.listObjects rfl (Sample.at_bucket rfl (by decide +kernel) (by decide +kernel)) (Sample.selects_none rfl)
      (Sample.no_query (by decide +kernel)) ⟨none, none, Sample.no_query (by decide +kernel), trivial⟩)
  · intro n _ v hv
    cases hv

/-- the two uploads of C135 at the same time, both answered: the bucket is listed with both objects -/
example : SoundRounds Sample.cfg (realExt id) Sample.lib none Sample.pair Sample.pairAt [.together Sample.pairRun Sample.pairOps] Machine.fresh
      Sample.emptyStore ∧
    answer Sample.cfg (realExt id) (.listObjects b!"aaa" none 30)
      (afterRounds Sample.cfg (realExt id) Sample.lib none [.together Sample.pairRun Sample.pairOps] Sample.emptyStore)
        = .ok (.objects [(b!"d/x", 3), (b!"d/y", 3)]) := by
  refine ⟨⟨⟨Sample.pair_together, ?_, fun n o ho hn => Option.isSome_iff_exists.mp ?_⟩, trivial⟩, by decide +kernel⟩
  · simp [Sample.pairRun, Sample.roundRun]
  · rcases n with _ | _ | n <;> cases ho <;> decide +kernel

end S3
