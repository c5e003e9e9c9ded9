import Verif.Spec.MachineListing
import Verif.Lemmas.Accounted
import Verif.Props.MachineClient
/-! C133: listings by the abstract machine. -/
namespace S3
open Spec

variable {cfg : Cfg} {ext : Ext} {lib : Lib} {auth : Option Provider} {A : Bytes → Bytes → Prop}
  {place : Bytes → Bytes → List Bytes} {s : Machine} {fs : FS}

theorem ok_own {o : Op} {c : Call} (hc : (opPerm cfg o).ok c) {P : Path} (h : callWrites P c) : (opPerm cfg o).wr P := by
  cases c with
  | create p => cases h; exact hc
  | writeAt i _ _ => cases h; exact hc
  | _ => exact h.elim

/-- an operation does not make a file it may not write -/
theorem after_noNew {o : Op} (hw : WF fs) {P : Path} (hP : ¬ (opPerm cfg o).wr P) :
    contentAt (after cfg ext o fs) P ≠ none → contentAt fs P ≠ none := by
  refine (op_safe cfg ext o).inv cfg (J := fun x => contentAt x P ≠ none → contentAt fs P ≠ none) (fun x c hx hj hc h => ?_) hw (fun h => h)
  obtain ⟨v, hv⟩ := Option.ne_none_iff_exists'.mp h
  exact hj (by rw [(exec_noNew hx).1 (fun hcw => hP (ok_own hc hcw)) v hv]; exact Option.some_ne_none v)

theorem served_writes (hS : Spelled cfg.root A place) {o : Op} (ho : Served A o ∨ Watching o) {b : Bytes} {cs : List Bytes}
    (hb : LegalBucket b) (hcs : cs ≠ []) (h : (opPerm cfg o).wr (cfg.root ++ b :: cs)) : ∃ b' k, A b' k ∧ place b' k = b :: cs := by
  have hlegal := (C02_bucket_name_rule b).mpr hb
  have key : ∀ b' k, A b' k → WritesTo b' k o → ∃ b' k, A b' k ∧ place b' k = b :: cs := fun b' k ha hwr =>
    ⟨b', k, ha, Classical.byContradiction fun hne => (own_not hS ha hwr).1 (b :: cs) (.inr ⟨b, cs, rfl, hlegal⟩) (fun e => hne e.symm) (.inl h)⟩
  cases o with
  | putObject i => exact key _ _ (ho.elim (·.1) False.elim) ⟨rfl, rfl⟩
  | copyObject b' k src => exact key _ _ (ho.elim (·.1) False.elim) ⟨rfl, rfl⟩
  | completeMultipartUpload b' k u parts => exact key _ _ (ho.elim (·.1) False.elim) ⟨rfl, rfl, ho.elim (·.2) False.elim⟩
  | uploadPart u n body =>
    obtain ⟨p, hp, hq⟩ := h
    have hu := (ho.elim (·.1) False.elim : (47 : UInt8) ∉ u)
    rw [partPath_eq cfg hu n] at hp
    cases hp
    exact absurd hq (head_ne_part (cfg := cfg) (.inr ⟨b, cs, rfl, hlegal⟩) u n)
  | createBucket b' => exact h.elim
  | _ => exact h.elim

theorem deleteEach_noNew {b : Bytes} (ks : List Bytes) (p : List Bytes) :
    ∀ {f : List Bytes → Option Bytes}, (deleteEach place b f ks).2 p ≠ none → f p ≠ none := by
  induction ks with
  | nil => exact fun h => h
  | cons k ks ih =>
    intro f h
    simp only [deleteEach] at h
    split at h
    · have := ih h
      simp only [setBytes] at this
      split at this
      · exact (this rfl).elim
      · exact this
    · exact h

theorem setBytes_new {f : List Bytes → Option Bytes} {q p : List Bytes} {v : Option Bytes} (h : setBytes f q v p ≠ none) :
    p = q ∨ f p ≠ none := by
  simp only [setBytes] at h
  split at h
  · exact .inl (by assumption)
  · exact .inr h

/-- the machine makes bytes only at places of addresses in `A` -/
theorem machine_noNew {o : Op} (ho : Served A o ∨ Watching o) {p : List Bytes} (h : (s.after place o).bytes p ≠ none) :
    s.bytes p ≠ none ∨ ∃ b k, A b k ∧ place b k = p := by
  cases o with
  | putObject i =>
    have ha : A i.bucket i.key := ho.elim (·.1) False.elim
    cases hb : i.body with
    | none => simp only [Machine.after, hb] at h; exact .inl h
    | some body =>
      simp only [Machine.after, hb] at h
      split at h
      · exact .inl h
      · rcases setBytes_new h with rfl | h
        · exact .inr ⟨_, _, ha, rfl⟩
        · exact .inl h
  | copyObject b k src =>
    have ha : A b k := ho.elim (·.1) False.elim
    simp only [Machine.after] at h
    split at h
    · exact .inl h
    · split at h
      · exact .inl h
      · split at h
        · rcases setBytes_new h with rfl | h
          · exact .inr ⟨_, _, ha, rfl⟩
          · exact .inl h
        · exact .inl h
  | completeMultipartUpload b k u parts =>
    have ha : A b k := ho.elim (·.1) False.elim
    cases parts with
    | none => exact .inl h
    | some l =>
      simp only [Machine.after] at h
      split at h
      · rcases setBytes_new h with rfl | h
        · exact .inr ⟨_, _, ha, rfl⟩
        · exact .inl h
      · exact .inl h
  | deleteObject b k =>
    rcases setBytes_new h with rfl | h
    · simp [Machine.after, setBytes] at h
    · exact .inl h
  | deleteObjects b ks => exact .inl (deleteEach_noNew _ p h)
  | deleteBucket b =>
    simp only [Machine.after] at h
    split at h
    · exact (h rfl).elim
    · exact .inl h
  | uploadPart u n body => cases body <;> exact .inl h
  | _ => exact .inl h

theorem machine_places (os : List Op) (hos : ∀ o ∈ os, Served A o ∨ Watching o) {p : List Bytes} :
    ∀ {s : Machine}, (s.afterAll place os).bytes p ≠ none → s.bytes p ≠ none ∨ ∃ b k, A b k ∧ place b k = p := by
  induction os with
  | nil => exact fun h => .inl h
  | cons o os ih =>
    intro s h
    rcases ih (fun o' ho' => hos o' (List.mem_cons_of_mem _ ho')) (s := s.after place o) h with h | h
    · exact machine_noNew (hos o (by simp)) h
    · exact .inr h

theorem closed_step (hS : Spelled cfg.root A place) (hw : WF fs) (h : Closed cfg A place s fs) {o : Op} (ho : Served A o ∨ Watching o) :
    Closed cfg A place (s.after place o) (after cfg ext o fs) := by
  refine ⟨fun b cs hb hcs hc => ?_, fun p hp => ?_⟩
  · by_cases hwr : (opPerm cfg o).wr (cfg.root ++ b :: cs)
    · exact served_writes hS ho hb hcs hwr
    · exact h.1 b cs hb hcs (after_noNew hw hwr hc)
  · rcases machine_noNew ho hp with h' | h'
    · exact h.2 p h'
    · exact h'

theorem closed_all (hl : MetaLaw ext) (he : ext.metaDec [] = none) (hS : Spelled cfg.root A place) (os : List Op)
    (hos : ∀ o ∈ os, Served A o ∨ Watching o) : ∀ {s : Machine} {fs : FS}, Embodies cfg ext A place s fs → Closed cfg A place s fs →
      Closed cfg A place (s.afterAll place os) (afterAll cfg ext os fs) := by
  induction os with
  | nil => exact fun _ h => h
  | cons o os ih =>
    intro s fs he' h
    exact ih (fun o' ho' => hos o' (List.mem_cons_of_mem _ ho')) (C131_step hl he hS he' (hos o (by simp)))
      (closed_step hS he'.wf h (hos o (by simp)))

theorem closed_fresh (hempty : ∀ q, q ≠ [] → fs.lookup (cfg.root ++ q) = none) : Closed cfg A place Machine.fresh fs :=
  ⟨fun b cs _ _ h => absurd (by simp [contentAt, hempty (b :: cs) (by simp)]) h, fun _ h => (h rfl).elim⟩

/-- in a closed world the files of a bucket are the bytes of the machine -/
theorem closed_stored (h : Embodies cfg ext A place s fs) (hc : Closed cfg A place s fs) {b k : Bytes} {cs : List Bytes}
    (hb : LegalBucket b) (hk : PlainKey k cs) : stored cfg fs b k = s.bytes (b :: cs) := by
  rw [stored_plain ((C02_bucket_name_rule b).mpr hb) hk]
  by_cases hn : contentAt fs (cfg.root ++ b :: cs) = none
  · by_cases hm : s.bytes (b :: cs) = none
    · rw [hn, hm]
    · obtain ⟨b', k', ha, e⟩ := hc.2 _ hm
      rw [← e]; exact h.bytes _ _ ha
  · obtain ⟨b', k', ha, e⟩ := hc.1 b cs hb hk.nonempty hn
    rw [← e]; exact h.bytes _ _ ha

theorem closed_listable (h : Embodies cfg ext A place s fs) (hc : Closed cfg A place s fs) (hL : Listed A place s)
    (hn : fs.nodes.length ≤ i64Max) {b : Bytes} (hb : LegalBucket b) (hf : s.folder [b] = true) : Listable cfg fs b where
  legal := (C02_bucket_name_rule b).mpr hb
  dir := by rw [IsDir, bucket_shown h hb, if_pos hf]
  text k cs hk hs := by
    rw [closed_stored h hc hb hk] at hs
    obtain ⟨b', k', ha, e⟩ := hc.2 _ hs
    rw [hk.text]; exact hL.text _ _ _ _ ha e
  size k cs c hk hs := by
    rw [closed_stored h hc hb hk] at hs
    exact hL.size _ _ hs
  count := hn

theorem list_missing {b : Bytes} (hb : LegalBucket b) (hn : fs.lookup (bucketDir cfg b) = none) (pfx : Option Bytes) (fuel : Nat) :
    answer cfg ext (.listObjects b pfx (fuel + 1)) fs = .err .InternalError ∧
    answer cfg ext (.listObjectsV2 b pfx (fuel + 1)) fs = .err .InternalError := by
  have hl : run cfg (listLoop cfg (bucketDir cfg b) pfx (fuel + 1) [bucketDir cfg b]) fs = (.err .InternalError, fs) := by
    simp [listLoop, bind_eq, run_call_bind, exec, hn]
  constructor
  · refine run_map_err.mpr ?_
    simp only [listObjects, bucketPath_legal cfg ((C02_bucket_name_rule b).mpr hb), bind_eq, pure_eq, run_orInternal_some]
    rw [run_bind, show cfg.root ++ [b] = bucketDir cfg b from rfl, hl]
    rfl
  · refine run_map_err.mpr ?_
    simp only [listObjectsV2, bucketPath_legal cfg ((C02_bucket_name_rule b).mpr hb), bind_eq, pure_eq, run_orInternal_some]
    rw [run_bind, show cfg.root ++ [b] = bucketDir cfg b from rfl, hl]
    rfl

theorem machine_listing (h : Embodies cfg ext A place s fs) (hc : Closed cfg A place s fs) (hL : Listed A place s)
    (hn : fs.nodes.length ≤ i64Max) {b : Bytes} (hb : LegalBucket b) (pfx : Option Bytes) {fuel : Nat} (hfuel : fs.nodes.length < fuel) :
    (s.folder [b] = true → ∃ l, s.Lists b pfx l ∧ answer cfg ext (.listObjects b pfx fuel) fs = .ok (.objects l) ∧
      answer cfg ext (.listObjectsV2 b pfx fuel) fs = .ok (.objectsV2 l.length l)) ∧
    (s.folder [b] = false → answer cfg ext (.listObjects b pfx fuel) fs = .err .InternalError ∧
      answer cfg ext (.listObjectsV2 b pfx fuel) fs = .err .InternalError) := by
  refine ⟨fun hf => ?_, fun hf => ?_⟩
  · obtain ⟨l, h1, h2, h3, h4⟩ := C20_listing_partial (cfg := cfg) (ext := ext) h.wf (closed_listable h hc hL hn hb hf) pfx hfuel
    refine ⟨l, ⟨h3, fun k n => (h4 k n).trans ?_⟩, h1, h2⟩
    constructor <;> rintro ⟨cs, c, hk, hs, hr⟩
    · exact ⟨cs, c, hk, by rw [← closed_stored h hc hb hk]; exact hs, hr⟩
    · exact ⟨cs, c, hk, by rw [closed_stored h hc hb hk]; exact hs, hr⟩
  · obtain ⟨n, rfl⟩ : ∃ n, fuel = n + 1 := ⟨fuel - 1, by omega⟩
    exact list_missing hb (by rw [bucket_shown h hb, hf]; rfl) pfx n

/-- **C133** Listings belong to the machine too. After any history of requests the machine knows, on a server started on an
empty directory, both listings of a bucket give exactly the places of the bucket that hold bytes in the machine, each once
under its plain name, with the number of bytes, in ascending order - whatever the spellings the objects were written under -,
and fail exactly when the machine has no such bucket. Nothing is left out and nothing else is shown. -/
theorem C133_listing (hl : MetaLaw ext) (he : ext.metaDec [] = none) (hS : Spelled cfg.root A place) (hw : WF fs)
    (hroot : IsDir fs cfg.root) (hempty : ∀ q, q ≠ [] → fs.lookup (cfg.root ++ q) = none) (os : List Op)
    (hos : ∀ o ∈ os, Served A o ∨ Watching o) (hL : Listed A place (Machine.fresh.afterAll place os))
    (hn : (afterAll cfg ext os fs).nodes.length ≤ i64Max) {b : Bytes} (hb : LegalBucket b) (pfx : Option Bytes) {fuel : Nat}
    (hfuel : (afterAll cfg ext os fs).nodes.length < fuel) :
    ((Machine.fresh.afterAll place os).folder [b] = true → ∃ l, (Machine.fresh.afterAll place os).Lists b pfx l ∧
      answer cfg ext (.listObjects b pfx fuel) (afterAll cfg ext os fs) = .ok (.objects l) ∧
      answer cfg ext (.listObjectsV2 b pfx fuel) (afterAll cfg ext os fs) = .ok (.objectsV2 l.length l)) ∧
    ((Machine.fresh.afterAll place os).folder [b] = false →
      answer cfg ext (.listObjects b pfx fuel) (afterAll cfg ext os fs) = .err .InternalError ∧
      answer cfg ext (.listObjectsV2 b pfx fuel) (afterAll cfg ext os fs) = .err .InternalError) :=
  machine_listing (C131_machine hl he hS (embodies_fresh hS hw hroot hempty) os hos).1
    (closed_all hl he hS os hos (embodies_fresh hS hw hroot hempty) (closed_fresh hempty)) hL hn hb pfx hfuel

theorem machine_buckets (h : Embodies cfg ext A place s fs) : ∃ l, answer cfg ext .listBuckets fs = .ok (.buckets l) ∧ l.Nodup ∧
    ∀ b, b ∈ l ↔ LegalBucket b ∧ s.folder [b] = true := by
  obtain ⟨l, h1, h2, h3⟩ := C21_list_buckets (ext := ext) h.wf h.root
  refine ⟨l, h1, h2, fun b => (h3 b).trans ⟨fun ⟨a, d⟩ => ⟨a, ?_⟩, fun ⟨a, d⟩ => ⟨a, ?_⟩⟩⟩
  · exact (h.folders [b] (.inr ⟨b, a, rfl⟩)).1.mp d
  · exact (h.folders [b] (.inr ⟨b, a, rfl⟩)).1.mpr d

/-- **C133** The list of buckets is exactly that of the machine. -/
theorem C133_buckets (hl : MetaLaw ext) (he : ext.metaDec [] = none) (hS : Spelled cfg.root A place) (hw : WF fs)
    (hroot : IsDir fs cfg.root) (hempty : ∀ q, q ≠ [] → fs.lookup (cfg.root ++ q) = none) (os : List Op)
    (hos : ∀ o ∈ os, Served A o ∨ Watching o) :
    ∃ l, answer cfg ext .listBuckets (afterAll cfg ext os fs) = .ok (.buckets l) ∧ l.Nodup ∧
      ∀ b, b ∈ l ↔ LegalBucket b ∧ (Machine.fresh.afterAll place os).folder [b] = true :=
  machine_buckets (C131_machine hl he hS (embodies_fresh hS hw hroot hempty) os hos).1

/-- the response to a request for a listing -/
theorem machine_shows (h : Embodies cfg ext A place s fs) (hc : Closed cfg A place s fs) (hL : Listed A place s)
    (hclean : ∀ b k c cs, A b k → place b k = c :: cs → CleanText (joinWith 47 cs))
    {e : Exchange} {b : Bytes} {pfx : Option Bytes}
    (hx : Asks lib auth e (.listObjects b pfx e.env.fuel) ∨ Asks lib auth e (.listObjectsV2 b pfx e.env.fuel))
    (hn : fs.nodes.length ≤ i64Max) (hfuel : fs.nodes.length < e.env.fuel)
    (hq : ∀ n ∈ [b!"delimiter", b!"encoding-type"], ∀ v, (n, v) ∈ queryOf e.req → CleanText v) (hm : CleanMessage e.texts) :
    ∃ res, responded cfg ext lib auth e.env e.texts e.req fs = .ok res ∧
      if s.folder [b] then ∃ es, Shows res 200 es ∧ MachineShows s e.texts.modified b pfx es else Reports res 500 b!"InternalError" := by
  have hb : LegalBucket b := by
    rcases hx with ⟨_, _, ho⟩ | ⟨_, _, ho⟩
    · cases ho with
      | listObjects _ hat _ _ _ =>
        obtain ⟨p, _, hp⟩ := hat
        cases hp <;> assumption
    · cases ho with
      | listObjectsV2 _ hat _ _ _ _ _ =>
        obtain ⟨p, _, hp⟩ := hat
        cases hp <;> assumption
  have hlist := machine_listing h hc hL hn hb pfx hfuel
  by_cases hf : s.folder [b] = true
  · have hck : CleanKeys cfg fs b := by
      intro k cs hk hs
      rw [closed_stored h hc hb hk] at hs
      obtain ⟨b', k', ha, e⟩ := hc.2 _ hs
      rw [hk.text]; exact hclean _ _ _ _ ha e
    have key : ∃ res es, responded cfg ext lib auth e.env e.texts e.req fs = .ok res ∧ Shows res 200 es ∧
        ListingShows cfg fs e.texts.modified b pfx es := by
      rcases hx with ⟨c, hc', ho⟩ | ⟨c, hc', ho⟩
      · exact C71_listing_partial cfg ext lib auth e.env hc' ho e.texts h.wf (closed_listable h hc hL hn hb hf) hck hfuel hq
      · obtain ⟨res, es, h1, h2, h3, _⟩ := C71_listing_v2_partial cfg ext lib auth e.env hc' ho e.texts h.wf
          (closed_listable h hc hL hn hb hf) hck hfuel hq
        exact ⟨res, es, h1, h2, h3⟩
    obtain ⟨res, es, h1, h2, l, l1, l2, l3⟩ := key
    refine ⟨res, h1, ?_⟩
    rw [if_pos hf]
    refine ⟨es, h2, l, ⟨l1, fun k n => (l2 k n).trans ?_⟩, l3⟩
    constructor <;> rintro ⟨cs, c, hk, hs, hr⟩
    · exact ⟨cs, c, hk, by rw [← closed_stored h hc hb hk]; exact hs, hr⟩
    · exact ⟨cs, c, hk, by rw [closed_stored h hc hb hk]; exact hs, hr⟩
  · simp only [Bool.not_eq_true] at hf
    obtain ⟨a1, a2⟩ := hlist.2 hf
    simp only [hf, Bool.false_eq_true, if_false]
    rcases hx with ⟨c, hc', ho⟩ | ⟨c, hc', ho⟩
    · exact reports hm hc' ho a1
    · exact reports hm hc' ho a2

/-- **C133** (over HTTP) The response to a request for a listing, of either kind: a document that shows the listing of the
machine when the machine has the bucket, and the error document of `InternalError` when it has not. -/
theorem C133_client (hl : MetaLaw ext) (he : ext.metaDec [] = none) (hS : Spelled cfg.root A place) (hw : WF fs)
    (hroot : IsDir fs cfg.root) (hempty : ∀ q, q ≠ [] → fs.lookup (cfg.root ++ q) = none)
    {hist : List Exchange} {os : List Op} (hist_os : Meaning cfg ext lib auth hist os) (hos : ∀ o ∈ os, Served A o ∨ Watching o)
    (hL : Listed A place (Machine.fresh.afterAll place os))
    (hclean : ∀ b k c cs, A b k → place b k = c :: cs → CleanText (joinWith 47 cs))
    {e : Exchange} {b : Bytes} {pfx : Option Bytes}
    (hx : Asks lib auth e (.listObjects b pfx e.env.fuel) ∨ Asks lib auth e (.listObjectsV2 b pfx e.env.fuel))
    (hn : (afterExchanges cfg ext lib auth hist fs).nodes.length ≤ i64Max)
    (hfuel : (afterExchanges cfg ext lib auth hist fs).nodes.length < e.env.fuel)
    (hq : ∀ n ∈ [b!"delimiter", b!"encoding-type"], ∀ v, (n, v) ∈ queryOf e.req → CleanText v) (hm : CleanMessage e.texts) :
    ∃ res, responded cfg ext lib auth e.env e.texts e.req (afterExchanges cfg ext lib auth hist fs) = .ok res ∧
      if (Machine.fresh.afterAll place os).folder [b] then
        ∃ es, Shows res 200 es ∧ MachineShows (Machine.fresh.afterAll place os) e.texts.modified b pfx es
      else Reports res 500 b!"InternalError" := by
  rw [afterExchanges_meaning hist_os] at hn hfuel ⊢
  exact machine_shows (C131_machine hl he hS (embodies_fresh hS hw hroot hempty) os hos).1
    (closed_all hl he hS os hos (embodies_fresh hS hw hroot hempty) (closed_fresh hempty)) hL hclean hx hn hfuel hq hm

/-! #### a sample -/

theorem Sample.placeOf_tail {b k c : Bytes} {cs : List Bytes} (h : Sample.spellings b k) (e : Sample.placeOf b k = c :: cs) :
    utf8Valid (joinWith 47 cs) = true ∧ CleanText (joinWith 47 cs) := by
  rcases Sample.spellings_cases h with ⟨rfl, rfl⟩ | ⟨rfl, rfl⟩ | ⟨rfl, rfl⟩ <;> cases e <;>
    exact ⟨by decide +kernel, clean_all (by decide +kernel)⟩

theorem Sample.pieces_listed : Listed Sample.spellings Sample.placeOf (Machine.fresh.afterAll Sample.placeOf Sample.pieces) where
  text _ _ _ _ h e := (Sample.placeOf_tail h e).1
  size p c h := by
    obtain h0 | ⟨b, k, ha, rfl⟩ := machine_places Sample.pieces Sample.pieces_served (p := p) (by rw [h]; simp)
    · exact (h0 rfl).elim
    have : ∀ q ∈ [[b!"aaa", b!"x"], [b!"bbb", b!"d", b!"e"]],
        ((Machine.fresh.afterAll Sample.placeOf Sample.pieces).bytes q).all (fun c => decide (c.length ≤ i64Max)) = true := by decide +kernel
    have := this (Sample.placeOf b k) (by
      rcases Sample.spellings_cases ha with ⟨rfl, rfl⟩ | ⟨rfl, rfl⟩ | ⟨rfl, rfl⟩ <;> decide +kernel)
    rw [h] at this
    simpa using this

/-- the hypotheses of C133 are met, and what the machine says of the two buckets -/
example : (∀ o ∈ Sample.pieces, Served Sample.spellings o ∨ Watching o) ∧
    Listed Sample.spellings Sample.placeOf (Machine.fresh.afterAll Sample.placeOf Sample.pieces) ∧
    (afterAll Sample.cfg (realExt id) Sample.pieces Sample.emptyStore).nodes.length < 30 ∧ 30 ≤ i64Max ∧
    (Machine.fresh.afterAll Sample.placeOf Sample.pieces).folder [b!"aaa"] = true ∧
    (Machine.fresh.afterAll Sample.placeOf Sample.pieces).bytes [b!"bbb", b!"d", b!"e"] = some b!"abc" ∧
    (Machine.fresh.afterAll Sample.placeOf Sample.pieces).bytes [b!"aaa", b!"x"] = none ∧
    (Machine.fresh.afterAll Sample.placeOf Sample.pieces).folder [b!"ccc"] = false ∧
    answer Sample.cfg (realExt id) (.listObjects b!"bbb" none 30) (afterAll Sample.cfg (realExt id) Sample.pieces Sample.emptyStore)
      = .ok (.objects [(b!"d/e", 3)]) ∧
    answer Sample.cfg (realExt id) (.listObjectsV2 b!"aaa" none 30) (afterAll Sample.cfg (realExt id) Sample.pieces Sample.emptyStore)
      = .ok (.objectsV2 0 []) :=
  ⟨Sample.pieces_served, Sample.pieces_listed, by decide +kernel, by decide, by decide +kernel, by decide +kernel, by decide +kernel,
    by decide +kernel, by decide +kernel, by decide +kernel⟩

/-- the hypotheses of `C133_client` are met: an object uploaded as `aaa/d/../x` is listed as `x` -/
example : Meaning Sample.cfg (realExt id) Sample.lib none [Sample.exchange Sample.partReq] [.uploadPart b!"id1" 1 (some [some b!"one"])] ∧
    (∀ o ∈ Sample.oddAsked, Served Sample.spellings o ∨ Watching o) ∧
    (∀ b k c cs, Sample.spellings b k → Sample.placeOf b k = c :: cs → CleanText (joinWith 47 cs)) ∧
    Asks Sample.lib none (Sample.exchange Sample.list) (.listObjects b!"aaa" none Sample.env.fuel) ∧
    (afterAll Sample.cfg (realExt id) Sample.oddAsked Sample.emptyStore).nodes.length < Sample.env.fuel ∧
    (∀ n ∈ [b!"delimiter", b!"encoding-type"], ∀ v, (n, v) ∈ queryOf Sample.list → CleanText v) ∧
    answer Sample.cfg (realExt id) (.listObjects b!"aaa" none 30) (afterAll Sample.cfg (realExt id) Sample.oddAsked Sample.emptyStore)
      = .ok (.objects [(b!"x", 3)]) := by
  refine ⟨.asks Sample.asks_part .nil, ?_, fun _ _ _ _ h e => (Sample.placeOf_tail h e).2, ?_, by decide +kernel, ?_, by decide +kernel⟩
  · intro o ho
    simp only [Sample.oddAsked, List.mem_cons, List.not_mem_nil, or_false] at ho
    rcases ho with rfl | rfl
    · refine .inl ⟨(by decide : _ ∈ _), ?_⟩
      intro m hm
      cases hm
      exact ⟨by decide, by decide +kernel⟩
    · exact .inl ⟨by decide, by decide +kernel⟩
  · exact Sample.asks (by decide +kernel) (.listObjects rfl (Sample.at_bucket rfl (by decide +kernel) (by decide +kernel)) (Sample.selects_none rfl)
      (Sample.no_query (by decide +kernel)) ⟨none, none, Sample.no_query (by decide +kernel), trivial⟩)
  · intro n _ v hv
    cases hv

end S3
