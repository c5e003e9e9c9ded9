import Verif.Lemmas.FolderUse
import Verif.Props.MachineClient
/-! C139: folder keys where the key of an object is expected. -/
namespace S3
open Spec

variable {cfg : Cfg} {ext : Ext} {lib : Lib} {auth : Option Provider} {A : Bytes → Bytes → Prop}
  {place : Bytes → Bytes → List Bytes} {s t : Machine} {fs : FS}

/-- **C139** (one request) When the file tree shows a state of the machine, a GET or HEAD of a folder key, a copy from it, and a
DeleteObjects that lists folder keys among others are answered as the machine answers them, and leave a file tree that shows the
next state. With a release of `path-dedot` that keeps trailing slashes this is so for copies and completions onto folder keys too. -/
theorem C139_step (hl : MetaLaw ext) (he : ext.metaDec [] = none) (hS : Spelled cfg.root A place) (h : Tree cfg ext A place s fs)
    (hu : Unrecorded A place cfg fs) {o : Op} (ho : FolderUse A place cfg.keepSlash o) :
    ∃ t, FolderAnswer A place cfg.dirLen s o (answer cfg ext o fs) t ∧ Tree cfg ext A place t (after cfg ext o fs) := by
  cases o with
  | getObject b k r w =>
    obtain ⟨cs, hk⟩ := ho
    exact ⟨s, folder_get h hu r w hk, by rw [after, C28_read_ops_pure cfg ext _ (by exact trivial) fs h.shown.wf]; exact h⟩
  | headObject b k =>
    obtain ⟨cs, hk⟩ := ho
    exact ⟨s, folder_head h hu hk, by rw [after, C28_read_ops_pure cfg ext _ (by exact trivial) fs h.shown.wf]; exact h⟩
  | copyObject b k src =>
    rcases ho with ⟨sb, sk, cs, hsrc, hk⟩ | ⟨hkeep, cs, hk⟩
    · rw [answer, after, folder_copy h hsrc hk]
      exact ⟨s, .copy hsrc hk, h⟩
    · refine ⟨s, ?_, by rw [onto_copy h hk (.inl hkeep)]; exact h⟩
      cases hsrc : copySourceFromHeader src with
      | error x =>
        have : run cfg (opProg cfg ext (.copyObject b k src)) fs = (.err .InvalidRequest, fs) := by
          simp only [opProg, copyObject, hsrc]; rfl
        rw [answer, this]
        exact .ontoUnread hk fun x hx => by rw [hsrc] at hx; cases hx
      | ok p =>
        rw [answer, (folder_onto h hk (.inl hkeep)).1 src p.1 p.2 hsrc]
        exact .onto hk hsrc
  | completeMultipartUpload b k u l =>
    obtain ⟨hkeep, cs, hk⟩ := ho
    refine ⟨s, ?_, by rw [onto_complete h hk (.inl hkeep)]; exact h⟩
    cases l with
    | none => exact .completeNone hk
    | some l =>
      rw [answer, (folder_onto h hk (.inl hkeep)).2 u l]
      exact .complete hk
  | deleteObjects b ks => exact folder_deleteObjects hl he hS h ho
  | _ => exact ho.elim

/-- **C139** (no choice) The machine has one answer to such a request, and one next state. -/
theorem C139_determined (hS : Spelled cfg.root A place) {n : Nat} {o : Op} {a a' : Outcome Answer} {t' : Machine}
    (h : FolderAnswer A place n s o a t) (h' : FolderAnswer A place n s o a' t') : a = a' ∧ t = t' := by
  have each : ∀ {b ks} {s : Machine} {r r' : Bool} {t t' : Machine}, RemovesEach A place b s ks r t → RemovesEach A place b s ks r' t' →
      r = r' ∧ t = t' := by
    intro b ks s r r' t t' h
    induction h generalizing r' t' with
    | nil => intro h'; cases h'; exact ⟨rfl, rfl⟩
    | object ha hb _ ih =>
      intro h'
      cases h' with
      | object _ _ h' => exact ih h'
      | gone _ hb' => exact absurd hb' hb
      | folder hk => exact absurd ha (folder_not_address hS hk)
    | gone ha hb =>
      intro h'
      cases h' with
      | object _ hb' _ => exact absurd hb hb'
      | gone _ _ => exact ⟨rfl, rfl⟩
      | folder hk => exact ⟨rfl, rfl⟩
    | folder hk =>
      intro h'
      cases h' with
      | object ha _ _ => exact absurd ha (folder_not_address hS hk)
      | gone _ _ => exact ⟨rfl, rfl⟩
      | folder hk => exact ⟨rfl, rfl⟩
  cases h with
  | headNone hk hf =>
    cases h' with
    | headNone _ _ => exact ⟨rfl, rfl⟩
    | head hk' hf' _ => rw [folder_comps hk' hk, hf] at hf'; cases hf'
    | headLong hk' hf' _ => rw [folder_comps hk' hk, hf] at hf'; cases hf'
  | head hk hf hn =>
    cases h' with
    | headNone hk' hf' => rw [folder_comps hk' hk, hf] at hf'; cases hf'
    | head _ _ _ => exact ⟨rfl, rfl⟩
    | headLong _ _ hn' => omega
  | headLong hk hf hn =>
    cases h' with
    | headNone hk' hf' => rw [folder_comps hk' hk, hf] at hf'; cases hf'
    | head _ _ hn' => omega
    | headLong _ _ _ => exact ⟨rfl, rfl⟩
  | getRange hk hr =>
    cases h' with
    | getRange _ _ => exact ⟨rfl, rfl⟩
    | getNone _ hr' _ => exact absurd hr hr'
    | getOutside _ hr' _ _ => rw [hr] at hr'; cases hr'
    | get _ hr' _ _ => rw [hr] at hr'; cases hr'
  | getNone hk hr hf =>
    cases h' with
    | getRange _ hr' => exact absurd hr' hr
    | getNone _ _ _ => exact ⟨rfl, rfl⟩
    | getOutside hk' _ hf' _ => rw [folder_comps hk' hk, hf] at hf'; cases hf'
    | get hk' _ hf' _ => rw [folder_comps hk' hk, hf] at hf'; cases hf'
  | getOutside hk hr hf hsl =>
    cases h' with
    | getRange _ hr' => rw [hr] at hr'; cases hr'
    | getNone hk' _ hf' => rw [folder_comps hk' hk, hf] at hf'; cases hf'
    | getOutside _ _ _ _ => exact ⟨rfl, rfl⟩
    | get _ hr' _ hsl' => rw [hr] at hr'; cases hr'; exact absurd hsl hsl'
  | get hk hr hf hsl =>
    cases h' with
    | getRange _ hr' => rw [hr] at hr'; cases hr'
    | getNone hk' _ hf' => rw [folder_comps hk' hk, hf] at hf'; cases hf'
    | getOutside _ hr' _ hsl' => rw [hr] at hr'; cases hr'; exact absurd hsl' hsl
    | get _ _ _ _ => exact ⟨rfl, rfl⟩
  | copy hsrc _ =>
    cases h' with
    | copy _ _ => exact ⟨rfl, rfl⟩
    | onto _ _ => exact ⟨rfl, rfl⟩
    | ontoUnread _ hn => exact absurd hsrc (hn _)
  | onto _ hsrc =>
    cases h' with
    | copy _ _ => exact ⟨rfl, rfl⟩
    | onto _ _ => exact ⟨rfl, rfl⟩
    | ontoUnread _ hn => exact absurd hsrc (hn _)
  | ontoUnread _ hn =>
    cases h' with
    | copy hsrc _ => exact absurd hsrc (hn _)
    | onto _ hsrc => exact absurd hsrc (hn _)
    | ontoUnread _ _ => exact ⟨rfl, rfl⟩
  | complete _ => cases h'; exact ⟨rfl, rfl⟩
  | completeNone _ => cases h'; exact ⟨rfl, rfl⟩
  | deleted h =>
    cases h' with
    | deleted h' => exact ⟨rfl, (each h h').2⟩
    | stopped h' => exact nomatch (each h h').1
  | stopped h =>
    cases h' with
    | deleted h' => exact nomatch (each h h').1
    | stopped h' => exact ⟨rfl, (each h h').2⟩

/-- **C139** (folders are safe) None of these requests makes, removes or changes a folder, a record or an uploaded part; the only
thing that can happen is that objects named in a DeleteObjects are gone. -/
theorem C139_safe {n : Nat} {o : Op} {a : Outcome Answer} (h : FolderAnswer A place n s o a t) :
    t.folder = s.folder ∧ t.record = s.record ∧ t.parts = s.parts ∧ ∀ p, t.bytes p = s.bytes p ∨
      (t.bytes p = none ∧ ∃ b ks k, o = .deleteObjects b ks ∧ k ∈ ks ∧ A b k ∧ place b k = p) := by
  have each : ∀ {b ks} {s : Machine} {r : Bool} {t : Machine}, RemovesEach A place b s ks r t → t.folder = s.folder ∧ t.record = s.record ∧
      t.parts = s.parts ∧ ∀ p, t.bytes p = s.bytes p ∨ (t.bytes p = none ∧ ∃ k, k ∈ ks ∧ A b k ∧ place b k = p) := by
    intro b ks s r t h
    induction h with
    | nil => exact ⟨rfl, rfl, rfl, fun _ => .inl rfl⟩
    | gone _ _ => exact ⟨rfl, rfl, rfl, fun _ => .inl rfl⟩
    | folder _ => exact ⟨rfl, rfl, rfl, fun _ => .inl rfl⟩
    | @object s t k ks r ha hb _ ih =>
      obtain ⟨h1, h2, h3, h4⟩ := ih
      refine ⟨h1, h2, h3, fun p => ?_⟩
      rcases h4 p with h4 | ⟨h4, k', h5, h6⟩
      · by_cases e : p = place b k
        · refine .inr ⟨by rw [h4]; simp only [setBytes, e, if_true], k, by simp, ha, e.symm⟩
        · exact .inl (by rw [h4]; simp only [setBytes, e, if_false])
      · exact .inr ⟨h4, k', List.mem_cons_of_mem _ h5, h6⟩
  have many : ∀ {b ks r}, o = .deleteObjects b ks → RemovesEach A place b s (present A place s b ks) r t →
      t.folder = s.folder ∧ t.record = s.record ∧ t.parts = s.parts ∧ ∀ p, t.bytes p = s.bytes p ∨
      (t.bytes p = none ∧ ∃ b ks k, o = .deleteObjects b ks ∧ k ∈ ks ∧ A b k ∧ place b k = p) := by
    intro b ks r ho h
    obtain ⟨h1, h2, h3, h4⟩ := each h
    refine ⟨h1, h2, h3, fun p => (h4 p).imp_right ?_⟩
    rintro ⟨h5, k, h6, h7⟩
    exact ⟨h5, b, ks, k, ho, (List.mem_filter.mp h6).1, h7⟩
  cases h with
  | deleted h => exact many rfl h
  | stopped h => exact many rfl h
  | _ => exact ⟨rfl, rfl, rfl, fun _ => .inl rfl⟩

/-- **C139** (onto a folder) A copy onto a folder that is there, and a completion of an upload there, fail and change nothing, with
every release of `path-dedot`. -/
theorem C139_onto (h : Tree cfg ext A place s fs) {b k : Bytes} {cs : List Bytes} (hk : FolderKey A place b k cs)
    (hf : s.folder (b :: cs) = true) :
    (∀ src, (∃ e, answer cfg ext (.copyObject b k src) fs = .err e) ∧ after cfg ext (.copyObject b k src) fs = fs) ∧
    (∀ u l, (∃ e, answer cfg ext (.completeMultipartUpload b k u l) fs = .err e) ∧
      after cfg ext (.completeMultipartUpload b k u l) fs = fs) := by
  obtain ⟨h1, h2⟩ := folder_onto (ext := ext) h hk (.inr hf)
  refine ⟨fun src => ⟨?_, onto_copy h hk (.inr hf)⟩, fun u l => ⟨?_, onto_complete h hk (.inr hf)⟩⟩
  · cases hsrc : copySourceFromHeader src with
    | error x =>
      have : run cfg (opProg cfg ext (.copyObject b k src)) fs = (.err .InvalidRequest, fs) := by
        simp only [opProg, copyObject, hsrc]; rfl
      rw [answer, this]
      exact ⟨_, rfl⟩
    | ok p =>
      rw [answer, h1 src p.1 p.2 hsrc]
      exact ⟨_, rfl⟩
  · cases l with
    | none => exact ⟨_, rfl⟩
    | some l =>
      rw [answer, h2 u l]
      exact ⟨_, rfl⟩

/-- **C139** (when the slash is lost) With a release of `path-dedot` that does not keep trailing slashes, the completion of an upload
at a folder key does, in every file tree, exactly what it does at the key without the slash. -/
theorem C139_stripped (hkeep : cfg.keepSlash = false) {b k : Bytes} {cs : List Bytes} (hb : LegalBucket b) (hk : PlainKey k cs)
    (u : Bytes) (l : Option (List (Option Int))) (fs : FS) :
    answer cfg ext (.completeMultipartUpload b (k ++ b!"/") u l) fs = answer cfg ext (.completeMultipartUpload b k u l) fs ∧
    after cfg ext (.completeMultipartUpload b (k ++ b!"/") u l) fs = after cfg ext (.completeMultipartUpload b k u l) fs := by
  have hb' := (C02_bucket_name_rule b).mpr hb
  have hp : objectPath cfg b (k ++ b!"/") = objectPath cfg b k := by
    rw [objectPath_slash hb' hk, objectPath_plain cfg hb' hk, hkeep]
  have : opProg cfg ext (.completeMultipartUpload b (k ++ b!"/") u l) = opProg cfg ext (.completeMultipartUpload b k u l) := by
    simp only [opProg, completeMultipartUpload, getMd5Sum, hp]
  rw [answer, answer, after, after, this]
  exact ⟨rfl, rfl⟩

theorem runs_all (hl : MetaLaw ext) (he : ext.metaDec [] = none) (hS : Spelled cfg.root A place) (os : List Op)
    (hos : ∀ o ∈ os, Served A o ∨ Watching o ∨ (∃ q, FolderOp A place q o) ∨ FolderUse A place cfg.keepSlash o) :
    ∀ {s : Machine} {fs : FS}, Tree cfg ext A place s fs → Unrecorded A place cfg fs →
      ∃ t, Runs A place ext cfg.keepSlash cfg.dirLen s (answered cfg ext os fs) t ∧ Tree cfg ext A place t (afterAll cfg ext os fs) ∧
        Unrecorded A place cfg (afterAll cfg ext os fs) := by
  induction os with
  | nil => exact fun h hu => ⟨_, .nil _, h, hu⟩
  | cons o os ih =>
    intro s fs h hu
    have hos' := fun o' ho' => hos o' (List.mem_cons_of_mem _ ho')
    have hu' := unrecorded_step (ext := ext) hS h hu (hos o (by simp))
    by_cases hx : Served A o
    · obtain ⟨t, h1, h2⟩ := ih hos' (tree_step hl he hS h (.inl hx)) hu'
      exact ⟨t, .served hx (C131_answer hS he h.shown hx) h1, h2⟩
    by_cases hy : FolderUse A place cfg.keepSlash o
    · obtain ⟨s', h1, h2⟩ := C139_step hl he hS h hu hy
      obtain ⟨t, h3, h4⟩ := ih hos' h2 hu'
      exact ⟨t, .use hy h1 h3, h4⟩
    rcases hos o (by simp) with ho | ho | ⟨q, ho⟩ | ho
    · exact absurd ho hx
    · have hst := tree_step hl he hS h (.inr ho)
      rw [show s.after place o = s by cases o <;> first | rfl | exact ho.elim] at hst
      obtain ⟨t, h1, h2⟩ := ih hos' hst hu'
      exact ⟨t, .watching ho hx hy h1, h2⟩
    · obtain ⟨s', h1, h2⟩ := C138_step hS h ho
      obtain ⟨t, h3, h4⟩ := ih hos' h2 hu'
      exact ⟨t, .folder ho h1 h3, h4⟩
    · exact absurd ho hy

/-- **C139** (histories) On a server started on an empty directory, every history that mixes requests about the addresses in `A`,
PUTs and DELETEs of folder keys, and requests that use folder keys as if they named objects, is a history of the machine: each
request gets the answer the machine gives, and the directories of every bucket are exactly the folders of the machine. -/
theorem C139_history (hl : MetaLaw ext) (he : ext.metaDec [] = none) (hS : Spelled cfg.root A place) (hw : WF fs)
    (hroot : IsDir fs cfg.root) (hempty : ∀ q, q ≠ [] → fs.lookup (cfg.root ++ q) = none) (os : List Op)
    (hos : ∀ o ∈ os, Served A o ∨ Watching o ∨ (∃ q, FolderOp A place q o) ∨ FolderUse A place cfg.keepSlash o) :
    ∃ t, Runs A place ext cfg.keepSlash cfg.dirLen Machine.fresh (answered cfg ext os fs) t ∧ Tree cfg ext A place t (afterAll cfg ext os fs) ∧
      Unrecorded A place cfg (afterAll cfg ext os fs) :=
  runs_all hl he hS os hos (tree_fresh hS hw hroot hempty) fun _ _ _ _ => hempty _ (by simp)

/-- **C139** (over HTTP) What a client sees when it uses a folder key as if it named an object, after such a history of exchanges. -/
theorem C139_client (hl : MetaLaw ext) (he0 : ext.metaDec [] = none) (hS : Spelled cfg.root A place) (hw : WF fs)
    (hroot : IsDir fs cfg.root) (hempty : ∀ q, q ≠ [] → fs.lookup (cfg.root ++ q) = none)
    {hist : List Exchange} {os : List Op} (hist_os : Meaning cfg ext lib auth hist os)
    (hos : ∀ o ∈ os, Served A o ∨ Watching o ∨ (∃ q, FolderOp A place q o) ∨ FolderUse A place cfg.keepSlash o) {e : Exchange} {o : Op}
    (he : Asks lib auth e o) (ho : FolderUse A place cfg.keepSlash o) (hdoc : Documented e.req o) (hm : CleanMessage e.texts) :
    ∃ s t a res, Runs A place ext cfg.keepSlash cfg.dirLen Machine.fresh (answered cfg ext os fs) s ∧ FolderAnswer A place cfg.dirLen s o a t ∧
      responded cfg ext lib auth e.env e.texts e.req (afterExchanges cfg ext lib auth hist fs) = .ok res ∧ Renders res o a := by
  rw [afterExchanges_meaning hist_os]
  obtain ⟨s, h1, h2, hu⟩ := C139_history hl he0 hS hw hroot hempty os hos
  obtain ⟨t, h3, _⟩ := C139_step hl he0 hS h2 hu ho
  obtain ⟨c, hc, hr⟩ := he
  suffices hx : ∃ res, responded cfg ext lib auth e.env e.texts e.req (afterAll cfg ext os fs) = .ok res ∧
      Renders res o (answer cfg ext o (afterAll cfg ext os fs)) by
    obtain ⟨res, r1, r2⟩ := hx
    exact ⟨s, t, _, res, h1, h3, r1, r2⟩
  have err : ∀ code, answer cfg ext o (afterAll cfg ext os fs) = .err code →
      ∃ res, responded cfg ext lib auth e.env e.texts e.req (afterAll cfg ext os fs) = .ok res ∧ Renders res o (.err code) := by
    intro code hcode
    obtain ⟨res, r1, r2⟩ := reports (cfg := cfg) (ext := ext) hm hc hr hcode
    exact ⟨res, r1, by unfold Renders; exact r2⟩
  have ok : ∀ a, answer cfg ext o (afterAll cfg ext os fs) = .ok a → a.meta = [] → ∀ res,
      makeResponse e.texts c o.handler ⟨successStatus o, metaHeaders none, a⟩ = .ret res → Renders res o (.ok a) →
      ∃ res, responded cfg ext lib auth e.env e.texts e.req (afterAll cfg ext os fs) = .ok res ∧ Renders res o (.ok a) := by
    intro a hok hmeta res h5 h6
    exact ⟨res, (responded_of (cfg := cfg) (ext := ext) hc hr e.texts _).2.2 a hok none (by rw [hmeta]; rfl) (fun l hl => nomatch hl) res h5, h6⟩
  generalize ha : answer cfg ext o (afterAll cfg ext os fs) = a at h3 err ok
  cases h3 with
  | head _ _ _ =>
    obtain ⟨t, _, hh⟩ := head_headers e.texts c cfg.dirLen none
    refine ok _ rfl rfl _ (by simp only [makeResponse, Op.handler, hh, document, Answer.content]; rfl) ⟨rfl, rfl, ?_, ?_⟩
    · refine ⟨_, natDigits_spec _, fun v => ?_⟩
      exact header_iff (not_meta (by decide)) (fun v => by simp)
    · intro n v
      exact meta_headers (by simp) n v
  | @deleted b ks t _ =>
    let g : Bytes → List XmlEntry := fun k => [([b!"Deleted", b!"Key"], k), ([b!"Deleted"], [])]
    obtain ⟨out, part⟩ := Part.flatMap (gt := e.texts.gt) (f := fun k => stackEvents b!"Deleted" (elementEvents b!"Key" k)) (g := g)
      (present A place s b ks) fun k hk' =>
        (Part.element (n := b!"Key") (by decide) (hdoc k (List.mem_filter.mp hk').1)).stack (n := b!"Deleted") (by decide)
    obtain ⟨doc, d1, d2⟩ := part.rooted (n := b!"DeleteResult") (by decide)
    obtain ⟨res, r1, r2⟩ := makeResponse_doc (x := e.texts) (c := c) (h := Handler.deleteObjects)
      (rep := ⟨successStatus (.deleteObjects b ks), metaHeaders none, .keys (present A place s b ks)⟩) rfl d1 d2
    refine ok _ rfl rfl res r1 ⟨_, r2, ?_⟩
    rw [textsAt_append, textsAt_below, textsAt_flatMap (f := fun k => [k]) (fun k => rfl), flatMap_one]
    show _ ++ [] = _
    simp
  | _ => exact err _ rfl

/-! #### a sample -/

/-- a folder is made and used like an object; an object is put into it; both are listed in a DeleteObjects -/
def Sample.useHist : List Op :=
  [.createBucket b!"bbb", .headObject b!"bbb" b!"d/", .completeMultipartUpload b!"bbb" b!"d/" b!"u1" (some []), .putObject Sample.folderPut, .headObject b!"bbb" b!"d/",
    .getObject b!"bbb" b!"d/" none (fun _ => 7), .getObject b!"bbb" b!"d/" (some b!"bytes=5000-") (fun _ => 7),
    .copyObject b!"bbb" b!"d/e" b!"bbb/d/", .uploadPart b!"u1" 1 (some [some b!"ab"]),
    .completeMultipartUpload b!"bbb" b!"d/e" b!"u1" (some [some 1]), .deleteObjects b!"bbb" [b!"d/e", b!"d/"],
    .headObject b!"bbb" b!"d/e", .headObject b!"bbb" b!"d/", .deleteObjects b!"bbb" [b!"d/e"]]

theorem Sample.useHist_known : ∀ o ∈ Sample.useHist, Served Sample.spellings o ∨ Watching o ∨
    (∃ q, FolderOp Sample.spellings Sample.placeOf q o) ∨ FolderUse Sample.spellings Sample.placeOf Sample.cfg.keepSlash o := by
  have mem : ∀ {b k : Bytes}, (b, k) ∈ [(b!"aaa", b!"x"), (b!"aaa", b!"d/../x"), (b!"bbb", b!"d/e")] → Sample.spellings b k := id
  intro o ho
  simp only [Sample.useHist, List.mem_cons, List.not_mem_nil, or_false] at ho
  rcases ho with rfl | rfl | rfl | rfl | rfl | rfl | rfl | rfl | rfl | rfl | rfl | rfl | rfl | rfl
  · exact .inl ((C02_bucket_name_rule _).mp (by decide +kernel))
  · exact .inr (.inr (.inr ⟨_, Sample.folderKey⟩))
  · exact .inr (.inr (.inr ⟨rfl, _, Sample.folderKey⟩))
  · exact .inr (.inr (.inl ⟨_, _, Sample.folderKey, rfl⟩))
  · exact .inr (.inr (.inr ⟨_, Sample.folderKey⟩))
  · exact .inr (.inr (.inr ⟨_, Sample.folderKey⟩))
  · exact .inr (.inr (.inr ⟨_, Sample.folderKey⟩))
  · exact .inr (.inr (.inr (.inl ⟨_, _, _, by decide +kernel, Sample.folderKey⟩)))
  · exact .inl ⟨by decide, by decide +kernel⟩
  · exact .inl ⟨mem (by decide), by decide⟩
  · refine .inr (.inr (.inr fun k hk => ?_))
    simp only [List.mem_cons, List.not_mem_nil, or_false] at hk
    rcases hk with rfl | rfl
    · exact .inl (mem (by decide))
    · exact .inr ⟨_, Sample.folderKey⟩
  · exact .inl (mem (by decide))
  · exact .inr (.inr (.inr ⟨_, Sample.folderKey⟩))
  · refine .inl fun k hk => ?_
    simp only [List.mem_cons, List.not_mem_nil, or_false] at hk
    subst hk
    exact mem (by decide)

/-- The hypotheses are met. The folder is shown by HEAD as an object of 4096 bytes, cannot be read and cannot be copied; the
DeleteObjects fails, the object in it is gone, the folder is still there. -/
example : Spelled Sample.cfg.root Sample.spellings Sample.placeOf ∧ WF Sample.emptyStore ∧ IsDir Sample.emptyStore Sample.cfg.root ∧
    (∀ q, q ≠ [] → Sample.emptyStore.lookup (Sample.cfg.root ++ q) = none) ∧
    (∀ o ∈ Sample.useHist, Served Sample.spellings o ∨ Watching o ∨ (∃ q, FolderOp Sample.spellings Sample.placeOf q o) ∨
      FolderUse Sample.spellings Sample.placeOf Sample.cfg.keepSlash o) ∧
    (answered Sample.cfg (realExt id) Sample.useHist Sample.emptyStore).map (·.2) =
      [.ok .done, .err .NoSuchKey, .err .InternalError, .ok (.etag none), .ok (.head 4096 none), .err .InternalError, .err .InvalidRange,
        .err .InternalError, .ok (.etag (some (quoted ((realExt id).md5hex b!"ab")))),
        .ok (.etag (some (quoted ((realExt id).md5hex b!"ab")))), .err .InternalError, .err .NoSuchKey, .ok (.head 4096 none),
        .ok (.keys [])] :=
  ⟨Sample.spelled, Sample.emptyStore_wf, Sample.emptyStore_root, Sample.emptyStore_bare, Sample.useHist_known, by decide +kernel⟩

/-- `C139_stripped`: the other releases complete an upload at `d/` and make the object `d` of it -/
example : ({ Sample.cfg with keepSlash := false } : Cfg).keepSlash = false ∧ LegalBucket b!"bbb" ∧ PlainKey b!"d" [b!"d"] ∧
    (answered { Sample.cfg with keepSlash := false } (realExt id) [.createBucket b!"bbb", .uploadPart b!"u1" 1 (some [some b!"ab"]),
        .completeMultipartUpload b!"bbb" b!"d/" b!"u1" (some [some 1]), .getObject b!"bbb" b!"d" none (fun _ => 7)] Sample.emptyStore).map (·.2) =
      [.ok .done, .ok (.etag (some (quoted ((realExt id).md5hex b!"ab")))), .ok (.etag (some (quoted ((realExt id).md5hex b!"ab")))),
        .ok (.object 2 none (quoted ((realExt id).md5hex b!"ab")) (some b!"ab"))] :=
  ⟨rfl, (C02_bucket_name_rule _).mp (by decide +kernel), plain1 (by decide), by decide +kernel⟩

def Sample.folderHead : Req := Sample.plain b!"HEAD" b!"/bbb/d/" none [] []

/-- the hypotheses of `C139_client` are met: a folder is put (with the bucket) and then shown as an object -/
example : Meaning Sample.cfg (realExt id) Sample.lib none [Sample.exchange Sample.folderReq] [.putObject Sample.folderPut] ∧
    (∀ o ∈ [Op.putObject Sample.folderPut], Served Sample.spellings o ∨ Watching o ∨
      (∃ q, FolderOp Sample.spellings Sample.placeOf q o) ∨ FolderUse Sample.spellings Sample.placeOf Sample.cfg.keepSlash o) ∧
    Asks Sample.lib none (Sample.exchange Sample.folderHead) (.headObject b!"bbb" b!"d/") ∧
    FolderUse Sample.spellings Sample.placeOf Sample.cfg.keepSlash (.headObject b!"bbb" b!"d/") ∧ CleanMessage Sample.texts ∧
    answer Sample.cfg (realExt id) (.headObject b!"bbb" b!"d/")
      (afterAll Sample.cfg (realExt id) [.putObject Sample.folderPut] Sample.emptyStore) = .ok (.head 4096 none) := by
  refine ⟨.asks ?_ .nil, ?_, ?_, ⟨_, Sample.folderKey⟩, ?_, by decide +kernel⟩
  · refine Sample.asks (by decide +kernel) (.putObject rfl
      (Sample.at_object rfl (by decide +kernel) (by decide +kernel) (by decide) (by decide)) (Sample.selects_none rfl)
      (Sample.no_header (by decide +kernel)) ⟨some b!"0", Sample.value_header (by decide +kernel), parseI64_iff.mp (by decide +kernel)⟩ ?_
      (Sample.no_header (by decide +kernel)))
    intro n v _ hh
    simp [headerMeta, Sample.folderReq, Sample.plain] at hh
  · intro o ho
    simp only [List.mem_cons, List.not_mem_nil, or_false] at ho
    subst ho
    exact .inr (.inr (.inl ⟨_, _, Sample.folderKey, rfl⟩))
  · exact Sample.asks (by decide +kernel) (.headObject rfl
      (Sample.at_object rfl (by decide +kernel) (by decide +kernel) (by decide) (by decide)) (Sample.selects_none rfl))
  · intro m hm
    cases hm
    exact clean_all (by decide +kernel)

end S3
