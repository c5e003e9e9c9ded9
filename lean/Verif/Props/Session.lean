import Verif.Lemmas.Session
/-! C95: clients that work on different objects do not notice each other. -/
namespace S3
open Spec

variable {cfg : Cfg} {ext : Ext} {lib : Lib} {auth : Option Provider}

/-- **C95** Any number of clients talk to the server at the same time, each sending its next request when it has the response to the last one.
A client asks for operations in `P`, which are about objects and parts in folders that exist; what the others ask for writes and deletes only
elsewhere. However the system calls interleave: when the client's conversation is finished, it is one it has with a server that serves nobody
else, and the objects, metadata and parts it is about are as they are after that conversation. -/
theorem C95_conversation {clients : List Client} {n : Nat} {c : Client} (hn : clients[n]? = some c) {P : Op → Prop}
    (hc : c.Sends (AsksIn cfg ext lib auth P)) {fs : FS} (hw : WF fs) (hP : ∀ o, P o → AboutObjects o ∧ FoldersExist cfg o fs)
    (hothers : ∀ (j : Nat) c', j ≠ n → clients[j]? = some c' → c'.Sends (AsksIn cfg ext lib auth fun o' => ∀ o, P o → Elsewhere o o'))
    (sched : List Nat) {r : Outcome (List (Exchange × Response))}
    (h : conversationAt cfg ext lib auth sched clients fs n = some r) :
    ∃ t, r = .ok t ∧ Alone cfg ext lib auth c fs t ∧
      (∀ o b k, P o → Uses o b k →
        stored cfg (afterClients cfg ext lib auth sched clients fs) b k
          = stored cfg (afterExchanges cfg ext lib auth (t.map (·.1)) fs) b k ∧
        storedMeta cfg ext (afterClients cfg ext lib auth sched clients fs) b k
          = storedMeta cfg ext (afterExchanges cfg ext lib auth (t.map (·.1)) fs) b k) ∧
      ∀ o u m, P o → UsesPart o u m →
        contentAt (afterClients cfg ext lib auth sched clients fs) (partFile cfg u m)
          = contentAt (afterExchanges cfg ext lib auth (t.map (·.1)) fs) (partFile cfg u m) := by
  have hA : ∀ o, P o → AboutObjects o := fun o ho => (hP o ho).1
  have hs := conversation_safe hc
  have hget : ∀ j : Nat, (clients.map (conversation cfg ext lib auth))[j]? = (clients[j]?).map (conversation cfg ext lib auth) :=
    fun j => List.getElem?_map
  obtain ⟨h1, h2⟩ := crowd_progs (rely_region (upRegions cfg P) (regions cfg P)) (by rw [hget, hn]; rfl)
    (by
      intro j p' hj hp'
      rw [hget, Option.map_eq_some_iff] at hp'
      obtain ⟨c', hc', rfl⟩ := hp'
      exact (conversation_safe (hothers j c' hj hc')).mono (fun x ⟨o', ho', hx⟩ fs hw => elsewhere_keeps_all hA ho' hw hx) fun _ h => h)
    hs hw
    (wp_isolated (hs.mono (fun x ⟨o, ho, hx⟩ => localCall_mono (fun q hq => ⟨o, ho, hq⟩) (op_local (hA o ho) hx)) fun _ h => h) hw
      (fun q ⟨o, ho, hq⟩ => folders_dirs hw (hP o ho).2 q hq)) sched h
  obtain ⟨t, h3, h4⟩ := conversation_alone hA hc fs
  rw [h3] at h1 h2
  have hwf : WF (afterClients cfg ext lib auth sched clients fs) := runPar_wf hw
  refine ⟨t, h1, h4, ?_, ?_⟩
  · intro o b k ho hu
    obtain ⟨hb, cs, hk⟩ := (hA o ho).2.1 b k hu
    constructor
    · rw [stored_plain (cfg := cfg) ((C02_bucket_name_rule _).mpr hb) hk, stored_plain (cfg := cfg) ((C02_bucket_name_rule _).mpr hb) hk]
      exact h2.content hwf ⟨o, ho, .inr (.inl ⟨b, k, cs, hu, hk, .inl rfl⟩)⟩
    · have hz : regions cfg P (metaFile cfg b k) := ⟨o, ho, .inr (.inl ⟨b, k, cs, hu, hk, .inr rfl⟩)⟩
      have hl := h2.look _ hz
      show metaAt ext _ (metaFile cfg b k) = metaAt ext _ (metaFile cfg b k)
      simp only [metaAt, ← hl]
      have hl' : (afterClients cfg ext lib auth sched clients fs).lookup (metaFile cfg b k)
        = (runPar cfg sched (clients.map (conversation cfg ext lib auth)) fs).2.lookup (metaFile cfg b k) := rfl
      rw [hl']
      split <;> try rfl
      rename_i i hi
      rw [← h2.data i (by rw [(hwf.ino _ _ hi).1]; exact hz)]
      rfl
  · intro o u m ho hu
    exact h2.content hwf ⟨o, ho, .inr (.inr ⟨u, m, hu, rfl⟩)⟩

/-- **C95** Under an unending schedule in which the client comes up again and again the conversation comes to its end. -/
theorem C95_finished {clients : List Client} {n : Nat} {c : Client} (hn : clients[n]? = some c) {P : Op → Prop}
    (hc : c.Sends (AsksIn cfg ext lib auth P)) {fs : FS} (hw : WF fs) (hP : ∀ o, P o → AboutObjects o ∧ FoldersExist cfg o fs)
    (hothers : ∀ (j : Nat) c', j ≠ n → clients[j]? = some c' → c'.Sends (AsksIn cfg ext lib auth fun o' => ∀ o, P o → Elsewhere o o'))
    {σ : Nat → Nat} (hσ : KeepsRunning σ n) :
    ∃ T t, Alone cfg ext lib auth c fs t ∧ ∀ s, T ≤ s → conversationAt cfg ext lib auth (firstSteps σ s) clients fs n = some (.ok t) := by
  have hlt : n < (clients.map (conversation cfg ext lib auth)).length := by
    obtain ⟨h, _⟩ := List.getElem?_eq_some_iff.mp hn
    simpa using h
  obtain ⟨T, hT⟩ := thread_ends (cfg := cfg) hlt hσ fs
  obtain ⟨p, hp, hd⟩ := hT T (Nat.le_refl _)
  obtain ⟨r, hr⟩ : ∃ r, p.outcome = some r := by cases p <;> first | exact ⟨_, rfl⟩ | cases hd
  have h : conversationAt cfg ext lib auth (firstSteps σ T) clients fs n = some r := by rw [conversationAt, hp]; exact hr
  obtain ⟨t, rfl, h2, _⟩ := C95_conversation hn hc hw hP hothers _ h
  refine ⟨T, t, h2, fun s hs => ?_⟩
  rw [conversationAt, thread_stays hp hd hs]
  exact hr

/-- **C95** (partial) If moreover the client's operations are those of C89, each response in its conversation is the one of a map from
addresses to contents and metadata that has made the changes the client asked for before, whatever the other clients do. Missing: what is
missing in C89, and objects whose folders do not exist yet. -/
theorem C95_map_partial (hl : MetaLaw ext) (hmd5 : ∀ s, CleanText (quoted (ext.md5hex s))) {A D : Bytes → Bytes → Prop} (hA : PrefixFree A)
    {s : Store} {fs : FS} (hr : Represents cfg ext A D s fs) (hs : ∀ b k, A b k → SendableMeta (s.md b k))
    {clients : List Client} {n : Nat} {c : Client} (hn : clients[n]? = some c) {P : Op → Prop}
    (hc : c.Sends (AsksIn cfg ext lib auth P)) (hP : ∀ o, P o → AboutObjects o ∧ FoldersExist cfg o fs)
    (hothers : ∀ (j : Nat) c', j ≠ n → clients[j]? = some c' → c'.Sends (AsksIn cfg ext lib auth fun o' => ∀ o, P o → Elsewhere o o'))
    (sched : List Nat) {r : Outcome (List (Exchange × Response))}
    (h : conversationAt cfg ext lib auth sched clients fs n = some r) :
    ∃ t, r = .ok t ∧ ∀ before e res rest os o, t = before ++ (e, res) :: rest →
      Meaning cfg ext lib auth (before.map (·.1)) os → (∀ o ∈ os, (Known A D o ∧ Sends o) ∨ Unrelated A o) →
      Asks lib auth e o → Known A D o → CleanMessage e.texts → Sees ext (s.afterAll os) res o := by
  obtain ⟨t, h1, h2, _⟩ := C95_conversation hn hc hr.wf hP hothers sched h
  refine ⟨t, h1, ?_⟩
  intro before e res rest os o ht hm hos he ho hmsg
  obtain ⟨res', h3, h4⟩ := C89_client_partial hl hmd5 hA hr hs hm hos he ho hmsg
  rw [alone_split h2 ht] at h3
  cases h3
  exact h4

/-- a client that reads `aaa/x`, deletes it if it says `hello`, and looks again -/
def Sample.reader : Client :=
  .send (Sample.exchange (Sample.plain b!"GET" b!"/aaa/x" none [] [])) fun res =>
    if res.body = some b!"hello" then
      .send (Sample.exchange (Sample.plain b!"DELETE" b!"/aaa/x" none [] [])) fun _ =>
        .send (Sample.exchange (Sample.plain b!"GET" b!"/aaa/x" none [] [])) fun _ => .stop
    else .stop

/-- a client that copies `aaa/x` to `aaa/z`, reads the copy, and asks for a bucket with an illegal name -/
def Sample.copier : Client :=
  .send (Sample.exchange (Sample.plain b!"PUT" b!"/aaa/z" none [(b!"x-amz-copy-source", b!"aaa/x")] [])) fun _ =>
    .send (Sample.exchange (Sample.plain b!"GET" b!"/aaa/z" none [] [])) fun _ =>
      .send (Sample.exchange (Sample.plain b!"GET" b!"/A" none [] [])) fun _ => .stop

def Sample.readerOps (o : Op) : Prop := o = .getObject b!"aaa" b!"x" none Sample.env.wants ∨ o = .deleteObject b!"aaa" b!"x"

/-- the statuses of the responses of a conversation -/
def Sample.statuses : Option (Outcome (List (Exchange × Response))) → Option (List Nat)
  | some (.ok t) => some (t.map fun x => x.2.status)
  | _ => none

/-- the hypotheses of C95 are met; the reader sees the object, deletes it, and sees that it is gone, while the copier is at work -/
example : Sample.reader.Sends (AsksIn Sample.cfg Sample.ext Sample.lib none Sample.readerOps) ∧ WF Sample.fs ∧
    (∀ o, Sample.readerOps o → AboutObjects o ∧ FoldersExist Sample.cfg o Sample.fs) ∧
    Sample.copier.Sends (AsksIn Sample.cfg Sample.ext Sample.lib none fun o' => ∀ o, Sample.readerOps o → Elsewhere o o') ∧
    Sample.statuses (conversationAt Sample.cfg Sample.ext Sample.lib none (List.replicate 14 [0, 1]).flatten [Sample.reader, Sample.copier] Sample.fs 0)
      = some [200, 204, 404] ∧
    KeepsRunning (fun t => t % 2) 0 := by
  have haaa : LegalBucket b!"aaa" := Sample.legal (by decide +kernel)
  have hx : PlainAddress b!"aaa" b!"x" := ⟨haaa, _, plain1 (k := b!"x") (by decide)⟩
  have hz : PlainAddress b!"aaa" b!"z" := ⟨haaa, _, plain1 (k := b!"z") (by decide)⟩
  have hgx : AsksIn Sample.cfg Sample.ext Sample.lib none Sample.readerOps (Sample.exchange (Sample.plain b!"GET" b!"/aaa/x" none [] [])) :=
    .inl ⟨_, .inl rfl, Sample.asks (by decide +kernel) (.getObject rfl
      (Sample.at_object rfl (by decide +kernel) (by decide +kernel) (by decide) (by decide)) (Sample.selects_none rfl)
      (Sample.no_header (by decide +kernel)))⟩
  have uses : ∀ o, Sample.readerOps o → ∀ b k, Uses o b k → b = b!"aaa" ∧ k = b!"x" := by
    rintro o (rfl | rfl) b k h <;> cases h <;> exact ⟨rfl, rfl⟩
  refine ⟨⟨hgx, fun res => ?_⟩, Sample.fs_wf, ?_, ⟨?_, fun _ => ⟨?_, fun _ => ⟨?_, fun _ => trivial⟩⟩⟩, by decide +kernel, fun t => ⟨2 * t, by omega, by show 2 * t % 2 = 0; omega⟩⟩
  · show Client.Sends _ (if res.body = some b!"hello" then _ else _)
    split
    · refine ⟨.inl ⟨_, .inr rfl, Sample.asks (by decide +kernel) (.deleteObject rfl
        (Sample.at_object rfl (by decide +kernel) (by decide +kernel) (by decide) (by decide)) (Sample.selects_none rfl)
        ⟨none, Sample.no_header (by decide +kernel), .inl rfl⟩)⟩, fun _ => ⟨hgx, fun _ => trivial⟩⟩
    · trivial
  · intro o ho
    refine ⟨⟨?_, fun b k hu => ?_, ?_⟩, by unfold IsDir; decide +kernel, fun b k cs hu => ?_⟩
    · rcases ho with rfl | rfl
      · trivial
      · exact hx
    · obtain ⟨rfl, rfl⟩ := uses o ho b k hu
      exact hx
    · rcases ho with rfl | rfl <;> trivial
    · rcases ho with rfl | rfl <;> exact hu.elim
  · refine .inl ⟨.copyObject b!"aaa" b!"z" b!"aaa/x", fun o ho => ⟨hz, fun b k hu => ?_, fun u n hu => ?_⟩, ?_⟩
    · obtain ⟨rfl, rfl⟩ := uses o ho b k hu
      exact ⟨⟨haaa, hz.2, by decide⟩, fun _ => Sample.not_nested (by decide), fun _ => Sample.not_nested (by decide)⟩
    · rcases ho with rfl | rfl <;> exact hu.elim
    · exact Sample.asks (by decide +kernel) (.copyObject (sb := b!"aaa") (sk := b!"x") rfl
        (Sample.at_object rfl (by decide +kernel) (by decide +kernel) (by decide) (by decide))
        (Sample.selects_none rfl) (Sample.value_header (by decide +kernel)) haaa (by decide) (by decide) (by decide))
  · refine .inl ⟨.getObject b!"aaa" b!"z" none Sample.env.wants, fun o ho => ⟨trivial, fun b k hu => trivial, fun u n hu => ?_⟩, ?_⟩
    · rcases ho with rfl | rfl <;> exact hu.elim
    · exact Sample.asks (by decide +kernel) (.getObject rfl (Sample.at_object rfl (by decide +kernel) (by decide +kernel) (by decide) (by decide))
        (Sample.selects_none rfl) (Sample.no_header (by decide +kernel)))
  · exact .inr ⟨.InvalidBucketName, Sample.refused (by decide +kernel)⟩

end S3
