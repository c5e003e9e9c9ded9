import Verif.Spec.Isolated
import Verif.Lemmas.Isolated
import Verif.Props.Concurrent
import Verif.Props.CopySource
import Verif.Props.SameObject
/-! C80: requests about different objects do not notice each other. -/
namespace S3
open Spec

variable {cfg : Cfg} {ext : Ext}

/-- directories the request relies on -/
def upRegion (cfg : Cfg) (o : Op) (q : Path) : Prop :=
  q <+: cfg.root ∨ ∃ b k cs, Writes o b k ∧ PlainKey k cs ∧ q <+: cfg.root ++ b :: cs ∧ q ≠ cfg.root ++ b :: cs

/-- all paths the request uses -/
def region (cfg : Cfg) (o : Op) (q : Path) : Prop :=
  upRegion cfg o q ∨
  (∃ b k cs, Uses o b k ∧ PlainKey k cs ∧ (q = cfg.root ++ b :: cs ∨ q = metaFile cfg b k)) ∨
  ∃ u n, UsesPart o u n ∧ q = partFile cfg u n

theorem region_root (o : Op) : region cfg o cfg.root := .inl (.inl (List.prefix_refl _))

theorem objP_region {o : Op} {b k : Bytes} (hu : Uses o b k) (ha : PlainAddress b k) {q : Path} (h : objP cfg b k q) :
    region cfg o q := by
  obtain ⟨hb, cs, hk⟩ := ha
  exact .inr (.inl ⟨b, k, cs, hu, hk, .inl ((objP_plain ((C02_bucket_name_rule _).mpr hb) hk).mp h)⟩)

theorem metaP_region {o : Op} {b k : Bytes} (hu : Uses o b k) (ha : PlainAddress b k) {q : Path} (h : metaP cfg b k q) :
    region cfg o q := by
  obtain ⟨_, cs, hk⟩ := ha
  exact .inr (.inl ⟨b, k, cs, hu, hk, .inr h⟩)

theorem metaP_dropLast {b k : Bytes} {q : Path} (h : metaP cfg b k q) : q.dropLast = cfg.root := by
  rw [show q = cfg.root ++ [metadataName b k] from h]; simp

theorem up_region {o : Op} {b k : Bytes} (hu : Writes o b k) (ha : PlainAddress b k) {q d : Path} (h : objP cfg b k q)
    (hd : d <+: q.dropLast) : region cfg o d := by
  obtain ⟨hb, cs, hk⟩ := ha
  obtain rfl := (objP_plain ((C02_bucket_name_rule _).mpr hb) hk).mp h
  refine .inl (.inr ⟨b, k, cs, hu, hk, hd.trans (List.dropLast_prefix _), ?_⟩)
  rintro rfl
  have := hd.length_le
  simp at this
  omega

theorem part_region {o : Op} {u : Bytes} {n : Int} (hs : (47 : UInt8) ∉ u) (hu : UsesPart o u n) {q : Path} (h : partP cfg u n q) :
    region cfg o q ∧ q.dropLast = cfg.root := by
  obtain ⟨p, hp, rfl⟩ := h
  rw [partPath_eq cfg hs] at hp
  cases hp
  exact ⟨.inr (.inr ⟨u, n, hu, rfl⟩), by simp⟩

theorem op_local {o : Op} (ho : AboutObjects o) {c : Call} (hc : (opPerm cfg o).ok c) : localCall (region cfg o) c := by
  obtain ⟨ht, ha, hk⟩ := ho
  have hnil : ∀ b k, PlainAddress b k → endsWithByte k 47 = false := fun b k ⟨_, cs, h⟩ => plain_no_slash h
  have key : ∀ q, ((opPerm cfg o).st q → region cfg o q) ∧ ((opPerm cfg o).rd q → region cfg o q) ∧
      ((opPerm cfg o).up q → region cfg o q ∧ region cfg o q.dropLast) ∧
      ((opPerm cfg o).wr q → region cfg o q ∧ region cfg o q.dropLast) ∧
      ((opPerm cfg o).del q → region cfg o q) ∧ (¬ (opPerm cfg o).rmd q) ∧ (¬ (opPerm cfg o).tree q) ∧
      (¬ (opPerm cfg o).rdir q) := by
    intro q
    have hmd : ∀ b k, Uses o b k → metaP cfg b k q → region cfg o q ∧ region cfg o q.dropLast := by
      intro b k hu h
      exact ⟨metaP_region hu (ha _ _ hu) h, by rw [metaP_dropLast h]; exact region_root o⟩
    have hod : ∀ b k, Uses o b k → Writes o b k → objP cfg b k q → region cfg o q ∧ region cfg o q.dropLast := by
      intro b k hu hw h
      exact ⟨objP_region hu (ha _ _ hu) h, up_region hw (ha _ _ hu) h (List.prefix_refl _)⟩
    have hO : ∀ b k, Uses o b k → objP cfg b k q → region cfg o q := fun b k hu h => objP_region hu (ha _ _ hu) h
    have hM : ∀ b k, Uses o b k → metaP cfg b k q → region cfg o q := fun b k hu h => metaP_region hu (ha _ _ hu) h
    have hP : ∀ u n, (47 : UInt8) ∉ u → UsesPart o u n → partP cfg u n q → region cfg o q := fun u n hs hu h =>
      (part_region hs hu h).1
    cases o <;> simp only at hk <;> simp only [opPerm, not_false_eq_true, and_true, false_implies, true_and]
    case putObject i =>
      have hs := hnil _ _ (ha _ _ rfl)
      simp only [hs, Bool.false_eq_true, if_false, true_and]
      refine ⟨?_, ?_, ?_⟩
      · rintro ⟨p, hp, hd⟩; exact up_region (o := .putObject i) rfl (ha _ _ rfl) hp hd
      · rintro ⟨p, hp, hd⟩
        exact ⟨up_region (o := .putObject i) rfl (ha _ _ rfl) hp hd,
          up_region (o := .putObject i) rfl (ha _ _ rfl) hp ((List.dropLast_prefix _).trans hd)⟩
      · rintro (h | ⟨_, h⟩)
        · exact hod _ _ rfl rfl h
        · exact hmd _ _ rfl h
    case getObject b k _ _ =>
      rintro (h | h)
      · exact hO b k rfl h
      · exact hM b k rfl h
    case headObject b k =>
      rintro (h | h)
      · exact hO b k rfl h
      · exact hM b k rfl h
    case deleteObject b k =>
      have hs := hnil _ _ (ha _ _ rfl)
      simp only [hs, Bool.false_eq_true, true_and, false_and, not_false_eq_true, and_true]
      exact fun h => hO b k rfl h
    case deleteObjects b ks =>
      refine ⟨?_, ?_⟩ <;>
      · rintro ⟨k, hk, h⟩
        exact hO b k ⟨rfl, hk⟩ h
    case copyObject b k s =>
      refine ⟨?_, ?_⟩
      · rintro ⟨sb, sk, hs, h⟩
        obtain ⟨h1, h2, _⟩ := (C62_copy_source _ _ _).mp hs
        have hu : Uses (.copyObject b k s) sb sk := .inr ⟨h2, by simpa using h1⟩
        rcases h with h | h
        · exact objP_region hu (ha _ _ hu) h
        · exact metaP_region hu (ha _ _ hu) h
      · rintro (h | h)
        · exact hod b k (.inl rfl) rfl h
        · exact hmd b k (.inl rfl) h
    case uploadPart u n body =>
      intro h
      obtain ⟨h1, h2⟩ := part_region (o := .uploadPart u n body) ht rfl h
      exact ⟨h1, by rw [h2]; exact region_root _⟩
    case completeMultipartUpload b k u parts =>
      have hp : ∀ l n, parts = some l → some n ∈ l → partP cfg u n q → region cfg (.completeMultipartUpload b k u parts) q :=
        fun l n h1 h2 h => hP u n ht.2 ⟨rfl, l, h1, h2⟩ h
      refine ⟨?_, ?_, ?_⟩
      · rintro (h | ⟨l, n, h1, h2, h⟩)
        · exact hO b k rfl h
        · exact hp l n h1 h2 h
      · exact fun h => hod b k rfl rfl h
      · rintro ⟨l, n, h1, h2, h⟩; exact hp l n h1 h2 h
  cases c with
  | stat p => exact hc.elim (key _).1 (key _).2.1
  | openRead p => exact (key _).2.1 hc
  | fstat h => cases h with
    | dir => trivial
    | file i => exact (key _).2.1 hc
  | readAll h => cases h with
    | dir => trivial
    | file i => exact (key _).2.1 hc
  | readAt h => cases h with
    | dir => trivial
    | file i => exact (key _).2.1 hc
  | mkdir p => exact (key _).2.2.1 hc
  | create p => exact (key _).2.2.2.1 hc
  | writeAt i _ _ => exact ((key _).2.2.2.1 hc).1
  | unlink p => exact (key _).2.2.2.2.1 hc
  | rmdir p => exact (key _).2.2.2.2.2.1 hc
  | rmtree p => exact (key _).2.2.2.2.2.2.1 hc
  | readDir p => exact (key _).2.2.2.2.2.2.2 hc

/-- what a tidy request does to parts -/
theorem touch_part {o : Op} (ht : Tidy o) {u : Bytes} {n : Int} (h : opTouch cfg o (partFile cfg u n)) : UsesPart o u n := by
  have hpt : ∀ {u' n'}, (47 : UInt8) ∉ u' → partP cfg u' n' (partFile cfg u n) → u = u' ∧ n = n' := by
    rintro u' n' hu ⟨p, hp, hq⟩
    rw [partPath_eq cfg hu] at hp
    cases hp
    exact partFile_inj (cfg := cfg) hq
  have hm : ∀ b k, metaP cfg b k (partFile cfg u n) → False := fun b k h => metaFile_ne_partFile (cfg := cfg) h.symm
  have ho : ∀ {b k}, PlainAddress b k → objP cfg b k (partFile cfg u n) → False := by
    rintro b k ⟨hb, cs, hk⟩ hx
    exact plain_not_part ((C02_bucket_name_rule _).mpr hb) hk hx rfl
  rcases h with (hx | hx | hx) | ⟨p, hx, hp⟩
  · cases o <;> simp only [opPerm] at hx
    case copyObject => exact (hx.elim (ho ht) (hm _ _)).elim
    case putObject => exact (hx.2.elim (ho ht) fun hx => hm _ _ hx.2).elim
    case uploadPart => obtain ⟨rfl, rfl⟩ := hpt ht hx; rfl
    case completeMultipartUpload => exact (ho ht.1 hx).elim
  · cases o <;> simp only [opPerm] at hx
    case deleteObject => exact (ho ht hx.2).elim
    case deleteObjects => obtain ⟨k, hk, hx⟩ := hx; exact (ho (ht k hk) hx).elim
    case completeMultipartUpload =>
      obtain ⟨l, m, h1, h2, hx⟩ := hx
      obtain ⟨rfl, rfl⟩ := hpt ht.2 hx
      exact ⟨rfl, l, h1, h2⟩
  · cases o <;> simp only [opPerm] at hx
    case deleteObject => exact (ho ht hx.2).elim
  · cases o <;> simp only [opPerm] at hx
    case deleteBucket b =>
      obtain ⟨p', hp', rfl⟩ := hx
      have hb := (C02_bucket_name_rule _).mpr ht.1
      rw [bucketPath_legal cfg hb] at hp'
      cases hp'
      exact (bucket_not_part hb hp).elim

/-- tidy requests leave the root of the store and foreign parts alone -/
theorem tidy_ok {o : Op} (ht : Tidy o) {c : Call} (hc : (opPerm cfg o).ok c) :
    writeOk (fun q => ¬ (q <+: cfg.root ∨ ∃ u n, ¬ UsesPart o u n ∧ q = partFile cfg u n)) (fun q => q <+: cfg.root) c := by
  have hA : ∀ b' k', PlainAddress b' k' → checkBucketName b' = true ∧ ∃ cs, PlainKey k' cs := fun _ _ h =>
    ⟨(C02_bucket_name_rule _).mpr h.1, h.2⟩
  have hlong : ∀ {x : Bytes} {l : List Bytes}, ¬ cfg.root ++ x :: l <+: cfg.root := by
    intro x l h; have := h.length_le; simp at this; omega
  have ht' : ∀ {q}, opTouch cfg o q → ¬ (q <+: cfg.root ∨ ∃ u n, ¬ UsesPart o u n ∧ q = partFile cfg u n) := by
    rintro q h (e | ⟨u, n, hn, rfl⟩)
    · rcases touch_cases hA ht h with ⟨b', k', cs', ha, hb', hk', rfl | rfl⟩ | ⟨u, n, rfl⟩ | ⟨b', hb', hne, hp⟩
      · exact hlong e
      · exact hlong e
      · exact hlong e
      · exact hlong (hp.trans e)
    · exact hn (touch_part ht h)
  cases c with
  | mkdir p =>
    by_cases hp : p <+: cfg.root
    · exact .inl hp
    · refine .inr ?_
      rintro (e | ⟨u, n, _, rfl⟩)
      · exact hp e
      · rcases up_cases hA ht hc with ⟨b', k', cs', ha, hb', hk', hp⟩ | ⟨b', hb', e⟩
        · exact part_not_prefix hb' hp
        · exact bucket_not_part hb' (pfx_of_eq e.symm)
  | create p => exact ht' (.inl (.inl hc))
  | writeAt i _ _ => exact ht' (.inl (.inl hc))
  | unlink p => exact ht' (.inl (.inr (.inl hc)))
  | rmdir p => exact ht' (.inl (.inr (.inr hc)))
  | rmtree p => exact fun q hq => ht' (.inr ⟨p, hc, hq⟩)
  | _ => trivial

theorem writes_uses {o : Op} {b k : Bytes} (h : Writes o b k) : Uses o b k := by
  cases o <;> simp only [Writes] at h <;> try exact h
  exact .inl h

/-- a step that respects the frames of a request elsewhere keeps the region -/
theorem elsewhere_frame {o o' : Op} (ho : AboutObjects o) (h : Elsewhere o o') {fs fs' : FS} {c : Call} (hc : (opPerm cfg o').ok c)
    (hfr : ∀ {own up : Path → Prop}, writeOk own up c → Frame own up fs fs') : RegionRely (upRegion cfg o) (region cfg o) fs fs' := by
  intro hd
  have hf0 := hfr (tidy_ok (cfg := cfg) h.tidy hc)
  have hf : ∀ {b k cs}, Uses o b k → PlainKey k cs → Frame _ _ fs fs' := fun {b k cs} hu hk =>
    hfr (apart_ok (cfg := cfg) ((C02_bucket_name_rule _).mpr (ho.2.1 b k hu).1) hk (h.objects b k hu) hc)
  have hup : ∀ q, upRegion cfg o q → fs'.lookup q = fs.lookup q := by
    rintro q hq
    have hdir := hd q hq
    rcases hq with hq | ⟨b, k, cs, hu, hk, hq, _⟩
    · rcases hf0.node q (not_not_intro (.inl hq)) with e | ⟨_, e, _⟩
      · exact e
      · rw [hdir] at e; cases e
    · rcases (hf (writes_uses hu) hk).node q (not_not_intro (.inl hq)) with e | ⟨_, e, _⟩
      · exact e
      · rw [hdir] at e; cases e
  refine ⟨fun q hq => by rw [hup q hq, hd q hq], ?_, ?_, ?_⟩
  · rintro q (hq | ⟨b, k, cs, hu, hk, hq⟩ | ⟨u, n, hu, rfl⟩)
    · exact (hup q hq).symm
    · have hb := (C02_bucket_name_rule _).mpr (ho.2.1 b k hu).1
      have hown : q <+: cfg.root ++ b :: cs ∨ q = metaFile cfg b k := hq.imp pfx_of_eq id
      rcases (hf hu hk).node q (not_not_intro hown) with e | ⟨⟨h1, h2⟩, _⟩
      · exact e.symm
      · rcases hq with rfl | rfl
        · exact absurd rfl h2
        · exact absurd h1 (meta_not_prefix hb)
    · rcases hf0.node _ (not_not_intro (.inr ⟨u, n, h.parts u n hu, rfl⟩)) with e | ⟨h1, _⟩
      · exact e.symm
      · have := h1.length_le; simp [partFile] at this; omega
  · rintro i ((hq | ⟨b, k, cs, hu, hk, hq, _⟩) | ⟨b, k, cs, hu, hk, hq⟩ | ⟨u, n, hu, hq⟩)
    · exact (hf0.data i (not_not_intro (.inl hq))).symm
    · exact ((hf (writes_uses hu) hk).data i (not_not_intro (.inl hq))).symm
    · exact ((hf hu hk).data i (not_not_intro (hq.imp pfx_of_eq id))).symm
    · exact (hf0.data i (not_not_intro (.inr ⟨u, n, h.parts u n hu, hq⟩))).symm
  · rintro q ((hq | ⟨b, k, cs, hu, hk, hq, _⟩) | ⟨b, k, cs, hu, hk, hq⟩ | ⟨u, n, hu, hq⟩)
    · exact (hf0.gen q (not_not_intro (.inl hq))).symm
    · exact ((hf (writes_uses hu) hk).gen q (not_not_intro (.inl hq))).symm
    · exact ((hf hu hk).gen q (not_not_intro (hq.imp pfx_of_eq id))).symm
    · exact (hf0.gen q (not_not_intro (.inr ⟨u, n, h.parts u n hu, hq⟩))).symm

/-- the steps of a request elsewhere keep the region -/
theorem elsewhere_keeps {o o' : Op} (ho : AboutObjects o) (h : Elsewhere o o') {fs : FS} (hw : WF fs) {c : Call}
    (hc : (opPerm cfg o').ok c) : RegionRely (upRegion cfg o) (region cfg o) fs (exec cfg fs c).2 :=
  elsewhere_frame ho h hc fun hx => exec_frame cfg hw hx

theorem folders_dirs {o : Op} {fs : FS} (hw : WF fs) (h : FoldersExist cfg o fs) : Dirs (upRegion cfg o) fs := by
  have up : ∀ {p q : Path}, IsDir fs p → q <+: p → fs.lookup q = some .dir := by
    intro p q hp hq
    by_cases e : q = p
    · exact e ▸ hp
    · exact hw.above hp hq e
  rintro q (hq | ⟨b, k, cs, hu, hk, hq, hne⟩)
  · exact up h.1 hq
  · refine up (h.2 b k cs hu hk) ?_
    have := dropLast_eq_of_prefix (by simp) hq hne
    rwa [List.dropLast_append_of_ne_nil (by simp), List.dropLast_cons_of_ne_nil hk.nonempty] at this

/-- trees that agree on the region agree on what the request is about -/
theorem region_match {o : Op} (ho : AboutObjects o) {a b : FS} (hwf : WF a) (h2 : Match (region cfg o) a b) :
    (∀ bu k, Uses o bu k → stored cfg a bu k = stored cfg b bu k ∧ storedMeta cfg ext a bu k = storedMeta cfg ext b bu k) ∧
    ∀ u m, UsesPart o u m → contentAt a (partFile cfg u m) = contentAt b (partFile cfg u m) := by
  refine ⟨?_, ?_⟩
  · intro b k hu
    obtain ⟨hb, cs, hk⟩ := ho.2.1 b k hu
    constructor
    · simp only [stored, objectPath_plain cfg ((C02_bucket_name_rule _).mpr hb) hk, Bool.false_eq_true, if_false]
      exact h2.content hwf (.inr (.inl ⟨b, k, cs, hu, hk, .inl rfl⟩))
    · have hz : region cfg o (metaFile cfg b k) := .inr (.inl ⟨b, k, cs, hu, hk, .inr rfl⟩)
      have hl := h2.look _ hz
      show metaAt ext _ (metaFile cfg b k) = metaAt ext _ (metaFile cfg b k)
      simp only [metaAt, ← hl]
      split <;> try rfl
      rename_i i hi
      rw [h2.data i (by rw [(hwf.ino _ _ hi).1]; exact hz)]
  · intro u m hu
    exact h2.content hwf (.inr (.inr ⟨u, m, hu, rfl⟩))

/-- **C80** In every interleaving of a request about objects and parts with any number of requests that write and delete
only elsewhere: when it is answered, the answer is the one it gets when it runs alone, and the objects, their metadata and
the parts it is about are as they are after it has run alone. -/
theorem C80_isolation {os : List Op} {n : Nat} {o : Op} (hn : os[n]? = some o) (ho : AboutObjects o)
    (hothers : ∀ (j : Nat) o', j ≠ n → os[j]? = some o' → Elsewhere o o')
    {fs : FS} (hw : WF fs) (hfold : FoldersExist cfg o fs) (sched : List Nat) {r : Outcome Answer}
    (h : answerAt cfg ext sched os fs n = some r) :
    r = answer cfg ext o fs ∧
    (∀ b k, Uses o b k →
      stored cfg (runPar cfg sched (os.map (opProg cfg ext)) fs).2 b k = stored cfg (after cfg ext o fs) b k ∧
      storedMeta cfg ext (runPar cfg sched (os.map (opProg cfg ext)) fs).2 b k = storedMeta cfg ext (after cfg ext o fs) b k) ∧
    ∀ u m, UsesPart o u m →
      contentAt (runPar cfg sched (os.map (opProg cfg ext)) fs).2 (partFile cfg u m)
        = contentAt (after cfg ext o fs) (partFile cfg u m) := by
  obtain ⟨h1, h2⟩ := crowd (rely_region (upRegion cfg o) (region cfg o)) hn
    (fun j o' hj hoj fs c hw hc => elsewhere_keeps ho (hothers j o' hj hoj) hw hc) hw
    (wp_isolated ((op_safe cfg ext o).mono (fun c hc => op_local ho hc) fun _ h => h) hw (folders_dirs hw hfold)) sched h
  exact ⟨h1, region_match ho (runPar_wf hw) h2⟩

/-- a copy of `aaa/x` to `aaa/d/z`, among an upload next to it, a deletion in another bucket, parts of an upload, a new bucket,
another reader of the source, and the completion of another upload -/
def Sample.mixed : List Op :=
  [.copyObject b!"aaa" b!"d/z" b!"aaa/x", .putObject { Sample.put3 with key := b!"d/f", metadata := none },
   .deleteObject b!"bbb" b!"y", .uploadPart b!"id1" 1 (some [some b!"one"]), .createBucket b!"ccc",
   .getObject b!"aaa" b!"x" none (fun _ => 2), .deleteObjects b!"aaa" [b!"d/e", b!"w"]]

theorem Sample.plain_dz : PlainKey b!"d/z" [b!"d", b!"z"] :=
  plain2 (a := b!"d") (c := b!"z") ⟨by decide, by decide, by decide, by decide⟩ ⟨by decide, by decide, by decide, by decide⟩

theorem Sample.mixed_uses {b k : Bytes} (h : Uses (.copyObject b!"aaa" b!"d/z" b!"aaa/x") b k) :
    b = b!"aaa" ∧ (k = b!"d/z" ∨ k = b!"x") := by
  rcases h with h | ⟨hl, h⟩
  · cases h; exact ⟨rfl, .inl rfl⟩
  · have h3 := hl.len.1
    have h1 : ([97, 97, 97, 47, 120] : Bytes) = b ++ 47 :: k := h
    match b, h3, h1 with
    | [a, b, c], _, h1 =>
      simp only [List.cons_append, List.nil_append, List.cons.injEq] at h1
      obtain ⟨rfl, rfl, rfl, _, rfl⟩ := h1
      exact ⟨rfl, .inr rfl⟩
    | [a, b, c, d], _, h1 =>
      simp only [List.cons_append, List.nil_append, List.cons.injEq] at h1
      exact absurd h1.2.2.2.2.1 (by decide)
    | a :: b :: c :: d :: e :: l, _, h1 =>
      have := congrArg List.length h1
      simp at this

theorem Sample.mixed_apart (k : Bytes) (hk : k = b!"d/z" ∨ k = b!"x") (j : Nat) (o' : Op) (hj : j ≠ 0)
    (h : Sample.mixed[j]? = some o') : OnOthers b!"aaa" (Apart b!"aaa" k) o' := by
  have hap : ∀ {k' cs}, PlainKey k' cs → k' ≠ k → (k ++ [47]).isPrefixOf k' = false → (k' ++ [47]).isPrefixOf k = false →
      Apart b!"aaa" k b!"aaa" k' := fun hp hne h1 h2 =>
    ⟨⟨Sample.legal (by decide +kernel), ⟨_, hp⟩, fun e => hne (by cases e; rfl)⟩, fun _ => Sample.not_nested h2, fun _ => Sample.not_nested h1⟩
  rcases j with _ | _ | _ | _ | _ | _ | _ | j
  · exact absurd rfl hj
  · cases h
    refine hap Sample.plain_df ?_ ?_ ?_ <;> rcases hk with rfl | rfl <;> decide
  · cases h
    exact ⟨⟨Sample.legal (by decide +kernel), ⟨_, plain1 (k := b!"y") (by decide)⟩, fun e => absurd (show (b!"bbb" : Bytes) = b!"aaa" from congrArg Prod.fst e) (by decide)⟩,
      fun h => absurd h (by decide), fun h => absurd h (by decide)⟩
  · cases h; show (47 : UInt8) ∉ _; decide
  · cases h; exact Sample.legal (by decide +kernel)
  · cases h; trivial
  · cases h
    intro k' hk'
    simp only [List.mem_cons, List.not_mem_nil, or_false] at hk'
    rcases hk' with rfl | rfl
    · refine hap Sample.plain_de ?_ ?_ ?_ <;> rcases hk with rfl | rfl <;> decide
    · refine hap (plain1 (k := b!"w") (by decide)) ?_ ?_ ?_ <;> rcases hk with rfl | rfl <;> decide
  · cases h

theorem Sample.mixed_tidy (j : Nat) (o' : Op) (h : Sample.mixed[j]? = some o') : Tidy o' := by
  have haaa : LegalBucket b!"aaa" := Sample.legal (by decide +kernel)
  rcases j with _ | _ | _ | _ | _ | _ | _ | j
  · cases h; exact ⟨haaa, _, Sample.plain_dz⟩
  · cases h; exact ⟨haaa, _, Sample.plain_df⟩
  · cases h; exact ⟨Sample.legal (by decide +kernel), _, plain1 (k := b!"y") (by decide)⟩
  · cases h; show (47 : UInt8) ∉ _; decide
  · cases h; exact Sample.legal (by decide +kernel)
  · cases h; trivial
  · cases h
    intro k' hk'
    simp only [List.mem_cons, List.not_mem_nil, or_false] at hk'
    rcases hk' with rfl | rfl
    · exact ⟨haaa, _, Sample.plain_de⟩
    · exact ⟨haaa, _, plain1 (k := b!"w") (by decide)⟩
  · cases h

/-- the order in which the calls of these requests happen -/
def Sample.mixedSched : List Nat := (List.replicate 16 [0, 1, 2, 3, 4, 5, 6]).flatten

example : Sample.mixed[0]? = some (.copyObject b!"aaa" b!"d/z" b!"aaa/x") ∧
    AboutObjects (.copyObject b!"aaa" b!"d/z" b!"aaa/x") ∧
    (∀ (j : Nat) o', j ≠ 0 → Sample.mixed[j]? = some o' → Elsewhere (.copyObject b!"aaa" b!"d/z" b!"aaa/x") o') ∧
    WF Sample.fs3 ∧ FoldersExist Sample.cfg (.copyObject b!"aaa" b!"d/z" b!"aaa/x") Sample.fs3 ∧
    answerAt Sample.cfg Sample.ext Sample.mixedSched Sample.mixed Sample.fs3 0 = some (.ok (.etag (some b!"\"md5:5\""))) ∧
    stored Sample.cfg (runPar Sample.cfg Sample.mixedSched (Sample.mixed.map (opProg Sample.cfg Sample.ext)) Sample.fs3).2
      b!"aaa" b!"d/z" = some b!"hello" := by
  refine ⟨rfl, ⟨Sample.mixed_tidy 0 _ rfl, ?_, trivial⟩, ?_, wf_after Sample.fs_wf, ⟨by unfold IsDir; decide +kernel, ?_⟩,
    by decide +kernel, by decide +kernel⟩
  · intro b k h
    obtain ⟨rfl, rfl | rfl⟩ := Sample.mixed_uses h
    · exact ⟨Sample.legal (by decide +kernel), _, Sample.plain_dz⟩
    · exact ⟨Sample.legal (by decide +kernel), _, plain1 (k := b!"x") (by decide)⟩
  · intro j o' hj h
    refine ⟨Sample.mixed_tidy j o' h, ?_, fun u n hu => hu.elim⟩
    intro b k hu
    obtain ⟨rfl, hk⟩ := Sample.mixed_uses hu
    exact Sample.mixed_apart k hk j o' hj h
  · intro b k cs h hk
    cases h
    rw [show cs = [b!"d", b!"z"] from plainKey_unique hk Sample.plain_dz]
    unfold IsDir; decide +kernel

/-- The condition on folders is needed: a copy to `d/z` where there is no folder `d` is refused when it runs alone, but
accepted when another client has just put an object `d/e`. -/
theorem C80_folders_needed :
    ∃ (cfg : Cfg) (ext : Ext) (fs : FS) (o o' : Op) (sched : List Nat) (a : Answer), WF fs ∧ AboutObjects o ∧ Elsewhere o o' ∧
      answerAt cfg ext sched [o, o'] fs 0 = some (.ok a) ∧ answer cfg ext o fs = .err .InternalError := by
  refine ⟨Sample.cfg, Sample.ext, Sample.fs, .copyObject b!"aaa" b!"d/z" b!"aaa/x",
    .putObject { Sample.put3 with key := b!"d/f", metadata := none }, List.replicate 12 1 ++ List.replicate 12 0, _, Sample.fs_wf,
    ⟨Sample.mixed_tidy 0 _ rfl, ?_, trivial⟩, ⟨Sample.mixed_tidy 1 _ rfl, ?_, fun u n hu => hu.elim⟩, rfl, by decide +kernel⟩
  · intro b k h
    obtain ⟨rfl, rfl | rfl⟩ := Sample.mixed_uses h
    · exact ⟨Sample.legal (by decide +kernel), _, Sample.plain_dz⟩
    · exact ⟨Sample.legal (by decide +kernel), _, plain1 (k := b!"x") (by decide)⟩
  · intro b k hu
    obtain ⟨rfl, hk⟩ := Sample.mixed_uses hu
    exact Sample.mixed_apart k hk 1 _ (by decide) rfl

/-! ### C81 -/

theorem numbers_mem {n j : Nat} {c : Int} (h : j < n) : some (c + 1 + j) ∈ numbers c n := by
  induction n generalizing j c with
  | zero => omega
  | succ n ih =>
    rcases j with _ | j
    · simp [numbers]
    · refine List.mem_cons_of_mem _ ?_
      have := ih (j := j) (c := c + 1) (by omega)
      rwa [show c + 1 + 1 + (j : Int) = c + 1 + ((j + 1 : Nat) : Int) by omega] at this

/-- **C81** Parts uploaded at the same time, in any interleaving with each other and with requests that leave them alone, and
then assembled by a request that itself runs among requests elsewhere: the object is the concatenation of the bodies in the
order of the part numbers, whatever the order in which they arrived, and the parts are used up. -/
theorem C81_parallel_parts {u b k : Bytes} {cs : List Bytes} (hu : (47 : UInt8) ∉ u) (hb : LegalBucket b) (hk : PlainKey k cs)
    (hfit : ∀ c ∈ cs, Fits c) (bodies : List Body) {os₁ os₂ : List Op} {fs : FS} (hw : WF fs) (hroot : IsDir fs cfg.root)
    (s₁ s₂ : List Nat)
    (hup : ∀ (j : Nat) body, bodies[j]? = some body → ∃ n a, os₁[n]? = some (.uploadPart u (j + 1) (some body)) ∧
      answerAt cfg ext s₁ os₁ fs n = some (.ok a) ∧
      ∀ (i : Nat) o, i ≠ n → os₁[i]? = some o → Tidy o ∧ ¬ UsesPart o u (j + 1))
    (hdir : IsDir (runPar cfg s₁ (os₁.map (opProg cfg ext)) fs).2 (cfg.root ++ b :: cs.dropLast))
    (hfree : ¬ IsDir (runPar cfg s₁ (os₁.map (opProg cfg ext)) fs).2 (cfg.root ++ b :: cs))
    {m : Nat} (hm : os₂[m]? = some (.completeMultipartUpload b k u (some (numbers 0 bodies.length))))
    (hothers : ∀ (i : Nat) o, i ≠ m → os₂[i]? = some o →
      Elsewhere (.completeMultipartUpload b k u (some (numbers 0 bodies.length))) o)
    {r : Outcome Answer} (h : answerAt cfg ext s₂ os₂ (runPar cfg s₁ (os₁.map (opProg cfg ext)) fs).2 m = some r) :
    let fs₁ := (runPar cfg s₁ (os₁.map (opProg cfg ext)) fs).2
    let fs₂ := (runPar cfg s₂ (os₂.map (opProg cfg ext)) fs₁).2
    r = .ok (.etag (some (quoted (ext.md5hex (bodies.map received).flatten)))) ∧
    stored cfg fs₂ b k = some (bodies.map received).flatten ∧
    ∀ j : Nat, j < bodies.length → contentAt fs₂ (partFile cfg u (j + 1)) = none := by
  intro fs₁ fs₂
  have hb' := (C02_bucket_name_rule _).mpr hb
  have hw₁ : WF fs₁ := runPar_wf hw
  have hparts : ∀ (j : Nat) c, (bodies.map received)[j]? = some c → contentAt fs₁ (partFile cfg u (j + 1)) = some c := by
    intro j c hj
    rw [List.getElem?_map, Option.map_eq_some_iff] at hj
    obtain ⟨body, hbody, rfl⟩ := hj
    obtain ⟨n, a, hn, ha, ho⟩ := hup j body hbody
    obtain ⟨h1, _, h3⟩ := C80_isolation (ext := ext) hn ⟨hu, fun b k h => h.elim, trivial⟩
      (fun i o hi hoi => ⟨(ho i o hi hoi).1, fun b k h => h.elim, fun u' n' hu' => by
        have : (u', n') = (u, (j : Int) + 1) := hu'
        cases this; exact (ho i o hi hoi).2⟩) hw ⟨hroot, fun b k cs h => h.elim⟩ s₁ ha
    obtain ⟨e, he, _⟩ := answer_uploadPart h1.symm
    rw [h3 u (j + 1) rfl]
    exact (uploadPart_run hu hw he).2.2.1
  have hd : (cfg.root ++ b :: cs).dropLast = cfg.root ++ b :: cs.dropLast := by
    rw [List.dropLast_append_of_ne_nil (by simp), List.dropLast_cons_of_ne_nil hk.nonempty]
  have hdone := complete_stored (ext := ext) hu hb' hk hfit hw₁ (bodies.map received) hparts (by rw [hd]; exact hdir) hfree
  simp only [List.length_map] at hdone
  have hdir₁ : IsDir fs₁ cfg.root := by
    have hp : cfg.root <+: cfg.root ++ b :: cs.dropLast := List.prefix_append _ _
    exact hw₁.above hdir hp (by simp)
  have hplain : PlainAddress b k := ⟨hb, cs, hk⟩
  obtain ⟨h1, h2, h3⟩ := C80_isolation (ext := ext) hm ⟨⟨hplain, hu⟩, fun b' k' h => by cases h; exact hplain, trivial⟩
    hothers hw₁ ⟨hdir₁, fun b' k' cs' h hk' => by cases h; rw [plainKey_unique hk' hk]; exact hdir⟩ s₂ h
  refine ⟨h1.trans hdone.1, (h2 b k rfl).1.trans hdone.2.1, ?_⟩
  intro j hj
  rw [h3 u (j + 1) ⟨rfl, _, rfl, ?_⟩]
  · exact hdone.2.2.1 j hj
  · rw [show ((j : Int) + 1) = 0 + 1 + j by omega]; exact numbers_mem hj

/-- parts 2 and 1 arrive at the same time as a part of another upload and a PutObject to the key that will be assembled -/
def Sample.partsTogether : List Op :=
  [.uploadPart b!"id1" 2 (some [some b!"cd", some b!"e"]), .putObject (Sample.uploadX [some b!"old"]),
   .uploadPart b!"id1" 1 (some [some b!"a", some b!"b"]), .uploadPart b!"id2" 1 (some [some b!"other"])]

/-- the upload is completed while another one is completed elsewhere -/
def Sample.completes : List Op :=
  [.completeMultipartUpload b!"bbb" b!"w" b!"id2" (some [some 1]),
   .completeMultipartUpload b!"aaa" b!"x" b!"id1" (some (numbers 0 2))]

def Sample.twoByTwo : List Nat := (List.replicate 12 [0, 1, 2, 3]).flatten

example :
    let bodies : List Body := [[some b!"a", some b!"b"], [some b!"cd", some b!"e"]]
    let fs₁ := (runPar Sample.cfg Sample.twoByTwo (Sample.partsTogether.map (opProg Sample.cfg Sample.ext)) Sample.fs).2
    (∀ (j : Nat) body, bodies[j]? = some body → ∃ n a, Sample.partsTogether[n]? = some (.uploadPart b!"id1" (j + 1) (some body)) ∧
      answerAt Sample.cfg Sample.ext Sample.twoByTwo Sample.partsTogether Sample.fs n = some (.ok a) ∧
      ∀ (i : Nat) o, i ≠ n → Sample.partsTogether[i]? = some o → Tidy o ∧ ¬ UsesPart o b!"id1" (j + 1)) ∧
    IsDir fs₁ (Sample.cfg.root ++ b!"aaa" :: [b!"x"].dropLast) ∧ ¬ IsDir fs₁ (Sample.cfg.root ++ b!"aaa" :: [b!"x"]) ∧
    (∀ (i : Nat) o, i ≠ 1 → Sample.completes[i]? = some o →
      Elsewhere (.completeMultipartUpload b!"aaa" b!"x" b!"id1" (some (numbers 0 2))) o) ∧
    stored Sample.cfg fs₁ b!"aaa" b!"x" = some b!"old" ∧
    answerAt Sample.cfg Sample.ext Sample.twoByTwo Sample.completes fs₁ 1 = some (.ok (.etag (some b!"\"md5:5\""))) ∧
    stored Sample.cfg (runPar Sample.cfg Sample.twoByTwo (Sample.completes.map (opProg Sample.cfg Sample.ext)) fs₁).2 b!"aaa" b!"x"
      = some b!"abcde" := by
  have haaa : LegalBucket b!"aaa" := Sample.legal (by decide +kernel)
  have hbbb : LegalBucket b!"bbb" := Sample.legal (by decide +kernel)
  have tidy : ∀ (i : Nat) o, Sample.partsTogether[i]? = some o → Tidy o := by
    intro i o h
    rcases i with _ | _ | _ | _ | i
    · cases h; show (47 : UInt8) ∉ _; decide
    · cases h; exact ⟨haaa, _, plain1 (k := b!"x") (by decide)⟩
    · cases h; show (47 : UInt8) ∉ _; decide
    · cases h; show (47 : UInt8) ∉ _; decide
    · cases h
  refine ⟨?_, by unfold IsDir; decide +kernel, by unfold IsDir; decide +kernel, ?_, by decide +kernel, by decide +kernel,
    by decide +kernel⟩
  · intro j body hj
    rcases j with _ | _ | j
    · cases hj
      refine ⟨2, .etag (some b!"\"md5:2\""), rfl, by decide +kernel, fun i o hi h => ⟨tidy i o h, ?_⟩⟩
      rcases i with _ | _ | _ | _ | i
      · cases h; intro e; exact absurd (congrArg Prod.snd e) (by decide)
      · cases h; exact id
      · exact absurd rfl hi
      · cases h; intro e; exact absurd (congrArg Prod.fst e) (by decide)
      · cases h
    · cases hj
      refine ⟨0, .etag (some b!"\"md5:3\""), rfl, by decide +kernel, fun i o hi h => ⟨tidy i o h, ?_⟩⟩
      rcases i with _ | _ | _ | _ | i
      · exact absurd rfl hi
      · cases h; exact id
      · cases h; intro e; exact absurd (congrArg Prod.snd e) (by decide)
      · cases h; intro e; exact absurd (congrArg Prod.fst e) (by decide)
      · cases h
    · cases hj
  · intro i o hi h
    rcases i with _ | _ | i
    · cases h
      have hw : PlainAddress b!"bbb" b!"w" := ⟨hbbb, _, plain1 (k := b!"w") (by decide)⟩
      refine ⟨⟨hw, by decide⟩, ?_, ?_⟩
      · intro b k hu
        cases hu
        exact ⟨⟨⟨hbbb, hw.2, by decide⟩, fun h => absurd h (by decide), fun h => absurd h (by decide)⟩, by decide⟩
      · intro u n hu h
        rw [hu.1] at h
        exact absurd h.1 (by decide)
    · exact absurd rfl hi
    · cases h

end S3
