import Verif.Lemmas.WebLife
import Verif.Lemmas.Accounted
import Verif.Lemmas.Sound
import Verif.Spec.Concerns
/-! Any request is refused, panics, or leads to an operation about its address. -/
namespace S3
open Spec

variable {cfg : Cfg} {ext : Ext} {lib : Lib} {auth : Option Provider}

/-- ends at once: with a value in `P`, an error or a panic -/
def AtOnce {α : Type} (P : α → Prop) : Prog α → Prop
  | .ret a => P a
  | .fail _ => True
  | .panic => True
  | _ => False

theorem AtOnce.bind {α β : Type} {P : α → Prop} {Q : β → Prop} {p : Prog α} {f : α → Prog β} (h : AtOnce P p)
    (hf : ∀ a, P a → AtOnce Q (f a)) : AtOnce Q (p >>= f) := by
  show AtOnce Q (p.bind f)
  cases p with
  | ret a => exact hf a h
  | fail e => trivial
  | panic => trivial
  | diverge => exact h.elim
  | sys c k => exact h.elim

theorem FailOr.atOnce {α : Type} {P : α → Prop} {p : Prog α} (h : FailOr P p) : AtOnce P p := by
  cases p <;> first | exact h | trivial

theorem atOnce_object (c : Ctx) : AtOnce (fun bk => c.path = .object bk.1 bk.2) (unwrapObjectPath c) := by
  simp only [unwrapObjectPath]
  cases hp : c.path <;> first | exact rfl | trivial

theorem atOnce_bucket (c : Ctx) : AtOnce (fun b => c.path = .bucket b) (unwrapBucketPath c) := by
  simp only [unwrapBucketPath]
  cases hp : c.path <;> first | exact rfl | trivial

theorem atOnce_unwrap {α : Type} (o : Option α) : AtOnce (fun x => o = some x) (unwrap o) := by
  cases o <;> first | exact rfl | trivial

theorem atOnce_assign {α : Type} (parse : Bytes → Option α) (s : Option Bytes) : AtOnce (fun _ => True) (assign parse s) := by
  have := failOr_assign parse s
  cases h : assign parse s <;> first | trivial | (rw [h] at this; exact this.elim)

theorem atOnce_xml {α : Type} (parse : Bytes → Option α) (b : Body) : AtOnce (fun _ => True) (xmlBody parse b) := by
  have := failOr_xml parse b
  cases h : xmlBody parse b <;> first | trivial | (rw [h] at this; exact this.elim)

theorem putBody_address (c : Ctx) (i : PutInput) : (putBody c i).bucket = i.bucket ∧ (putBody c i).key = i.key := by
  unfold putBody
  split <;> exact ⟨rfl, rfl⟩

theorem extractPut_concerns {r : Req} {c : Ctx} (R : Admits lib r c) : AtOnce (fun i => Concerns r (.putObject i)) (extractPut c) := by
  refine AtOnce.bind (P := fun bk => (r.method = b!"POST" ∧ At r (.bucket bk.1)) ∨ (r.method = b!"PUT" ∧ At r (.object bk.1 bk.2))) ?_ fun bk hbk => ?_
  · simp only [putAddress]
    split
    · rename_i hm
      refine (atOnce_bucket c).bind fun b hb => (atOnce_unwrap _).bind fun f _ => ?_
      refine AtOnce.bind (P := fun _ => True) ?_ fun k _ => ?_
      · simp only [formKey]; repeat' split
        all_goals trivial
      · exact .inl ⟨R.method ▸ hm, R.atBucket hb⟩
    · split
      · rename_i hm
        have := atOnce_object c
        cases h : unwrapObjectPath c <;> first | trivial | (rw [h] at this; first | exact this.elim | exact .inr ⟨R.method ▸ hm, R.atObject this⟩)
      · trivial
  · refine (atOnce_assign _ _).bind fun l _ => ?_
    obtain ⟨e1, e2⟩ := putBody_address c { bucket := bk.1, key := bk.2, body := none, contentLength := l, metadata := collectMeta c.headers, storageClass := c.header b!"x-amz-storage-class" }
    rcases hbk with ⟨h1, h2⟩ | ⟨h1, h2⟩
    · exact .postObject h1 (by rw [e1]; exact h2)
    · exact .putObject h1 (by rw [e1, e2]; exact h2)

theorem extract_concerns {r : Req} {c : Ctx} (R : Admits lib r c) (env : Env) {h : Handler} (hf : findHandler c = some h) :
    AtOnce (Concerns r) (extract lib env c h) := by
  have hm := find_first hf
  cases h <;> simp only [isMatch, Bool.and_eq_true, beq_iff_eq, R.method] at hm
  case completeMultipartUpload =>
    exact (atOnce_xml _ _).bind fun _ _ => (atOnce_object c).bind fun bk hbk => (atOnce_unwrap _).bind fun id hid =>
      .complete hm.1.1 (R.atObject hbk) (R.query_mem _ _ hid)
  case copyObject =>
    refine (atOnce_object c).bind fun bk hbk => (atOnce_unwrap _).bind fun s hs => ?_
    split
    · exact .copyObject hm.1.1 (R.atObject hbk) (R.header_mem _ _ hs)
    · trivial
  case createBucket =>
    exact (atOnce_bucket c).bind fun b hb => (atOnce_xml _ _).bind fun _ _ => (atOnce_assign _ _).bind fun _ _ => .createBucket hm.1 (R.atBucket hb)
  case createMultipartUpload => exact (atOnce_object c).bind fun bk hbk => .initiate
  case deleteBucket => exact (atOnce_bucket c).bind fun b hb => .deleteBucket hm.1 (R.atBucket hb)
  case deleteObject => exact (atOnce_object c).bind fun bk hbk => (atOnce_assign _ _).bind fun _ _ => .deleteObject hm.1 (R.atObject hbk)
  case deleteObjects =>
    exact (atOnce_bucket c).bind fun b hb => (atOnce_xml _ _).bind fun _ _ => (atOnce_assign _ _).bind fun _ _ => .deleteObjects hm.1.1 (R.atBucket hb)
  case getBucketLocation => exact (atOnce_bucket c).bind fun b hb => .location hm.1.1 (R.atBucket hb)
  case getObject => exact (atOnce_object c).bind fun bk hbk => .getObject hm.1 (R.atObject hbk)
  case headBucket => exact (atOnce_bucket c).bind fun b hb => .headBucket hm.1 (R.atBucket hb)
  case headObject => exact (atOnce_object c).bind fun bk hbk => .headObject hm.1 (R.atObject hbk)
  case listBuckets =>
    refine Concerns.listBuckets hm.1 (R.atRoot ?_)
    cases hp : c.path <;> rw [hp] at hm <;> first | rfl | exact absurd hm.2 (by simp [S3Path.isRoot])
  case listObjects => exact (atOnce_bucket c).bind fun b hb => (atOnce_assign _ _).bind fun _ _ => .listObjects hm.1.1 (R.atBucket hb)
  case listObjectsV2 =>
    exact (atOnce_bucket c).bind fun b hb => (atOnce_assign _ _).bind fun _ _ => (atOnce_assign _ _).bind fun _ _ => .listObjectsV2 hm.1.1 (R.atBucket hb)
  case putObject => exact (extractPut_concerns R).bind fun i hi => hi
  case uploadPart =>
    exact (atOnce_object c).bind fun bk hbk => (atOnce_unwrap _).bind fun ns _ => (failOr_orFail _ _).atOnce.bind fun n _ => (atOnce_unwrap _).bind fun id hid =>
      (atOnce_assign _ _).bind fun _ _ => .uploadPart hm.1.1 (R.atObject hbk) (R.query_mem _ _ hid)

theorem wraps_panic {α β : Type} {k : S3ErrorCode → Prog β} (hk : ∀ e, ∃ b, k e = .ret b) : Wraps cfg fun p : Prog α => (p.bind fun _ => .panic).catch k := by
  intro p f fs
  cases p with
  | ret a => rfl
  | fail e => obtain ⟨b, hb⟩ := hk e; simp only [Prog.bind, Prog.catch, hb, stepProgF]
  | panic => rfl
  | diverge => rfl
  | sys c k => rfl

/-- the calls of the program are those of the one inside it -/
def Through (F : Prog α → Prog β) : Prop :=
  (∀ c k, F (.sys c k) = .sys c fun r => F (k r)) ∧ ∀ ok p, Safe ok (fun _ => True) p → Safe ok (fun _ => True) (F p)

theorem through_of {g : α → Prog β} {k : S3ErrorCode → Prog β} (hg : ∀ ok a, Safe ok (fun _ => True) (g a)) (hk : ∀ e, ∃ b, k e = .ret b) :
    Through fun p => (p.bind g).catch k :=
  ⟨fun _ _ => rfl, fun ok _ h => Safe.catch (h.bind fun a _ => hg ok a) fun e => by obtain ⟨b, hb⟩ := hk e; rw [hb]; trivial⟩

theorem through_wrap (x : Texts) (c : Ctx) (h : Handler) : Through (wrap x c h) :=
  through_of (fun _ a => (respond_safe h a).bind fun rep _ => by
    obtain ⟨res, hr, _⟩ := makeResponse_ret x c h rep
    rw [hr]; trivial) (errorResponse_ret x)

/-- any request whatever -/
theorem any_through (x : Exchange) : ∃ o F, Concerns x.req o ∧ Wraps cfg F ∧ hyperCall cfg ext lib auth x.env x.texts x.req = F (opProg cfg ext o) ∧
    Through F := by
  have refused : ∀ {p : Prog Response}, (∃ res, p = .ret res) →
      ∃ o F, Concerns x.req o ∧ Wraps cfg F ∧ p = F (opProg cfg ext o) ∧ Through F := by
    rintro p ⟨res, rfl⟩
    exact ⟨silent, fun p => (p.bind fun _ => .ret res).catch fun _ => .ret res, .initiate, wraps_of (fun _ => ⟨res, rfl⟩) (fun _ => ⟨res, rfl⟩), rfl,
      through_of (fun _ _ => trivial) fun _ => ⟨res, rfl⟩⟩
  unfold hyperCall handleResponse
  cases hc : admit lib auth x.req with
  | error e => exact refused (errorResponse_ret x.texts e)
  | ok c =>
    simp only [dispatchResponse]
    split
    · exact refused (errorResponse_ret x.texts _)
    · cases hf : findHandler c with
      | none => exact refused (errorResponse_ret x.texts _)
      | some h =>
        have hx := extract_concerns (ready_of_admit hc) x.env hf
        simp only [runHandler]
        cases he : extract lib x.env c h with
        | ret o =>
          rw [he] at hx
          refine ⟨o, wrap x.texts c h, hx, wraps_wrap x.texts c h, ?_, through_wrap x.texts c h⟩
          simp only [Prog.bind, bind_assoc]; rfl
        | fail e => exact refused (errorResponse_ret x.texts e)
        | panic => exact ⟨silent, _, .initiate, wraps_panic (k := errorResponse x.texts) (errorResponse_ret x.texts), rfl,
            through_of (fun _ _ => trivial) (errorResponse_ret x.texts)⟩
        | diverge => rw [he] at hx; exact hx.elim
        | sys _ _ => rw [he] at hx; exact hx.elim

theorem any_wrap (x : Exchange) : ∃ o F, Concerns x.req o ∧ Wraps cfg F ∧ hyperCall cfg ext lib auth x.env x.texts x.req = F (opProg cfg ext o) := by
  obtain ⟨o, F, h1, h2, h3, _⟩ := any_through (cfg := cfg) (ext := ext) (lib := lib) (auth := auth) x
  exact ⟨o, F, h1, h2, h3⟩

/-- a run with any requests whatever, as a run of operations; for every way to cut it off -/
theorem any_at (w : WebEpoch) : ∃ os : List Op, (∀ (j : Nat) o, os[j]? = some o → ∃ x, w.requests[j]? = some x ∧ Concerns x.req o) ∧
    os.length = w.requests.length ∧
    ∀ steps fs, (⟨os, steps⟩ : Epoch).leaves cfg ext fs = (⟨w.requests, steps⟩ : WebEpoch).leaves cfg ext lib auth fs := by
  obtain ⟨G, hG⟩ := Classical.axiomOfChoice (any_wrap (cfg := cfg) (ext := ext) (lib := lib) (auth := auth))
  obtain ⟨F, hF⟩ := Classical.axiomOfChoice hG
  refine ⟨w.requests.map G, fun j o ho => ?_, by simp, fun steps fs => ?_⟩
  · rw [List.getElem?_map, Option.map_eq_some_iff] at ho
    obtain ⟨x, hx, rfl⟩ := ho
    exact ⟨x, hx, (hF x).1⟩
  · have : ∀ j : Nat, ∃ f : Prog Answer → Prog Response, Wraps cfg f ∧ ∀ x, w.requests[j]? = some x → f = F x := by
      intro j
      cases hx : w.requests[j]? with
      | none => exact ⟨_, wraps_panic (k := fun _ => .ret ⟨0, [], none⟩) (fun _ => ⟨_, rfl⟩), fun _ h => nomatch h⟩
      | some x => exact ⟨F x, (hF x).2.1, fun y hy => by cases hy; rfl⟩
    obtain ⟨f, hf⟩ := Classical.axiomOfChoice this
    have hprogs : (w.requests.map fun x => hyperCall cfg ext lib auth x.env x.texts x.req) = ((w.requests.map G).map (opProg cfg ext)).mapIdx f := by
      apply List.ext_getElem?
      intro j
      simp only [List.getElem?_map, List.getElem?_mapIdx]
      cases hx : w.requests[j]? with
      | none => rfl
      | some x => exact congrArg some ((hF x).2.2.trans (by rw [(hf j).2 x hx]))
    simp only [Epoch.leaves, WebEpoch.leaves, hprogs, runParF_mapIdx fun i => (hf i).1]

theorem any_cut (w : WebEpoch) : ∃ os : List Op, (∀ o ∈ os, ∃ x ∈ w.requests, Concerns x.req o) ∧
    ∀ steps fs, (⟨os, steps⟩ : Epoch).leaves cfg ext fs = (⟨w.requests, steps⟩ : WebEpoch).leaves cfg ext lib auth fs := by
  obtain ⟨os, h1, _, h2⟩ := any_at (cfg := cfg) (ext := ext) (lib := lib) (auth := auth) w
  refine ⟨os, fun o ho => ?_, h2⟩
  obtain ⟨j, hj⟩ := List.mem_iff_getElem?.mp ho
  obtain ⟨x, hx, hc⟩ := h1 j o hj
  exact ⟨x, List.mem_of_getElem? hx, hc⟩

/-- a life with any requests whatever, as a life of operations -/
theorem any_life (ws : List WebEpoch) : ∃ es : List Epoch, (∀ e ∈ es, ∀ o ∈ e.requests, ∃ w ∈ ws, ∃ x ∈ w.requests, Concerns x.req o) ∧
    ∀ fs, life cfg ext es fs = webLife cfg ext lib auth ws fs := by
  induction ws with
  | nil => exact ⟨[], (fun _ h => nomatch h), fun _ => rfl⟩
  | cons w ws ih =>
    obtain ⟨es, h1, h2⟩ := ih
    obtain ⟨os, h3, h4⟩ := any_cut (cfg := cfg) (ext := ext) (lib := lib) (auth := auth) w
    refine ⟨⟨os, w.steps⟩ :: es, fun e he o ho => ?_, fun fs => ?_⟩
    · rcases List.mem_cons.mp he with rfl | he
      · obtain ⟨x, hx, hc⟩ := h3 o ho
        exact ⟨w, List.mem_cons_self .., x, hx, hc⟩
      · obtain ⟨w', hw', h⟩ := h1 e he o ho
        exact ⟨w', List.mem_cons_of_mem _ hw', h⟩
    · show life cfg ext es _ = webLife cfg ext lib auth ws _
      rw [h2, h4]

theorem concerns_legal {r : Req} {o : Op} (h : Concerns r o) : LegalDelete o := by
  cases h <;> first | trivial | exact legal_bucketAt (by assumption) | exact legal_objectAt (by assumption)

theorem concerns_legalWrite {r : Req} {o : Op} (h : Concerns r o) : LegalWrite o := by
  cases h <;> first | trivial | exact legal_bucketAt (by assumption) | exact legal_objectAt (by assumption)

/-- the call changes nothing -/
def isReading : Call → Prop
  | .mkdir _ | .create _ | .writeAt .. | .unlink _ | .rmdir _ | .rmtree _ => False
  | _ => True

theorem execF_reading {c : Call} (h : isReading c) (f : Fault) (fs : FS) : (execF cfg fs c f).2 = fs := by
  have : (exec cfg fs c).2 = fs := by
    cases c <;> first | exact h.elim | rfl | (simp only [exec]; split <;> rfl)
  cases f with
  | none => exact this
  | before => rfl
  | after => exact this
  | during n rs => cases c <;> first | exact h.elim | rfl

theorem concerns_reading {r : Req} {o : Op} (ho : Concerns r o) (h1 : r.method ≠ b!"PUT") (h2 : r.method ≠ b!"POST")
    (h3 : r.method ≠ b!"DELETE") {c : Call} (hc : (opPerm cfg o).ok c) : isReading c := by
  cases ho <;> first
    | exact absurd (by assumption) h1
    | exact absurd (by assumption) h2
    | exact absurd (by assumption) h3
    | (cases c <;> first | trivial | exact hc.elim)

theorem bucketP_legal {b : Bytes} (hb : LegalBucket b) {q : Path} (h : bucketP cfg b q) : q = cfg.root ++ [b] := by
  obtain ⟨p, hp, rfl⟩ := h
  rw [bucketPath_legal cfg ((C02_bucket_name_rule _).mpr hb)] at hp
  cases hp; rfl

theorem bucket_below {root : Path} {b : Bytes} {p : Path} (h : root ++ [b] <+: root ++ p) : ∃ t, p = b :: t := by
  obtain ⟨t, ht⟩ := h
  rw [List.append_assoc] at ht
  exact ⟨t, (List.append_cancel_left ht).symm⟩

/-- a call of a request that does not concern a file leaves it alone -/
theorem concerns_file {r : Req} {o : Op} (ho : Concerns r o) {p : Path} (hn : ¬ TouchesFile cfg.root r p) {c : Call} (hc : (opPerm cfg o).ok c) :
    writeOk (· ≠ cfg.root ++ p) (fun _ => True) c := by
  have hw : ¬ callWrites (cfg.root ++ p) c := by
    intro h
    cases ok_writes (concerns_legalWrite ho) hc h with
    | put _ hp => cases ho with
      | putObject h1 h2 => exact hn (.put h1 h2 hp)
      | postObject h1 h2 => exact hn (.post h1 h2 hp)
    | putMeta _ => cases ho with
      | putObject h1 h2 => exact hn (.putMeta h1 h2)
      | postObject h1 h2 => exact hn (.postMeta h1 h2)
    | copy hp => cases ho with | copyObject h1 h2 => exact hn (.put h1 h2 hp)
    | copyMeta => cases ho with | copyObject h1 h2 => exact hn (.putMeta h1 h2)
    | part hp => cases ho with | uploadPart h1 h2 h3 => exact hn (.part h1 h2 h3 hp)
    | complete hp => cases ho with | complete h1 h2 => exact hn (.complete h1 h2 hp)
  cases c with
  | mkdir q => exact .inl trivial
  | create q => exact hw
  | writeAt i off b => exact hw
  | unlink q =>
    intro e
    cases ho <;> first | exact hc.elim | skip
    case deleteObject h1 h2 =>
      obtain ⟨_, q', h3, h4⟩ := hc
      exact hn (.delete h1 h2 (place_of (legal_objectAt h2) h3 (h4.symm.trans e)))
    case deleteObjects h1 h2 =>
      obtain ⟨k, _, q', h3, h4⟩ := hc
      exact hn (.post h1 h2 (place_of (legal_bucketAt h2) h3 (h4.symm.trans e)))
    case complete h1 h2 h3 =>
      obtain ⟨l, n, _, _, q', h4, h5⟩ := hc
      exact hn (.consume h1 h2 h3 (partPlace_of h4 (h5.symm.trans e)))
  | rmdir q =>
    intro e
    cases ho <;> first | exact hc.elim | skip
    case deleteObject h1 h2 =>
      obtain ⟨_, q', h3, h4⟩ := hc
      exact hn (.delete h1 h2 (place_of (legal_objectAt h2) h3 (h4.symm.trans e)))
  | rmtree q =>
    intro x hx e
    cases ho <;> first | exact hc.elim | skip
    case deleteBucket h1 h2 =>
      rw [e, bucketP_legal (legal_bucketAt h2) hc] at hx
      obtain ⟨t, rfl⟩ := bucket_below hx
      exact hn (.remove h1 h2)
  | _ => trivial

/-- a call of a request that does not concern a folder leaves it alone -/
theorem concerns_folder {r : Req} {o : Op} (ho : Concerns r o) {d : Path} (hn : ¬ TouchesFolder cfg.root r d) {c : Call} (hc : (opPerm cfg o).ok c) :
    sparesDir (cfg.root ++ d) c ∧ ¬ callMakes (cfg.root ++ d) c := by
  constructor
  · cases c with
    | rmdir q =>
      intro e
      cases ho <;> first | exact hc.elim | skip
      case deleteObject h1 h2 =>
        obtain ⟨hs, q', h3, h4⟩ := hc
        obtain ⟨t, ht⟩ := slash_of hs
        exact hn (.delete h1 h2 ht (place_of (legal_objectAt h2) h3 (h4.symm.trans e)))
    | rmtree q =>
      intro hx
      cases ho <;> first | exact hc.elim | skip
      case deleteBucket h1 h2 =>
        rw [bucketP_legal (legal_bucketAt h2) hc] at hx
        obtain ⟨t, rfl⟩ := bucket_below hx
        exact hn (.remove h1 h2)
    | _ => trivial
  · intro h
    cases ok_makes (concerns_legalWrite ho) hc h with
    | bucket => cases ho with | createBucket h1 h2 => exact hn (.create h1 h2)
    | folder hs hp ha => cases ho with
      | putObject h1 h2 => exact hn (.put h1 h2 hp ha fun _ => ⟨_, hs⟩)
      | postObject h1 h2 => exact hn (.post h1 h2 hp ha)
    | parent hs hp ha hne => cases ho with
      | putObject h1 h2 => exact hn (.put h1 h2 hp ha fun e => absurd e hne)
      | postObject h1 h2 => exact hn (.post h1 h2 hp ha)

end S3
