import Verif.Lemmas.Sound
import Verif.Model.Par
/-! Lemmas: responses, panics, errors of whole requests. -/
namespace S3
open Spec

theorem metadataHeaders_iff {m : Meta} {hs : List (Bytes × Bytes)} :
    metadataHeaders m = some hs ↔
      (∀ p ∈ m, headerNameOk (metaPrefix ++ p.1) = true ∧ headerValueOk p.2 = true) ∧
      hs = m.map fun p => ((metaPrefix ++ p.1).map toLower, p.2) := by
  induction m generalizing hs with
  | nil => exact ⟨fun h => ⟨fun p hp => (by cases hp), by cases h; rfl⟩, fun h => by rw [h.2]; rfl⟩
  | cons p m ih =>
    obtain ⟨n, v⟩ := p
    simp only [metadataHeaders]
    split
    · rename_i h
      simp only [Bool.and_eq_true] at h
      simp only [Option.map_eq_some_iff, ih, List.mem_cons, forall_eq_or_imp, List.map_cons]
      constructor
      · rintro ⟨hs', ⟨h1, rfl⟩, rfl⟩; exact ⟨⟨h, h1⟩, rfl⟩
      · rintro ⟨⟨_, h1⟩, rfl⟩; exact ⟨_, ⟨h1, rfl⟩, rfl⟩
    · rename_i h
      simp only [Bool.and_eq_true] at h
      simp only [reduceCtorEq, false_iff, List.mem_cons, forall_eq_or_imp]
      rintro ⟨⟨h1, _⟩, _⟩
      exact h h1

theorem sendable_ok {n v : Bytes} (h : Sendable (b!"x-amz-meta-" ++ n) v) :
    headerNameOk (metaPrefix ++ n) = true ∧ headerValueOk v = true ∧ (metaPrefix ++ n).map toLower = b!"x-amz-meta-" ++ n := by
  obtain ⟨h1, h2, h3, h4⟩ := h
  refine ⟨?_, ?_, ?_⟩
  · simp only [headerNameOk, Bool.and_eq_true, bne_iff_ne, ne_eq, decide_eq_true_eq, List.all_eq_true]
    exact ⟨⟨h1, h2⟩, fun b hb => (h3 b hb).1⟩
  · simp only [headerValueOk, List.all_eq_true, Bool.or_eq_true, Bool.and_eq_true, decide_eq_true_eq, bne_iff_ne, beq_iff_eq]
    exact fun b hb => (h4 b hb).symm
  · have : ∀ l : Bytes, (∀ b ∈ l, toLower b = b) → l.map toLower = l := by
      intro l hl
      exact (List.map_congr_left hl).trans (List.map_id l)
    exact this _ fun b hb => (h3 b hb).2

theorem respond_sendable {h : Handler} {a : Answer} {m : Option Meta} (ha : a.meta = m.getD [])
    (hm : ∀ l, m = some l → ∀ p ∈ l, Sendable (b!"x-amz-meta-" ++ p.1) p.2) :
    respond h a = .ret ⟨h.status, metaHeaders m, a⟩ := by
  have key : metadataHeaders a.meta = some (metaHeaders m) := by
    rw [metadataHeaders_iff, ha]
    cases m with
    | none => exact ⟨fun p hp => (by cases hp), rfl⟩
    | some l =>
      refine ⟨fun p hp => ?_, ?_⟩
      · have := sendable_ok (hm l rfl p hp); exact ⟨this.1, this.2.1⟩
      · simp only [metaHeaders, Option.getD_some]
        apply List.map_congr_left
        intro p hp
        rw [(sendable_ok (hm l rfl p hp)).2.2]
  simp only [respond, key]

theorem run_respond {cfg : Cfg} {p : Prog Answer} {h : Handler} {fs : FS} :
    (run cfg (p.bind (respond h)) fs).2 = (run cfg p fs).2 ∧
    (∀ e, (run cfg p fs).1 = .err e → (run cfg (p.bind (respond h)) fs).1 = .err e) ∧
    (∀ a, (run cfg p fs).1 = .ok a → (run cfg (p.bind (respond h)) fs).1 = (run cfg (respond h a) fs).1) := by
  have hr : ∀ a fs, (run cfg (respond h a) fs).2 = fs ∧ ∀ fs', (run cfg (respond h a) fs).1 = (run cfg (respond h a) fs').1 := by
    intro a fs; simp only [respond]; split <;> exact ⟨rfl, fun _ => rfl⟩
  induction p generalizing fs with
  | ret a => exact ⟨(hr a fs).1, fun e he => (by cases he), fun a' ha => by cases ha; rfl⟩
  | fail e => exact ⟨rfl, fun e he => (by cases he; rfl), fun a ha => by cases ha⟩
  | panic => exact ⟨rfl, fun e he => (by cases he), fun a ha => by cases ha⟩
  | diverge => exact ⟨rfl, fun e he => (by cases he), fun a ha => by cases ha⟩
  | sys c k ih =>
    obtain ⟨h1, h2, h3⟩ := ih (exec cfg fs c).1 (fs := (exec cfg fs c).2)
    refine ⟨h1, h2, fun a ha => ?_⟩
    rw [show (run cfg (respond h a) fs).1 = (run cfg (respond h a) (exec cfg fs c).2).1 from (hr a fs).2 _]
    exact h3 a ha

theorem fails_respond {D : Prop} {E : S3ErrorCode → Prop} (hE : E .InternalError) (h : Handler) (a : Answer) : Ends D E (respond h a) := by
  simp only [respond]
  split
  · trivial
  · exact hE

theorem fails_map {α β : Type} {D : Prop} {E : S3ErrorCode → Prop} {p : Prog α} {f : α → β} (h : Ends D E p) : Ends D E (p.bind fun a => .ret (f a)) :=
  Ends.bind h fun _ => trivial

/-- an operation that lists objects -/
def Op.lists : Op → Bool
  | .listObjects .. => true
  | .listObjectsV2 .. => true
  | _ => false

/-- the errors of the operations; only listings can run out of fuel -/
theorem ends_op (cfg : Cfg) (ext : Ext) (o : Op) : Ends (o.lists = true) (· ∈ operationErrors o) (opProg cfg ext o) := by
  cases o with
  | createBucket b => exact fails_map (fails_createBucket (by simp [operationErrors]) b (by simp [operationErrors]))
  | copyObject b k s => exact fails_map (fails_copyObject (by simp [operationErrors]) b k s (by simp [operationErrors]))
  | deleteBucket b => exact fails_map (fails_deleteBucket (by simp [operationErrors]) b)
  | deleteObject b k => exact fails_map (fails_deleteObject (by simp [operationErrors]) b k)
  | deleteObjects b ks => exact fails_map (fails_deleteObjects (by simp [operationErrors]) b ks)
  | getBucketLocation b => exact fails_map (fails_getBucketLocation (by simp [operationErrors]) b (by simp [operationErrors]))
  | getObject b k r w =>
    exact Ends.bind (fails_getObjectFull (by simp [operationErrors]) b k r w (by simp [operationErrors]) (by simp [operationErrors])
      (by simp [operationErrors])) fun _ => trivial
  | headBucket b => exact fails_map (fails_headBucket (by simp [operationErrors]) b (by simp [operationErrors]))
  | headObject b k => exact fails_map (fails_headObject (by simp [operationErrors]) b k (by simp [operationErrors]))
  | listBuckets => exact fails_map (fails_listBuckets (by simp [operationErrors]))
  | listObjects b p f => exact (fails_map (fails_listObjects (by simp [operationErrors]) b p f)).weaken fun _ => rfl
  | listObjectsV2 b p f => exact Ends.bind ((fails_listObjectsV2 (by simp [operationErrors]) b p f).weaken fun _ => rfl) fun _ => trivial
  | putObject i => exact fails_map (fails_putObject (by simp [operationErrors]) i (by simp [operationErrors]) (by simp [operationErrors]) (by simp [operationErrors]))
  | createMultipartUpload u => exact trivial
  | uploadPart u n b => exact fails_map (fails_uploadPart (by simp [operationErrors]) u n b (by simp [operationErrors]))
  | completeMultipartUpload b k u p => exact fails_map (fails_completeMultipartUpload (by simp [operationErrors]) b k u p (by simp [operationErrors]))

/-- the errors of the operations -/
theorem fails_op (cfg : Cfg) (ext : Ext) (o : Op) : Fails (· ∈ operationErrors o) (opProg cfg ext o) :=
  (ends_op cfg ext o).weaken fun _ => trivial

/-! ### panics -/

theorem FailOr.fails {α β : Type} {D : Prop} {P : α → Prop} {E : S3ErrorCode → Prop} {p : Prog α} {f : α → Prog β} (h : FailOr P p) (hE : ∀ e, E e)
    (hf : ∀ a, P a → Ends D E (f a)) : Ends D E (p.bind f) := by
  cases p with
  | ret a => exact hf a h
  | fail e => exact hE e
  | _ => exact h.elim

/-- taking the input apart never panics, but for the upload of a part to an address that is not an object -/
theorem extract_total {lib : Lib} {env : Env} {c : Ctx} {h : Handler} (hm : isMatch c h = true)
    (hpart : h = .uploadPart → c.path.isObject = true) : FailOr (fun _ => True) (extract lib env c h) := by
  cases h <;> simp only [isMatch, Bool.and_eq_true, beq_iff_eq] at hm <;> simp only [extract]
  case completeMultipartUpload =>
    exact FailOr.bind (failOr_xml _ _) fun _ _ => FailOr.bind (failOr_object hm.1.2) fun _ _ =>
      FailOr.bind (failOr_unwrap hm.2) fun _ _ => trivial
  case copyObject =>
    refine FailOr.bind (failOr_object hm.1.2) fun bk hp => FailOr.bind (failOr_unwrap hm.2) fun src hsrc => ?_
    split <;> trivial
  case createBucket =>
    exact FailOr.bind (failOr_bucket hm.2) fun _ _ => FailOr.bind (failOr_xml _ _) fun _ _ =>
      FailOr.bind (failOr_assign _ _) fun _ _ => trivial
  case createMultipartUpload => exact FailOr.bind (failOr_object hm.1.2) fun bk hp => trivial
  case deleteBucket => exact FailOr.bind (failOr_bucket hm.2) fun b hp => trivial
  case deleteObject => exact FailOr.bind (failOr_object hm.2) fun bk hp => FailOr.bind (failOr_assign _ _) fun x hb => trivial
  case deleteObjects =>
    exact FailOr.bind (failOr_bucket hm.1.2) fun b hp => FailOr.bind (failOr_xml _ _) fun _ _ =>
      FailOr.bind (failOr_assign _ _) fun x hb => trivial
  case getBucketLocation => exact FailOr.bind (failOr_bucket hm.1.2) fun b hp => trivial
  case getObject => exact FailOr.bind (failOr_object hm.2) fun bk hp => trivial
  case headBucket => exact FailOr.bind (failOr_bucket hm.2) fun b hp => trivial
  case headObject => exact FailOr.bind (failOr_object hm.2) fun bk hp => trivial
  case listBuckets => trivial
  case listObjects => exact FailOr.bind (failOr_bucket hm.1.2) fun b hp => FailOr.bind (failOr_assign _ _) fun x hx => trivial
  case listObjectsV2 =>
    exact FailOr.bind (failOr_bucket hm.1.2) fun b hp => FailOr.bind (failOr_assign _ _) fun y hy =>
      FailOr.bind (failOr_assign _ _) fun x hx => trivial
  case putObject =>
    have hpa : FailOr (fun _ => True) (putAddress c) := by
      by_cases hpost : c.method = b!"POST"
      · simp only [hpost, if_true, Bool.and_eq_true] at hm
        simp only [putAddress, hpost, if_true]
        refine FailOr.bind (failOr_bucket hm.1) fun b hp => FailOr.bind (failOr_unwrap hm.2) fun f hf => ?_
        refine FailOr.bind (P := fun _ => True) ?_ fun k hk => trivial
        simp only [formKey]
        split
        · trivial
        · split <;> trivial
      · simp only [hpost, if_false] at hm
        split at hm
        · rename_i hput
          simp only [Bool.and_eq_true] at hm
          simp only [putAddress, if_neg hpost, if_pos hput]
          exact (by
            have := failOr_object hm.1
            cases hx : unwrapObjectPath c <;> rw [hx] at this <;> first | trivial | exact this.elim)
        · cases hm
    exact FailOr.bind (P := fun _ => True) (FailOr.bind hpa fun _ _ => FailOr.bind (failOr_assign _ _) fun _ _ => trivial) fun _ _ => trivial
  case uploadPart =>
    exact FailOr.bind (failOr_object (hpart rfl)) fun bk hp => FailOr.bind (failOr_unwrap hm.1.2) fun ns hns =>
      FailOr.bind (failOr_orFail _ _) fun n hi => FailOr.bind (failOr_unwrap hm.2) fun id hid =>
      FailOr.bind (failOr_assign _ _) fun l hl => trivial

/-- an upload of a part to an address that is not an object: only the root is left -/
theorem part_at_root {c : Ctx} (hf : findHandler c = some .uploadPart) : c.path.isObject = true ∨ c.path = .root := by
  cases hp : c.path with
  | root => exact .inr rfl
  | object b k => exact .inl rfl
  | bucket b =>
    exfalso
    have hm := find_first hf
    simp only [isMatch, Bool.and_eq_true, beq_iff_eq] at hm
    refine find_earlier (h' := .createBucket) hf ?_ (by decide +kernel)
    simp only [isMatch, hp, hm.1.1]
    rfl

theorem dispatch_total {cfg : Cfg} {ext : Ext} {lib : Lib} {env : Env} {c : Ctx}
    (h : ¬ (c.method = b!"PUT" ∧ c.path = .root ∧ (c.query b!"partNumber").isSome = true ∧ (c.query b!"uploadId").isSome = true)) :
    Fails (fun _ => True) (dispatch cfg ext lib env c) := by
  simp only [dispatch]
  split
  · trivial
  · split
    · rename_i hd hf
      have hm := find_first hf
      have hpart : hd = .uploadPart → c.path.isObject = true := by
        rintro rfl
        simp only [isMatch, Bool.and_eq_true, beq_iff_eq] at hm
        rcases part_at_root hf with h1 | h1
        · exact h1
        · exact absurd ⟨hm.1.1, h1, hm.1.2, hm.2⟩ h
      refine (extract_total hm hpart).fails (fun _ => trivial) fun o _ => ?_
      exact Ends.bind ((fails_op cfg ext o).mono fun _ _ => trivial) fun a => fails_respond trivial _ a
    · trivial

theorem dispatch_panic {cfg : Cfg} {ext : Ext} {lib : Lib} {env : Env} {c : Ctx}
    (h : c.method = b!"PUT" ∧ c.path = .root ∧ (c.query b!"partNumber").isSome = true ∧ (c.query b!"uploadId").isSome = true) :
    dispatch cfg ext lib env c = .panic := by
  obtain ⟨h1, h2, h3, h4⟩ := h
  have hf : findHandler c = some .uploadPart := by
    rw [findHandler_shape]
    have : c.shape = ⟨b!"PUT", .root, true, (c.query b!"uploads").isSome, (c.query b!"delete").isSome, (c.query b!"location").isSome,
      c.query b!"list-type", true, (c.header b!"x-amz-copy-source").isSome, c.multipart.isSome⟩ := by
      simp only [Ctx.shape, h1, h2, h3, h4]
    rw [this]; rfl
  simp only [dispatch, hf]
  rw [if_neg (by rw [h1]; intro h; exact absurd h.1 (by decide))]
  simp only [runHandler, extract, unwrapObjectPath, h2]
  rfl

/-- what every step of a thread keeps is kept under any schedule -/
theorem par_thread {α : Type} {cfg : Cfg} {P : Prog α → Prop} (hstep : ∀ p fs, P p → P (stepProg cfg p fs).1) {i : Nat} (sched : List Nat)
    (ps : List (Prog α)) (fs : FS) {p : Prog α} (hi : ps[i]? = some p) (hp : P p) :
    ∃ q, (runPar cfg sched ps fs).1[i]? = some q ∧ P q := by
  induction sched generalizing ps fs p with
  | nil => exact ⟨p, hi, hp⟩
  | cons j sched ih =>
    simp only [runPar]
    split
    · exact ih _ _ hi hp
    · rename_i p' hp'
      by_cases hij : j = i
      · subst hij
        rw [hi] at hp'; cases hp'
        refine ih _ _ (p := (stepProg cfg p fs).1) ?_ (hstep _ _ hp)
        obtain ⟨hlt, _⟩ := List.getElem?_eq_some_iff.mp hi
        rw [List.getElem?_set, if_pos rfl, if_pos hlt]
      · exact ih _ _ (p := p) (by rw [List.getElem?_set, if_neg hij]; exact hi) hp

theorem Ends.step {α : Type} {D : Prop} {E : S3ErrorCode → Prop} {cfg : Cfg} (p : Prog α) (fs : FS) (h : Ends D E p) : Ends D E (stepProg cfg p fs).1 := by
  cases p with
  | sys c k => exact h _
  | _ => exact h

theorem run_respond_ok {cfg : Cfg} {p : Prog Answer} {h : Handler} {fs : FS} {rep : Reply}
    (ok : (run cfg (p.bind (respond h)) fs).1 = .ok rep) : ∃ a, (run cfg p fs).1 = .ok a := by
  induction p generalizing fs with
  | ret a => exact ⟨a, rfl⟩
  | sys c k ih => exact ih _ ok
  | _ => cases ok

/-- the header values of an admitted request are visible -/
theorem admitted_value {lib : Lib} {auth : Option Provider} {r : Req} {c : Ctx} (h : admit lib auth r = .ok c) {n v : Bytes}
    (hv : (n, v) ∈ r.headers) : ∀ b ∈ v, b = 9 ∨ (32 ≤ b ∧ b ≠ 127) := by
  obtain ⟨c0, hm, _⟩ := admit_ok.mp h
  have := hm.headers
  simp only [orderedHeaders] at this
  split at this
  · rename_i hall
    simp only [List.all_eq_true] at hall
    have hok := hall _ hv
    simp only [toStrOk, List.all_eq_true] at hok
    intro b hb
    have := hok b hb
    simp only [Bool.or_eq_true, Bool.and_eq_true, decide_eq_true_eq, beq_iff_eq] at this
    rcases this with ⟨h1, h2⟩ | h1
    · refine .inr ⟨h1, ?_⟩
      rintro rfl
      exact absurd h2 (by decide)
    · exact .inl h1
  · cases this

end S3
