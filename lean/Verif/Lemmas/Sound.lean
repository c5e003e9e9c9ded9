import Verif.Lemmas.Handler
/-! Lemmas: what is dispatched was asked for. -/
namespace S3
open Spec

/-- a program that fails at once, or one that yields a value at once with the property -/
def FailOr {α : Type} (P : α → Prop) : Prog α → Prop
  | .ret a => P a
  | .fail _ => True
  | _ => False

theorem FailOr.bind {α β : Type} {P : α → Prop} {Q : β → Prop} {p : Prog α} {f : α → Prog β} (h : FailOr P p)
    (hf : ∀ a, P a → FailOr Q (f a)) : FailOr Q (p >>= f) := by
  cases p with
  | ret a => exact hf a h
  | fail e => trivial
  | _ => exact h.elim

theorem failOr_assign {α : Type} (parse : Bytes → Option α) (s : Option Bytes) : FailOr (fun x => assign parse s = .ret x) (assign parse s) := by
  rcases assign_cases parse s with ⟨x, h⟩ | h
  · rw [h]; exact rfl
  · rw [h]; trivial

theorem failOr_xml {α : Type} (parse : Bytes → Option α) (b : Body) : FailOr (fun x => ∃ s, Text b s ∧ parse s = some x) (xmlBody parse b) := by
  simp only [xmlBody]
  split
  · trivial
  · rename_i s hs
    cases hp : parse s with
    | none => trivial
    | some x => exact ⟨s, wholeBody_some.mp hs, hp⟩

theorem failOr_orFail {α : Type} (e : S3ErrorCode) (o : Option α) : FailOr (fun x => o = some x) (orFail e o) := by
  cases o with
  | none => trivial
  | some x => exact rfl

theorem failOr_object {c : Ctx} (h : c.path.isObject = true) : FailOr (fun bk => c.path = .object bk.1 bk.2) (unwrapObjectPath c) := by
  simp only [unwrapObjectPath]
  cases hp : c.path with
  | object b k => exact rfl
  | _ => rw [hp] at h; cases h

theorem failOr_bucket {c : Ctx} (h : c.path.isBucket = true) : FailOr (fun b => c.path = .bucket b) (unwrapBucketPath c) := by
  simp only [unwrapBucketPath]
  cases hp : c.path with
  | bucket b => exact rfl
  | _ => rw [hp] at h; cases h

theorem failOr_unwrap {α : Type} {o : Option α} (h : o.isSome = true) : FailOr (fun x => o = some x) (unwrap o) := by
  cases o with
  | none => cases h
  | some x => exact rfl

theorem find_first {c : Ctx} {h : Handler} (hf : findHandler c = some h) : isMatch c h = true := List.find?_some hf

theorem find_earlier {c : Ctx} {h h' : Handler} (hf : findHandler c = some h) (hm : isMatch c h' = true)
    (hlt : handlers.idxOf h' < handlers.idxOf h) : False := by
  obtain ⟨_, as, bs, e, hno⟩ := List.find?_eq_some_iff_append.mp hf
  have hmem : h' ∈ as := by
    have hall : h' ∈ handlers := by cases h' <;> decide
    rw [e] at hall hlt
    apply Classical.byContradiction
    intro hn
    have h1 : (as ++ h :: bs).idxOf h' = as.length + (h :: bs).idxOf h' := by
      rw [List.idxOf_append, if_neg hn]; omega
    have h2 : (as ++ h :: bs).idxOf h ≤ as.length := by
      rw [List.idxOf_append]
      split
      · rename_i hm; exact Nat.le_of_lt (List.idxOf_lt_length_of_mem hm)
      · simp [List.idxOf_cons_self]
    omega
  have := hno h' hmem
  rw [hm] at this; cases this

section
variable {lib : Lib} {env : Env} {r : Req} {c : Ctx} (R : Admits lib r c)
include R

theorem Admits.atObject {b k : Bytes} (h : c.path = .object b k) : At r (.object b k) := (R.path _).mpr (by rw [h]; rfl)
theorem Admits.atBucket {b : Bytes} (h : c.path = .bucket b) : At r (.bucket b) := (R.path _).mpr (by rw [h]; rfl)
theorem Admits.atRoot (h : c.path = .root) : At r .root := (R.path _).mpr (by rw [h]; rfl)

theorem Admits.headerBool (hn : NoRepeats r) {n : Bytes} {x : Option Bool} (h : assign parseBool (c.header n) = .ret x) : HeaderBool r n :=
  ⟨_, R.valueHeader hn n, assign_bool.mp ⟨x, h⟩⟩
theorem Admits.queryBool (hn : NoRepeats r) {n : Bytes} {x : Option Bool} (h : assign parseBool (c.query n) = .ret x) : QueryBool r n :=
  ⟨_, R.valueQuery hn n, assign_bool.mp ⟨x, h⟩⟩
theorem Admits.headerI64 (hn : NoRepeats r) {n : Bytes} {x : Option Int} (h : assign parseI64 (c.header n) = .ret x) : HeaderI64 r n x :=
  ⟨_, R.valueHeader hn n, assign_i64.mp h⟩
theorem Admits.queryI64 (hn : NoRepeats r) {n : Bytes} {x : Option Int} (h : assign parseI64 (c.query n) = .ret x) : QueryI64 r n :=
  ⟨_, x, R.valueQuery hn n, assign_i64.mp h⟩

/-- the sub-resources of a supported request, by the kind of the address -/
theorem Admits.names (hs : Supported lib r) : ∃ names, Selects r names ∧
    (names = [] ∨
     (c.method = b!"GET" ∧ c.path.isBucket = true ∧ (names = [b!"location"] ∨ names = [b!"list-type"])) ∨
     (c.method = b!"POST" ∧ c.path.isBucket = true ∧ names = [b!"delete"] ∧ ∀ x, ¬ IsForm lib r x) ∨
     (c.method = b!"POST" ∧ c.path.isObject = true ∧ (names = [b!"uploads"] ∨ names = [b!"uploadId"])) ∨
     (c.method = b!"PUT" ∧ c.path.isObject = true ∧ names = [b!"partNumber", b!"uploadId"] ∧ c.header b!"x-amz-copy-source" = none)) := by
  rw [R.method]
  cases hs with
  | plain h => exact ⟨_, h, .inl rfl⟩
  | location hm ha h => exact ⟨_, h, .inr (.inl ⟨hm, by rw [R.bucket ha]; rfl, .inl rfl⟩)⟩
  | listType hm ha h => exact ⟨_, h, .inr (.inl ⟨hm, by rw [R.bucket ha]; rfl, .inr rfl⟩)⟩
  | delete hm ha h hf => exact ⟨_, h, .inr (.inr (.inl ⟨hm, by rw [R.bucket ha]; rfl, rfl, hf⟩))⟩
  | uploads hm ha h => exact ⟨_, h, .inr (.inr (.inr (.inl ⟨hm, by rw [R.object ha]; rfl, .inl rfl⟩)))⟩
  | complete hm ha h => exact ⟨_, h, .inr (.inr (.inr (.inl ⟨hm, by rw [R.object ha]; rfl, .inr rfl⟩)))⟩
  | part hm ha h hc => exact ⟨_, h, .inr (.inr (.inr (.inr ⟨hm, by rw [R.object ha]; rfl, rfl, (R.header_none _).mpr hc⟩)))⟩

end

theorem not_bucket {p : S3Path} (h : p.isObject = true) : p.isBucket = false ∧ p.isRoot = false := by
  cases p <;> simp_all [S3Path.isObject, S3Path.isBucket, S3Path.isRoot]
theorem not_object {p : S3Path} (h : p.isBucket = true) : p.isObject = false ∧ p.isRoot = false := by
  cases p <;> simp_all [S3Path.isObject, S3Path.isBucket, S3Path.isRoot]
theorem not_root {p : S3Path} (h : p.isRoot = true) : p.isObject = false ∧ p.isBucket = false := by
  cases p <;> simp_all [S3Path.isObject, S3Path.isBucket, S3Path.isRoot]

/-- the sub-resources a supported request names, for the handler that is chosen -/
def Handler.names : Handler → List Bytes
  | .completeMultipartUpload => [b!"uploadId"]
  | .createMultipartUpload => [b!"uploads"]
  | .deleteObjects => [b!"delete"]
  | .getBucketLocation => [b!"location"]
  | .listObjectsV2 => [b!"list-type"]
  | .uploadPart => [b!"partNumber", b!"uploadId"]
  | _ => []

theorem Admits.handler_names {lib : Lib} {r : Req} {c : Ctx} (R : Admits lib r c) (hs : Supported lib r) {h : Handler} (hf : findHandler c = some h) :
    Selects r h.names := by
  obtain ⟨names, hsel, hcase⟩ := R.names hs
  have hm := find_first hf
  obtain ⟨p1, p2, p3, p4, p5, p6⟩ := R.params hsel
  have hloc : h = .listObjects → (c.query b!"location").isSome = false := by
    rintro rfl
    cases hq : (c.query b!"location").isSome with
    | false => rfl
    | true =>
      exfalso
      refine find_earlier (h' := .getBucketLocation) hf ?_ (by decide +kernel)
      simp only [isMatch, Bool.and_eq_true, beq_iff_eq] at hm ⊢
      exact ⟨hm.1, hq⟩
  have hl2 : h = .listObjectsV2 → (c.query b!"list-type").isSome = true := by
    rintro rfl
    simp only [isMatch, Bool.and_eq_true, beq_iff_eq] at hm
    rw [hm.2]; rfl
  have hnb := @not_bucket c.path
  have hno := @not_object c.path
  have hnr := @not_root c.path
  have key : names = h.names := by
    cases h <;> simp only [isMatch, Bool.and_eq_true, beq_iff_eq, Handler.names] at hm ⊢ <;>
      (rcases hcase with rfl | ⟨h1, h2, rfl | rfl⟩ | ⟨h1, h2, rfl, h3⟩ | ⟨h1, h2, rfl | rfl⟩ | ⟨h1, h2, rfl, h3⟩) <;>
      simp_all
    rw [R.noForm h3] at hm; cases hm
  exact key ▸ hsel

theorem either_field (f : Form) (n : Bytes) (old : Option Bytes) : Either (findField f.fields n) old (assignField f n old) := by
  simp only [assignField]
  split
  · rename_i h; rw [h]; exact .inr ⟨by simp, rfl⟩
  · rename_i h; exact .inl ⟨h, rfl⟩

theorem either_meta (f : Form) (old : Option Meta) :
    Either (collectMeta (f.fields.map fun p => (p.1.map toLower, p.2))) old (formMeta f old) := by
  simp only [formMeta]
  split
  · rename_i h; rw [h]; exact .inr ⟨by simp, rfl⟩
  · rename_i h; exact .inl ⟨h, rfl⟩

/-- the operation the handler runs was asked for, or it is a copy that is refused at once -/
theorem extract_sound {cfg : Cfg} {ext : Ext} {lib : Lib} {env : Env} {r : Req} {c : Ctx} (R : Admits lib r c) (hn : NoRepeats r)
    (hs : Supported lib r) {h : Handler} (hf : findHandler c = some h)
    (hform : ¬ (c.method = b!"POST" ∧ c.path.isObject = true ∧ c.multipart.isSome = true)) :
    FailOr (fun o => o.handler = h ∧ (Requests lib env r c.body o ∨ ∃ e, opProg cfg ext o = .fail e)) (extract lib env c h) := by
  have hsel := R.handler_names hs hf
  have hm := find_first hf
  have hform' : c.multipart = none → ∀ x, ¬ IsForm lib r x := fun h => R.noForm' h _ (R.valueHeader hn _)
  have hobj : c.method = b!"POST" → c.path.isObject = true → ∀ x, ¬ IsForm lib r x := by
    intro h1 h2
    apply hform'
    cases hq : c.multipart with
    | none => rfl
    | some f => exact absurd ⟨h1, h2, by rw [hq]; rfl⟩ hform
  cases h <;> simp only [isMatch, Bool.and_eq_true, beq_iff_eq, Handler.names] at hm hsel <;> simp only [extract]
  case completeMultipartUpload =>
    refine FailOr.bind (failOr_xml _ _) fun parts ⟨s, ht, hx⟩ => FailOr.bind (failOr_object hm.1.2) fun bk hp =>
      FailOr.bind (failOr_unwrap hm.2) fun id hid => ⟨rfl, .inl ?_⟩
    exact .completeMultipartUpload (R.method ▸ hm.1.1) (R.atObject hp) hsel (hobj hm.1.1 hm.1.2) ht hx (hid ▸ R.valueQuery hn b!"uploadId" :)
  case copyObject =>
    refine FailOr.bind (failOr_object hm.1.2) fun bk hp => FailOr.bind (failOr_unwrap hm.2) fun src hsrc => ?_
    split
    · refine ⟨rfl, ?_⟩
      cases hc : copySourceFromHeader src with
      | error e =>
        right
        simp only [opProg, copyObject, hc]
        exact ⟨_, rfl⟩
      | ok p =>
        left
        obtain ⟨sb, sk⟩ := p
        obtain ⟨rfl, h1, h2, h3, h4⟩ := (C62_copy_source src sb sk).mp hc
        exact .copyObject (R.method ▸ hm.1.1) (R.atObject hp) hsel (hsrc ▸ R.valueHeader hn b!"x-amz-copy-source" :) h1 h2 h3 h4
    · trivial
  case createBucket =>
    refine FailOr.bind (failOr_bucket hm.2) fun b hp => FailOr.bind (failOr_xml _ _) fun _ ⟨s, ht, hx⟩ =>
      FailOr.bind (failOr_assign _ _) fun x hb => ⟨rfl, .inl ?_⟩
    refine .createBucket (R.method ▸ hm.1) (R.atBucket hp) hsel ht ?_ (R.headerBool hn hb)
    split at hx
    · assumption
    · cases hx
  case createMultipartUpload =>
    refine FailOr.bind (failOr_object hm.1.2) fun bk hp => ⟨rfl, .inl ?_⟩
    exact .createMultipartUpload (R.method ▸ hm.1.1) (R.atObject hp) hsel (hobj hm.1.1 hm.1.2)
  case deleteBucket =>
    refine FailOr.bind (failOr_bucket hm.2) fun b hp => ⟨rfl, .inl ?_⟩
    exact .deleteBucket (R.method ▸ hm.1) (R.atBucket hp) hsel
  case deleteObject =>
    refine FailOr.bind (failOr_object hm.2) fun bk hp => FailOr.bind (failOr_assign _ _) fun x hb => ⟨rfl, .inl ?_⟩
    exact .deleteObject (R.method ▸ hm.1) (R.atObject hp) hsel (R.headerBool hn hb)
  case deleteObjects =>
    refine FailOr.bind (failOr_bucket hm.1.2) fun b hp => FailOr.bind (failOr_xml _ _) fun keys ⟨s, ht, hx⟩ =>
      FailOr.bind (failOr_assign _ _) fun x hb => ⟨rfl, .inl ?_⟩
    refine .deleteObjects (R.method ▸ hm.1.1) (R.atBucket hp) hsel ?_ ht hx (R.headerBool hn hb)
    cases hs with
    | delete _ _ _ hf => exact hf
    | plain h' => exact absurd ((h' b!"delete" (mem_subresources _ (by decide +kernel))).mp ((hsel b!"delete" (mem_subresources _ (by decide +kernel))).mpr (by simp))) (by simp)
    | location hm' _ _ => rw [← R.method, hm.1.1] at hm'; exact absurd hm' (by decide)
    | listType hm' _ _ => rw [← R.method, hm.1.1] at hm'; exact absurd hm' (by decide)
    | part hm' _ _ _ => rw [← R.method, hm.1.1] at hm'; exact absurd hm' (by decide)
    | uploads _ ha _ => rw [R.object ha] at hp; cases hp
    | complete _ ha _ => rw [R.object ha] at hp; cases hp
  case getBucketLocation =>
    refine FailOr.bind (failOr_bucket hm.1.2) fun b hp => ⟨rfl, .inl ?_⟩
    exact .getBucketLocation (R.method ▸ hm.1.1) (R.atBucket hp) hsel
  case getObject =>
    refine FailOr.bind (failOr_object hm.2) fun bk hp => ⟨rfl, .inl ?_⟩
    exact .getObject (R.method ▸ hm.1) (R.atObject hp) hsel (R.valueHeader hn b!"range")
  case headBucket =>
    refine FailOr.bind (failOr_bucket hm.2) fun b hp => ⟨rfl, .inl ?_⟩
    exact .headBucket (R.method ▸ hm.1) (R.atBucket hp) hsel
  case headObject =>
    refine FailOr.bind (failOr_object hm.2) fun bk hp => ⟨rfl, .inl ?_⟩
    exact .headObject (R.method ▸ hm.1) (R.atObject hp) hsel
  case listBuckets =>
    refine ⟨rfl, .inl ?_⟩
    refine .listBuckets (R.method ▸ hm.1) (R.atRoot ?_) hsel
    cases hp : c.path <;> simp_all [S3Path.isRoot]
  case listObjects =>
    refine FailOr.bind (failOr_bucket hm.1.2) fun b hp => FailOr.bind (failOr_assign _ _) fun x hx => ⟨rfl, .inl ?_⟩
    exact .listObjects (R.method ▸ hm.1.1) (R.atBucket hp) hsel (R.valueQuery hn b!"prefix") (R.queryI64 hn hx)
  case listObjectsV2 =>
    refine FailOr.bind (failOr_bucket hm.1.2) fun b hp => FailOr.bind (failOr_assign _ _) fun y hy =>
      FailOr.bind (failOr_assign _ _) fun x hx => ⟨rfl, .inl ?_⟩
    exact .listObjectsV2 (R.method ▸ hm.1.1) (R.atBucket hp) hsel (hm.2 ▸ R.valueQuery hn b!"list-type" :) (R.valueQuery hn b!"prefix")
      (R.queryI64 hn hx) (R.queryBool hn hy)
  case putObject =>
    by_cases hpost : c.method = b!"POST"
    · simp only [hpost, if_true, Bool.and_eq_true] at hm
      obtain ⟨hpath, hmul⟩ := hm
      cases hq : c.multipart with
      | none => rw [hq] at hmul; cases hmul
      | some f =>
        have hfk : FailOr (fun k => FieldValue f b!"key" (some k) ∧ k.length ≤ 1024) (formKey f) := by
          simp only [formKey]
          cases hk : findField f.fields b!"key" with
          | none => trivial
          | some k =>
            simp only
            split
            · rename_i hc
              refine ⟨hk ▸ findField_value, ?_⟩
              simpa [checkKey] using hc
            · trivial
        have hpa : FailOr (fun bk => c.path = .bucket bk.1 ∧ FieldValue f b!"key" (some bk.2) ∧ bk.2.length ≤ 1024) (putAddress c) := by
          simp only [putAddress, hpost, if_true, hq]
          refine FailOr.bind (failOr_bucket hpath) fun b hp => FailOr.bind (P := fun x => x = f) rfl fun f' hf' => ?_
          subst hf'
          exact FailOr.bind hfk fun k hk => ⟨hp, hk⟩
        have hep : FailOr (fun i => Requests lib env r c.body (.putObject i)) (extractPut c) := by
          refine FailOr.bind hpa fun bk ⟨hb, hk, hkl⟩ => FailOr.bind (failOr_assign _ _) fun n hcl => ?_
          simp only [putBody, hq, fromMultipart]
          exact .postObject (R.method ▸ hpost) (R.atBucket hb) hsel (R.isForm f hq) (R.valueHeader hn b!"content-type") hk hkl
            (R.headerI64 hn hcl) (fieldMeta_collect f) (R.headerMeta fun n v w _ => hn.headers _ v w) (either_meta _ _)
            findField_value (R.valueHeader hn b!"x-amz-storage-class") (either_field _ _ _)
        exact FailOr.bind hep fun i hi => ⟨rfl, .inl hi⟩
    · have hput : c.method = b!"PUT" ∧ c.path.isObject = true := by
        simp only [hpost, if_false] at hm
        split at hm
        · rename_i h; simp only [Bool.and_eq_true] at hm; exact ⟨h, hm.1⟩
        · cases hm
      have hmul : c.multipart = none := by
        cases hq : c.multipart with
        | none => rfl
        | some f =>
          obtain ⟨_, hi, _⟩ := R.isForm f hq
          rw [R.method] at hpost
          exact absurd hi.1 hpost
      have hcopy : c.header b!"x-amz-copy-source" = none := by
        cases hq : c.header b!"x-amz-copy-source" with
        | none => rfl
        | some v =>
          exfalso
          refine find_earlier (h' := .copyObject) hf ?_ (by decide +kernel)
          simp only [isMatch, Bool.and_eq_true, beq_iff_eq, hq]
          exact ⟨hput, rfl⟩
      have hep : FailOr (fun i => Requests lib env r c.body (.putObject i)) (extractPut c) := by
        have hpa : FailOr (fun bk => c.path = .object bk.1 bk.2) (putAddress c) := by
          simp only [putAddress, if_neg hpost, if_pos hput.1]
          exact failOr_object hput.2
        refine FailOr.bind hpa fun bk hb => FailOr.bind (failOr_assign _ _) fun n hcl => ?_
        simp only [putBody, hmul]
        exact .putObject (R.method ▸ hput.1) (R.atObject hb) hsel (hcopy ▸ R.valueHeader hn b!"x-amz-copy-source" :)
          (R.headerI64 hn hcl) (R.headerMeta fun n v w _ => hn.headers _ v w) (R.valueHeader hn b!"x-amz-storage-class")
      exact FailOr.bind hep fun i hi => ⟨rfl, .inl hi⟩
  case uploadPart =>
    have hpo : c.path.isObject = true := by
      cases hs with
      | part _ ha _ _ => rw [R.object ha]; rfl
      | plain h' => exact absurd ((h' b!"partNumber" (mem_subresources _ (by decide +kernel))).mp ((hsel b!"partNumber" (mem_subresources _ (by decide +kernel))).mpr (by simp))) (by simp)
      | location hm' _ _ => rw [← R.method, hm.1.1] at hm'; exact absurd hm' (by decide)
      | listType hm' _ _ => rw [← R.method, hm.1.1] at hm'; exact absurd hm' (by decide)
      | delete hm' _ _ _ => rw [← R.method, hm.1.1] at hm'; exact absurd hm' (by decide)
      | uploads hm' _ _ => rw [← R.method, hm.1.1] at hm'; exact absurd hm' (by decide)
      | complete hm' _ _ => rw [← R.method, hm.1.1] at hm'; exact absurd hm' (by decide)
    have hcopy : c.header b!"x-amz-copy-source" = none := by
      cases hq : c.header b!"x-amz-copy-source" with
      | none => rfl
      | some v =>
        exfalso
        refine find_earlier (h' := .copyObject) hf ?_ (by decide +kernel)
        simp only [isMatch, Bool.and_eq_true, beq_iff_eq, hq]
        exact ⟨⟨hm.1.1, hpo⟩, rfl⟩
    refine FailOr.bind (failOr_object hpo) fun bk hp => FailOr.bind (failOr_unwrap hm.1.2) fun ns hns =>
      FailOr.bind (failOr_orFail _ _) fun n hi => FailOr.bind (failOr_unwrap hm.2) fun id hid =>
      FailOr.bind (failOr_assign _ _) fun l hl => ⟨rfl, .inl ?_⟩
    exact .uploadPart (R.method ▸ hm.1.1) (R.atObject hp) hsel (hcopy ▸ R.valueHeader hn b!"x-amz-copy-source" :)
      (hns ▸ R.valueQuery hn b!"partNumber" :) (parseI64_iff.mp hi) (hid ▸ R.valueQuery hn b!"uploadId" :) (R.headerI64 hn hl)

end S3
