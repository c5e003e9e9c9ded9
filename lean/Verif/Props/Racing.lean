import Verif.Lemmas.Racing
import Verif.Props.SameObject
/-! C82: reading an object while it is being deleted. -/
namespace S3
open Spec

variable {cfg : Cfg} {ext : Ext}

/-- the answers of a reader that finds the object gone -/
def gone (e : S3ErrorCode) : Prop := e = .NoSuchKey ∨ e = .InternalError

theorem prog_bind_assoc {α β γ : Type} (p : Prog α) (f : α → Prog β) (g : β → Prog γ) :
    (p.bind f).bind g = p.bind fun a => (f a).bind g := by
  induction p with
  | sys c k ih => simp only [Prog.bind]; congr 1; funext r; exact ih r
  | _ => rfl

theorem ret_bind {α β : Type} (a : α) (f : α → Prog β) : (Prog.ret a).bind f = f a := rfl

theorem frail_loadMetadata {P : Path} {b k : Bytes} : Frail P (metaFile cfg b k) gone (loadMetadata cfg ext b k) := by
  simp only [loadMetadata, metadataPath_eq, bind_eq]
  refine ⟨.inr rfl, fun r _ => ?_⟩
  cases r with
  | none => trivial
  | some s =>
    refine ⟨.inr rfl, fun r hr => ?_⟩
    cases r with
    | none => trivial
    | some h =>
      cases h with
      | dir => refine ⟨trivial, fun r _ => ?_⟩; cases r with
        | none => trivial
        | some c => show Frail _ _ _ ((orInternal (ext.metaDec c)).bind _); cases ext.metaDec c <;> trivial
      | file i =>
        refine ⟨.inr ?_, fun r _ => ?_⟩
        · exact hr i rfl
        cases r with
        | none => trivial
        | some c => show Frail _ _ _ ((orInternal (ext.metaDec c)).bind _); cases ext.metaDec c <;> trivial

theorem frail_getMd5Sum {M : Path} {b k : Bytes} {cs : List Bytes} (hp : objectPath cfg b k = some ⟨cfg.root ++ b :: cs, false⟩) :
    Frail (cfg.root ++ b :: cs) M gone (getMd5Sum cfg ext b k) := by
  simp only [getMd5Sum, hp, bind_eq]
  refine ⟨.inl ⟨rfl, _, .inr rfl, rfl⟩, fun r hr => ?_⟩
  cases r with
  | none => trivial
  | some h =>
    cases h with
    | dir => refine ⟨trivial, fun r _ => ?_⟩; cases r <;> trivial
    | file i =>
      refine ⟨.inl (hr i rfl), fun r _ => ?_⟩
      cases r <;> trivial

theorem frail_drainBody {P M : Path} {h : Handle} (hh : ∀ i, h = .file i → i.path = P) (wants : Nat → Nat) (fuel : Nat) :
    ∀ n off limit, Frail P M gone (drainBody h wants fuel n off limit) := by
  induction fuel with
  | zero => intro n off limit; trivial
  | succ fuel ih =>
    intro n off limit
    simp only [drainBody, bind_eq]
    refine ⟨?_, fun r _ => ?_⟩
    · cases h with
      | dir => trivial
      | file i => exact .inl (hh i rfl)
    · cases r with
      | none => trivial
      | some x =>
        show Frail P M gone (if x = [] then _ else _)
        split
        · trivial
        · have hs := safe_drainBody (π := { rd := fun q => q = P }) (h := h)
            (by cases h with
              | dir => trivial
              | file i => exact hh i rfl) wants fuel (n + 1) (off + x.length) (limit - x.length)
          refine Frail.bind (ih _ _ _) hs fun a _ => ?_
          cases a <;> trivial

theorem frail_get {b k : Bytes} {cs : List Bytes} {r : Option Bytes} {w : Nat → Nat}
    (hp : objectPath cfg b k = some ⟨cfg.root ++ b :: cs, false⟩) :
    Frail (cfg.root ++ b :: cs) (metaFile cfg b k) gone (opProg cfg ext (.getObject b k r w)) := by
  have ho : ∀ q, objP cfg b k q → q = cfg.root ++ b :: cs := by
    rintro q ⟨p, h, rfl⟩; rw [hp] at h; cases h; rfl
  let π : Perm := { rd := fun q => q = cfg.root ++ b :: cs ∨ q = metaFile cfg b k }
  have hdrain : ∀ {h : Handle} {fuel off lim : Nat} {f : Option Bytes → Prog Answer}, (∀ i, h = .file i → i.path = cfg.root ++ b :: cs) →
      (∀ x, Frail (cfg.root ++ b :: cs) (metaFile cfg b k) gone (f x)) →
      Frail (cfg.root ++ b :: cs) (metaFile cfg b k) gone ((drainBody h w fuel 0 off lim).bind f) := by
    intro h fuel off lim f hh hf
    refine Frail.bind (frail_drainBody hh w _ _ _ _) (safe_drainBody (π := π) ?_ w _ _ _ _) fun x _ => hf x
    cases h with
    | dir => trivial
    | file i => exact .inl (hh i rfl)
  have hparse : (∃ x, parseRange r = .ret x) ∨ parseRange r = .fail .InvalidRequest := by
    cases r with
    | none => exact .inl ⟨_, rfl⟩
    | some s =>
      simp only [parseRange]
      split
      · exact .inl ⟨_, rfl⟩
      · exact .inr rfl
  simp only [opProg, getObjectFull, getObject, hp, bind_eq, pure_eq, orInternal, prog_bind_assoc, ret_bind]
  rcases hparse with ⟨x, hx⟩ | hx
  · simp only [hx, ret_bind]
    refine ⟨.inl ⟨rfl, _, .inl rfl, rfl⟩, fun r hr => ?_⟩
    cases r with
    | none => trivial
    | some h =>
      have hh : ∀ i, h = .file i → i.path = cfg.root ++ b :: cs := by rintro i rfl; exact hr i rfl
      refine ⟨?_, fun n _ => ?_⟩
      · cases h with
        | dir => trivial
        | file i => exact .inl (hh i rfl)
      · cases (show Option Nat from n) with
        | none => trivial
        | some n =>
        simp only [ret_bind]
        split
        · trivial
        · simp only [prog_bind_assoc]
          refine Frail.bind frail_loadMetadata (safe_loadMetadata (π := π) fun q hq => .inr hq) fun md _ => ?_
          refine Frail.bind (frail_getMd5Sum hp) (safe_getMd5Sum (π := π) fun q hq => .inl (ho q hq)) fun sum _ => ?_
          split
          · exact hdrain hh fun _ => trivial
          · trivial
  · simp only [hx]
    trivial

theorem frail_head {b k : Bytes} {cs : List Bytes} (hp : objectPath cfg b k = some ⟨cfg.root ++ b :: cs, false⟩) :
    Frail (cfg.root ++ b :: cs) (metaFile cfg b k) gone (opProg cfg ext (.headObject b k)) := by
  let π : Perm := { rd := fun q => q = cfg.root ++ b :: cs ∨ q = metaFile cfg b k }
  simp only [opProg, headObject, hp, bind_eq, orInternal]
  refine ⟨.inl ⟨rfl, _, .inl rfl, rfl⟩, fun r _ => ?_⟩
  cases r with
  | none => trivial
  | some s =>
    refine ⟨.inl ⟨rfl, _, .inr rfl, rfl⟩, fun r _ => ?_⟩
    cases r with
    | none => trivial
    | some st =>
      show Frail _ _ _ (((loadMetadata cfg ext b k).bind _).bind _)
      rw [prog_bind_assoc]
      refine Frail.bind frail_loadMetadata (safe_loadMetadata (π := π) fun q hq => .inr hq) fun md _ => ?_
      split <;> trivial

/-- the request deletes `(b, k)`, perhaps with other objects -/
def Spec.Deletes (b k : Bytes) : Op → Prop
  | .deleteObject b' k' => b' = b ∧ k' = k
  | .deleteObjects b' ks => b' = b ∧ ∀ k' ∈ ks, k' = k ∨ Apart b k b k'
  | .deleteBucket b' => b' = b
  | _ => False

theorem deletes_shrink {b k : Bytes} {cs : List Bytes} (hb : checkBucketName b = true) (hk : PlainKey k cs) {o : Op}
    (ho : Deletes b k o ∨ OnOthers b (Apart b k) o) {c : Call} (hc : (opPerm cfg o).ok c) :
    shrinkOk (cfg.root ++ b :: cs) (metaFile cfg b k) c := by
  rcases ho with ho | ho
  · have hobj : ∀ {b' k' cs'}, checkBucketName b' = true → PlainKey k' cs' → ∀ {q}, objP cfg b' k' q → q ≠ metaFile cfg b k := by
      intro b' k' cs' hb' hk' q hq e
      have := (objP_plain hb' hk').mp hq
      exact meta_not_prefix hb' (pfx_of_eq (e.symm.trans this))
    cases o <;> simp only [Deletes] at ho
    case deleteObject b' k' =>
      obtain ⟨rfl, rfl⟩ := ho
      have hs := plain_no_slash hk
      cases c <;> simp only [Perm.ok, opPerm, hs, Bool.false_eq_true, false_and, true_and] at hc <;> try trivial
      exact hobj hb hk hc
    case deleteObjects b' ks =>
      obtain ⟨rfl, ho⟩ := ho
      cases c <;> simp only [Perm.ok, opPerm] at hc <;> try trivial
      obtain ⟨k', hk', hq⟩ := hc
      rcases ho k' hk' with rfl | ha
      · exact hobj hb hk hq
      · obtain ⟨cs', h'⟩ := ha.key
        exact hobj hb h' hq
    case deleteBucket b' =>
      subst ho
      cases c <;> simp only [Perm.ok, opPerm] at hc <;> try trivial
      obtain ⟨p, hp, rfl⟩ := hc
      rw [bucketPath_legal cfg hb] at hp
      cases hp
      exact bucket_not_meta hb
  · have h := apart_ok (cfg := cfg) hb hk ho hc
    have hpre := List.prefix_refl (cfg.root ++ b :: cs)
    cases c with
    | mkdir p =>
      refine ⟨?_, ?_⟩
      · rintro rfl
        rcases h with h | h
        · exact h.2 rfl
        · exact h (.inl hpre)
      · rintro rfl
        rcases h with h | h
        · exact meta_not_prefix hb h.1
        · exact h (.inr rfl)
    | create p => exact ⟨fun e => h (.inl (e ▸ hpre)), fun e => h (.inr e)⟩
    | writeAt i _ _ => exact ⟨fun e => h (.inl (e ▸ hpre)), fun e => h (.inr e)⟩
    | unlink p => exact fun e => h (.inr e)
    | rmdir p => exact fun e => h (.inr e)
    | rmtree p => exact fun e => h _ e (.inr rfl)
    | _ => trivial

/-- **C82** (partial) A GetObject or HeadObject that runs together with any number of deletions of the same object or its
bucket, and with requests that write and delete elsewhere, is answered as if it had run before all of them, in full, or with
`NoSuchKey` or `InternalError`: never with part of the object.
Missing from the full property: `InternalError` should not happen, see `C82_get_during_delete_fails`. -/
theorem C82_get_during_delete_partial {os : List Op} {n : Nat} {o : Op} {b k : Bytes} {cs : List Bytes} (hn : os[n]? = some o)
    (hget : o = .headObject b k ∨ ∃ r w, o = .getObject b k r w) (hb : LegalBucket b) (hk : PlainKey k cs)
    (ho : ∀ (j : Nat) o', j ≠ n → os[j]? = some o' → Deletes b k o' ∨ OnOthers b (Apart b k) o')
    {fs : FS} (hw : WF fs) (sched : List Nat) {r : Outcome Answer} (h : answerAt cfg ext sched os fs n = some r) :
    r = answer cfg ext o fs ∨ r = .err .NoSuchKey ∨ r = .err .InternalError := by
  have hb' := (C02_bucket_name_rule _).mpr hb
  have hp := objectPath_plain cfg hb' hk
  have hf : Frail (cfg.root ++ b :: cs) (metaFile cfg b k) gone (opProg cfg ext o) := by
    rcases hget with rfl | ⟨r, w, rfl⟩
    · exact frail_head hp
    · exact frail_get hp
  have := crowd (rely_vanish (cfg.root ++ b :: cs) (metaFile cfg b k)) hn
    (fun j o' hj hoj fs c hw hc => exec_shrink cfg (by simp [metaFile]) hw (deletes_shrink hb' hk (ho j o' hj hoj) hc)) hw
    (wp_frail hf hw) sched h
  rcases this with h | ⟨e, he | he, h⟩
  · exact .inl h
  · exact .inr (.inl (he ▸ h))
  · exact .inr (.inr (he ▸ h))

/-- C82 fails: a GetObject that has already found the object is answered with `InternalError` when the object is deleted while
the ETag is computed; before the deletion the answer is the object, after it `NoSuchKey`. -/
theorem C82_get_during_delete_fails :
    ∃ (cfg : Cfg) (ext : Ext) (fs : FS) (b k : Bytes) (w : Nat → Nat) (sched : List Nat) (a : Answer), WF fs ∧ LegalBucket b ∧
      PlainKey k [k] ∧ answer cfg ext (.getObject b k none w) fs = .ok a ∧
      answer cfg ext (.getObject b k none w) (after cfg ext (.deleteObject b k) fs) = .err .NoSuchKey ∧
      answerAt cfg ext sched [.getObject b k none w, .deleteObject b k] fs 0 = some (.err .InternalError) :=
  ⟨Sample.cfg, Sample.ext, Sample.fs, b!"aaa", b!"x", fun _ => 2, [0, 1, 1, 1] ++ List.replicate 9 0, _, Sample.fs_wf,
    Sample.legal (by decide +kernel), plain1 (by decide), rfl, by decide +kernel, by decide +kernel⟩

/-- the object is deleted, with its bucket, while its bytes are being sent: the reader gets all of them -/
example :
    let os : List Op := [.getObject b!"aaa" b!"x" none (fun _ => 2), .deleteObjects b!"aaa" [b!"x", b!"d/e"], .deleteBucket b!"aaa",
      .putObject { Sample.put3 with key := b!"d/f" }]
    let sched := List.replicate 7 0 ++ List.replicate 9 1 ++ List.replicate 4 2 ++ List.replicate 9 0
    (∀ (j : Nat) o', j ≠ 0 → os[j]? = some o' → Deletes b!"aaa" b!"x" o' ∨ OnOthers b!"aaa" (Apart b!"aaa" b!"x") o') ∧
    answerAt Sample.cfg Sample.ext sched os Sample.fs3 1 = some (.ok (.keys [b!"x", b!"d/e"])) ∧
    stored Sample.cfg (runPar Sample.cfg sched (os.map (opProg Sample.cfg Sample.ext)) Sample.fs3).2 b!"aaa" b!"x" = none ∧
    answerAt Sample.cfg Sample.ext sched os Sample.fs3 0 = some (.ok (.object 5 none b!"\"md5:5\"" (some b!"hello"))) := by
  refine ⟨?_, by decide +kernel, by decide +kernel, by decide +kernel⟩
  intro j o' hj h
  have hap : ∀ {k' cs}, PlainKey k' cs → k' ≠ b!"x" → (b!"x" ++ [47]).isPrefixOf k' = false → (k' ++ [47]).isPrefixOf b!"x" = false →
      Apart b!"aaa" b!"x" b!"aaa" k' := fun hp hne h1 h2 =>
    ⟨⟨Sample.legal (by decide +kernel), ⟨_, hp⟩, fun e => hne (by cases e; rfl)⟩, fun _ => Sample.not_nested h2, fun _ => Sample.not_nested h1⟩
  rcases j with _ | _ | _ | _ | j
  · exact absurd rfl hj
  · cases h
    refine .inl ⟨rfl, fun k' hk' => ?_⟩
    simp only [List.mem_cons, List.not_mem_nil, or_false] at hk'
    rcases hk' with rfl | rfl
    · exact .inl rfl
    · exact .inr (hap Sample.plain_de (by decide) (by decide) (by decide))
  · cases h; exact .inl rfl
  · cases h
    exact .inr (hap Sample.plain_df (by decide) (by decide) (by decide))
  · cases h

end S3
