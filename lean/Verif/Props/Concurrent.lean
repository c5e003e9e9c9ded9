import Verif.Spec.Elsewhere
import Verif.Props.Etag
import Verif.Props.Buckets
/-!
# C32 (concurrent requests on different objects) and C33 (readers)
-/
namespace S3
open Spec

variable {cfg : Cfg} {ext : Ext}

/-! ### What requests on other addresses touch -/

theorem away_legal {b k b' k' : Bytes} (h : Away b k b' k') : checkBucketName b' = true := (C02_bucket_name_rule _).mpr h.bucket

theorem touch_cases {b : Bytes} {A : Bytes → Bytes → Prop}
    (hA : ∀ b' k', A b' k' → checkBucketName b' = true ∧ ∃ cs, PlainKey k' cs) {o : Op} (ho : OnOthers b A o) {q : Path}
    (h : opTouch cfg o q) :
    (∃ b' k' cs', A b' k' ∧ checkBucketName b' = true ∧ PlainKey k' cs' ∧ (q = cfg.root ++ b' :: cs' ∨ q = metaFile cfg b' k')) ∨
    (∃ u n, q = partFile cfg u n) ∨ (∃ b', checkBucketName b' = true ∧ b' ≠ b ∧ cfg.root ++ [b'] <+: q) := by
  have hobj : ∀ {b' k' q}, A b' k' → objP cfg b' k' q →
      ∃ b' k' cs', A b' k' ∧ checkBucketName b' = true ∧ PlainKey k' cs' ∧ (q = cfg.root ++ b' :: cs' ∨ q = metaFile cfg b' k') := by
    intro b' k' q ha hq
    obtain ⟨hb, cs, hk⟩ := hA _ _ ha
    exact ⟨b', k', cs, ha, hb, hk, .inl ((objP_plain hb hk).mp hq)⟩
  have hmet : ∀ {b' k' q}, A b' k' → metaP cfg b' k' q →
      ∃ b' k' cs', A b' k' ∧ checkBucketName b' = true ∧ PlainKey k' cs' ∧ (q = cfg.root ++ b' :: cs' ∨ q = metaFile cfg b' k') := by
    intro b' k' q ha hq
    obtain ⟨hb, cs, hk⟩ := hA _ _ ha
    exact ⟨b', k', cs, ha, hb, hk, .inr hq⟩
  rcases h with (h | h | h) | ⟨p, h, hp⟩
  · cases o <;> simp only [opPerm] at h <;> simp only [OnOthers] at ho
    case copyObject => exact .inl (h.elim (hobj ho) (hmet ho))
    case putObject => exact .inl (h.2.elim (hobj ho) fun h => hmet ho h.2)
    case uploadPart => exact .inr (.inl ⟨_, _, partP_eq ho h⟩)
    case completeMultipartUpload => exact .inl (hobj ho.1 h)
  · cases o <;> simp only [opPerm] at h <;> simp only [OnOthers] at ho
    case deleteObject => exact .inl (hobj ho h.2)
    case deleteObjects =>
      obtain ⟨k, hk, h⟩ := h
      exact .inl (hobj (ho k hk) h)
    case completeMultipartUpload =>
      obtain ⟨l, n, _, _, h⟩ := h
      exact .inr (.inl ⟨_, _, partP_eq ho.2 h⟩)
  · cases o <;> simp only [opPerm] at h <;> simp only [OnOthers] at ho
    case deleteObject => exact .inl (hobj ho h.2)
  · cases o <;> simp only [opPerm] at h <;> simp only [OnOthers] at ho
    case deleteBucket b' =>
      have hb := (C02_bucket_name_rule _).mpr ho.1
      obtain ⟨p, hpp, rfl⟩ := h
      rw [bucketPath_legal cfg hb] at hpp
      cases hpp
      exact .inr (.inr ⟨b', hb, ho.2, hp⟩)

theorem up_cases {b : Bytes} {A : Bytes → Bytes → Prop}
    (hA : ∀ b' k', A b' k' → checkBucketName b' = true ∧ ∃ cs, PlainKey k' cs) {o : Op} (ho : OnOthers b A o) {q : Path}
    (h : (opPerm cfg o).up q) :
    (∃ b' k' cs', A b' k' ∧ checkBucketName b' = true ∧ PlainKey k' cs' ∧ q <+: cfg.root ++ b' :: cs') ∨
    (∃ b', checkBucketName b' = true ∧ q = cfg.root ++ [b']) := by
  cases o <;> simp only [opPerm] at h <;> simp only [OnOthers] at ho
  case createBucket b' =>
    have hb := (C02_bucket_name_rule _).mpr ho
    obtain ⟨p, hpp, rfl⟩ := h
    rw [bucketPath_legal cfg hb] at hpp
    cases hpp
    exact .inr ⟨b', hb, rfl⟩
  case putObject i =>
    obtain ⟨hb, cs, hk⟩ := hA _ _ ho
    obtain ⟨p, hp, h⟩ := h
    rw [objP_plain hb hk] at hp
    subst hp
    refine .inl ⟨_, _, cs, ho, hb, hk, h.trans ?_⟩
    split
    · exact List.prefix_refl _
    · exact List.dropLast_prefix _

/-! ### The files of an address are not touched by requests elsewhere -/

theorem pfx_of_eq {a b : Path} (h : a = b) : a <+: b := h ▸ List.prefix_refl _

theorem prefix_root {x : Bytes} {cs : List Bytes} {b : Bytes} (h : cfg.root ++ [x] <+: cfg.root ++ b :: cs) : x = b := by
  rw [List.prefix_append_right_inj] at h
  exact (List.cons_prefix_cons.mp h).1

theorem meta_not_prefix {b k b' : Bytes} {cs : List Bytes} (hb : checkBucketName b' = true) :
    ¬ metaFile cfg b k <+: cfg.root ++ b' :: cs := by
  intro h
  exact metaFile_ne_bucket cfg b k hb (by rw [metaFile, prefix_root h])

theorem bucket_not_meta {b k b' : Bytes} (hb : checkBucketName b' = true) : ¬ cfg.root ++ [b'] <+: metaFile cfg b k := by
  intro h
  exact metaFile_ne_bucket cfg b k hb (by rw [metaFile, ← prefix_root (cs := []) h])

theorem part_not_prefix {u b' : Bytes} {n : Int} {cs : List Bytes} (hb : checkBucketName b' = true) :
    ¬ partFile cfg u n <+: cfg.root ++ b' :: cs := by
  intro h
  refine bucket_not_part (cfg := cfg) (u := u) (n := n) hb ?_
  rw [partFile, prefix_root h]
  exact List.prefix_refl _

theorem metaFile_ne_partFile {b k u : Bytes} {n : Int} : metaFile cfg b k ≠ partFile cfg u n := by
  intro h
  have := List.append_cancel_left (show cfg.root ++ [metadataName b k] = cfg.root ++ [partName u n] from h)
  simp only [List.cons.injEq, and_true] at this
  obtain ⟨t, ht⟩ := metadataName_last b k
  obtain ⟨t', d, hd, hdig⟩ := intDigits_last n
  rw [ht, partName, hd, ← List.append_assoc] at this
  have := (List.append_inj' this rfl).2
  simp only [List.cons.injEq, and_true] at this
  subst this
  revert hdig; decide

theorem metaFile_inj {b k b' k' : Bytes} (h : metaFile cfg b k = metaFile cfg b' k') : b = b' ∧ k = k' := by
  have := List.append_cancel_left (show cfg.root ++ [metadataName b k] = cfg.root ++ [metadataName b' k'] from h)
  simp only [List.cons.injEq, and_true] at this
  exact metadataName_inj this

section
variable {b k : Bytes} {cs : List Bytes} (hb : checkBucketName b = true) (hk : PlainKey k cs)
include hb hk

theorem away_touch {o : Op} (ho : OnOthers b (Away b k) o) {q : Path} (h : opTouch cfg o q) :
    q ≠ cfg.root ++ b :: cs ∧ q ≠ metaFile cfg b k := by
  rcases touch_cases (fun _ _ h => ⟨away_legal h, h.key⟩) ho h with
    ⟨b', k', cs', ha, hb', hk', rfl | rfl⟩ | ⟨u, n, rfl⟩ | ⟨b', hb', hne, hp⟩
  · refine ⟨fun e => ?_, fun e => meta_not_prefix hb' (pfx_of_eq e.symm)⟩
    have := plain_path_inj hk' hk e
    exact ha.other (by rw [this.1, this.2])
  · refine ⟨fun e => meta_not_prefix hb (pfx_of_eq e), fun e => ?_⟩
    have := metaFile_inj e
    exact ha.other (by rw [this.1, this.2])
  · exact ⟨fun e => part_not_prefix hb (pfx_of_eq e), fun e => metaFile_ne_partFile e.symm⟩
  · exact ⟨fun e => hne (prefix_root (e ▸ hp)), fun e => bucket_not_meta hb' (e ▸ hp)⟩

omit hk hb in
theorem away_up {o : Op} (ho : OnOthers b (Away b k) o) {q : Path} (h : (opPerm cfg o).up q) : q ≠ metaFile cfg b k := by
  rintro rfl
  rcases up_cases (fun _ _ h => ⟨away_legal h, h.key⟩) ho h with ⟨b', k', cs', ha, hb', hk', hp⟩ | ⟨b', hb', e⟩
  · exact meta_not_prefix hb' hp
  · exact metaFile_ne_bucket cfg b k hb' e

/-- the steps of a request on other addresses leave the files of `(b, k)` alone -/
theorem away_ok {o : Op} (ho : OnOthers b (Away b k) o) {c : Call} (hc : (opPerm cfg o).ok c) :
    writeOk (fun q => ¬ (q = cfg.root ++ b :: cs ∨ q = metaFile cfg b k)) (fun q => q ≠ metaFile cfg b k) c := by
  have ht : ∀ {q}, opTouch cfg o q → ¬ (q = cfg.root ++ b :: cs ∨ q = metaFile cfg b k) := by
    intro q h
    have := away_touch hb hk ho h
    rintro (e | e)
    · exact this.1 e
    · exact this.2 e
  cases c with
  | mkdir p => exact .inl (away_up ho hc)
  | create p => exact ht (.inl (.inl hc))
  | writeAt i _ _ => exact ht (.inl (.inl hc))
  | unlink p => exact ht (.inl (.inr (.inl hc)))
  | rmdir p => exact ht (.inl (.inr (.inr hc)))
  | rmtree p => exact fun q hq => ht (.inr ⟨p, hc, hq⟩)
  | _ => trivial

omit hb in
theorem nested_of_prefix {k' : Bytes} {cs' : List Bytes} (hk' : PlainKey k' cs') (h : cs <+: cs') : k = k' ∨ Nested k k' := by
  obtain ⟨t, ht⟩ := h
  subst ht
  cases t with
  | nil => exact .inl (by rw [hk.text, hk'.text, List.append_nil])
  | cons x t =>
    refine .inr ⟨joinWith 47 (x :: t), ?_⟩
    rw [hk.text, hk'.text]
    have hne := hk.nonempty
    clear hk hk'
    induction cs with
    | nil => exact absurd rfl hne
    | cons c cs ih =>
      cases cs with
      | nil => simp [joinWith]
      | cons d cs =>
        have := ih (by simp)
        simp only [List.cons_append] at this
        simp [joinWith, this]

/-- the steps of a request on unrelated addresses leave the files of `(b, k)` and the directories above them alone -/
theorem apart_ok {o : Op} (ho : OnOthers b (Apart b k) o) {c : Call} (hc : (opPerm cfg o).ok c) :
    writeOk (fun q => ¬ (q <+: cfg.root ++ b :: cs ∨ q = metaFile cfg b k))
      (fun q => q <+: cfg.root ++ b :: cs ∧ q ≠ cfg.root ++ b :: cs) c := by
  have hA : ∀ b' k', Apart b k b' k' → checkBucketName b' = true ∧ ∃ cs, PlainKey k' cs := fun _ _ h =>
    ⟨away_legal h.toAway, h.key⟩
  have ht : ∀ {q}, opTouch cfg o q → ¬ (q <+: cfg.root ++ b :: cs ∨ q = metaFile cfg b k) := by
    intro q h
    rcases touch_cases hA ho h with ⟨b', k', cs', ha, hb', hk', rfl | rfl⟩ | ⟨u, n, rfl⟩ | ⟨b', hb', hne, hp⟩
    · rintro (e | e)
      · rw [List.prefix_append_right_inj] at e
        obtain ⟨rfl, e'⟩ := List.cons_prefix_cons.mp e
        rcases nested_of_prefix hk' hk e' with h | h
        · exact ha.other (by rw [h])
        · exact ha.above rfl h
      · exact meta_not_prefix hb' (pfx_of_eq e.symm)
    · rintro (e | e)
      · exact meta_not_prefix hb e
      · have := metaFile_inj e
        exact ha.other (by rw [this.1, this.2])
    · rintro (e | e)
      · exact part_not_prefix hb e
      · exact metaFile_ne_partFile e.symm
    · rintro (e | e)
      · exact hne (prefix_root (hp.trans e))
      · exact bucket_not_meta hb' (e ▸ hp)
  cases c with
  | mkdir p =>
    rcases up_cases hA ho hc with ⟨b', k', cs', ha, hb', hk', hp⟩ | ⟨b', hb', e⟩
    · by_cases h : p <+: cfg.root ++ b :: cs
      · refine .inl ⟨h, ?_⟩
        rintro rfl
        rw [List.prefix_append_right_inj] at hp
        obtain ⟨rfl, e⟩ := List.cons_prefix_cons.mp hp
        rcases nested_of_prefix hk hk' e with h | h
        · exact ha.other (by rw [h])
        · exact ha.below rfl h
      · refine .inr ?_
        rintro (e | rfl)
        · exact h e
        · exact meta_not_prefix hb' hp
    · subst e
      by_cases h : cfg.root ++ [b'] <+: cfg.root ++ b :: cs
      · refine .inl ⟨h, ?_⟩
        intro e
        have := List.append_cancel_left (show cfg.root ++ [b'] = cfg.root ++ (b :: cs) from e)
        simp only [List.cons.injEq] at this
        exact hk.nonempty this.2.symm
      · refine .inr ?_
        rintro (e | e)
        · exact h e
        · exact metaFile_ne_bucket cfg b k hb' e.symm
  | create p => exact ht (.inl (.inl hc))
  | writeAt i _ _ => exact ht (.inl (.inl hc))
  | unlink p => exact ht (.inl (.inr (.inl hc)))
  | rmdir p => exact ht (.inl (.inr (.inr hc)))
  | rmtree p => exact fun q hq => ht (.inr ⟨p, hc, hq⟩)
  | _ => trivial

end

/-! ### One request against a crowd -/

/-- If the steps of all other requests satisfy `R`, request `i` ends with what `wp` under `R` promises. -/
theorem crowd {R : FS → FS → Prop} (hR : Rely R) {Q : Outcome Answer → FS → Prop} {os : List Op} {i : Nat} {o : Op}
    (hi : os[i]? = some o)
    (hg : ∀ (j : Nat) o', j ≠ i → os[j]? = some o' → ∀ fs c, WF fs → (opPerm cfg o').ok c → R fs (exec cfg fs c).2)
    {fs : FS} (hw : WF fs) (hp : wp cfg R Q (opProg cfg ext o) fs) (sched : List Nat) {r : Outcome Answer}
    (h : answerAt cfg ext sched os fs i = some r) :
    Q r (runPar cfg sched (os.map (opProg cfg ext)) fs).2 := by
  let I : ParInv cfg Answer :=
    { R := fun j => if j = i then R else fun _ _ => True
      ok := fun j c => ∃ o', os[j]? = some o' ∧ (opPerm cfg o').ok c
      Q := fun j => if j = i then Q else fun _ _ => True
      rely := by
        intro j
        by_cases e : j = i
        · simpa [e] using hR
        · simp only [e, if_false]; exact ⟨fun _ => trivial, fun _ _ _ _ _ => trivial⟩
      guar := by
        rintro j j' fs c hne hwf ⟨o', ho', hok⟩
        by_cases e : j = i
        · subst e
          simp only [if_true]
          exact hg j' o' (fun e => hne e.symm) ho' fs c hwf hok
        · simp only [e, if_false] }
  have hget : ∀ j : Nat, (os.map (opProg cfg ext))[j]? = (os[j]?).map (opProg cfg ext) := fun j => List.getElem?_map
  have key := runPar_wp I (sched := sched) (ps := os.map (opProg cfg ext)) hw
    (by
      intro j p hj
      rw [hget, Option.map_eq_some_iff] at hj
      obtain ⟨o', ho', rfl⟩ := hj
      exact (op_safe cfg ext o').mono (fun c hc => ⟨o', ho', hc⟩) (fun _ h => h))
    (by
      intro j p hj
      show wp cfg (if j = i then R else fun _ _ => True) (if j = i then Q else fun _ _ => True) p fs
      by_cases e : j = i
      · subst e
        rw [hget, hi] at hj
        cases hj
        simpa using hp
      · simp only [e, if_false]
        exact wp_true p fs fun _ _ _ => trivial)
  simp only [answerAt, Option.bind_eq_some_iff] at h
  obtain ⟨p, hpp, ho⟩ := h
  have := key i p hpp
  simp only [I, if_true] at this
  exact wp_done hR (runPar_wf hw) this ho

theorem wp_opPut {R : FS → FS → Prop} (hR : Rely R) {Q : Outcome Answer → FS → Prop} {i : PutInput} {fs : FS} (hw : WF fs)
    {Q' : Outcome (Option Bytes) → FS → Prop} (h : wp cfg R Q' (putObject cfg ext i) fs)
    (h1 : ∀ e a b, R a b → WF a → WF b → Q' (.ok e) a → Q (.ok (.etag e)) b)
    (h2 : ∀ e fs, Q' (.err e) fs → Q (.err e) fs) (h3 : ∀ fs, Q' .panic fs → Q .panic fs)
    (h4 : ∀ fs, Q' .diverge fs → Q .diverge fs) :
    wp cfg R Q (opProg cfg ext (.putObject i)) fs := by
  refine wp_bind hR hw (wp_mono (fun o fs hwf hq => ?_) h)
  cases o with
  | ok e => exact fun fs' hr hw' => h1 e fs fs' hr hwf hw' hq
  | err e => exact h2 e fs hq
  | panic => exact h3 fs hq
  | diverge => exact h4 fs hq

theorem plain_no_slash {k : Bytes} {cs : List Bytes} (hk : PlainKey k cs) : endsWithByte k 47 = false := by
  obtain ⟨t, l, h, hl, _⟩ := joinWith_last hk.nonempty hk.comps
  cases he : endsWithByte k 47 with
  | false => rfl
  | true =>
    obtain ⟨t', h'⟩ := endsWithByte_iff.mp he
    rw [hk.text, h] at h'
    refine absurd ?_ hl.noSlash
    obtain ⟨l', x, hx⟩ : ∃ l' x, l = l' ++ [x] := ⟨l.dropLast, l.getLast hl.nonempty, (List.dropLast_concat_getLast _).symm⟩
    rw [hx, ← List.append_assoc] at h'
    have := (List.append_inj' h' rfl).2
    rw [hx, this]
    simp

/-! ### C32 -/

/-- **C32** (what success means) In every interleaving of any number of requests: when a PutObject to a plain key has been
answered with success and all other requests write and delete other addresses only, the object holds exactly the
body of that request, from the answer on, and the answer is the ETag of that body; so is the metadata, if it has any. -/
theorem C32_disjoint_puts {os : List Op} {n : Nat} {i : PutInput} {cs : List Bytes} (hn : os[n]? = some (.putObject i))
    (hb : LegalBucket i.bucket) (hk : PlainKey i.key cs)
    (ho : ∀ (j : Nat) o, j ≠ n → os[j]? = some o → OnOthers i.bucket (Away i.bucket i.key) o)
    {fs : FS} (hw : WF fs) (sched : List Nat) {a : Answer} (h : answerAt cfg ext sched os fs n = some (.ok a)) :
    ∃ body, i.body = some body ∧ unbroken body ∧
      stored cfg (runPar cfg sched (os.map (opProg cfg ext)) fs).2 i.bucket i.key = some (received body) ∧
      a = .etag (some (quoted (ext.md5hex (received body)))) ∧
      ∀ m, i.metadata = some m →
        contentAt (runPar cfg sched (os.map (opProg cfg ext)) fs).2 (metaFile cfg i.bucket i.key) = some (ext.metaEnc m) := by
  have hb' := (C02_bucket_name_rule _).mpr hb
  let own : Path → Prop := fun q => q = cfg.root ++ i.bucket :: cs ∨ q = metaFile cfg i.bucket i.key
  let R : FS → FS → Prop := Frame (fun q => ¬ own q) (fun q => q ≠ metaFile cfg i.bucket i.key)
  have hR : Rely R := ⟨fun _ => Frame.refl .., fun _ _ _ => Frame.trans⟩
  have hkeep : ∀ a b, WF a → WF b → R a b → KeepFiles own a b := by
    intro a b hwa _ hr p ino c hp hh
    exact hr.keep hwa (fun h => h hp) hh
  have hwp := putObject_wp (cfg := cfg) (ext := ext) hR hkeep i (plain_no_slash hk) hb'
    (fun q hq => .inl ((objP_plain hb' hk).mp hq)) (.inr rfl) hw
  have hst : ∀ fs', stored cfg fs' i.bucket i.key = contentAt fs' (cfg.root ++ i.bucket :: cs) := by
    intro fs'; simp [stored, objectPath_plain cfg hb' hk]
  have hcont : ∀ {x y : FS} {q c}, WF x → R x y → own q → contentAt x q = some c → contentAt y q = some c := by
    intro x y q c hwx hr hq hc
    rw [content_frame hwx hr (fun h => h hq)]; exact hc
  have := crowd (cfg := cfg) (ext := ext) hR hn (Q := fun o fs' => ∀ a, o = .ok a → ∃ e, a = .etag e ∧ PutDone cfg ext i e fs')
    (fun j o hj hoj fs c hwf hc => exec_frame cfg hwf (away_ok hb' hk (ho j o hj hoj) hc)) hw
    (wp_opPut hR hw hwp
      (by
        rintro e x y hr hwx hwy hq a ha
        cases ha
        refine ⟨e, rfl, ?_⟩
        obtain ⟨⟨body, h1, h2, h3, h4⟩, h5⟩ := hq e rfl
        refine ⟨⟨body, h1, h2, ?_, h4⟩, fun m hm => hcont hwx hr (.inr rfl) (h5 m hm)⟩
        rw [hst] at h3 ⊢
        exact hcont hwx hr (.inl rfl) h3)
      (fun e fs _ a ha => by cases ha) (fun fs _ a ha => by cases ha) (fun fs _ a ha => by cases ha)) sched h
  obtain ⟨e, rfl, ⟨body, h1, h2, h3, h4⟩, h5⟩ := this a rfl
  exact ⟨body, h1, h2, h3, by rw [h4], h5⟩

/-- There is room for the object: the root and the components of the key are possible file names, no file is in the
place of a directory above it, no directory in its place, and its metadata file can be created. -/
structure Spec.Room (cfg : Cfg) (fs : FS) (b : Bytes) (cs : List Bytes) (md : Option Bytes) : Prop where
  names : ∀ c ∈ cfg.root ++ b :: cs, nameOk c = true
  root : IsDir fs cfg.root
  above : ∀ q, q <+: cfg.root ++ b :: cs → q ≠ cfg.root ++ b :: cs → contentAt fs q = none
  free : ¬ IsDir fs (cfg.root ++ b :: cs)
  metaName : ∀ n, md = some n → nameOk n = true ∧ ¬ IsDir fs (cfg.root ++ [n])

/-- with room for the object, PutObject succeeds whatever happens elsewhere in the meantime -/
theorem put_room {i : PutInput} {cs : List Bytes} {body : Body} (hb : LegalBucket i.bucket) (hk : PlainKey i.key cs)
    (hbody : i.body = some body) (hu : unbroken body)
    (hsc : i.storageClass = none ∨ i.storageClass = some b!"STANDARD" ∨ i.storageClass = some b!"REDUCED_REDUNDANCY")
    {fs : FS} (hw : WF fs)
    (hroom : Room cfg fs i.bucket cs (if i.metadata.isSome then some (metadataName i.bucket i.key) else none)) :
    wp cfg (PutRely (cfg.root ++ i.bucket :: cs) (metaFile cfg i.bucket i.key)) (fun o _ => ∃ e, o = .ok e)
      (putObject cfg ext i) fs := by
  have hb' := (C02_bucket_name_rule _).mpr hb
  obtain ⟨d, x, hd⟩ : ∃ d x, cfg.root ++ i.bucket :: cs = d ++ [x] :=
    ⟨_, _, (List.dropLast_concat_getLast (by simp)).symm⟩
  have hp : objectPath cfg i.bucket i.key = some ⟨d ++ [x], false⟩ := by rw [objectPath_plain cfg hb' hk, hd]
  have hlook : ∀ q, contentAt fs q = none → fs.lookup q = none ∨ fs.lookup q = some .dir := by
    intro q hq
    cases hl : fs.lookup q with
    | none => exact .inl rfl
    | some x => cases x with
      | dir => exact .inr rfl
      | file j => simp [contentAt, hl] at hq
  have hready : Ready (d ++ [x]) fs := by
    refine ⟨by simp, fun c hc => hroom.names c (by rw [hd]; exact hc), ?_, by rw [← hd]; exact hroom.free⟩
    intro q hq
    rw [List.dropLast_concat] at hq
    refine hlook q (hroom.above q ?_ ?_)
    · rw [hd]; exact hq.trans (List.prefix_append _ _)
    · rw [hd]; rintro rfl
      have := hq.length_le
      simp at this
      omega
  have hroot : cfg.root <+: d := by
    have h1 : cfg.root <+: d ++ [x] := by rw [← hd]; exact List.prefix_append _ _
    refine List.prefix_of_prefix_length_le h1 (List.prefix_append _ _) ?_
    have := congrArg List.length hd
    simp at this
    have := List.length_pos_iff.mpr hk.nonempty
    omega
  have hmp : ¬ metaFile cfg i.bucket i.key <+: d ++ [x] := by rw [← hd]; exact meta_not_prefix hb'
  rw [hd]
  exact putObject_ok (cfg := cfg) (ext := ext) hp (plain_no_slash hk)
    (by rcases hsc with h | h | h <;> rw [h] <;> decide) hbody hu hb' hroot hmp hw hready (by
      intro hm
      have hs : i.metadata.isSome = true := by cases hx : i.metadata <;> simp_all
      obtain ⟨h1, h2⟩ := hroom.metaName _ (by rw [if_pos hs])
      refine ⟨hroom.root, ?_, h2⟩
      intro c hc
      rcases List.mem_append.mp hc with hc | hc
      · exact hroom.names c (List.mem_append.mpr (.inl hc))
      · simp only [List.mem_cons, List.not_mem_nil, or_false] at hc; rw [hc]; exact h1)

/-- **C32** (success) If moreover there is room for the object when the requests start, the body arrives unbroken, and no
other request writes an object above or below it, then PutObject is never answered with an error. -/
theorem C32_disjoint_puts_succeed {os : List Op} {n : Nat} {i : PutInput} {cs : List Bytes} {body : Body}
    (hn : os[n]? = some (.putObject i)) (hb : LegalBucket i.bucket) (hk : PlainKey i.key cs)
    (ho : ∀ (j : Nat) o, j ≠ n → os[j]? = some o → OnOthers i.bucket (Apart i.bucket i.key) o)
    (hbody : i.body = some body) (hu : unbroken body)
    (hsc : i.storageClass = none ∨ i.storageClass = some b!"STANDARD" ∨ i.storageClass = some b!"REDUCED_REDUNDANCY")
    {fs : FS} (hw : WF fs)
    (hroom : Room cfg fs i.bucket cs (if i.metadata.isSome then some (metadataName i.bucket i.key) else none))
    (sched : List Nat) {r : Outcome Answer} (h : answerAt cfg ext sched os fs n = some r) : ∃ a, r = .ok a := by
  have hb' := (C02_bucket_name_rule _).mpr hb
  have hR := rely_put (cfg.root ++ i.bucket :: cs) (metaFile cfg i.bucket i.key)
  refine crowd (cfg := cfg) (ext := ext) hR hn (Q := fun o _ => ∃ a, o = .ok a) ?_ hw
    (wp_opPut hR hw (put_room hb hk hbody hu hsc hw hroom) (fun e _ _ _ _ _ _ => ⟨_, rfl⟩)
      (fun e fs h => by obtain ⟨_, h⟩ := h; cases h)
      (fun fs h => by obtain ⟨_, h⟩ := h; cases h) (fun fs h => by obtain ⟨_, h⟩ := h; cases h)) sched h
  intro j o hj hoj fs c hwf hc
  exact exec_frame cfg hwf (apart_ok hb' hk (ho j o hj hoj) hc)

/-- three requests on different objects and one reader -/
def Sample.crowd : List Op :=
  [.putObject Sample.put3, .deleteObject b!"bbb" b!"y", .getObject b!"aaa" b!"x" none (fun _ => 2),
   .putObject { Sample.put3 with key := b!"d/f", body := some [some b!"three"], metadata := none }, .createBucket b!"ccc"]

theorem Sample.legal {b : Bytes} (h : checkBucketName b = true) : LegalBucket b := (C02_bucket_name_rule b).mp h

theorem Sample.plain_de : PlainKey b!"d/e" [b!"d", b!"e"] :=
  plain2 (a := b!"d") (c := b!"e") ⟨by decide, by decide, by decide, by decide⟩ ⟨by decide, by decide, by decide, by decide⟩

theorem Sample.plain_df : PlainKey b!"d/f" [b!"d", b!"f"] :=
  plain2 (a := b!"d") (c := b!"f") ⟨by decide, by decide, by decide, by decide⟩ ⟨by decide, by decide, by decide, by decide⟩

theorem Sample.not_nested {k k' : Bytes} (h : (k ++ [47]).isPrefixOf k' = false) : ¬ Nested k k' := by
  rintro ⟨t, rfl⟩
  have : (k ++ [47]) <+: k ++ 47 :: t := ⟨t, by simp⟩
  rw [List.isPrefixOf_iff_prefix.mpr this] at h
  cases h

theorem Sample.crowd_apart (j : Nat) (o : Op) (hj : j ≠ 0) (h : Sample.crowd[j]? = some o) : OnOthers b!"aaa" (Apart b!"aaa" b!"d/e") o := by
  rcases j with _ | _ | _ | _ | _ | j
  · exact absurd rfl hj
  · cases h
    exact ⟨⟨Sample.legal (by decide +kernel), ⟨_, plain1 (k := b!"y") (by decide)⟩, by decide⟩, fun h => absurd h (by decide), fun h => absurd h (by decide)⟩
  · cases h; trivial
  · cases h
    exact ⟨⟨Sample.legal (by decide +kernel), ⟨_, Sample.plain_df⟩, by decide⟩, fun _ => Sample.not_nested (by decide),
      fun _ => Sample.not_nested (by decide)⟩
  · cases h
    exact Sample.legal (by decide +kernel)
  · cases h

/-- an interleaving in which all requests of the crowd end -/
def Sample.sched : List Nat :=
  [0, 1, 2, 3, 4, 4, 3, 2, 1, 0, 0, 3, 2, 1, 2, 3, 0, 0, 3, 2, 3, 0, 0, 0, 0, 0, 0, 3, 3, 3, 3, 3, 2, 2, 2, 2, 2, 2, 2, 2]

/-- the hypotheses of both theorems hold for the first request of the crowd, which ends with success -/
example : (∀ (j : Nat) o, j ≠ 0 → Sample.crowd[j]? = some o → OnOthers b!"aaa" (Away b!"aaa" b!"d/e") o) ∧
    answerAt Sample.cfg Sample.ext Sample.sched Sample.crowd Sample.fs 0 = some (.ok (.etag (some b!"\"md5:7\""))) ∧
    answerAt Sample.cfg Sample.ext Sample.sched Sample.crowd Sample.fs 3 = some (.ok (.etag (some b!"\"md5:5\""))) ∧
    Room Sample.cfg Sample.fs b!"aaa" [b!"d", b!"e"] (some (metadataName b!"aaa" b!"d/e")) := by
  refine ⟨?_, by decide +kernel, by decide +kernel, ?_⟩
  · intro j o hj h
    have := Sample.crowd_apart j o hj h
    revert this
    cases o <;> simp only [OnOthers] <;> try exact fun h => h
    all_goals first | exact fun h => h.toAway | exact fun h => ⟨h.1.toAway, h.2⟩ | exact fun h k hk => (h k hk).toAway
  · refine ⟨by decide +kernel, by unfold IsDir; decide +kernel, ?_, by unfold IsDir; decide +kernel, ?_⟩
    · intro q hq hne
      have : q ∈ [[], [b!"srv"], [b!"srv", b!"aaa"], [b!"srv", b!"aaa", b!"d"]] := by
        obtain ⟨t, ht⟩ := hq
        simp only [Sample.cfg, List.cons_append, List.nil_append] at ht hne
        rcases q with _ | ⟨a, _ | ⟨b, _ | ⟨c, _ | ⟨d, q⟩⟩⟩⟩ <;> simp_all
      simp only [List.mem_cons, List.not_mem_nil, or_false] at this
      rcases this with rfl | rfl | rfl | rfl <;> decide +kernel
    · intro n hn
      cases hn
      exact ⟨by decide +kernel, by unfold IsDir; decide +kernel⟩

/-! ### C33 -/

theorem wp_readOnly {α : Type} {rd : Path → Prop} {R : FS → FS → Prop}
    (hsame : ∀ a b, WF a → WF b → R a b → ∀ q, rd q → SameAt a b q) {p : Prog α} {Q0 : α → Prop} (hs : Safe (readOk rd) Q0 p) :
    ∀ {fs : FS}, WF fs → wp cfg R (fun o _ => o = (run cfg p fs).1) p fs := by
  induction p with
  | ret a => intro fs _ fs' _ _; rfl
  | fail e => intro fs _ fs' _ _; rfl
  | panic => intro fs _ fs' _ _; rfl
  | diverge => intro fs _ fs' _ _; rfl
  | sys c k ih =>
    intro fs hw fs' hr hw'
    obtain ⟨h1, h2, h3⟩ := exec_readOk cfg hw hw' (hsame fs fs' hw hw' hr) hs.1
    have hs' := hs.2 _ (exec_respOk cfg hw' c)
    rw [h3]
    refine wp_mono ?_ (ih _ hs' hw')
    intro o _ _ ho
    rw [ho]
    simp only [run]
    rw [h1, h2]
    exact Safe.readOnly cfg hs' hw' hw fun q hq =>
      ⟨(hsame fs fs' hw hw' hr q hq).look.symm, fun i hi => ((hsame fs fs' hw hw' hr q hq).data i hi).symm⟩

theorem apart_reads {R : FS → FS → Prop} {P M : Path} (hR : ∀ a b, R a b → PutRely P M a b) (hM : ¬ M <+: P) :
    ∀ a b, WF a → WF b → R a b → ∀ q, q = P ∨ q = M → SameAt a b q := by
  intro a b _ _ hr q hq
  have := frame_same (hR a b hr) (q := q) (fun h => h (hq.elim (fun e => .inl (pfx_of_eq e)) .inr)) (.inl (by
    rintro ⟨h1, h2⟩
    rcases hq with e | e
    · exact h2 e
    · exact hM (e ▸ h1)))
  exact ⟨this.look.symm, fun i hi => (this.data i hi).symm⟩

/-- **C33** (partial) In every interleaving with any number of requests that write and delete unrelated addresses only (and
read whatever they like), GetObject and HeadObject of a plain key answer exactly what they would answer alone: the
whole object, its ETag and its metadata.
Missing from the full property: a PutObject to the same address, see `C33_torn_reads_fails`. -/
theorem C33_torn_reads_partial {os : List Op} {n : Nat} {o : Op} {b k : Bytes} {cs : List Bytes} (hn : os[n]? = some o)
    (hget : o = .headObject b k ∨ ∃ r w, o = .getObject b k r w)
    (hb : LegalBucket b) (hk : PlainKey k cs)
    (ho : ∀ (j : Nat) o, j ≠ n → os[j]? = some o → OnOthers b (Apart b k) o)
    {fs : FS} (hw : WF fs) (sched : List Nat) {r : Outcome Answer} (h : answerAt cfg ext sched os fs n = some r) :
    r = answer cfg ext o fs := by
  have hb' := (C02_bucket_name_rule _).mpr hb
  have hs : Safe (readOk fun q => q = cfg.root ++ b :: cs ∨ q = metaFile cfg b k) (fun _ => True) (opProg cfg ext o) := by
    refine (op_safe cfg ext o).mono ?_ fun _ h => h
    intro c hc
    have h1 : readOk (fun q => objP cfg b k q ∨ metaP cfg b k q) c := by
      rcases hget with rfl | ⟨r, w, rfl⟩
      · exact perm_read (π := opPerm cfg (.headObject b k)) (fun _ h => h) (fun _ h => h) (fun _ h => h) (fun _ h => h)
          (fun _ h => h) (fun _ h => h) (fun _ h => h) c hc
      · exact perm_read (π := opPerm cfg (.getObject b k r w)) (fun _ h => h) (fun _ h => h) (fun _ h => h) (fun _ h => h)
          (fun _ h => h) (fun _ h => h) (fun _ h => h) c hc
    have e : (fun q => objP cfg b k q ∨ metaP cfg b k q) = fun q => q = cfg.root ++ b :: cs ∨ q = metaFile cfg b k := by
      funext q
      rw [objP_plain hb' hk]
      rfl
    rw [e] at h1
    exact h1
  refine crowd (cfg := cfg) (ext := ext) (rely_put (cfg.root ++ b :: cs) (metaFile cfg b k)) hn
    (Q := fun r _ => r = answer cfg ext o fs) ?_ hw
    (wp_readOnly (apart_reads (fun _ _ h => h) (meta_not_prefix hb')) hs hw)
    sched h
  intro j o hj hoj fs c hwf hc
  exact exec_frame cfg hwf (apart_ok hb' hk (ho j o hj hoj) hc)

/-- the reader of the crowd sees the whole object -/
example : Sample.crowd[2]? = some (.getObject b!"aaa" b!"x" none fun _ => 2) ∧
    (∀ (j : Nat) o, j ≠ 2 → Sample.crowd[j]? = some o → OnOthers b!"aaa" (Apart b!"aaa" b!"x") o) ∧
    answerAt Sample.cfg Sample.ext Sample.sched Sample.crowd Sample.fs 2 =
      some (.ok (.object 5 none b!"\"md5:5\"" (some b!"hello"))) := by
  refine ⟨rfl, ?_, by decide +kernel⟩
  intro j o hj h
  rcases j with _ | _ | _ | _ | _ | j
  · cases h
    exact ⟨⟨Sample.legal (by decide +kernel), ⟨_, Sample.plain_de⟩, by decide⟩, fun _ => Sample.not_nested (by decide),
      fun _ => Sample.not_nested (by decide)⟩
  · cases h
    exact ⟨⟨Sample.legal (by decide +kernel), ⟨_, plain1 (k := b!"y") (by decide)⟩, by decide⟩, fun h => absurd h (by decide), fun h => absurd h (by decide)⟩
  · exact absurd rfl hj
  · cases h
    exact ⟨⟨Sample.legal (by decide +kernel), ⟨_, Sample.plain_df⟩, by decide⟩, fun _ => Sample.not_nested (by decide),
      fun _ => Sample.not_nested (by decide)⟩
  · cases h
    exact Sample.legal (by decide +kernel)
  · cases h

/-- an overwrite of `aaa/x` that arrives in two fragments -/
def Sample.overwriteX : PutInput :=
  { bucket := b!"aaa", key := b!"x", body := some [some b!"HE", some b!"LLO!"], contentLength := some 6, metadata := none,
    storageClass := none }

/-- C33 fails: while `hello` is overwritten with `HELLO!`, one reader is answered `HE`, another one `helLO`; a third one
is answered the ETag of the new content together with a part of it. -/
theorem C33_torn_reads_fails :
    ∃ (cfg : Cfg) (ext : Ext) (fs : FS) (i : PutInput) (w : Nat → Nat) (s1 s2 s3 : List Nat), WF fs ∧
      LegalBucket i.bucket ∧ PlainKey i.key [i.key] ∧ i.body.map received = some b!"HELLO!" ∧
      stored cfg fs i.bucket i.key = some b!"hello" ∧
      answerAt cfg ext s1 [.putObject i, .getObject i.bucket i.key none w] fs 1
        = some (.ok (.object 2 none (quoted (ext.md5hex b!"HE")) (some b!"HE"))) ∧
      answerAt cfg ext s2 [.putObject i, .getObject i.bucket i.key none w] fs 1
        = some (.ok (.object 5 none (quoted (ext.md5hex b!"hello")) (some b!"helLO"))) ∧
      answerAt cfg ext s3 [.putObject i, .getObject i.bucket i.key none w] fs 1
        = some (.ok (.object 5 none (quoted (ext.md5hex b!"HELLO!")) (some b!"HELLO"))) :=
  ⟨Sample.cfg, Sample.ext, Sample.fs, Sample.overwriteX, fun _ => 3, List.replicate 4 0 ++ List.replicate 20 1,
    List.replicate 6 1 ++ List.replicate 20 0 ++ List.replicate 20 1,
    List.replicate 2 1 ++ List.replicate 20 0 ++ List.replicate 20 1, Sample.fs_wf, Sample.legal (by decide +kernel),
    plain1 (by decide), by decide +kernel, by decide +kernel, by decide +kernel, by decide +kernel, by decide +kernel⟩

end S3
