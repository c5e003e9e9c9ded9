import Verif.Lemmas.Crawl
import Verif.Props.Listing
import Verif.Props.Isolated
/-! C86: listing a bucket while other requests change it. -/
namespace S3
open Spec

variable {cfg : Cfg} {ext : Ext}

/-- a listing of the objects of a bucket, and what it is answered with -/
inductive Spec.Lists (b : Bytes) (pfx : Option Bytes) : Op → Answer → List (Bytes × Nat) → Prop
  | v1 (fuel : Nat) (l : List (Bytes × Nat)) : Lists b pfx (.listObjects b pfx fuel) (.objects l) l
  | v2 (fuel : Nat) (l : List (Bytes × Nat)) : Lists b pfx (.listObjectsV2 b pfx fuel) (.objectsV2 l.length l) l

/-- the request lists the objects of `b` -/
def Spec.IsListing (b : Bytes) (pfx : Option Bytes) (o : Op) : Prop :=
  ∃ fuel, o = .listObjects b pfx fuel ∨ o = .listObjectsV2 b pfx fuel

/-- the keys of the objects of the bucket are text, as every key of a request is -/
def Spec.TextKeys (cfg : Cfg) (fs : FS) (b : Bytes) : Prop :=
  ∀ k cs, PlainKey k cs → stored cfg fs b k ≠ none → utf8Valid k = true

/-- files appear only where they are created -/
theorem exec_new_file {fs : FS} {c : Call} {q : Path} {i : Ino} (h : (exec cfg fs c).2.lookup q = some (.file i)) :
    (∃ i', fs.lookup q = some (.file i')) ∨ ∃ p, c = .create p ∧ q = p.comps := by
  cases c with
  | mkdir p =>
    simp only [exec] at h
    split at h; · exact .inl ⟨_, h⟩
    split at h; · exact .inl ⟨_, h⟩
    split at h; · exact .inl ⟨_, h⟩
    · exact .inl ⟨_, h⟩
    split at h; · exact .inl ⟨_, h⟩
    split at h
    · rw [lookup_set] at h
      split at h; · cases h
      split at h; · cases h
      exact .inl ⟨_, h⟩
    · exact .inl ⟨_, h⟩
  | create p =>
    simp only [exec] at h
    split at h; · exact .inl ⟨_, h⟩
    split at h; · exact .inl ⟨_, h⟩
    split at h; · exact .inl ⟨_, h⟩
    · exact .inl ⟨_, h⟩
    split at h
    · split at h
      · by_cases e : q = p.comps
        · exact .inr ⟨p, rfl, e⟩
        · rw [lookup_bump, lookup_setData, lookup_set] at h
          split at h; · cases h
          exact .inl ⟨_, h⟩
      · exact .inl ⟨_, h⟩
    · exact .inl ⟨_, h⟩
  | unlink p =>
    simp only [exec] at h
    split at h
    · rw [lookup_erase] at h
      split at h; · cases h
      split at h
      · cases h
      · exact .inl ⟨_, h⟩
    · exact .inl ⟨_, h⟩
  | rmdir p =>
    simp only [exec] at h
    split at h
    · split at h
      · rw [lookup_erase] at h
        split at h; · cases h
        split at h
        · cases h
        · exact .inl ⟨_, h⟩
      · exact .inl ⟨_, h⟩
    · exact .inl ⟨_, h⟩
  | rmtree p =>
    simp only [exec] at h
    split at h
    · split at h
      · rw [lookup_eraseTree] at h
        split at h; · cases h
        split at h
        · cases h
        · exact .inl ⟨_, h⟩
      · exact .inl ⟨_, h⟩
    · exact .inl ⟨_, h⟩
  | readDir p =>
    simp only [exec] at h
    split at h <;> exact .inl ⟨_, h⟩
  | _ => exact .inl ⟨_, h⟩

/-- a file that a tidy request creates in a bucket is an object it stores -/
theorem create_writes {o : Op} (ht : Tidy o) {b : Bytes} {cs : List Bytes} (hcs : cs ≠ []) {p : OsPath}
    (hc : (opPerm cfg o).ok (.create p)) (hp : cfg.root ++ b :: cs = p.comps) : Writes o b (joinWith 47 cs) := by
  have hobj : ∀ {b' k'}, PlainAddress b' k' → objP cfg b' k' (cfg.root ++ b :: cs) → (b, joinWith 47 cs) = (b', k') := by
    rintro b' k' ⟨hb', cs', hk'⟩ h
    have := (objP_plain ((C02_bucket_name_rule _).mpr hb') hk').mp h
    simp only [List.append_cancel_left_eq, List.cons.injEq] at this
    rw [this.1, this.2, ← hk'.text]
  have hroot : ∀ {n : Bytes}, cfg.root ++ b :: cs ≠ cfg.root ++ [n] := by
    intro n e
    simp only [List.append_cancel_left_eq, List.cons.injEq] at e
    exact hcs e.2
  simp only [Perm.ok, ← hp] at hc
  cases o <;> simp only [opPerm] at hc <;> simp only [Tidy, OnOthers] at ht
  case copyObject => exact hc.elim (hobj ht) fun h => absurd h hroot
  case putObject => exact hc.2.elim (hobj ht) fun h => absurd h.2 hroot
  case uploadPart => exact absurd (partP_eq ht hc) hroot
  case completeMultipartUpload => exact hobj ht.1 hc

/-- every file of the bucket is text and was stored at the beginning or is stored by a request that satisfies `W` -/
def Traced (cfg : Cfg) (fs₀ : FS) (b : Bytes) (W : Bytes → Prop) (fs : FS) : Prop :=
  ∀ cs i, cs ≠ [] → fs.lookup (cfg.root ++ b :: cs) = some (.file i) →
    utf8Valid (joinWith 47 cs) = true ∧ (stored cfg fs₀ b (joinWith 47 cs) ≠ none ∨ W (joinWith 47 cs))

theorem traced_init {fs : FS} (hw : WF fs) {b : Bytes} (hb : checkBucketName b = true) (ht : TextKeys cfg fs b) (W : Bytes → Prop) :
    Traced cfg fs b W fs := by
  intro cs i hcs hl
  obtain ⟨cs', h1, h2, _⟩ := file_plain hw (cfg := cfg) (b := b)
    (mem_sub.mpr ⟨mem_of_lookup (by simp) hl, ⟨cs, by simp [bucketDir]⟩, by simpa [bucketDir] using hcs⟩)
  simp only [List.append_cancel_left_eq, List.cons.injEq, true_and] at h1
  subst h1
  have hs : stored cfg fs b (joinWith 47 cs) ≠ none := by rw [stored_plain hb h2, contentAt, hl]; simp
  exact ⟨ht _ _ h2 hs, .inl hs⟩

theorem traced_step {fs₀ fs : FS} {b : Bytes} {W : Bytes → Prop} {o : Op} (ht : Tidy o) (hW : ∀ k, Writes o b k → utf8Valid k = true ∧ W k)
    {c : Call} (hc : (opPerm cfg o).ok c) (h : Traced cfg fs₀ b W fs) : Traced cfg fs₀ b W (exec cfg fs c).2 := by
  intro cs i hcs hl
  rcases exec_new_file hl with ⟨i', h'⟩ | ⟨p, rfl, hp⟩
  · exact h cs i' hcs h'
  · obtain ⟨h1, h2⟩ := hW _ (create_writes ht hcs hc hp)
    exact ⟨h1, .inr h2⟩

/-- the listing, with the walk it makes -/
theorem wp_listing {J : FS → Prop} {b : Bytes} (hb : checkBucketName b = true) {pfx : Option Bytes} {o : Op} (ho : IsListing b pfx o)
    {fs : FS} (hw : WF fs) (hj : J fs) :
    wp cfg (Keeping J) (fun r _ => ∀ a, r = .ok a → ∃ l l₀ ps, Lists b pfx o a l ∧ l = isort objLe l₀ ∧
      Walked cfg J (bucketDir cfg b) pfx [bucketDir cfg b] l₀ ps) (opProg cfg ext o) fs := by
  have hR := rely_keeping J
  have hbp : bucketPath cfg b = some ⟨bucketDir cfg b, false⟩ := bucketPath_legal cfg hb
  have hloop : ∀ fuel, _ := fun fuel => wp_listLoop (cfg := cfg) (J := J) (base := bucketDir cfg b) (pfx := pfx) fuel
    [bucketDir cfg b] (fs := fs) (List.pairwise_singleton _ _) (by simp) hw hj
  obtain ⟨fuel, rfl | rfl⟩ := ho
  · simp only [opProg, listObjects, bind_eq, pure_eq, hbp]
    show wp cfg _ _ (((listLoop ..).bind _).bind _) fs
    refine wp_bind hR hw (wp_bind hR hw (wp_mono ?_ (hloop fuel)))
    rintro (l | e | _ | _) fs₁ hw₁ ⟨hj₁, h⟩
    · intro fs₂ hr₂ hw₂ fs₃ hr₃ hw₃ a e
      cases e
      obtain ⟨ps, hp⟩ := h _ rfl
      exact ⟨_, l, ps, .v1 _ _, rfl, hp⟩
    all_goals exact fun a e => nomatch e
  · simp only [opProg, listObjectsV2, bind_eq, pure_eq, hbp]
    show wp cfg _ _ (((listLoop ..).bind _).bind _) fs
    refine wp_bind hR hw (wp_bind hR hw (wp_mono ?_ (hloop fuel)))
    rintro (l | e | _ | _) fs₁ hw₁ ⟨hj₁, h⟩
    · simp only [wpThen]
      split
      · intro fs₂ hr₂ hw₂ fs₃ hr₃ hw₃ a e
        cases e
        obtain ⟨ps, hp⟩ := h _ rfl
        refine ⟨isort objLe l, l, ps, ?_, rfl, hp⟩
        rw [show l.length = (isort objLe l).length from (isort_perm objLe l).length_eq.symm]
        exact .v2 _ _
      · exact fun _ _ _ _ e => nomatch e
    all_goals exact fun a e => nomatch e

theorem Spec.Lists.unique {b : Bytes} {pfx : Option Bytes} {o : Op} {a : Answer} {l l' : List (Bytes × Nat)} (h : Lists b pfx o a l)
    (h' : Lists b pfx o a l') : l = l' := by
  cases h with
  | v1 => cases h'; rfl
  | v2 =>
    generalize ha : Answer.objectsV2 l.length l = a at h'
    cases h'
    injection ha

/-- the paths of the walk are the plain paths of the keys -/
theorem walked_key {J : FS → Prop} {fs₀ : FS} {b : Bytes} {W : Bytes → Prop} {pfx : Option Bytes} {l : List (Bytes × Nat)}
    {ps : List (Path × Nat)} (hJ : ∀ fs, J fs → Traced cfg fs₀ b W fs)
    (hk : Walked cfg J (bucketDir cfg b) pfx [bucketDir cfg b] l ps) {x : Path × Nat} (hx : x ∈ ps) :
    ∃ cs, x.1 = cfg.root ++ b :: cs ∧ PlainKey (relKey (bucketDir cfg b) x.1) cs ∧
      (stored cfg fs₀ b (relKey (bucketDir cfg b) x.1) ≠ none ∨ W (relKey (bucketDir cfg b) x.1)) := by
  obtain ⟨_, ⟨fs, i, hw, hj, hl⟩, _⟩ := hk.match_ x hx
  obtain ⟨d, hd, hpre, hne⟩ := hk.below x hx
  rw [List.mem_singleton.mp hd] at hpre hne
  obtain ⟨cs, h1, h2, _⟩ := file_plain hw (cfg := cfg) (b := b)
    (mem_sub.mpr ⟨mem_of_lookup (by rintro e; rw [e, lookup_nil] at hl; cases hl) hl, hpre, fun e => hne e.symm⟩)
  simp only at h1
  rw [h1] at hl ⊢
  have := hJ fs hj cs i h2.nonempty hl
  have hkey : relKey (bucketDir cfg b) (cfg.root ++ b :: cs) = joinWith 47 cs := by
    rw [show cfg.root ++ b :: cs = bucketDir cfg b ++ cs by simp [bucketDir], relKey_eq]
    exact utf8Lossy_valid this.1
  rw [hkey]
  exact ⟨cs, rfl, h2, this.2⟩

/-- **C86** (partial) A listing that is answered with success while any number of other requests run, in any interleaving: the keys
stand once each, in ascending order, and start with the requested prefix; each of them was stored when the requests began or
is stored by one of them; and an object that none of them stores or deletes is listed, with its size, exactly when it is stored.
Missing from the full property: the listing should succeed, see `C86_listing_during_delete_fails`. -/
theorem C86_listing_among_others_partial {os : List Op} {n : Nat} {o : Op} {b : Bytes} {pfx : Option Bytes} (hn : os[n]? = some o)
    (ho : IsListing b pfx o) (hb : LegalBucket b)
    (hothers : ∀ (j : Nat) o', j ≠ n → os[j]? = some o' → Tidy o' ∧ ∀ k, Writes o' b k → utf8Valid k = true)
    {fs : FS} (hw : WF fs) (htext : TextKeys cfg fs b) (sched : List Nat) {a : Answer}
    (h : answerAt cfg ext sched os fs n = some (.ok a)) :
    ∃ l, Lists b pfx o a l ∧ l.Pairwise (fun x y => x.1 < y.1) ∧
      (∀ k m, (k, m) ∈ l → matchesPrefix pfx k ∧ (∃ cs, PlainKey k cs) ∧
        (stored cfg fs b k ≠ none ∨ ∃ j o', j ≠ n ∧ os[j]? = some o' ∧ Writes o' b k)) ∧
      ∀ k cs, PlainKey k cs → (∀ (j : Nat) o', j ≠ n → os[j]? = some o' → OnOthers b (Away b k) o') → ∀ m,
        ((k, m) ∈ l ↔ ∃ c, stored cfg fs b k = some c ∧ m = c.length ∧ matchesPrefix pfx k) := by
  have hb' := (C02_bucket_name_rule _).mpr hb
  let W : Bytes → Prop := fun k => ∃ j o', j ≠ n ∧ os[j]? = some o' ∧ Writes o' b k
  have htr : ∀ (j : Nat) o', j ≠ n → os[j]? = some o' → ∀ fs₁ c, (opPerm cfg o').ok c → Traced cfg fs b W fs₁ →
      Traced cfg fs b W (exec cfg fs₁ c).2 := fun j o' hj hoj fs₁ c hc h =>
    traced_step (hothers j o' hj hoj).1 (fun k hk => ⟨(hothers j o' hj hoj).2 k hk, j, o', hj, hoj, hk⟩) hc h
  have hgen : ∀ (K : FS → Prop), K fs →
      (∀ (j : Nat) o', j ≠ n → os[j]? = some o' → ∀ fs₁ c, WF fs₁ → (opPerm cfg o').ok c → K fs₁ → K (exec cfg fs₁ c).2) →
      ∃ l l₀ ps, Lists b pfx o a l ∧ l = isort objLe l₀ ∧
        Walked cfg (fun fs₁ => Traced cfg fs b W fs₁ ∧ K fs₁) (bucketDir cfg b) pfx [bucketDir cfg b] l₀ ps := by
    intro K hK hstep
    refine crowd (rely_keeping fun fs₁ => Traced cfg fs b W fs₁ ∧ K fs₁) hn ?_ hw
      (wp_listing hb' ho hw ⟨traced_init hw hb' htext W, hK⟩) sched h a rfl
    exact fun j o' hj hoj fs₁ c hw₁ hc hJ => ⟨htr j o' hj hoj fs₁ c hc hJ.1, hstep j o' hj hoj fs₁ c hw₁ hc hJ.2⟩
  obtain ⟨l, l₀, ps, hl, hsort, hk⟩ := hgen (fun _ => True) trivial fun _ _ _ _ _ _ _ _ _ => trivial
  have hsp := isort_perm objLe l₀
  have hkey := fun x hx => walked_key (fun _ h => h.1) hk (x := x) hx
  refine ⟨l, hl, ?_, ?_, ?_⟩
  · have hs := isort_sorted (le := objLe) (fun a b c => bytesLe_trans a.1 b.1 c.1) (fun a b => bytesLe_total a.1 b.1) l₀
    have hn' : (l₀.map (·.1)).Nodup := by
      rw [hk.objs, List.map_map]
      have : (ps.map (·.1)).Pairwise fun p q => p ≠ q := hk.once
      rw [List.pairwise_map] at this
      refine List.pairwise_map.mpr (List.Pairwise.imp_of_mem ?_ this)
      intro x y hx hy hne e
      obtain ⟨cs, h1, h2, _⟩ := hkey x hx
      obtain ⟨cs', h1', h2', _⟩ := hkey y hy
      simp only [Function.comp] at e
      rw [e] at h2
      rw [h1, h1', plainKey_unique h2 h2'] at hne
      exact hne rfl
    have hn'' : (isort objLe l₀).Pairwise fun a b => a.1 ≠ b.1 :=
      List.pairwise_map.mp (((hsp.map Prod.fst).nodup_iff.mpr hn' : _))
    rw [hsort]
    refine List.Pairwise.imp₂ ?_ hs hn''
    intro x y h1 h2
    rcases bytesLe_iff.mp h1 with h | h
    · exact bytesCmp_lt_iff.mp h
    · exact absurd h h2
  · intro k m hm
    rw [hsort, hsp.mem_iff, hk.objs] at hm
    obtain ⟨x, hx, e⟩ := List.mem_map.mp hm
    cases e
    obtain ⟨cs, h1, h2, h3⟩ := hkey x hx
    exact ⟨filteredOut_iff.mp (hk.match_ x hx).1, ⟨cs, h2⟩, h3⟩
  · intro k cs hpk haway m
    have hframe : ∀ (j : Nat) o', j ≠ n → os[j]? = some o' → ∀ fs₁ c, WF fs₁ → (opPerm cfg o').ok c → _ :=
      fun j o' hj hoj fs₁ c hw₁ hc => exec_frame cfg hw₁ (away_ok hb' hpk (haway j o' hj hoj) hc)
    have hpath : bucketDir cfg b ++ cs = cfg.root ++ b :: cs := by simp [bucketDir]
    have hmine : ∀ {J : FS → Prop} {l₁ : List (Bytes × Nat)} {ps₁ : List (Path × Nat)}, (∀ fs₁, J fs₁ → Traced cfg fs b W fs₁) →
        Walked cfg J (bucketDir cfg b) pfx [bucketDir cfg b] l₁ ps₁ → (k, m) ∈ l₁ → (cfg.root ++ b :: cs, m) ∈ ps₁ ∧ matchesPrefix pfx k := by
      intro J l₁ ps₁ hJ hk₁ hm
      rw [hk₁.objs] at hm
      obtain ⟨x, hx, e⟩ := List.mem_map.mp hm
      obtain ⟨cs', h1, h2, _⟩ := walked_key hJ hk₁ hx
      simp only [Prod.mk.injEq] at e
      rw [e.1] at h2
      rw [← plainKey_unique hpk h2] at h1
      refine ⟨?_, ?_⟩
      · rw [← h1, ← e.2]; exact hx
      · rw [← e.1]; exact filteredOut_iff.mp (hk₁.match_ x hx).1
    have hst := stored_plain (cfg := cfg) (fs := fs) hb' hpk
    by_cases hfile : ∃ i, fs.lookup (cfg.root ++ b :: cs) = some (.file i)
    · obtain ⟨i, hi⟩ := hfile
      have hc : stored cfg fs b k = some (fs.data i) := by rw [hst, contentAt, hi]
      have hiP := (hw.ino _ _ hi).1
      obtain ⟨l', l₁, ps₁, hl', hsort', hk₁⟩ := hgen
        (fun fs₁ => fs₁.lookup (cfg.root ++ b :: cs) = some (.file i) ∧ fs₁.data i = fs.data i) ⟨hi, rfl⟩ (by
          rintro j o' hj hoj fs₁ c hw₁ hc ⟨h1, h2⟩
          have hf := hframe j o' hj hoj fs₁ c hw₁ hc
          refine ⟨?_, ?_⟩
          · rcases hf.node (cfg.root ++ b :: cs) (fun h => h (.inl rfl)) with e | ⟨_, e, _⟩
            · rw [e]; exact h1
            · rw [h1] at e; cases e
          · rw [hf.data i (fun h => h (.inl hiP))]; exact h2)
      obtain rfl := hl.unique hl'
      rw [hsort', (isort_perm objLe l₁).mem_iff]
      constructor
      · intro hm
        obtain ⟨hx, hp⟩ := hmine (fun _ h => h.1) hk₁ hm
        obtain ⟨_, _, fs₂, hw₂, hj₂, h2⟩ := hk₁.match_ _ hx
        refine ⟨_, hc, ?_, hp⟩
        rcases h2 with ⟨i', h3, h4⟩ | ⟨h3, _⟩
        · rw [hj₂.2.1] at h3
          cases h3
          rw [← hj₂.2.2]; exact h4
        · rw [hj₂.2.1] at h3; cases h3
      · rintro ⟨c, hc', rfl, hp⟩
        rw [hc] at hc'
        cases hc'
        have hv : utf8Valid k = true := htext k cs hpk (by rw [hc]; simp)
        have hkk : relKey (bucketDir cfg b) (cfg.root ++ b :: cs) = k := by
          rw [← hpath, relKey_eq, ← hpk.text]; exact utf8Lossy_valid hv
        have hmem := hk₁.held (cfg.root ++ b :: cs) (fs.data i)
          ⟨fun fs₁ _ h => ⟨i, h.2.1, h.2.2⟩, fun fs₁ hw₁ h q _ h2 h3 => hw₁.above h.2.1 h2 h3⟩
          ⟨bucketDir cfg b, List.mem_singleton.mpr rfl, ⟨cs, hpath⟩, by
            rw [← hpath]; intro e; exact hpk.nonempty (List.self_eq_append_right.mp e)⟩
          (by rw [hkk]; exact filteredOut_iff.mpr hp)
        rw [hk₁.objs]
        exact List.mem_map.mpr ⟨_, hmem, by rw [hkk]⟩
    · have hc : stored cfg fs b k = none := by
        rw [hst, contentAt]
        split
        · rename_i i hi; exact absurd ⟨i, hi⟩ hfile
        · rfl
      obtain ⟨l', l₁, ps₁, hl', hsort', hk₁⟩ := hgen
        (fun fs₁ => ¬ ∃ i, fs₁.lookup (cfg.root ++ b :: cs) = some (.file i)) hfile (by
          rintro j o' hj hoj fs₁ c hw₁ hc h1 ⟨i, h2⟩
          have hf := hframe j o' hj hoj fs₁ c hw₁ hc
          rcases hf.node (cfg.root ++ b :: cs) (fun h => h (.inl rfl)) with e | ⟨_, _, e⟩
          · exact h1 ⟨i, by rw [← e]; exact h2⟩
          · rw [e] at h2; cases h2)
      obtain rfl := hl.unique hl'
      rw [hsort', (isort_perm objLe l₁).mem_iff]
      constructor
      · intro hm
        obtain ⟨hx, _⟩ := hmine (fun _ h => h.1) hk₁ hm
        obtain ⟨_, ⟨fs₂, i, hw₂, hj₂, h2⟩, _⟩ := hk₁.match_ _ hx
        exact absurd ⟨i, h2⟩ hj₂.2
      · rintro ⟨c, hc', _⟩
        rw [hc] at hc'
        cases hc'

/-- C86 fails: a listing that has read the directory is answered with `InternalError` when an object in it is deleted before its
size is asked for; alone, before and after the deletion, it succeeds. -/
theorem C86_listing_during_delete_fails :
    ∃ (cfg : Cfg) (ext : Ext) (fs : FS) (b k : Bytes) (sched : List Nat) (l l' : List (Bytes × Nat)), WF fs ∧ LegalBucket b ∧
      PlainKey k [k] ∧ answer cfg ext (.listObjects b none 20) fs = .ok (.objects l) ∧
      answer cfg ext (.listObjects b none 20) (after cfg ext (.deleteObject b k) fs) = .ok (.objects l') ∧
      answerAt cfg ext sched [.listObjects b none 20, .deleteObject b k] fs 1 = some (.ok .done) ∧
      answerAt cfg ext sched [.listObjects b none 20, .deleteObject b k] fs 0 = some (.err .InternalError) :=
  ⟨Sample.cfg, Sample.ext, Sample.fs3, b!"aaa", b!"x", [0] ++ List.replicate 9 1 ++ List.replicate 9 0, [(b!"d/e", 7), (b!"x", 5)],
    [(b!"d/e", 7)], wf_after Sample.fs_wf, Sample.legal (by decide +kernel), plain1 (by decide), by decide +kernel, by decide +kernel,
    by decide +kernel, by decide +kernel⟩

/-- And a key can be listed with the size of a folder: between the two looks of the listing at `x` the object `x` is deleted and an
object `x/y` is put. -/
theorem C86_folder_listed_fails :
    ∃ (cfg : Cfg) (ext : Ext) (fs : FS) (i : PutInput) (b k : Bytes) (sched : List Nat) (l : List (Bytes × Nat)), WF fs ∧ LegalBucket b ∧
      stored cfg fs b k = some b!"hello" ∧ i.bucket = b ∧ i.key = k ++ b!"/y" ∧
      answerAt cfg ext sched [.listObjects b none 20, .deleteObject b k, .putObject i] fs 0 = some (.ok (.objects l)) ∧ (k, 4096) ∈ l :=
  ⟨Sample.cfg, Sample.ext, Sample.fs3, { Sample.put3 with key := b!"x/y" }, b!"aaa", b!"x",
    [0] ++ List.replicate 9 1 ++ List.replicate 30 2 ++ List.replicate 9 0, [(b!"d/e", 7), (b!"x", 4096)], wf_after Sample.fs_wf,
    Sample.legal (by decide +kernel), by decide +kernel, rfl, rfl, by decide +kernel, by decide⟩

/-- A listing is not a picture of one moment: it shows `d/f`, which was put after `b` had been stored, but not `b`. -/
theorem C86_listing_not_a_moment :
    ∃ (cfg : Cfg) (ext : Ext) (fs : FS) (i i' : PutInput) (s₁ s₂ s₃ : List Nat) (l : List (Bytes × Nat)), WF fs ∧
      i.bucket = b!"aaa" ∧ i.key = b!"b" ∧ i'.bucket = b!"aaa" ∧ i'.key = b!"d/f" ∧ 2 ∉ s₁ ∧
      stored cfg (runPar cfg s₁ ([.listObjects b!"aaa" none 20, .putObject i, .putObject i'].map (opProg cfg ext)) fs).2 b!"aaa" b!"b" ≠ none ∧
      answerAt cfg ext (s₁ ++ s₂ ++ s₃) [.listObjects b!"aaa" none 20, .putObject i, .putObject i'] fs 0 = some (.ok (.objects l)) ∧
      (b!"d/f", 7) ∈ l ∧ ∀ m, (b!"b", m) ∉ l :=
  ⟨Sample.cfg, Sample.ext, Sample.fs3, { Sample.put3 with key := b!"b" }, { Sample.put3 with key := b!"d/f" }, [0] ++ List.replicate 30 1,
    List.replicate 30 2, List.replicate 9 0, [(b!"d/e", 7), (b!"d/f", 7), (b!"x", 5)], wf_after Sample.fs_wf, rfl, rfl, rfl, rfl,
    by decide, by decide +kernel, by decide +kernel, by decide, by simp⟩

/-- the listing runs among writes, a deletion and an upload: `d/e` and `x`, which nobody touches, are listed, and `w`, which is not
stored, is not -/
example :
    let os : List Op := [.listObjects b!"aaa" none 20, .putObject { Sample.put3 with key := b!"d/f" }, .deleteObject b!"bbb" b!"y",
      .uploadPart b!"id1" 1 (some [some b!"one"]), .deleteObjects b!"aaa" [b!"q"]]
    let sched := [0, 1, 1, 1, 1, 2, 3, 4] ++ (List.replicate 30 [0, 1, 2, 3, 4]).flatten
    (∀ (j : Nat) o', j ≠ 0 → os[j]? = some o' → Tidy o' ∧ ∀ k, Writes o' b!"aaa" k → utf8Valid k = true) ∧
    TextKeys Sample.cfg Sample.fs3 b!"aaa" ∧
    answerAt Sample.cfg Sample.ext sched os Sample.fs3 0 = some (.ok (.objects [(b!"d/e", 7), (b!"d/f", 7), (b!"x", 5)])) ∧
    ∀ k ∈ [b!"d/e", b!"x", b!"w"], ∀ (j : Nat) o', j ≠ 0 → os[j]? = some o' → OnOthers b!"aaa" (Away b!"aaa" k) o' := by
  have haw : ∀ {b k k' cs}, LegalBucket b → PlainKey k' cs → (b, k') ≠ (b!"aaa", k) → Away b!"aaa" k b k' := fun hl hp hne => ⟨hl, ⟨_, hp⟩, hne⟩
  have hla : LegalBucket b!"aaa" := Sample.legal (by decide +kernel)
  have hlb : LegalBucket b!"bbb" := Sample.legal (by decide +kernel)
  refine ⟨?_, (listable_of (by decide +kernel)).text, by decide +kernel, ?_⟩
  · intro j o' hj h
    rcases j with _ | _ | _ | _ | _ | j
    · exact absurd rfl hj
    · cases h
      refine ⟨⟨hla, _, Sample.plain_df⟩, fun k hk => ?_⟩
      cases hk
      decide +kernel
    · cases h; exact ⟨⟨hlb, _, plain1 (k := b!"y") (by decide)⟩, fun k hk => hk.elim⟩
    · cases h; exact ⟨by show (47 : UInt8) ∉ b!"id1"; decide, fun k hk => hk.elim⟩
    · cases h
      refine ⟨fun k hk => ?_, fun k hk => hk.elim⟩
      rw [List.mem_singleton.mp hk]
      exact ⟨hla, _, plain1 (k := b!"q") (by decide)⟩
    · cases h
  · intro k hk j o' hj h
    simp only [List.mem_cons, List.not_mem_nil, or_false] at hk
    rcases j with _ | _ | _ | _ | _ | j
    · exact absurd rfl hj
    · cases h
      refine haw hla Sample.plain_df ?_
      rcases hk with rfl | rfl | rfl <;> decide
    · cases h
      refine haw hlb (plain1 (k := b!"y") (by decide)) ?_
      intro e; cases e
    · cases h; show (47 : UInt8) ∉ b!"id1"; decide
    · cases h
      intro k' hk'
      rw [List.mem_singleton.mp hk']
      refine haw hla (plain1 (k := b!"q") (by decide)) ?_
      rcases hk with rfl | rfl | rfl <;> decide
    · cases h

end S3
