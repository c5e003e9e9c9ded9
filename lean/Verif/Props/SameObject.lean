import Verif.Lemmas.Mix
/-! C70: uploads to the same object at the same time. -/
namespace S3
open Spec

variable {cfg : Cfg} {ext : Ext}

/-- the bodies that a set of requests uploads to `(b, k)` -/
def Spec.uploadsTo (b k : Bytes) (os : List Op) : List Bytes :=
  os.filterMap fun
    | .putObject i => if i.bucket = b ∧ i.key = k then i.body.map received else none
    | _ => none

theorem mem_uploadsTo {i : PutInput} {os : List Op} (h : .putObject i ∈ os) {body : Body} (hb : i.body = some body) :
    received body ∈ uploadsTo i.bucket i.key os :=
  List.mem_filterMap.mpr ⟨_, h, by simp [hb]⟩

/-- **C70** (partial) In every interleaving of any number of PutObjects to one plain key with requests that write and delete
other addresses only: once one of the uploads has been answered with success, the object exists, none of its former
content is left, every byte of it is a zero or stands at the same place in one of the uploaded bodies, and it is no longer
than the longest of them; and each successful upload is answered the ETag of its own body.
Missing from the full property: that the object is exactly one of the bodies, see `C70_same_object_fails`. -/
theorem C70_same_object_partial {os : List Op} {n : Nat} {i : PutInput} {cs : List Bytes} (hn : os[n]? = some (.putObject i))
    (hb : LegalBucket i.bucket) (hk : PlainKey i.key cs)
    (ho : ∀ o ∈ os, (∃ i', o = .putObject i' ∧ i'.bucket = i.bucket ∧ i'.key = i.key) ∨
      OnOthers i.bucket (Away i.bucket i.key) o)
    {fs : FS} (hw : WF fs) (sched : List Nat) {a : Answer} (h : answerAt cfg ext sched os fs n = some (.ok a)) :
    (∃ c, stored cfg (runPar cfg sched (os.map (opProg cfg ext)) fs).2 i.bucket i.key = some c ∧
      Mixed (uploadsTo i.bucket i.key os) c) ∧
    ∃ body, i.body = some body ∧ unbroken body ∧ a = .etag (some (quoted (ext.md5hex (received body)))) := by
  have hb' := (C02_bucket_name_rule _).mpr hb
  have hst : ∀ fs', stored cfg fs' i.bucket i.key = contentAt fs' (cfg.root ++ i.bucket :: cs) := by
    intro fs'; simp [stored, objectPath_plain cfg hb' hk]
  let J := MixFile (cfg.root ++ i.bucket :: cs) (uploadsTo i.bucket i.key os)
  let R : FS → FS → Prop := fun x y => J x → J y
  have hR : Rely R := ⟨fun _ h => h, fun _ _ _ h h' x => h' (h x)⟩
  let I : ParInv cfg Answer :=
    { R := fun _ => R
      ok := fun _ => MixCall (cfg.root ++ i.bucket :: cs) (uploadsTo i.bucket i.key os)
      Q := fun j o fs' => j = n → ∀ a, o = .ok a → J fs' ∧
        ∃ body, i.body = some body ∧ unbroken body ∧ a = .etag (some (quoted (ext.md5hex (received body))))
      rely := fun _ => hR
      guar := fun _ _ fs c _ hwf hok hj => mix_exec hwf hj hok }
  have hget : ∀ j : Nat, (os.map (opProg cfg ext))[j]? = (os[j]?).map (opProg cfg ext) := fun j => List.getElem?_map
  have key := runPar_wp I (sched := sched) (ps := os.map (opProg cfg ext)) hw
    (by
      intro j p hj
      rw [hget, Option.map_eq_some_iff] at hj
      obtain ⟨o, hoj, rfl⟩ := hj
      have hmem := List.mem_of_getElem? hoj
      rcases ho o hmem with ⟨i', rfl, h1, h2⟩ | h1
      · refine Safe.bind (Q := fun _ => True) ?_ fun _ _ => trivial
        have := safe_mixPut (cfg := cfg) (ext := ext) (bodies := uploadsTo i.bucket i.key os) (i := i') (cs := cs)
          (by rw [h1]; exact hb') (by rw [h2]; exact hk)
          (fun body hbody => by rw [← h1, ← h2]; exact mem_uploadsTo hmem hbody)
        rw [h1] at this
        exact this
      · refine (op_safe cfg ext o).mono ?_ fun _ h => h
        intro c hc
        have := away_ok (cfg := cfg) hb' hk h1 hc
        cases c with
        | writeAt j off x => exact fun e => absurd (.inl e) this
        | unlink p => exact fun e => this (.inl e)
        | rmdir p => exact fun e => this (.inl e)
        | rmtree p => exact fun e => this _ e (.inl rfl)
        | _ => trivial)
    (by
      intro j p hj
      rw [hget, Option.map_eq_some_iff] at hj
      obtain ⟨o, hoj, rfl⟩ := hj
      by_cases e : j = n
      · subst e
        rw [hn] at hoj
        cases hoj
        refine wp_opPut hR hw (wp_mixPut (ext := ext) hR hb' hk
          (fun body hbody => mem_uploadsTo (List.mem_of_getElem? hn) hbody) (fun _ _ h => h) hw) ?_ ?_ ?_ ?_
        · rintro e x y hr hwx hwy hq _ a ha
          cases ha
          obtain ⟨h1, body, h2, h3, h4⟩ := hq e rfl
          exact ⟨hr h1, body, h2, h3, by rw [h4]⟩
        all_goals (intros; intro _ a ha; cases ha)
      · exact wp_true _ _ fun _ _ _ h => absurd h e)
  simp only [answerAt, Option.bind_eq_some_iff] at h
  obtain ⟨p, hpp, hout⟩ := h
  obtain ⟨⟨c, h1, h2⟩, h3⟩ := wp_done hR (runPar_wf hw) (key n p hpp) hout rfl a rfl
  exact ⟨⟨c, by rw [hst]; exact h1, h2⟩, h3⟩

/-- an upload of `aaa/x` -/
def Sample.uploadX (body : Body) : PutInput :=
  { bucket := b!"aaa", key := b!"x", body := some body, contentLength := none, metadata := none, storageClass := none }

/-- C70 fails: after two uploads `aaaa` and `bb` that are both answered with success the object is `bbaa`; after `abcd` in two
fragments and an empty upload it is `cd` behind a hole of two zeros. -/
theorem C70_same_object_fails :
    ∃ (cfg : Cfg) (ext : Ext) (fs : FS) (b k : Bytes) (put : Body → Op) (s1 s2 : List Nat), WF fs ∧ LegalBucket b ∧
      PlainKey k [k] ∧ (∀ body, ∃ i, put body = .putObject i ∧ i.bucket = b ∧ i.key = k ∧ i.body = some body) ∧
      (∀ n, n < 2 → ∃ a, answerAt cfg ext s1 [put [some b!"aaaa"], put [some b!"bb"]] fs n = some (.ok a)) ∧
      stored cfg (runPar cfg s1 ([put [some b!"aaaa"], put [some b!"bb"]].map (opProg cfg ext)) fs).2 b k = some b!"bbaa" ∧
      (∀ n, n < 2 → ∃ a, answerAt cfg ext s2 [put [some b!"ab", some b!"cd"], put []] fs n = some (.ok a)) ∧
      stored cfg (runPar cfg s2 ([put [some b!"ab", some b!"cd"], put []].map (opProg cfg ext)) fs).2 b k
        = some [0, 0, 99, 100] := by
  refine ⟨Sample.cfg, Sample.ext, Sample.fs, b!"aaa", b!"x", fun body => .putObject (Sample.uploadX body),
    List.replicate 3 0 ++ List.replicate 3 1 ++ List.replicate 4 0 ++ List.replicate 4 1,
    List.replicate 4 0 ++ List.replicate 9 1 ++ List.replicate 4 0, Sample.fs_wf, Sample.legal (by decide +kernel), plain1 (by decide),
    fun body => ⟨_, rfl, rfl, rfl, rfl⟩, ?_, ?_, ?_, ?_⟩
  · intro n hn
    match n, hn with
    | 0, _ => exact ⟨_, rfl⟩
    | 1, _ => exact ⟨_, rfl⟩
  · decide +kernel
  · intro n hn
    match n, hn with
    | 0, _ => exact ⟨_, rfl⟩
    | 1, _ => exact ⟨_, rfl⟩
  · decide +kernel

/-- a race in which the theorem applies: two uploads to `aaa/x`, a deletion elsewhere -/
example :
    let os : List Op := [.putObject (Sample.uploadX [some b!"aaaa"]), .putObject (Sample.uploadX [some b!"bb"]),
      .deleteObject b!"bbb" b!"y"]
    let sched := [0, 1, 2, 0, 1, 2, 0, 1, 2, 1, 0, 0, 1, 1, 0]
    os[0]? = some (.putObject (Sample.uploadX [some b!"aaaa"])) ∧
    (∀ o ∈ os, (∃ i', o = .putObject i' ∧ i'.bucket = b!"aaa" ∧ i'.key = b!"x") ∨ OnOthers b!"aaa" (Away b!"aaa" b!"x") o) ∧
    uploadsTo b!"aaa" b!"x" os = [b!"aaaa", b!"bb"] ∧
    (∃ a, answerAt Sample.cfg Sample.ext sched os Sample.fs 0 = some (.ok a)) ∧
    stored Sample.cfg (runPar Sample.cfg sched (os.map (opProg Sample.cfg Sample.ext)) Sample.fs).2 b!"aaa" b!"x"
      = some b!"aaaa" := by
  refine ⟨rfl, ?_, by decide +kernel, ⟨_, rfl⟩, by decide +kernel⟩
  intro o ho
  simp only [List.mem_cons, List.not_mem_nil, or_false] at ho
  rcases ho with rfl | rfl | rfl
  · exact .inl ⟨_, rfl, rfl, rfl⟩
  · exact .inl ⟨_, rfl, rfl, rfl⟩
  · exact .inr ⟨Sample.legal (by decide +kernel), ⟨[b!"y"], plain1 (by decide)⟩, by decide⟩

end S3
