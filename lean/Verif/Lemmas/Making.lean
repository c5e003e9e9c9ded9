import Verif.Spec.Making
import Verif.Lemmas.DeletedBeside
import Verif.Props.DeletedBeside
/-! Helper lemmas for C144: the calls of a request that makes a folder. -/
namespace S3
open Spec

variable {cfg : Cfg} {ext : Ext}

/-- a request that makes a folder creates directories on the way to it and nothing else -/
theorem making_ok {i : PutInput} {k' : Bytes} {cs' : List Bytes} (hl : LegalBucket i.bucket) (hk : PlainKey k' cs')
    (ek : i.key = k' ++ b!"/") {c : Call} (hc : (opPerm cfg (.putObject i)).ok c) :
    writeOk (fun _ => False) (fun q => q <+: cfg.root ++ i.bucket :: cs') c := by
  have he : endsWithByte i.key 47 = true := endsWithByte_iff.mpr ⟨k', ek⟩
  obtain ⟨x, hp⟩ := objectPath_folder (cfg := cfg) ((C02_bucket_name_rule _).mpr hl) hk
  rw [← ek] at hp
  have hwr : ∀ p, ¬ (opPerm cfg (.putObject i)).wr p := by
    intro p h
    have := h.1
    rw [he] at this; cases this
  cases c with
  | mkdir p =>
    obtain ⟨p', ⟨y, hy, hyp⟩, hq⟩ := hc
    rw [hp] at hy
    cases hy
    rw [he, if_pos rfl, hyp] at hq
    exact .inl hq
  | create p => exact hwr _ hc
  | writeAt i => exact hwr _ hc
  | unlink p => exact (hc : False).elim
  | rmdir p => exact (hc : False).elim
  | rmtree p => exact (hc : False).elim
  | _ => trivial

theorem writeOk_wider {own up own' up' : Path → Prop} {c : Call} (h : writeOk own up c) (h1 : ∀ q, own q → own' q)
    (h2 : ∀ q, up q → up' q ∨ own' q) : writeOk own' up' c := by
  cases c with
  | mkdir p => exact h.elim (h2 _) fun h => .inr (h1 _ h)
  | create p => exact h1 _ h
  | writeAt i => exact h1 _ h
  | unlink p => exact h1 _ h
  | rmdir p => exact h1 _ h
  | rmtree p => exact fun q hq => h1 _ (h q hq)
  | _ => trivial

/-- a folder that is not below the object does not have it on its way -/
theorem clear_path {b k b' k' : Bytes} {cs cs' : List Bytes} (hk : PlainKey k cs) (hk' : PlainKey k' cs')
    (h : b' = b → ¬ Nested k (k' ++ b!"/")) : ¬ cfg.root ++ b :: cs <+: cfg.root ++ b' :: cs' := by
  intro hp
  rw [List.prefix_append_right_inj, List.cons_prefix_cons] at hp
  obtain ⟨rfl, hp⟩ := hp
  refine h rfl ?_
  rcases nested_of_prefix hk hk' hp with rfl | ⟨t, rfl⟩
  · exact ⟨[], rfl⟩
  · exact ⟨t ++ b!"/", by simp⟩

/-- requests that make folders elsewhere keep what an upload relies on -/
theorem growth_put {b k : Bytes} {cs : List Bytes} (hb : LegalBucket b) (hk : PlainKey k cs) {o : Op} (ho : Growth b k o) {fs : FS}
    (hw : WF fs) {c : Call} (hc : (opPerm cfg o).ok c) (f : Fault) :
    PutRely (cfg.root ++ b :: cs) (metaFile cfg b k) fs (execF cfg fs c f).2 := by
  rcases ho with ho | ho
  · exact execF_frame hw (apart_ok ((C02_bucket_name_rule _).mpr hb) hk ho hc) f
  · cases o with
    | putObject i =>
      obtain ⟨⟨hl, k', cs', hk', ek⟩, hn⟩ := ho
      rw [ek] at hn
      have hnp := clear_path (cfg := cfg) hk hk' hn
      have hm : ∀ q, q <+: cfg.root ++ i.bucket :: cs' → q ≠ metaFile cfg b k := by
        rintro q hq rfl
        exact meta_not_above hl hq
      refine execF_frame hw ?_ f
      refine writeOk_wider (making_ok hl hk' ek hc) (fun _ h => h.elim) fun q hq => ?_
      by_cases hqp : q <+: cfg.root ++ b :: cs
      · exact .inl ⟨hqp, fun e => hnp (e ▸ hq)⟩
      · exact .inr fun h => h.elim hqp (hm q hq)
    | _ => exact ho.elim

/-- requests that make folders elsewhere keep the region of a request -/
theorem alongside_keeps {o o' : Op} (ho : AboutObjects o) (h : Alongside o o') {fs : FS} (hw : WF fs) {c : Call}
    (hc : (opPerm cfg o').ok c) (f : Fault) : RegionRely (upRegion cfg o) (region cfg o) fs (execF cfg fs c f).2 := by
  rcases h with h | ⟨h, hcl⟩
  · exact elsewhere_frame ho h hc fun hx => execF_frame hw hx f
  · cases o' with
    | putObject i =>
      obtain ⟨hl, k', cs', hk', ek⟩ := h
      have hf := execF_frame (cfg := cfg) hw (making_ok hl hk' ek hc) f
      intro hd
      have hup : ∀ q, upRegion cfg o q → (execF cfg fs c f).2.lookup q = fs.lookup q := by
        intro q hq
        rcases hf.node q (fun h => h) with e | ⟨_, e, _⟩
        · exact e
        · rw [hd q hq] at e; cases e
      refine ⟨fun q hq => by rw [hup q hq, hd q hq], ?_, fun i _ => (hf.data i (fun h => h)).symm, fun q _ => (hf.gen q (fun h => h)).symm⟩
      rintro q (hq | ⟨b, k, cs, hu, hk, rfl | rfl⟩ | ⟨u, n, hu, rfl⟩)
      · exact (hup q hq).symm
      · rcases hf.node _ (fun h => h) with e | ⟨h1, _⟩
        · exact e.symm
        · have := (hcl b k hu).2
          rw [ek] at this
          exact absurd h1 (clear_path hk hk' this)
      · rcases hf.node _ (fun h => h) with e | ⟨h1, _⟩
        · exact e.symm
        · exact absurd h1 (meta_not_above hl)
      · rcases hf.node _ (fun h => h) with e | ⟨h1, _⟩
        · exact e.symm
        · exact absurd h1 (part_not_prefix ((C02_bucket_name_rule _).mpr hl))
    | _ => exact h.elim

end S3
