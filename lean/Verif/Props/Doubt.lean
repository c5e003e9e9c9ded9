import Verif.Lemmas.Doubt
import Verif.Props.UploadTree
/-! C136: what is certain after requests have broken off. -/
namespace S3
open Spec

variable {cfg : Cfg} {ext : Ext} {lib : Lib} {auth : Option Provider} {A : Bytes → Bytes → Prop} {place : Bytes → Bytes → List Bytes}
  {s t : Machine} {d : Doubt} {fs : FS} {w : PieceEpoch} {os : List Op}

/-! ### metadata files -/

/-- what a tidy request does to metadata files -/
theorem touch_meta {o : Op} (ht : Tidy o) {b k : Bytes} (h : opTouch cfg o (metaFile cfg b k)) : Records o b k := by
  have hpt : ∀ {u' n'}, (47 : UInt8) ∉ u' → partP cfg u' n' (metaFile cfg b k) → False := by
    rintro u' n' hu ⟨p, hp, hq⟩
    rw [partPath_eq cfg hu] at hp
    cases hp
    exact metaFile_ne_partFile (cfg := cfg) hq
  have hm : ∀ {b' k'}, metaP cfg b' k' (metaFile cfg b k) → (b, k) = (b', k') := fun h => by
    obtain ⟨rfl, rfl⟩ := metaFile_inj (cfg := cfg) h; rfl
  have ho : ∀ {b' k'}, PlainAddress b' k' → objP cfg b' k' (metaFile cfg b k) → False := by
    rintro b' k' ⟨hb, cs, hk⟩ hx
    have hb' := (C02_bucket_name_rule _).mpr hb
    exact meta_not_prefix hb' (pfx_of_eq ((objP_plain hb' hk).mp hx))
  rcases h with (hx | hx | hx) | ⟨p, hx, hp⟩
  · cases o <;> simp only [opPerm] at hx
    case copyObject => exact hx.elim (fun h => (ho ht h).elim) hm
    case putObject i =>
      refine hx.2.elim (fun h => (ho ht h).elim) fun h => ⟨hm h.2, fun e => ?_⟩
      have := h.1
      rw [e] at this
      cases this
    case uploadPart => exact (hpt ht hx).elim
    case completeMultipartUpload => exact (ho ht.1 hx).elim
  · cases o <;> simp only [opPerm] at hx
    case deleteObject => exact (ho ht hx.2).elim
    case deleteObjects => obtain ⟨k, hk, hx⟩ := hx; exact (ho (ht k hk) hx).elim
    case completeMultipartUpload =>
      obtain ⟨l, m, h1, h2, hx⟩ := hx
      exact (hpt ht.2 hx).elim
  · cases o <;> simp only [opPerm] at hx
    case deleteObject => exact (ho ht hx.2).elim
  · cases o <;> simp only [opPerm] at hx
    case deleteBucket b' =>
      obtain ⟨p', hp', rfl⟩ := hx
      have hb := (C02_bucket_name_rule _).mpr ht.1
      rw [bucketPath_legal cfg hb] at hp'
      cases hp'
      exact (bucket_not_meta hb hp).elim

theorem up_meta {o : Op} (ht : Tidy o) {b k : Bytes} {q : Path} (h : (opPerm cfg o).up q) : q ≠ metaFile cfg b k := by
  rintro rfl
  rcases up_cases (fun _ _ h => ⟨(C02_bucket_name_rule _).mpr h.1, h.2⟩) ht h with ⟨b', k', cs', ha, hb', hk', hp⟩ | ⟨b', hb', e⟩
  · exact meta_not_prefix hb' hp
  · exact metaFile_ne_bucket cfg b k hb' e

theorem ok_meta {o : Op} (ht : Tidy o) {b k : Bytes} (h : ¬ Records o b k) {c : Call} (hc : (opPerm cfg o).ok c) :
    writeOk (· ≠ metaFile cfg b k) (· ≠ metaFile cfg b k) c := by
  have hk := ok_apart (fun hx => h (touch_meta ht hx)) hc
  cases c with
  | mkdir p => exact .inl (up_meta ht hc)
  | _ => exact hk

/-- metadata nobody records stays -/
theorem round_record (hp : PlainPlaces A place) (h : Embodies cfg ext A place s fs) (ht : Together cfg ext lib auth A place s w os) {b k : Bytes}
    (hu : ∀ o ∈ os, Watching o ∨ ¬ Records o b k) : storedMeta cfg ext (w.leaves cfg fs) b k = storedMeta cfg ext fs b k := by
  have hF : Frame (· ≠ metaFile cfg b k) (· ≠ metaFile cfg b k) fs (w.leaves cfg fs) := by
    refine round_inv hp ht (J := fun t => Frame (· ≠ metaFile cfg b k) (· ≠ metaFile cfg b k) fs t) (fun o ho _ t c f htw hj hc => ?_) h.wf (.refl ..)
    rcases ht.known o ho with hw | ⟨_, ha⟩
    · rw [execF_reading (round_watching_ok hw hc)]; exact hj
    · refine hj.trans (execF_frame htw (ok_meta ha.1 (fun hx => ?_) hc) f)
      rcases hu o ho with hw | hu
      · cases o <;> first | exact hw.elim | exact hx.elim
      · exact hu hx
  show metaAt ext _ (metaFile cfg b k) = metaAt ext _ (metaFile cfg b k)
  rcases hF.node (metaFile cfg b k) (fun h => h rfl) with e | ⟨hx, _⟩
  · simp only [metaAt, e]
    split
    · rfl
    · rfl
    · rename_i i hi
      rw [hF.data i (fun h' => h' (h.wf.ino _ _ hi).1)]
  · exact absurd rfl hx

theorem machine_unrecorded {b k : Bytes} : ∀ {l : List Op} {s : Machine}, (∀ o ∈ l, Watching o ∨ AboutObjects o ∧ ¬ Records o b k) →
    (s.afterAll place l).record b k = s.record b k
  | [], _, _ => rfl
  | o :: l, s, h => by
    have h1 := machine_unrecorded (s := s.after place o) fun o' h' => h o' (List.mem_cons_of_mem _ h')
    refine h1.trans ?_
    rcases h o (List.mem_cons_self ..) with hw | ⟨hab, hu⟩
    · rw [watching_after hw]
    · by_cases hput : ∃ i, o = .putObject i
      · obtain ⟨i, rfl⟩ := hput
        by_cases e : (b, k) = (i.bucket, i.key)
        · have hm : i.metadata = none := by
            cases hm : i.metadata with
            | none => rfl
            | some m => exact absurd ⟨e, by rw [hm]; simp⟩ hu
          simp only [Machine.after, hm]
          split
          · rfl
          · split <;> rfl
        · exact ((after_untouched (place := place) hab s).record _ _ fun hc => e hc).symm
      · by_cases hcomp : ∃ b' k' u l', o = .completeMultipartUpload b' k' u l'
        · obtain ⟨b', k', u, l', rfl⟩ := hcomp
          cases l' with
          | none => rfl
          | some l' => simp only [Machine.after]; split <;> rfl
        · refine ((after_untouched (place := place) hab s).record _ _ fun hc => ?_).symm
          cases o <;> simp only [Writes] at hc
          case putObject i => exact hput ⟨i, rfl⟩
          case copyObject => exact hu hc
          case completeMultipartUpload => exact hcomp ⟨_, _, _, _, rfl⟩

/-! ### objects -/

theorem away_of_unchanged (hp : PlainPlaces A place) {b k : Bytes} {o : Op} (h : Watching o ∨ (Served A o ∧ AboutObjects o) ∧ ¬ Changes o b k) :
    OnOthers b (Away b k) o := by
  rcases h with h | ⟨⟨hs, ha⟩, hu⟩
  · cases o <;> first | exact h.elim | trivial
  · have away : ∀ {b' k'}, A b' k' → (Changes o b' k') → Away b k b' k' := fun {b' k'} hA hU => by
      obtain ⟨h1, cs, h2, _⟩ := hp b' k' hA
      exact ⟨h1, ⟨cs, h2⟩, fun e => hu (by cases e; exact hU)⟩
    have hk := ha.2.2
    cases o <;> simp only at hk
    case putObject => exact away hs.1 (.inl rfl)
    case copyObject => exact away hs.1 (.inl rfl)
    case deleteObject => exact away hs (.inr (.inr rfl))
    case deleteObjects => exact fun k' hk' => away (hs k' hk') (.inr (.inl ⟨_, rfl, hk'⟩))
    case completeMultipartUpload => exact ⟨away hs.1 (.inl rfl), hs.2⟩
    case uploadPart => exact hs.1
    all_goals trivial

theorem machine_unchanged (hp : PlainPlaces A place) {b k : Bytes} (ha : A b k) : ∀ {l : List Op} {s : Machine},
    (∀ o ∈ l, Watching o ∨ (Served A o ∧ AboutObjects o) ∧ ¬ Changes o b k) → (s.afterAll place l).bytes (place b k) = s.bytes (place b k)
  | [], _, _ => rfl
  | o :: l, s, h => by
    have h1 := machine_unchanged hp ha (s := s.after place o) fun o' h' => h o' (List.mem_cons_of_mem _ h')
    refine h1.trans ?_
    rcases h o (List.mem_cons_self ..) with hw | ⟨⟨hs, hab⟩, hu⟩
    · rw [watching_after hw]
    · refine ((after_untouched (place := place) hab s).bytes _ fun b' k' hc => ?_).symm
      have hu' := changes_uses hc
      exact fun e => hu (by cases place_inj hp ha (served_uses hs hu') e; exact hc)

/-! ### a round that breaks off -/

open Classical in
/-- the state a file tree shows, where it shows one; elsewhere that of `s` -/
noncomputable def shownBy (cfg : Cfg) (ext : Ext) (A : Bytes → Bytes → Prop) (place : Bytes → Bytes → List Bytes) (fs : FS) (s : Machine) : Machine where
  bytes p := if ∃ b k, A b k ∧ p = place b k then contentAt fs (cfg.root ++ p) else s.bytes p
  folder q := if Way A place q then decide (IsDir fs (cfg.root ++ q)) else s.folder q
  record b k := if A b k → storedMeta cfg ext fs b k = (s.record b k).found then s.record b k
    else match storedMeta cfg ext fs b k with
      | none => .unreadable
      | some none => .absent
      | some (some m) => .is m
  parts u n := if (47 : UInt8) ∈ u then s.parts u n else contentAt fs (partFile cfg u n)

open Classical in
theorem shownBy_embodies (hw : WF fs) (hroot : IsDir fs cfg.root) (hfree : ∀ b k, A b k → ¬ IsDir fs (cfg.root ++ place b k))
    (hno : ∀ b k, A b k → ¬ IsDir fs (cfg.root ++ [metadataName b k])) (hways : ∀ q, Way A place q → contentAt fs (cfg.root ++ q) = none)
    (hparts : ∀ u n, (47 : UInt8) ∉ u → ¬ IsDir fs (cfg.root ++ [partName u n])) : Embodies cfg ext A place (shownBy cfg ext A place fs s) fs := by
  refine ⟨hw, hroot, fun b k ha => ?_, hfree, fun b k ha => ?_, hno, fun q hq => ⟨?_, hways q hq⟩, fun u n hu => ⟨?_, hparts u n hu⟩⟩
  · simp only [shownBy]; rw [if_pos ⟨b, k, ha, rfl⟩]
  · simp only [shownBy]
    split
    · rename_i h; exact h ha
    · rcases storedMeta cfg ext fs b k with _ | _ | m <;> rfl
  · simp only [shownBy]; rw [if_pos hq]; exact (decide_eq_true_iff).symm
  · simp only [shownBy]; rw [if_neg hu]; rfl

open Classical in
theorem shownBy_agrees (hb : ∀ b k, A b k → ¬ d.bytes (place b k) → contentAt fs (cfg.root ++ place b k) = s.bytes (place b k))
    (hr : ∀ b k, A b k → ¬ d.record b k → storedMeta cfg ext fs b k = (s.record b k).found)
    (hf : ∀ q, Way A place q → ¬ d.folder q → (IsDir fs (cfg.root ++ q) ↔ s.folder q = true))
    (hpt : ∀ u n, (47 : UInt8) ∉ u → ¬ d.parts u n → contentAt fs (partFile cfg u n) = s.parts u n) :
    d.Agrees s (shownBy cfg ext A place fs s) := by
  refine ⟨fun p hp => ?_, fun b k hp => ?_, fun u n hp => ?_, fun q hp => ?_⟩ <;> simp only [shownBy]
  · split
    · rename_i h; obtain ⟨b, k, ha, rfl⟩ := h; exact hb b k ha hp
    · rfl
  · rw [if_pos fun ha => hr b k ha hp]
  · split
    · rfl
    · rename_i h; exact hpt u n h hp
  · split
    · rename_i h
      cases hs : s.folder q with
      | true => exact decide_eq_true ((hf q h hp).mpr hs)
      | false => exact decide_eq_false fun hd => by rw [(hf q h hp).mp hd] at hs; cases hs
    · rfl

/-- Requests served at the same time, some of which break off: the file tree shows a state of the machine, which differs from that after all of
them only in what those that broke off were about. -/
theorem round_breaks (hl : MetaLaw ext) (he : ext.metaDec [] = none) (hS : Spelled cfg.root A place) (hp : PlainPlaces A place)
    (h : Embodies cfg ext A place s fs) (ht : Together cfg ext lib auth A place s w os) {l : List Op} (hperm : l.Perm os) :
    ∃ t, Embodies cfg ext A place t (w.leaves cfg fs) ∧ (Doubt.left place (BrokenOff cfg w os fs)).Agrees (s.afterAll place l) t := by
  have hw' : WF (w.leaves cfg fs) := piece_wf ht.serves h.wf
  -- a settled request that does more than read
  have one : ∀ {n : Nat} {o : Op}, os[n]? = some o → ¬ Watching o → Settled cfg w fs n →
      Embodies cfg ext A place (s.after place o) (after cfg ext o fs) ∧ Same place o (s.after place o) (s.afterAll place l) ∧
      (∀ b k, Uses o b k → stored cfg (w.leaves cfg fs) b k = stored cfg (after cfg ext o fs) b k ∧
        storedMeta cfg ext (w.leaves cfg fs) b k = storedMeta cfg ext (after cfg ext o fs) b k) ∧
      (∀ u m, UsesPart o u m → contentAt (w.leaves cfg fs) (partFile cfg u m) = contentAt (after cfg ext o fs) (partFile cfg u m)) ∧
      ∀ i, o = .putObject i → Acceptable i → IsDir (w.leaves cfg fs) (cfg.root ++ (place i.bucket i.key).dropLast) := by
    intro n o hn hnw hset
    have hom := List.mem_of_getElem? hn
    obtain ⟨hs, ha, hoth⟩ := ht.undisturbed hn hnw
    obtain ⟨x, hx, hax⟩ := ht.request hn
    refine ⟨C131_step hl he hS h (.inl hs), ?_, ?_⟩
    · have hin : o ∈ l := hperm.mem_iff.mpr hom
      obtain ⟨pre, post, rfl⟩ := List.append_of_mem hin
      have hpw : (pre ++ o :: post).Pairwise Independent := (hperm.pairwise_iff Independent.symm).mpr ht.apart
      refine afterAll_local hp hs ha (fun o' ho' => ⟨?_, ?_⟩) (ht.folders o hom)
      · refine ht.known o' (hperm.mem_iff.mp ?_)
        simp only [List.mem_append, List.mem_cons] at ho' ⊢
        exact ho'.imp id .inr
      · have hpw' : (o :: (pre ++ post)).Pairwise Independent :=
          (List.perm_middle.pairwise_iff Independent.symm).mp hpw
        exact ((List.pairwise_cons.mp hpw').1 o' ho').1.resolve_left hnw
    · obtain ⟨hok, r, hr⟩ := hset
      exact (round_alone hS hp h ht hx hn (ht.undisturbed hn hnw) hok hr).2
  have settled : ∀ {n : Nat} {o : Op}, os[n]? = some o → ¬ Watching o → ¬ BrokenOff cfg w os fs o → Settled cfg w fs n := fun hn hnw hb =>
    Classical.byContradiction fun hs => hb ⟨_, hn, hnw, hs⟩
  -- the requests that are not about something
  have others : ∀ {P : Op → Prop}, (¬ ∃ (n : Nat) (o : Op), os[n]? = some o ∧ ¬ Watching o ∧ P o) →
      ∀ o ∈ os, Watching o ∨ (Served A o ∧ AboutObjects o) ∧ ¬ P o := fun hex o ho => by
    rcases ht.known o ho with hw | hs
    · exact .inl hw
    · by_cases hw : Watching o
      · exact .inl hw
      · obtain ⟨n, hn⟩ := List.getElem?_of_mem ho
        exact .inr ⟨hs, fun hu => hex ⟨n, o, hn, hw, hu⟩⟩
  have made : ∀ {d}, ¬ Way A place d → IsDir (w.leaves cfg fs) (cfg.root ++ d) → IsDir fs (cfg.root ++ d) := fun hnw hd =>
    (round_makes hS hp h ht hd).elim id fun ⟨i, hi, _, hon⟩ => absurd (.inl ⟨i.bucket, i.key, ht.writes hi rfl, hon⟩) hnw
  refine ⟨shownBy cfg ext A place (w.leaves cfg fs) (s.afterAll place l),
    shownBy_embodies hw' ?_ (fun b k hA hd => h.free b k hA (made (fun hq => way_not_place hS hq hA rfl) hd))
      (fun b k hA hd => h.noDir b k hA (made (fun hq => head_ne_meta (cfg := cfg) (way_head hS hq) b k rfl) hd))
      (fun q hq => round_ways hS hp h ht hq)
      (fun u n hu hd => (h.parts u n hu).2 (made (fun hq => head_ne_part (cfg := cfg) (way_head hS hq) u n rfl) hd)),
    shownBy_agrees (fun b k hA hd => ?_) (fun b k hA hd => ?_) (fun q hq hd => ?_) (fun u n hu hd => ?_)⟩
  · have := round_keeps hp h ht (d := [])
    rw [List.append_nil] at this
    exact this h.root
  · rw [← stored_names (hS.names b k hA)]
    by_cases hex : ∃ (n : Nat) (o : Op), os[n]? = some o ∧ ¬ Watching o ∧ Changes o b k
    · obtain ⟨n, o, hn, hnw, hc⟩ := hex
      obtain ⟨h1, h2, h3, _, _⟩ := one hn hnw (settled hn hnw fun hb => hd ⟨o, b, k, hb, hc, rfl⟩)
      have hu := changes_uses hc
      rw [(h3 b k hu).1, ← h2.bytes b k hu, stored_names (hS.names b k hA)]
      exact h1.bytes b k hA
    · have hall := others hex
      obtain ⟨hb, cs, hk, _⟩ := hp b k hA
      obtain ⟨h1, _⟩ := C129_kept (cfg := cfg) (ext := ext) (lib := lib) (auth := auth) (ws := [w]) hb hk
        (fun w' hw' => by obtain rfl := List.mem_singleton.mp hw'; exact ht.serves)
        (fun w' hw' y hy => by
          rcases round_calls ht w' hw' y hy with ⟨o, ho, ha⟩ | hr
          · exact .inl ⟨o, away_of_unchanged hp (hall o ho), ha⟩
          · exact .inr hr) h.wf
      rw [machine_unchanged hp hA fun o ho => hall o (hperm.mem_iff.mp ho)]
      refine h1.trans ?_
      rw [stored_names (hS.names b k hA)]; exact h.bytes b k hA
  · by_cases hex : ∃ (n : Nat) (o : Op), os[n]? = some o ∧ ¬ Watching o ∧ Records o b k
    · obtain ⟨n, o, hn, hnw, hc⟩ := hex
      obtain ⟨h1, h2, h3, _, _⟩ := one hn hnw (settled hn hnw fun hb => hd ⟨o, hb, hc⟩)
      have hu : Uses o b k := by
        cases o <;> simp only [Records] at hc
        case putObject => exact hc.1
        case copyObject => exact .inl hc
      rw [(h3 b k hu).2, ← h2.record b k hu]
      exact h1.record b k hA
    · have hall := others hex
      rw [round_record hp h ht fun o ho => (hall o ho).imp id (·.2),
        machine_unrecorded fun o ho => (hall o (hperm.mem_iff.mp ho)).imp id fun h => ⟨h.1.2, h.2⟩]
      exact h.record b k hA
  · rw [machine_folder fun o ho => (ht.known o (hperm.mem_iff.mp ho)).imp id (·.2), ← (h.folders q hq).1]
    constructor
    · exact fun hd => (round_makes hS hp h ht hd).imp id fun ⟨i, hi, h'⟩ => ⟨i, hperm.mem_iff.mpr hi, h'⟩
    · rintro (hd' | ⟨i, hi, hacc, hon⟩)
      · exact round_keeps hp h ht hd'
      · obtain ⟨n, hn⟩ := List.getElem?_of_mem (hperm.mem_iff.mp hi)
        have hd' := (one hn (fun h => h) (settled hn (fun h => h) fun hb => hd ⟨i, hb, hon⟩)).2.2.2.2 i rfl hacc
        have hpre := dropLast_eq_of_prefix (q := place i.bucket i.key) (by rintro e; rw [e, onTheWay_iff] at hon; exact hon.2 (List.prefix_nil.mp hon.1))
          (onTheWay_iff.mp hon).1 (onTheWay_iff.mp hon).2
        by_cases e : q = (place i.bucket i.key).dropLast
        · rw [e]; exact hd'
        · exact hw'.above hd' (List.prefix_append_right_inj .. |>.mpr hpre) fun e' => e (List.append_cancel_left e')
  · by_cases hex : ∃ (m : Nat) (o : Op), os[m]? = some o ∧ ¬ Watching o ∧ UsesPart o u n
    · obtain ⟨m, o, hm, hnw, hup⟩ := hex
      obtain ⟨h1, h2, _, h3, _⟩ := one hm hnw (settled hm hnw fun hb => hd ⟨o, hb, hup⟩)
      rw [← h2.parts u n hup]
      exact (h3 u n hup).trans (h1.parts u n hu).1
    · have hall := others hex
      rw [machine_unused_part fun o ho => (hall o (hperm.mem_iff.mp ho)).imp id fun h => ⟨h.1.2, h.2⟩]
      exact (round_part hp h ht fun o ho => (hall o ho).imp id (·.2)).trans (h.parts u n hu).1

/-! ### the theorems -/

/-- **C136** Requests are served at the same time, cut into pieces, on a disk that may fail, and the server is stopped at any moment. Then the
file tree shows a state of the machine that agrees with that of the machine that has done all of them, in any order, except for what those
requests were about that were not answered or whose own calls failed. -/
theorem C136_cut (hl : MetaLaw ext) (he : ext.metaDec [] = none) (hS : Spelled cfg.root A place) (hp : PlainPlaces A place)
    (h : Embodies cfg ext A place s fs) (ht : Together cfg ext lib auth A place s w os) {order : List Op} (hperm : order.Perm os) :
    ∃ t, Embodies cfg ext A place t (w.leaves cfg fs) ∧ (Doubt.left place (BrokenOff cfg w os fs)).Agrees (s.afterAll place order) t :=
  round_breaks hl he hS hp h ht hperm

theorem together_of (ht : Together cfg ext lib auth A place s w os) (ha : d.Agrees s t)
    (hd : ∀ o ∈ os, ∀ b k, NeedsFolder o b k → ¬ d.folder (place b k).dropLast) : Together cfg ext lib auth A place t w os :=
  ⟨ht.serves, ht.count, ht.asks, ht.known, fun o ho b k hn => (ha.folder _ (hd o ho b k hn)).trans (ht.folders o ho b k hn), ht.apart⟩

theorem fair_step (hl : MetaLaw ext) (he : ext.metaDec [] = none) (hS : Spelled cfg.root A place) (hp : PlainPlaces A place)
    (h : Embodies cfg ext A place t fs) (ha : d.Agrees s t) {r : Round} (hr : r.Fair cfg ext lib auth A place s d) :
    ∃ t', Embodies cfg ext A place t' (r.leaves cfg ext lib auth fs) ∧ (r.doubt cfg place d fs).Agrees (s.afterAll place r.ops) t' := by
  cases r with
  | alone x o =>
    obtain ⟨⟨c, hc, hq⟩, ho⟩ := hr
    have := C131_step hl he hS h ho
    rw [← (responded_of (cfg := cfg) (ext := ext) hc hq x.texts fs).1] at this
    exact ⟨_, this, doubt_after ha o⟩
  | together w os =>
    obtain ⟨t', h1, h2⟩ := C136_cut hl he hS hp h (together_of hr.1 ha hr.2) (.refl _)
    exact ⟨t', h1, (doubt_afterAll os ha).or h2⟩

/-- **C136** The same for a history of rounds, any of which may break off: what is in doubt is what the requests that broke off were about,
as far as later requests have not settled it, and what copies, completions and deletions of several objects have made of it. -/
theorem C136_history (hl : MetaLaw ext) (he : ext.metaDec [] = none) (hS : Spelled cfg.root A place) (hp : PlainPlaces A place) {rs : List Round} :
    ∀ {s t : Machine} {d : Doubt} {fs : FS}, Embodies cfg ext A place t fs → d.Agrees s t → FairRounds cfg ext lib auth A place rs s d fs →
    ∃ t', Embodies cfg ext A place t' (afterRounds cfg ext lib auth rs fs) ∧
      (doubtAfter cfg ext lib auth place rs d fs).Agrees (s.afterRounds place rs) t' := by
  induction rs with
  | nil => exact fun h ha _ => ⟨_, h, ha⟩
  | cons r rs ih =>
    intro s t d fs h ha hr
    obtain ⟨t', h1, h2⟩ := fair_step hl he hS hp h ha hr.1
    exact ih h1 h2 hr.2

theorem fair_split {rs : List Round} {r : Round} {rest : List Round} : ∀ {s : Machine} {d : Doubt} {fs : FS},
    FairRounds cfg ext lib auth A place (rs ++ r :: rest) s d fs → FairRounds cfg ext lib auth A place rs s d fs ∧
      r.Fair cfg ext lib auth A place (s.afterRounds place rs) (doubtAfter cfg ext lib auth place rs d fs) := by
  induction rs with
  | nil => exact fun h => ⟨trivial, h.1⟩
  | cons r' rs ih => exact fun h => ⟨⟨h.1, (ih h.2).1⟩, (ih h.2).2⟩

theorem spares_shown {o : Op} (ho : d.Spares place o) {b k : Bytes} (h : Shown o b k) : ¬ d.record b k := by
  cases o <;> simp only [Shown] at h <;> first | exact h.elim | (cases h; exact ho.2)

/-- **C136** In such a history, from an empty storage directory, every request that depends on nothing in doubt gets the response that shows
the answer of the machine: if it is served alone, or together with others that do not disturb it and without a failure of its own calls. -/
theorem C136_client (hl : MetaLaw ext) (he : ext.metaDec [] = none) (hmd5 : ∀ s, CleanText (quoted (ext.md5hex s)))
    (hS : Spelled cfg.root A place) (hp : PlainPlaces A place) (hw : WF fs) (hroot : IsDir fs cfg.root)
    (hempty : ∀ q, q ≠ [] → fs.lookup (cfg.root ++ q) = none) {rs : List Round} {r : Round} {rest : List Round}
    (hr : FairRounds cfg ext lib auth A place (rs ++ r :: rest) Machine.fresh .none fs)
    (hsend : ∀ r ∈ rs, ∀ o ∈ r.ops, (Served A o ∧ Sends o) ∨ Watching o) {x : Exchange} {o : Op}
    (hd : (doubtAfter cfg ext lib auth place rs .none fs).Spares place o) (hdoc : Documented x.req o) (hm : CleanMessage x.texts) :
    (r = .alone x o → Served A o → ∃ res a, responded cfg ext lib auth x.env x.texts x.req (afterRounds cfg ext lib auth rs fs) = .ok res ∧
      (Machine.fresh.afterRounds place rs).answer ext place o = some a ∧ Renders res o a) ∧
    ∀ w os n, r = .together w os → w.requests[n]? = some x → os[n]? = some o → (¬ Watching o ∨ Undisturbed A os n o) →
      (∀ f, (n, .call f) ∈ w.strides → f = .none) → ∀ t, w.response cfg (afterRounds cfg ext lib auth rs fs) n = some t →
        ∃ res a, t = .ok res ∧ (Machine.fresh.afterRounds place rs).answer ext place o = some a ∧ Renders res o a := by
  obtain ⟨h1, h2⟩ := fair_split hr
  obtain ⟨t', h, ha⟩ := C136_history hl he hS hp (embodies_fresh hS hw hroot hempty) (.refl _ _) h1
  have hrec : SendableRecords A (Machine.fresh.afterRounds place rs) := rounds_records (fun _ _ _ _ hr => nomatch hr) hsend
  have hsh : Served A o → SendableRecords (Shown o) t' := fun ho b k m hk e =>
    hrec b k m (shown_served ho hk) ((ha.record b k (spares_shown hd hk)).symm.trans e)
  rw [← spares_answer ha hd]
  refine ⟨?_, ?_⟩
  · rintro rfl ho
    exact machine_renders he hmd5 hS h (hsh ho) h2.1 ho hdoc hm
  · rintro w os n rfl hn ho hu hok t ht
    exact round_response he hmd5 hS hp h (together_of h2.1 ha h2.2)
      (hsh (hu.elim (fun hw => (h2.1.undisturbed ho hw).1) (·.1))) hn ho hok hu ht hdoc hm

/-! ### the hypotheses are met -/

/-- two uploads at the same time; the server is stopped when the first one is answered and the second one has written a part of its object -/
def Sample.cutRun : PieceEpoch := Sample.roundRun [Sample.pairPut b!"d/x" b!"one", Sample.pairPut b!"d/y" b!"two"]
  (List.replicate 5 (1, .call .none) ++ List.replicate 24 (0, .call .none))

theorem Sample.cut_together : Together Sample.cfg (realExt id) Sample.lib none Sample.pair Sample.pairAt Machine.fresh Sample.cutRun
    Sample.pairOps :=
  ⟨Sample.roundRun_serves _ _, Sample.pair_together.count, Sample.pair_together.asks, Sample.pair_together.known, Sample.pair_together.folders,
    Sample.pair_together.apart⟩

/-- then the second upload is sent again -/
def Sample.cutRounds : List Round :=
  [.together Sample.cutRun Sample.pairOps, .alone (Sample.pairPut b!"d/y" b!"two") (.putObject (Sample.pairInput b!"d/y" b!"two"))]

/-- and its object is asked for -/
def Sample.pairGet : Exchange := Sample.exchange (Sample.plain b!"GET" b!"/aaa/d/y" none [] [])

theorem Sample.pairGet_asks : Asks Sample.lib none Sample.pairGet (.getObject b!"aaa" b!"d/y" none Sample.env.wants) :=
  Sample.asks (by decide +kernel) (.getObject rfl (Sample.at_object rfl (by decide +kernel) (by decide +kernel) (by decide) (by decide))
    (Sample.selects_none rfl) (Sample.no_header (by decide +kernel)))

/-- only the second one broke off -/
theorem Sample.cut_broken {o : Op} (h : BrokenOff Sample.cfg Sample.cutRun Sample.pairOps Sample.emptyStore o) :
    o = .putObject (Sample.pairInput b!"d/y" b!"two") := by
  obtain ⟨n, hn, _, hs⟩ := h
  rcases n with _ | _ | n
  · refine absurd ⟨fun f hf => ?_, Option.isSome_iff_exists.mp (by decide +kernel)⟩ hs
    simp [Sample.cutRun, Sample.roundRun] at hf
    exact hf
  · cases hn; rfl
  · cases hn

/-- After the stop there is a part of the second object, and it is in doubt; the first object is not. When the second upload has been sent
again nothing is in doubt for those who ask for the objects. -/
example : FairRounds Sample.cfg (realExt id) Sample.lib none Sample.pair Sample.pairAt
      (Sample.cutRounds ++ [.alone Sample.pairGet (.getObject b!"aaa" b!"d/y" none Sample.env.wants)]) Machine.fresh .none Sample.emptyStore ∧
    (∀ r ∈ Sample.cutRounds, ∀ o ∈ r.ops, (Served Sample.pair o ∧ Sends o) ∨ Watching o) ∧
    stored Sample.cfg (Sample.cutRun.leaves Sample.cfg Sample.emptyStore) b!"aaa" b!"d/y" = some b!"t" ∧
    (doubtAfter Sample.cfg (realExt id) Sample.lib none Sample.pairAt (Sample.cutRounds.take 1) .none Sample.emptyStore).Spares Sample.pairAt
      (.getObject b!"aaa" b!"d/x" none Sample.env.wants) ∧
    ¬ (doubtAfter Sample.cfg (realExt id) Sample.lib none Sample.pairAt (Sample.cutRounds.take 1) .none Sample.emptyStore).Spares Sample.pairAt
      (.getObject b!"aaa" b!"d/y" none Sample.env.wants) ∧
    (doubtAfter Sample.cfg (realExt id) Sample.lib none Sample.pairAt Sample.cutRounds .none Sample.emptyStore).Spares Sample.pairAt
      (.getObject b!"aaa" b!"d/y" none Sample.env.wants) ∧
    (Sample.webStatus (some (responded Sample.cfg (realExt id) Sample.lib none Sample.pairGet.env Sample.pairGet.texts Sample.pairGet.req
      (afterRounds Sample.cfg (realExt id) Sample.lib none Sample.cutRounds Sample.emptyStore)))).map Prod.fst = some 200 := by
  have hb : (Doubt.none.afterAll Sample.pairAt Sample.pairOps).bytes = fun _ => False := by
    funext p; simp [Doubt.afterAll, Sample.pairOps, Doubt.after, Doubt.none, Sample.pairInput, classKnown]
  have hr : (Doubt.none.afterAll Sample.pairAt Sample.pairOps).record = fun _ _ => False := by
    funext b k; simp [Doubt.afterAll, Sample.pairOps, Doubt.after, Doubt.none, Sample.pairInput, classKnown]
  have nr : ∀ b k, ¬ ((Doubt.none.afterAll Sample.pairAt Sample.pairOps).or
      (.left Sample.pairAt (BrokenOff Sample.cfg Sample.cutRun Sample.pairOps Sample.emptyStore))).record b k := by
    rintro b k (h | ⟨o, ho, h⟩)
    · rw [hr] at h; exact h
    · rw [Sample.cut_broken ho] at h; exact h.2 rfl
  refine ⟨⟨⟨Sample.cut_together, fun o ho b k hn => ?_⟩, ⟨Sample.pair_asks (.inr rfl), .inl ⟨(by decide : _ ∈ _), fun m hm => nomatch hm⟩⟩,
      ⟨Sample.pairGet_asks, .inl (by decide : _ ∈ _)⟩, trivial⟩, ?_, by decide +kernel, ⟨?_, nr _ _⟩, fun h => h.1 (.inr ⟨_, _, _, ⟨1, rfl, fun h => h, ?_⟩, .inl rfl, by decide +kernel⟩),
    ⟨?_, ?_⟩, by decide +kernel⟩
  · simp only [Sample.pairOps, List.mem_cons, List.not_mem_nil, or_false] at ho
    rcases ho with rfl | rfl <;> exact hn.elim
  · have hx : ∀ k body, (k, body) ∈ [(b!"d/x", b!"one"), (b!"d/y", b!"two")] →
        Served Sample.pair (.putObject (Sample.pairInput k body)) ∧ Sends (.putObject (Sample.pairInput k body)) := by
      intro k body hk
      simp only [List.mem_cons, Prod.mk.injEq, List.not_mem_nil, or_false] at hk
      rcases hk with ⟨rfl, rfl⟩ | ⟨rfl, rfl⟩ <;>
        exact ⟨⟨(by decide : _ ∈ _), fun m hm => nomatch hm⟩, fun m hm => nomatch hm⟩
    intro r hr o ho
    simp only [Sample.cutRounds, List.mem_cons, List.not_mem_nil, or_false] at hr
    rcases hr with rfl | rfl
    · simp only [Round.ops, Sample.pairOps, List.mem_cons, List.not_mem_nil, or_false] at ho
      rcases ho with rfl | rfl <;> exact .inl (hx _ _ (by decide))
    · obtain rfl := List.mem_singleton.mp ho
      exact .inl (hx _ _ (by decide))
  · rintro (h | ⟨o, b, k, ho, h, e⟩)
    · rw [hb] at h; exact h
    · rw [Sample.cut_broken ho] at h
      rcases h with h | ⟨_, h, _⟩ | h
      · cases h; exact absurd e (by decide +kernel)
      · cases h
      · cases h
  · rintro ⟨_, h⟩
    have := Option.isSome_iff_exists.mpr h
    exact absurd this (by decide +kernel)
  · intro h
    simp only [doubtAfter, Sample.cutRounds, Round.doubt, Doubt.after, Sample.pairInput] at h
    rw [if_neg (by decide +kernel)] at h
    exact h.2 rfl
  · intro h
    simp only [doubtAfter, Sample.cutRounds, Round.doubt, Doubt.after, Sample.pairInput] at h
    rw [if_neg (by decide +kernel)] at h
    exact nr _ _ h.1

end S3
