import Verif.Spec.MachineRounds
import Verif.Props.CopySource
import Verif.Props.Isolated
/-! Lemmas about the abstract machine: a request neither sees nor changes what it is not about. -/
namespace S3
open Spec

variable {ext : Ext} {A : Bytes → Bytes → Prop} {place : Bytes → Bytes → List Bytes}

theorem place_inj (hp : PlainPlaces A place) {b k b' k' : Bytes} (h : A b k) (h' : A b' k') (e : place b k = place b' k') :
    (b, k) = (b', k') := by
  obtain ⟨_, cs, hk, e1⟩ := hp b k h
  obtain ⟨_, cs', hk', e2⟩ := hp b' k' h'
  rw [e1, e2] at e
  cases e
  rw [hk.text, hk'.text]

theorem place_apart (hp : PlainPlaces A place) {b k b' k' : Bytes} (h : A b k) (h' : A b' k') (hne : (b', k') ≠ (b, k)) :
    place b k ≠ place b' k' := fun e => hne (place_inj hp h h' e).symm

/-- the addresses a request uses are in `A` -/
theorem served_uses {o : Op} (ho : Served A o) {b k : Bytes} (h : Uses o b k) : A b k := by
  cases o <;> simp only [Uses] at h <;> try exact h.elim
  case putObject => cases h; exact ho.1
  case getObject => cases h; exact ho
  case headObject => cases h; exact ho
  case deleteObject => cases h; exact ho
  case deleteObjects => obtain ⟨rfl, h⟩ := h; exact ho k h
  case completeMultipartUpload => cases h; exact ho.1
  case copyObject b' k' src =>
    obtain ⟨h1, sb, sk, hs, h2⟩ := ho
    rcases h with h | ⟨hb, e⟩
    · cases h; exact h1
    · obtain ⟨e', hsb, _⟩ := (C62_copy_source _ _ _).mp hs
      obtain ⟨rfl, rfl⟩ := C62_copy_source_unique b k sb sk hb hsb (by rw [← e', e]; simp)
      exact h2

theorem deleteEach_other {b : Bytes} {p : List Bytes} : ∀ {ks : List Bytes} {f : List Bytes → Option Bytes},
    (∀ k ∈ ks, p ≠ place b k) → (deleteEach place b f ks).2 p = f p
  | [], _, _ => rfl
  | k :: ks, f, h => by
    rw [deleteEach]
    split
    · rw [deleteEach_other fun k' hk' => h k' (List.mem_cons_of_mem _ hk')]
      simp [setBytes, h k (List.mem_cons_self ..)]
    · rfl

theorem deleteEach_same {b : Bytes} {P : List Bytes → Prop} : ∀ {ks : List Bytes} {f g : List Bytes → Option Bytes},
    (∀ k ∈ ks, P (place b k)) → (∀ p, P p → f p = g p) →
    (deleteEach place b f ks).1 = (deleteEach place b g ks).1 ∧ ∀ p, P p → (deleteEach place b f ks).2 p = (deleteEach place b g ks).2 p
  | [], _, _, _, h => ⟨rfl, h⟩
  | k :: ks, f, g, hP, h => by
    rw [deleteEach, deleteEach, h _ (hP k (List.mem_cons_self ..))]
    split
    · refine deleteEach_same (fun k' hk' => hP k' (List.mem_cons_of_mem _ hk')) fun p hp => ?_
      simp only [setBytes]
      split
      · rfl
      · exact h p hp
    · exact ⟨rfl, h⟩

theorem assemble_other {n : Int} : ∀ {l : List (Option Int)} {parts : Int → Option Bytes} {cnt : Int} {acc : Bytes}, some n ∉ l →
    (assemble parts cnt acc l).2.2 n = parts n
  | [], _, _, _, _ => rfl
  | none :: _, _, _, _, _ => rfl
  | some m :: l, parts, cnt, acc, h => by
    rw [assemble]
    split
    · split
      · rfl
      · rw [assemble_other fun hl => h (List.mem_cons_of_mem _ hl)]
        rw [if_neg]
        rintro rfl
        exact h (List.mem_cons_self ..)
    · rfl

theorem assemble_same {P : Int → Prop} : ∀ {l : List (Option Int)} {f g : Int → Option Bytes} {cnt : Int} {acc : Bytes},
    (∀ n, some n ∈ l → P n) → (∀ n, P n → f n = g n) →
    (assemble f cnt acc l).1 = (assemble g cnt acc l).1 ∧ (assemble f cnt acc l).2.1 = (assemble g cnt acc l).2.1 ∧
      ∀ n, P n → (assemble f cnt acc l).2.2 n = (assemble g cnt acc l).2.2 n
  | [], _, _, _, _, _, h => ⟨rfl, rfl, h⟩
  | none :: _, _, _, _, _, _, h => ⟨rfl, rfl, h⟩
  | some m :: l, f, g, cnt, acc, hP, h => by
    rw [assemble, assemble, h m (hP m (List.mem_cons_self ..))]
    split
    · split
      · exact ⟨rfl, rfl, h⟩
      · refine assemble_same (fun n hn => hP n (List.mem_cons_of_mem _ hn)) fun n hn => ?_
        split
        · rfl
        · exact h n hn
    · exact ⟨rfl, rfl, h⟩

/-- two states of the machine agree about what a request is about -/
structure Same (place : Bytes → Bytes → List Bytes) (o : Op) (s t : Machine) : Prop where
  bytes : ∀ b k, Uses o b k → s.bytes (place b k) = t.bytes (place b k)
  record : ∀ b k, Uses o b k → s.record b k = t.record b k
  parts : ∀ u n, UsesPart o u n → s.parts u n = t.parts u n
  folder : ∀ b k, NeedsFolder o b k → s.folder (place b k).dropLast = true ∧ t.folder (place b k).dropLast = true

theorem Same.trans {o : Op} {s t r : Machine} (h : Same place o s t) (h' : Same place o t r) : Same place o s r :=
  ⟨fun b k hu => (h.bytes b k hu).trans (h'.bytes b k hu), fun b k hu => (h.record b k hu).trans (h'.record b k hu),
    fun u n hu => (h.parts u n hu).trans (h'.parts u n hu), fun b k hw => ⟨(h.folder b k hw).1, (h'.folder b k hw).2⟩⟩

theorem Same.refl {o : Op} {s : Machine} (h : ∀ b k, NeedsFolder o b k → s.folder (place b k).dropLast = true) : Same place o s s :=
  ⟨fun _ _ _ => rfl, fun _ _ _ => rfl, fun _ _ _ => rfl, fun b k hw => ⟨h b k hw, h b k hw⟩⟩

theorem watching_after {o : Op} (h : Watching o) (s : Machine) : s.after place o = s := by
  cases o <;> first | rfl | exact h.elim

/-- the same places and the same records -/
structure Untouched (place : Bytes → Bytes → List Bytes) (o : Op) (s t : Machine) : Prop where
  bytes : ∀ p, (∀ b k, Writes o b k ∨ (∃ ks, o = .deleteObjects b ks ∧ k ∈ ks) ∨ o = .deleteObject b k → p ≠ place b k) → s.bytes p = t.bytes p
  record : ∀ b k, ¬ Writes o b k → s.record b k = t.record b k
  parts : ∀ u n, ¬ UsesPart o u n → s.parts u n = t.parts u n
  folder : ∀ q, s.folder q = true → t.folder q = true

theorem after_untouched {o : Op} (ho : AboutObjects o) (s : Machine) : Untouched place o s (s.after place o) := by
  have hk := ho.2.2
  clear ho
  have id : Untouched place o s s := ⟨fun _ _ => rfl, fun _ _ _ => rfl, fun _ _ _ => rfl, fun _ h => h⟩
  cases o <;> simp only at hk <;> try exact id
  case putObject i =>
    simp only [Machine.after]
    cases hb : i.body with
    | none => exact id
    | some body =>
      dsimp only
      by_cases hc : classKnown i = false
      · rw [if_pos hc]; exact id
      · rw [if_neg hc]
        refine ⟨fun p h => ?_, fun b k h => ?_, fun _ _ _ => rfl, fun q h => by simp [h]⟩
        · simp [setBytes, h _ _ (.inl rfl)]
        · dsimp only
          cases i.metadata with
          | none => rfl
          | some m =>
            dsimp only
            split
            · rfl
            · simp only [upd]
              rw [if_neg]
              rintro ⟨rfl, rfl⟩
              exact h rfl
  case deleteObject b k =>
    exact ⟨fun p h => by simp [Machine.after, setBytes, h _ _ (.inr (.inr rfl))], fun _ _ _ => rfl, fun _ _ _ => rfl, fun _ h => h⟩
  case deleteObjects b ks =>
    refine ⟨fun p h => ?_, fun _ _ _ => rfl, fun _ _ _ => rfl, fun _ h => h⟩
    exact (deleteEach_other fun k hk => h _ _ (.inr (.inl ⟨ks, rfl, (List.mem_filter.mp hk).1⟩))).symm
  case uploadPart u n body =>
    cases body with
    | none => exact id
    | some body =>
      refine ⟨fun p h => rfl, fun _ _ _ => rfl, fun u' n' h => ?_, fun _ h => h⟩
      exact (if_neg h).symm
  case completeMultipartUpload b k u parts =>
    cases parts with
    | none => exact id
    | some l =>
      simp only [Machine.after]
      split
      · refine ⟨fun p h => ?_, fun _ _ _ => rfl, fun u' n' h => ?_, fun _ h => h⟩
        · simp [setBytes, h _ _ (.inl rfl)]
        · dsimp only
          split
          · rename_i e
            subst e
            exact (assemble_other fun hl => h ⟨rfl, l, rfl, hl⟩).symm
          · rfl
      · exact id
  case copyObject b k src =>
    simp only [Machine.after]
    split
    · exact id
    · rename_i sb sk _
      split
      · exact id
      · split
        · refine ⟨fun p h => ?_, fun b' k' h => ?_, fun _ _ _ => rfl, fun _ h => h⟩
          · simp [setBytes, h _ _ (.inl rfl)]
          · have hne : ¬ (b' = b ∧ k' = k) := by
              rintro ⟨rfl, rfl⟩; exact h rfl
            dsimp only
            cases s.record sb sk <;> first | rfl | exact (if_neg hne).symm
        · exact id

/-- what a request writes or deletes it is about -/
theorem changes_uses {o : Op} {b k : Bytes} (h : Writes o b k ∨ (∃ ks, o = .deleteObjects b ks ∧ k ∈ ks) ∨ o = .deleteObject b k) :
    Uses o b k := by
  rcases h with h | ⟨ks, rfl, h⟩ | rfl
  · cases o <;> simp only [Writes] at h <;> first | exact h.elim | exact h | exact .inl h
  · exact ⟨rfl, h⟩
  · rfl

/-- a request changes nothing that another request is about, if the first one stays away from it -/
theorem elsewhere_changes {o o' : Op} (h : Elsewhere o o') {b k b' k' : Bytes} (hu : Uses o b k)
    (hc : Writes o' b' k' ∨ (∃ ks, o' = .deleteObjects b' ks ∧ k' ∈ ks) ∨ o' = .deleteObject b' k') : (b', k') ≠ (b, k) := by
  have := h.objects b k hu
  rcases hc with hc | ⟨ks, rfl, hc⟩ | rfl
  · cases o' <;> simp only [Writes] at hc <;> try exact hc.elim
    case putObject => cases hc; exact this.other
    case copyObject => cases hc; exact this.other
    case completeMultipartUpload => cases hc; exact this.1.other
  · exact (this k' hc).other
  · exact this.other

theorem after_elsewhere (hp : PlainPlaces A place) {o o' : Op} (ho : Served A o) (ho' : Watching o' ∨ Served A o' ∧ AboutObjects o')
    (h : Elsewhere o o') {s : Machine} (hf : ∀ b k, NeedsFolder o b k → s.folder (place b k).dropLast = true) :
    Same place o s (s.after place o') := by
  rcases ho' with hw | ⟨hs, ha⟩
  · rw [watching_after hw]; exact .refl hf
  · have hU := after_untouched (place := place) ha s
    refine ⟨fun b k hu => hU.bytes _ fun b' k' hc => ?_, fun b k hu => hU.record _ _ fun hc => elsewhere_changes h hu (.inl hc) rfl,
      fun u n hu => hU.parts _ _ (h.parts u n hu), fun b k hw => ⟨hf b k hw, hU.folder _ (hf b k hw)⟩⟩
    exact place_apart hp (served_uses ho hu) (served_uses hs (changes_uses hc)) (elsewhere_changes h hu hc)

theorem afterAll_elsewhere (hp : PlainPlaces A place) {o : Op} (ho : Served A o) : ∀ {l : List Op} {s : Machine},
    (∀ o' ∈ l, (Watching o' ∨ Served A o' ∧ AboutObjects o') ∧ Elsewhere o o') →
    (∀ b k, NeedsFolder o b k → s.folder (place b k).dropLast = true) → Same place o s (s.afterAll place l)
  | [], _, _, hf => .refl hf
  | o' :: l, s, h, hf => by
    have h1 := after_elsewhere hp ho (h o' (List.mem_cons_self ..)).1 (h o' (List.mem_cons_self ..)).2 hf
    exact h1.trans (afterAll_elsewhere hp ho (fun o'' h' => h o'' (List.mem_cons_of_mem _ h')) fun b k hw => (h1.folder b k hw).2)

/-- a request does the same in two states that agree about what it is about -/
theorem after_same {o : Op} (hp : PlainPlaces A place) (ho : Served A o) (ha : AboutObjects o) {s t : Machine} (h : Same place o s t) :
    Same place o (s.after place o) (t.after place o) := by
  have hfs := (after_untouched (place := place) ha s).folder
  have hft := (after_untouched (place := place) ha t).folder
  have hfold : ∀ b k, NeedsFolder o b k → (s.after place o).folder (place b k).dropLast = true ∧ (t.after place o).folder (place b k).dropLast = true :=
    fun b k hw => ⟨hfs _ (h.folder b k hw).1, hft _ (h.folder b k hw).2⟩
  have hA : ∀ {b k b' k'}, Uses o b k → Uses o b' k' → place b k = place b' k' → (b, k) = (b', k') := fun h1 h2 e =>
    place_inj hp (served_uses ho h1) (served_uses ho h2) e
  have hk := ha.2.2
  clear ha
  refine ⟨?_, ?_, ?_, hfold⟩
  · intro b k hu
    cases o <;> simp only at hk <;> try exact h.bytes b k hu
    case putObject i =>
      simp only [Machine.after]
      cases i.body with
      | none => exact h.bytes b k hu
      | some body =>
        dsimp only
        by_cases hc : classKnown i = false
        · rw [if_pos hc, if_pos hc]; exact h.bytes b k hu
        · rw [if_neg hc, if_neg hc]
          simp only [setBytes]
          split
          · rfl
          · exact h.bytes b k hu
    case deleteObject =>
      simp only [Machine.after, setBytes]
      split
      · rfl
      · exact h.bytes b k hu
    case deleteObjects b' ks =>
      obtain ⟨rfl, hu⟩ := hu
      simp only [Machine.after]
      have hh : holding place s.bytes b ks = holding place t.bytes b ks := by
        unfold holding
        exact List.filter_congr fun k' hk' => by rw [h.bytes b k' ⟨rfl, hk'⟩]
      rw [hh]
      refine (deleteEach_same (P := fun p => ∃ k ∈ ks, p = place b k) (fun k' hk' => ⟨k', (List.mem_filter.mp hk').1, rfl⟩) ?_).2 _ ⟨k, hu, rfl⟩
      rintro p ⟨k', hk', rfl⟩
      exact h.bytes b k' ⟨rfl, hk'⟩
    case uploadPart u n body => cases body <;> exact hu.elim
    case completeMultipartUpload b' k' u parts =>
      cases hu
      cases parts with
      | none => exact h.bytes b k rfl
      | some l =>
        obtain ⟨f1, f2⟩ := h.folder b k rfl
        simp only [Machine.after, f1, f2, if_true, setBytes]
        rw [(assemble_same (P := fun n => some n ∈ l) (fun _ h => h) fun n hn => h.parts u n ⟨rfl, l, rfl, hn⟩).2.1]
    case copyObject b' k' src =>
      obtain ⟨_, sb, sk, hs, _⟩ := ho
      obtain ⟨e', hsb, _⟩ := (C62_copy_source _ _ _).mp hs
      have hsrc := h.bytes sb sk (.inr ⟨hsb, by rw [e']; simp⟩)
      obtain ⟨f1, f2⟩ := h.folder b' k' rfl
      simp only [Machine.after, hs, hsrc, f1, f2, if_true]
      split
      · exact h.bytes b k hu
      · simp only [setBytes]
        split
        · rfl
        · exact h.bytes b k hu
  · intro b k hu
    cases o <;> simp only at hk <;> try exact h.record b k hu
    case putObject i =>
      simp only [Machine.after]
      cases i.body with
      | none => exact h.record b k hu
      | some body =>
        dsimp only
        by_cases hc : classKnown i = false
        · rw [if_pos hc, if_pos hc]; exact h.record b k hu
        · rw [if_neg hc, if_neg hc]
          dsimp only
          cases i.metadata with
          | none => exact h.record b k hu
          | some m =>
            dsimp only
            split
            · exact h.record b k hu
            · simp only [upd]
              split
              · rfl
              · exact h.record b k hu
    case uploadPart u n body => cases body <;> exact hu.elim
    case completeMultipartUpload b' k' u parts =>
      cases parts with
      | none => exact h.record b k hu
      | some l =>
        obtain ⟨f1, f2⟩ := h.folder b' k' rfl
        simp only [Machine.after, f1, f2, if_true]
        exact h.record b k hu
    case copyObject b' k' src =>
      obtain ⟨_, sb, sk, hs, _⟩ := ho
      obtain ⟨e', hsb, _⟩ := (C62_copy_source _ _ _).mp hs
      have hu' : Uses (.copyObject b' k' src) sb sk := .inr ⟨hsb, by rw [e']; simp⟩
      have hsrc := h.bytes sb sk hu'
      obtain ⟨f1, f2⟩ := h.folder b' k' rfl
      simp only [Machine.after, hs, hsrc, f1, f2, if_true]
      split
      · exact h.record b k hu
      · dsimp only
        rw [h.record sb sk hu']
        cases t.record sb sk with
        | absent => exact h.record b k hu
        | _ =>
          simp only [upd]
          split
          · rfl
          · exact h.record b k hu
  · intro u n hu
    cases o <;> simp only at hk <;> try exact hu.elim
    case uploadPart u' n' body =>
      cases hu
      cases body with
      | none => exact h.parts u n rfl
      | some body => simp [Machine.after]
    case completeMultipartUpload b' k' u' parts =>
      obtain ⟨rfl, l, rfl, hn⟩ := hu
      obtain ⟨f1, f2⟩ := h.folder b' k' rfl
      simp only [Machine.after, f1, f2, if_true]
      exact (assemble_same (P := fun n => some n ∈ l) (fun _ h => h) fun n hn => h.parts u n ⟨rfl, l, rfl, hn⟩).2.2 n hn

/-- among requests that stay away from it, a request does to what it is about what it does alone -/
theorem afterAll_local (hp : PlainPlaces A place) {o : Op} (ho : Served A o) (ha : AboutObjects o) {pre post : List Op} {s : Machine}
    (h : ∀ o' ∈ pre ++ post, (Watching o' ∨ Served A o' ∧ AboutObjects o') ∧ Elsewhere o o')
    (hf : ∀ b k, NeedsFolder o b k → s.folder (place b k).dropLast = true) :
    Same place o (s.after place o) (s.afterAll place (pre ++ o :: post)) := by
  have h1 := afterAll_elsewhere hp ho (fun o' h' => h o' (List.mem_append_left _ h')) hf
  have h2 := after_same hp ho ha h1
  have h3 := afterAll_elsewhere hp ho (s := (s.afterAll place pre).after place o) (fun o' h' => h o' (List.mem_append_right _ h'))
    fun b k hw => (h2.folder b k hw).2
  have e : s.afterAll place (pre ++ o :: post) = ((s.afterAll place pre).after place o).afterAll place post := by
    simp [Machine.afterAll, List.foldl_append]
  rw [e]
  exact h2.trans h3

end S3
