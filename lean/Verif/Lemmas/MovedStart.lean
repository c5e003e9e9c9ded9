import Verif.Lemmas.MovedOps
/-! Two file trees with the same archive agree, and two that agree have the same archive. -/
namespace S3
open Spec

theorem archive_strip (r : Path) (fs : FS) : archive r fs = (strip r fs.nodes).map fun e => (e.1, contentOf fs e.2) := by
  unfold archive
  induction fs.nodes with
  | nil => rfl
  | cons e l ih =>
    obtain ⟨p, n⟩ := e
    cases hp : r.isPrefixOf p with
    | false => rw [strip_cons_out hp, List.filter_cons_of_neg (by simp [hp]), ih]
    | true =>
      have := isPrefixOf_elim hp
      rw [List.filter_cons_of_pos (by simpa using hp), List.map_cons, ih, this, strip_cons_in, List.map_cons]
      simp

theorem mem_strip {r q : Path} {n : Node} {l : List (Path × Node)} : (q, n) ∈ strip r l ↔ (r ++ q, n) ∈ l := by
  simp only [strip, List.mem_filterMap]
  constructor
  · rintro ⟨⟨p, m⟩, hm, h⟩
    by_cases hp : r.isPrefixOf p = true
    · rw [if_pos hp] at h
      cases h
      rw [← isPrefixOf_elim hp]
      exact hm
    · rw [if_neg hp] at h
      cases h
  · intro h
    exact ⟨_, h, by rw [if_pos (isPrefixOf_append r q)]; simp⟩

theorem lookup_entry {fs : FS} (hw : WF fs) {p : Path} {n : Node} (h : (p, n) ∈ fs.nodes) : fs.lookup p = some n := by
  rw [FS.lookup, if_neg (hw.names _ h).1]
  have := hw.nodup
  revert h this
  generalize fs.nodes = l
  intro h hn
  induction l with
  | nil => cases h
  | cons e l ih =>
    rw [List.map_cons, List.nodup_cons] at hn
    by_cases he : e.1 = p
    · rw [List.find?_cons_of_pos (by simpa using he)]
      rcases List.mem_cons.mp h with rfl | h
      · rfl
      · exact absurd (List.mem_map.mpr ⟨_, h, he.symm⟩) hn.1
    · rw [List.find?_cons_of_neg (by simpa using he)]
      rcases List.mem_cons.mp h with rfl | h
      · exact absurd rfl he
      · exact ih h hn.2

theorem entry_lookup {fs : FS} {p : Path} {n : Node} (hp : p ≠ []) (h : fs.lookup p = some n) : (p, n) ∈ fs.nodes := by
  rw [FS.lookup, if_neg hp] at h
  obtain ⟨e, he, rfl⟩ := Option.map_eq_some_iff.mp h
  have := List.find?_some he
  have h2 : e.1 = p := by simpa using this
  rw [← h2]
  exact List.mem_of_find?_eq_some he

theorem map_eq_map {α β γ : Type} {f : α → γ} {g : β → γ} {e : α → β} {l : List α} {l' : List β} (h : l.map f = l'.map g)
    (he : ∀ x ∈ l, ∀ y ∈ l', f x = g y → e x = y) : l.map e = l' := by
  induction l generalizing l' with
  | nil =>
    cases l'
    · rfl
    · cases h
  | cons x l ih =>
    cases l' with
    | nil => cases h
    | cons y l' =>
      rw [List.map_cons, List.map_cons, List.cons.injEq] at h
      rw [List.map_cons, he x (by simp) y (by simp) h.1, ih h.2 fun x hx y hy => he x (by simp [hx]) y (by simp [hy])]

variable {cfg cfg' : Cfg} {a b : FS}

/-- the file of the other tree -/
def rename (cfg cfg' : Cfg) (a b : FS) (i : Ino) : Ino :=
  match a.lookup i.path with
  | some (.file j) =>
    if i = j then
      match b.lookup (cfg'.root ++ i.path.drop cfg.root.length) with
      | some (.file k) => k
      | _ => i
    else ⟨cfg'.root ++ i.path.drop cfg.root.length, b.gen (cfg'.root ++ i.path.drop cfg.root.length) + (i.gen - a.gen i.path)⟩
  | _ => ⟨cfg'.root ++ i.path.drop cfg.root.length, b.gen (cfg'.root ++ i.path.drop cfg.root.length) + (i.gen - a.gen i.path)⟩

/-- the file is there, or there is none with its number yet -/
def Live (cfg : Cfg) (a : FS) (i : Ino) : Prop :=
  ∃ q, i.path = cfg.root ++ q ∧ (a.lookup i.path = some (.file i) ∨ a.gen i.path ≤ i.gen)

section
variable (h : SameStore cfg a cfg' b)
include h

theorem Spec.SameStore.there {q : Path} {n : Node} (hn : a.lookup (cfg.root ++ q) = some n) :
    ∃ m, b.lookup (cfg'.root ++ q) = some m ∧ contentOf a n = contentOf b m := by
  have h1 := mem_strip.mpr (entry_lookup (by simp [h.places.1]) hn)
  have h3 := h.content
  rw [archive_strip, archive_strip] at h3
  have h4 : (q, contentOf a n) ∈ (strip cfg.root a.nodes).map fun e => (e.1, contentOf a e.2) := List.mem_map.mpr ⟨_, h1, rfl⟩
  rw [h3] at h4
  obtain ⟨⟨q', m'⟩, h5, h6⟩ := List.mem_map.mp h4
  simp only [Prod.mk.injEq] at h6
  obtain ⟨rfl, h7⟩ := h6
  exact ⟨m', lookup_entry h.trees.2 (mem_strip.mp h5), h7.symm⟩

theorem Spec.SameStore.rename_old {q : Path} {i : Ino} (hi : a.lookup (cfg.root ++ q) = some (.file i)) :
    ∃ j, b.lookup (cfg'.root ++ q) = some (.file j) ∧ rename cfg cfg' a b i = j ∧ a.data i = b.data j := by
  obtain ⟨m, hm, hc⟩ := h.there hi
  have hp := (h.trees.1.ino _ _ hi).1
  cases m with
  | dir => cases hc
  | file j =>
    refine ⟨j, hm, ?_, Option.some.inj hc⟩
    simp only [rename, hp, hi, List.drop_left, hm, if_true]

theorem Spec.SameStore.rename_new {q : Path} {n : Nat} (hn : a.gen (cfg.root ++ q) ≤ n) :
    rename cfg cfg' a b ⟨cfg.root ++ q, n⟩ = ⟨cfg'.root ++ q, b.gen (cfg'.root ++ q) + (n - a.gen (cfg.root ++ q))⟩ := by
  simp only [rename, List.drop_left]
  cases hl : a.lookup (cfg.root ++ q) with
  | none => rfl
  | some m =>
    cases m with
    | dir => rfl
    | file j =>
      dsimp only
      rw [if_neg]
      rintro rfl
      have := (h.trees.1.ino _ _ hl).2
      simp only at this
      omega

/-- the two trees, side by side -/
def Spec.SameStore.world : World where
  r1 := cfg.root
  r2 := cfg'.root
  name := rename cfg cfg' a b
  live := Live cfg a
  inj := by
    rintro ⟨p, n⟩ ⟨p', n'⟩ ⟨q, hp, hi⟩ ⟨q', hp', hi'⟩ he
    simp only at hp hp' hi hi'
    subst hp hp'
    rcases hi with hi | hi <;> rcases hi' with hi' | hi'
    · obtain ⟨j, h1, h2, _⟩ := h.rename_old hi
      obtain ⟨j', h1', h2', _⟩ := h.rename_old hi'
      rw [h2, h2'] at he
      have e1 := (h.trees.2.ino _ _ h1).1
      have e2 := (h.trees.2.ino _ _ h1').1
      rw [he, e2, List.append_cancel_left_eq] at e1
      subst e1
      rw [hi] at hi'
      cases hi'
      rfl
    · obtain ⟨j, h1, h2, _⟩ := h.rename_old hi
      rw [h2, h.rename_new hi'] at he
      have e1 := h.trees.2.ino _ _ h1
      rw [he] at e1
      simp only [List.append_cancel_left_eq] at e1
      obtain ⟨rfl, e1⟩ := e1
      omega
    · obtain ⟨j, h1, h2, _⟩ := h.rename_old hi'
      rw [h2, h.rename_new hi] at he
      have e1 := h.trees.2.ino _ _ h1
      rw [← he] at e1
      simp only [List.append_cancel_left_eq] at e1
      obtain ⟨rfl, e1⟩ := e1
      omega
    · rw [h.rename_new hi, h.rename_new hi'] at he
      simp only [Ino.mk.injEq, List.append_cancel_left_eq] at he
      obtain ⟨rfl, he⟩ := he
      rw [Ino.mk.injEq]
      exact ⟨rfl, by omega⟩
  ok1 := ⟨h.places.1, (h.trees.1.names _ (entry_lookup h.places.1 h.dirs.1)).2⟩
  ok2 := ⟨h.places.2, (h.trees.2.names _ (entry_lookup h.places.2 h.dirs.2)).2⟩

theorem Spec.SameStore.agree : S3.Agree h.world a b where
  view := by
    refine map_eq_map (archive_strip cfg.root a ▸ archive_strip cfg'.root b ▸ h.content) ?_
    rintro ⟨q, n⟩ hn ⟨q', m⟩ hm e
    simp only [Prod.mk.injEq] at e
    obtain ⟨rfl, e⟩ := e
    have h1 := lookup_entry h.trees.1 (mem_strip.mp hn)
    have h2 := lookup_entry h.trees.2 (mem_strip.mp hm)
    cases n with
    | dir =>
      cases m with
      | dir => rfl
      | file j => cases e
    | file i =>
      obtain ⟨j, h3, h4, _⟩ := h.rename_old h1
      have h5 := h2.symm.trans h3
      cases h5
      exact congrArg (fun x => (q, Node.file x)) h4
  alive := fun q i hi => by
    have := lookup_entry h.trees.1 (mem_strip.mp hi)
    have hp := (h.trees.1.ino _ _ this).1
    exact ⟨q, hp, .inl (hp ▸ this)⟩
  data := by
    rintro ⟨p, n⟩ ⟨q, hp, hi⟩
    simp only at hp hi
    subst hp
    rcases hi with hi | hi
    · obtain ⟨j, h1, h2, h3⟩ := h.rename_old hi
      rw [h3, ← h2]
      rfl
    · rw [h.numbers.1 _ hi, show h.world.name _ = _ from h.rename_new hi, h.numbers.2 _ (Nat.le_add_right ..)]
  fresh := fun q k => by
    refine ⟨⟨q, rfl, .inr (Nat.le_add_right ..)⟩, ?_⟩
    have := h.rename_new (q := q) (Nat.le_add_right (a.gen (cfg.root ++ q)) k)
    rw [Nat.add_sub_cancel_left] at this
    exact this
  up1 := h.trees.1.parent _ (entry_lookup h.places.1 h.dirs.1)
  up2 := h.trees.2.parent _ (entry_lookup h.places.2 h.dirs.2)

theorem Spec.SameStore.twins : Twins h.world cfg cfg' := ⟨rfl, rfl, h.slash, h.len⟩

end

theorem Agree.archives {w : World} (h : Agree w a b) : archive w.r1 a = archive w.r2 b := by
  rw [archive_strip, archive_strip, ← h.view, List.map_map]
  refine List.map_congr_left fun e he => ?_
  obtain ⟨q, n⟩ := e
  cases n with
  | dir => rfl
  | file i => exact congrArg (fun x => (q, some x)) (h.data i (h.alive q i he))

variable {ext : Ext} {lib : Lib} {auth : Option Provider} {w : World}

/-- corresponding programs, run to the end -/
theorem Sim.run {α : Type} (hr1 : cfg.dirLen = cfg'.dirLen) (p : Prog α) : ∀ {p' : Prog α} {a b : FS}, Agree w a b → Sim w (· = ·) p p' →
    (S3.run cfg p a).1 = (S3.run cfg' p' b).1 ∧ Agree w (S3.run cfg p a).2 (S3.run cfg' p' b).2 := by
  induction p with
  | sys c k ih =>
    intro p' a b h hp
    have hs := Sim.step (cfg := cfg) (cfg' := cfg') hr1 h hp .none
    have he : ∃ c' k', p' = .sys c' k' := by cases hp <;> exact ⟨_, _, rfl⟩
    obtain ⟨c', k', rfl⟩ := he
    rw [S3.run, S3.run]
    exact ih _ hs.2 hs.1
  | ret x =>
    intro p' a b h hp
    cases hp with
    | ret e => exact ⟨congrArg Outcome.ok e, h⟩
  | fail e =>
    intro p' a b h hp
    cases hp
    exact ⟨rfl, h⟩
  | panic =>
    intro p' a b h hp
    cases hp
    exact ⟨rfl, h⟩
  | diverge =>
    intro p' a b h hp
    cases hp
    exact ⟨rfl, h⟩

theorem epoch_moved (ht : Twins w cfg cfg') (h : Agree w a b) {e : WebEpoch} (hr : ∀ x ∈ e.requests, RelativeRequest w.r1 ext lib auth x) :
    Agree w ((e.servedAt w.r1).leaves cfg ext lib auth a) ((e.servedAt w.r2).leaves cfg' ext lib auth b) ∧
      ∀ n, (e.servedAt w.r1).response cfg ext lib auth a n = (e.servedAt w.r2).response cfg' ext lib auth b n := by
  obtain ⟨h1, h2, h3⟩ := Sim.runPar (cfg := cfg) (cfg' := cfg') ht.len e.steps h
    (ps := e.requests.map fun x => hyperCall cfg ext lib auth x.env x.texts x.req)
    (ps' := e.requests.map fun x => hyperCall cfg' ext lib auth x.env x.texts x.req) (by simp) (by
      intro n p p' hp hp'
      rw [List.getElem?_map] at hp hp'
      obtain ⟨x, hx, rfl⟩ := Option.map_eq_some_iff.mp hp
      rw [hx] at hp'
      cases hp'
      exact request_sim ht (hr x (List.mem_of_getElem? hx)))
  refine ⟨h1, fun n => ?_⟩
  simp only [WebEpoch.response, WebEpoch.servedAt]
  cases hx : (runParF cfg (e.steps.map fun s => (s.1, faultAt w.r1 s.2)) (e.requests.map fun x => hyperCall cfg ext lib auth x.env x.texts x.req) a).1[n]? with
  | none =>
    rw [List.getElem?_eq_none_iff, h2] at hx
    rw [List.getElem?_eq_none_iff.mpr hx]
  | some p =>
    have hn := (List.getElem?_eq_some_iff.mp hx).1
    rw [h2] at hn
    rw [List.getElem?_eq_getElem hn]
    exact (h3 n p _ hx (List.getElem?_eq_getElem hn)).outcome

theorem life_moved (ht : Twins w cfg cfg') (h : Agree w a b) {ws : List WebEpoch}
    (hr : ∀ e ∈ ws, ∀ x ∈ e.requests, RelativeRequest w.r1 ext lib auth x) :
    Agree w (webLife cfg ext lib auth (ws.map (·.servedAt w.r1)) a) (webLife cfg' ext lib auth (ws.map (·.servedAt w.r2)) b) := by
  induction ws generalizing a b with
  | nil => exact h
  | cons e ws ih => exact ih (epoch_moved ht h (hr e (by simp))).1 fun e he => hr e (by simp [he])

end S3
