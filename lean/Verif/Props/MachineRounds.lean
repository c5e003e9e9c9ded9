import Verif.Lemmas.MachineRounds
import Verif.Props.MachineClient
import Verif.Props.Pieces
import Verif.Props.Accounted
import Verif.Props.NewFolder
/-! C134: clients that are served at the same time see the abstract machine. -/
namespace S3
open Spec

variable {cfg : Cfg} {ext : Ext} {lib : Lib} {auth : Option Provider} {A : Bytes → Bytes → Prop} {place : Bytes → Bytes → List Bytes}
  {s : Machine} {fs : FS} {w : PieceEpoch} {os : List Op}

/-! ### what nobody is about stays, in the machine -/

theorem machine_unused (hp : PlainPlaces A place) {b k : Bytes} (ha : A b k) : ∀ {l : List Op} {s : Machine},
    (∀ o ∈ l, Watching o ∨ (Served A o ∧ AboutObjects o) ∧ ¬ Uses o b k) →
    (s.afterAll place l).bytes (place b k) = s.bytes (place b k) ∧ (s.afterAll place l).record b k = s.record b k
  | [], _, _ => ⟨rfl, rfl⟩
  | o :: l, s, h => by
    obtain ⟨h1, h2⟩ := machine_unused hp ha (s := s.after place o) fun o' h' => h o' (List.mem_cons_of_mem _ h')
    have e : s.afterAll place (o :: l) = (s.after place o).afterAll place l := rfl
    rw [e]
    rcases h o (List.mem_cons_self ..) with hw | ⟨⟨hs, hab⟩, hu⟩
    · rw [watching_after hw] at h1 h2 ⊢; exact ⟨h1, h2⟩
    · have hU := after_untouched (place := place) hab s
      refine ⟨h1.trans (hU.bytes _ fun b' k' hc => ?_).symm, h2.trans (hU.record _ _ fun hc => hu (changes_uses (.inl hc))).symm⟩
      have hu' := changes_uses hc
      exact fun e => hu (by cases place_inj hp ha (served_uses hs hu') e; exact hu')

theorem machine_unused_part {u : Bytes} {n : Int} : ∀ {l : List Op} {s : Machine},
    (∀ o ∈ l, Watching o ∨ AboutObjects o ∧ ¬ UsesPart o u n) → (s.afterAll place l).parts u n = s.parts u n
  | [], _, _ => rfl
  | o :: l, s, h => by
    have h1 := machine_unused_part (s := s.after place o) fun o' h' => h o' (List.mem_cons_of_mem _ h')
    refine h1.trans ?_
    rcases h o (List.mem_cons_self ..) with hw | ⟨hab, hu⟩
    · rw [watching_after hw]
    · exact ((after_untouched (place := place) hab s).parts _ _ hu).symm

theorem acceptable_iff {i : PutInput} : Acceptable i ↔ (∃ body, i.body = some body) ∧ classKnown i = true := by
  simp only [Acceptable, classKnown, decide_eq_true_eq]
  cases i.body <;> simp

theorem machine_folder {q : List Bytes} : ∀ {l : List Op} {s : Machine}, (∀ o ∈ l, Watching o ∨ AboutObjects o) →
    ((s.afterAll place l).folder q = true ↔
      s.folder q = true ∨ ∃ i, .putObject i ∈ l ∧ Acceptable i ∧ onTheWay q (place i.bucket i.key) = true)
  | [], _, _ => by simp [Machine.afterAll]
  | o :: l, s, h => by
    have e : (s.after place o).folder q = true ↔ s.folder q = true ∨ ∃ i, o = .putObject i ∧ Acceptable i ∧ onTheWay q (place i.bucket i.key) = true := by
      have no : (∀ i, o ≠ .putObject i) → (s.after place o).folder q = s.folder q → ((s.after place o).folder q = true ↔ s.folder q = true ∨
          ∃ i, o = .putObject i ∧ Acceptable i ∧ onTheWay q (place i.bucket i.key) = true) := fun hn e => by
        rw [e]
        exact ⟨.inl, fun h => h.elim id fun ⟨i, hi, _⟩ => absurd hi (hn i)⟩
      rcases h o (List.mem_cons_self ..) with hw | hk
      · refine no (fun i e => by subst e; exact hw) (by rw [watching_after hw])
      replace hk := hk.2.2
      cases o <;> simp only at hk <;> try exact no (fun i e => nomatch e) rfl
      case putObject i =>
        have hi : (∃ j, Op.putObject i = .putObject j ∧ Acceptable j ∧ onTheWay q (place j.bucket j.key) = true) ↔
            Acceptable i ∧ onTheWay q (place i.bucket i.key) = true := by
          constructor
          · rintro ⟨j, e, h⟩; cases e; exact h
          · exact fun h => ⟨i, rfl, h⟩
        rw [hi, acceptable_iff]
        simp only [Machine.after]
        cases hb : i.body with
        | none => simp
        | some body =>
          dsimp only
          cases hc : classKnown i with
          | false => simp
          | true => simp
      case uploadPart u n body => cases body <;> exact no (fun i e => nomatch e) rfl
      case completeMultipartUpload b k u parts =>
        refine no (fun i e => nomatch e) ?_
        cases parts with
        | none => rfl
        | some l => simp only [Machine.after]; split <;> rfl
      case copyObject b k src =>
        refine no (fun i e => nomatch e) ?_
        simp only [Machine.after]
        split
        · rfl
        · split
          · rfl
          · split <;> rfl
    refine (machine_folder (s := s.after place o) fun o' h' => h o' (List.mem_cons_of_mem _ h')).trans ?_
    rw [e]
    constructor
    · rintro ((h | ⟨i, rfl, ha⟩) | ⟨i, h, h'⟩)
      · exact .inl h
      · exact .inr ⟨i, List.mem_cons_self .., ha⟩
      · exact .inr ⟨i, List.mem_cons_of_mem _ h, h'⟩
    · rintro (h | ⟨i, h, h'⟩)
      · exact .inl (.inl h)
      · rcases List.mem_cons.mp h with h | h
        · exact .inl (.inr ⟨i, h.symm, h'⟩)
        · exact .inr ⟨i, h, h'⟩

/-! ### the requests of a round -/

theorem Spec.Independent.symm {o o' : Op} (h : Independent o o') : Independent o' o := ⟨h.2, h.1⟩

theorem Spec.Together.op (ht : Together cfg ext lib auth A place s w os) {n : Nat} {x : Exchange} (hx : w.requests[n]? = some x) :
    ∃ o, os[n]? = some o ∧ Asks lib auth x o := by
  have hlt := (List.getElem?_eq_some_iff.mp hx).1
  rw [← ht.count] at hlt
  exact ⟨_, List.getElem?_eq_getElem hlt, ht.asks n x _ hx (List.getElem?_eq_getElem hlt)⟩

theorem Spec.Together.request (ht : Together cfg ext lib auth A place s w os) {n : Nat} {o : Op} (ho : os[n]? = some o) :
    ∃ x, w.requests[n]? = some x ∧ Asks lib auth x o := by
  have hlt := (List.getElem?_eq_some_iff.mp ho).1
  rw [ht.count] at hlt
  exact ⟨_, List.getElem?_eq_getElem hlt, ht.asks n _ o (List.getElem?_eq_getElem hlt) ho⟩

theorem pairwise_at {α : Type} {R : α → α → Prop} (hR : ∀ a b, R a b → R b a) {l : List α} (h : l.Pairwise R) {n j : Nat} (hne : j ≠ n)
    {a b : α} (ha : l[n]? = some a) (hb : l[j]? = some b) : R a b := by
  obtain ⟨h1, rfl⟩ := List.getElem?_eq_some_iff.mp ha
  obtain ⟨h2, rfl⟩ := List.getElem?_eq_some_iff.mp hb
  rw [List.pairwise_iff_getElem] at h
  rcases Nat.lt_or_ge n j with hlt | hge
  · exact h n j h1 h2 hlt
  · exact hR _ _ (h j n h2 h1 (by omega))

theorem Spec.Together.undisturbed (ht : Together cfg ext lib auth A place s w os) {n : Nat} {o : Op} (ho : os[n]? = some o) (hn : ¬ Watching o) :
    Undisturbed A os n o := by
  obtain ⟨h1, h2⟩ := (ht.known o (List.mem_of_getElem? ho)).resolve_left hn
  exact ⟨h1, h2, fun j o' hj ho' => ((pairwise_at (fun _ _ => Independent.symm) ht.apart hj ho ho').1).resolve_left hn⟩

theorem writes_not_watching {o : Op} {b k : Bytes} (h : Writes o b k) : ¬ Watching o := by
  cases o <;> first | exact h.elim | exact id

theorem Spec.Together.writes (ht : Together cfg ext lib auth A place s w os) {o : Op} (ho : o ∈ os) {b k : Bytes} (h : Writes o b k) : A b k :=
  served_uses ((ht.known o ho).resolve_left (writes_not_watching h)).1 (changes_uses (.inl h))

theorem way_folder {b k : Bytes} {cs q : List Bytes} (ha : A b k) (hk : PlainKey k cs) (e : place b k = b :: cs) (hq : q <+: cs.dropLast) :
    Way A place (b :: q) := by
  refine .inl ⟨b, k, ha, ?_⟩
  rw [e, onTheWay_iff]
  refine ⟨List.cons_prefix_cons.mpr ⟨rfl, hq.trans (List.dropLast_prefix _)⟩, fun e => ?_⟩
  have := congrArg List.length e
  have h1 := hq.length_le
  simp only [List.length_cons, List.length_dropLast] at this h1
  have := List.length_pos_iff.mpr hk.nonempty
  omega

/-- the folders of a request's objects are there, unless it makes them -/
theorem round_folders (hp : PlainPlaces A place) (h : Embodies cfg ext A place s fs) (ht : Together cfg ext lib auth A place s w os) {o : Op}
    (ho : o ∈ os) (hn : ∀ b k, Writes o b k → NeedsFolder o b k) : FoldersExist cfg o fs := by
  refine ⟨h.root, fun b k cs hw hk => ?_⟩
  have ha := ht.writes ho hw
  obtain ⟨_, cs', hk', e⟩ := hp b k ha
  cases plainKey_unique hk hk'
  refine ((h.folders _ (way_folder ha hk e (List.prefix_refl _))).1).mpr ?_
  have := ht.folders o ho b k (hn b k hw)
  rw [e, List.dropLast_cons_of_ne_nil hk.nonempty] at this
  exact this

/-- the folders of an upload can be made -/
theorem round_free (hS : Spelled cfg.root A place) (h : Embodies cfg ext A place s fs) {b k : Bytes} {cs : List Bytes} (ha : A b k)
    (hk : PlainKey k cs) (e : place b k = b :: cs) : FoldersFree cfg b cs fs := by
  refine ⟨h.root, fun q hq => (h.folders _ (way_folder ha hk e hq)).2, fun c hc => ?_⟩
  have := (hS.fits b k ha).1 c (by rw [e]; exact List.mem_cons_of_mem _ (List.dropLast_subset _ hc))
  simp only [nameOk, Bool.and_eq_true, decide_eq_true_eq, Bool.not_eq_true'] at this
  exact ⟨this.1.1.1.1.2, fun h0 => by simp [h0] at this⟩

/-- What a request of a round that is not disturbed is answered, and what it does to what it is about: as if it were alone. -/
theorem round_alone (hS : Spelled cfg.root A place) (hp : PlainPlaces A place) (h : Embodies cfg ext A place s fs)
    (ht : Together cfg ext lib auth A place s w os) {n : Nat} {x : Exchange} {o : Op} (hx : w.requests[n]? = some x) (hn : os[n]? = some o)
    (hu : Undisturbed A os n o) (hok : ∀ f, (n, .call f) ∈ w.strides → f = .none) {r : Outcome Response} (hr : w.response cfg fs n = some r) :
    r = responded cfg ext lib auth x.env x.texts x.req fs ∧
    (∀ b k, Uses o b k → stored cfg (w.leaves cfg fs) b k = stored cfg (after cfg ext o fs) b k ∧
      storedMeta cfg ext (w.leaves cfg fs) b k = storedMeta cfg ext (after cfg ext o fs) b k) ∧
    (∀ u m, UsesPart o u m → contentAt (w.leaves cfg fs) (partFile cfg u m) = contentAt (after cfg ext o fs) (partFile cfg u m)) ∧
    ∀ i, o = .putObject i → Acceptable i → IsDir (w.leaves cfg fs) (cfg.root ++ (place i.bucket i.key).dropLast) := by
  obtain ⟨hs, ha, hoth⟩ := hu
  have hax := ht.asks n x o hx hn
  have hothers : ∀ (j : Nat) y, j ≠ n → w.requests[j]? = some y → AsksIn cfg ext lib auth (Elsewhere o) y := fun j y hj hy => by
    obtain ⟨o', ho', hay⟩ := ht.op hy
    exact .inl ⟨o', hoth j o' hj ho', hay⟩
  have hres : afterResponded cfg ext lib auth x.env x.texts x.req fs = after cfg ext o fs := by
    obtain ⟨c, hc, hq⟩ := hax
    exact (responded_of hc hq x.texts fs).1
  by_cases hput : ∃ i, o = .putObject i
  · obtain ⟨i, rfl⟩ := hput
    obtain ⟨hb, cs, hk, e⟩ := hp i.bucket i.key hs.1
    obtain ⟨h1, h2, h3, h4⟩ := C135_put ht.serves hx hax hb hk hothers hok h.wf (round_free hS h hs.1 hk e) hr
    rw [hres] at h2 h3
    refine ⟨h1, fun b k hu => by cases hu; exact ⟨h2, h3⟩, fun u m hu => hu.elim, fun j ej hj => ?_⟩
    cases ej
    rw [e, List.dropLast_cons_of_ne_nil hk.nonempty]
    exact h4 hj
  · obtain ⟨h1, h2, h3⟩ := C129_sound ht.serves hx hax ha hothers hok h.wf (round_folders hp h ht (List.mem_of_getElem? hn) fun b k hw => by
      cases o <;> first | exact hw | exact absurd ⟨_, rfl⟩ hput) hr
    rw [hres] at h2 h3
    exact ⟨h1, h2, h3, fun i e => absurd ⟨i, e⟩ hput⟩

theorem round_watching_ok {o : Op} (ho : Watching o) {c : Call} (hc : (opPerm cfg o).ok c) : isReading c := by
  cases o <;> first | exact ho.elim | (cases c <;> first | trivial | exact hc.elim)

theorem round_calls (ht : Together cfg ext lib auth A place s w os) : ∀ w' ∈ [w], ∀ x ∈ w'.requests,
    AsksIn cfg ext lib auth (fun o => o ∈ os) x := by
  intro w' hw' x hx
  obtain rfl := List.mem_singleton.mp hw'
  obtain ⟨n, hn⟩ := List.getElem?_of_mem hx
  obtain ⟨o, ho, ha⟩ := ht.op hn
  exact .inl ⟨o, List.mem_of_getElem? ho, ha⟩

/-- the calls of a request of a round; an upload that is refused makes none -/
def roundOk (cfg : Cfg) (os : List Op) (c : Call) : Prop := ∃ o, (o ∈ os ∧ ∀ i, o = .putObject i → Acceptable i) ∧ (opPerm cfg o).ok c

theorem round_safe (hp : PlainPlaces A place) (ht : Together cfg ext lib auth A place s w os) :
    ∀ w' ∈ [w], ∀ x ∈ w'.requests, Safe (roundOk cfg os) (fun _ => True) (hyperCall cfg ext lib auth x.env x.texts x.req) := by
  intro w' hw' x hx
  obtain rfl := List.mem_singleton.mp hw'
  obtain ⟨n, hn⟩ := List.getElem?_of_mem hx
  obtain ⟨o, ho, c, hc, hr⟩ := ht.op hn
  have hom := List.mem_of_getElem? ho
  rw [show hyperCall cfg ext lib auth x.env x.texts x.req = wrap x.texts c o.handler (opProg cfg ext o) from hyperCall_asks hc hr]
  refine (through_wrap x.texts c o.handler).2 _ _ ?_
  by_cases hacc : ∀ i, o = .putObject i → Acceptable i
  · exact (op_safe cfg ext o).mono (fun c hc => ⟨o, ⟨hom, hacc⟩, hc⟩) fun _ h => h
  · obtain ⟨i, hi⟩ := Classical.not_forall.mp hacc
    obtain ⟨rfl, hna⟩ := Classical.not_imp.mp hi
    have hA := ht.writes hom (b := i.bucket) (k := i.key) rfl
    obtain ⟨hb, cs, hk, _⟩ := hp _ _ hA
    rcases put_shape cfg ext hb hk with ⟨_, e, he⟩ | ⟨h, _⟩
    · simp only [opProg, he]
      trivial
    · exact absurd h hna

/-- an invariant of all calls of a round -/
theorem round_inv (hp : PlainPlaces A place) (ht : Together cfg ext lib auth A place s w os) {J : FS → Prop}
    (hJ : ∀ o ∈ os, (∀ i, o = .putObject i → Acceptable i) → ∀ fs c f, WF fs → J fs → (opPerm cfg o).ok c → J (execF cfg fs c f).2) (hw : WF fs)
    (h : J fs) : J (w.leaves cfg fs) :=
  (piece_inv (ok := roundOk cfg os) (Closed.exists fun o => closed_perm (opPerm cfg o)) (J := J)
    (fun t c f htw hj hc => by obtain ⟨o, ⟨ho, ha⟩, hc⟩ := hc; exact hJ o ho ha t c f htw hj hc)
    (ws := [w]) (fun w' hw' => by obtain rfl := List.mem_singleton.mp hw'; exact ht.serves) (round_safe hp ht) hw h).1

/-- no folder is removed -/
theorem round_keeps (hp : PlainPlaces A place) (h : Embodies cfg ext A place s fs) (ht : Together cfg ext lib auth A place s w os) {d : List Bytes}
    (hd : IsDir fs (cfg.root ++ d)) : IsDir (w.leaves cfg fs) (cfg.root ++ d) := by
  refine round_inv hp ht (J := fun t => IsDir t (cfg.root ++ d)) (fun o ho _ t c f htw hj hc => ?_) h.wf hd
  rcases ht.known o ho with hw | ⟨hs, ha⟩
  · rw [execF_reading (round_watching_ok hw hc)]; exact hj
  refine execF_sparesDir ?_ f hj
  have := op_local ha hc
  cases c <;> first | trivial | exact this.elim

/-- no folder is made but those of the uploads -/
theorem round_makes (hS : Spelled cfg.root A place) (hp : PlainPlaces A place) (h : Embodies cfg ext A place s fs)
    (ht : Together cfg ext lib auth A place s w os) {d : List Bytes} (hd : IsDir (w.leaves cfg fs) (cfg.root ++ d)) :
    IsDir fs (cfg.root ++ d) ∨ ∃ i, .putObject i ∈ os ∧ Acceptable i ∧ onTheWay d (place i.bucket i.key) = true := by
  refine round_inv hp ht (J := fun t => IsDir t (cfg.root ++ d) → IsDir fs (cfg.root ++ d) ∨
    ∃ i, .putObject i ∈ os ∧ Acceptable i ∧ onTheWay d (place i.bucket i.key) = true) (fun o ho hacc t c f htw hj hc hd => ?_) h.wf .inl hd
  rcases ht.known o ho with hw | ⟨hs, ha⟩
  · rw [execF_reading (round_watching_ok hw hc)] at hd; exact hj hd
  by_cases hm : callMakes (cfg.root ++ d) c
  · have hlw : LegalWrite o := by
      obtain ⟨n, hn⟩ := List.getElem?_of_mem ho
      obtain ⟨x, _, hx⟩ := ht.request hn
      exact asks_legalWrite hx
    cases ok_makes hlw hc hm with
    | bucket => exact ha.2.2.elim
    | @folder i t p _ hk hpl _ =>
      obtain ⟨_, cs, hpk, _⟩ := hp i.bucket i.key hs.1
      have := plain_no_slash hpk
      rw [hk] at this
      exact absurd this (by simp [endsWithByte])
    | @parent i p _ hk hpl hab hne =>
      have hpe := ((C96_place cfg.root i.bucket i.key).2.1) p _ hpl (hS.names _ _ hs.1).place
      refine .inr ⟨i, ho, hacc i rfl, ?_⟩
      rw [← hpe, onTheWay_iff]
      obtain ⟨t, rfl⟩ := hab
      exact ⟨List.prefix_append .., hne⟩
  · exact hj ((execF_noNew htw f).2 hm hd)

/-- no file appears on the way to an object -/
theorem round_ways (hS : Spelled cfg.root A place) (hp : PlainPlaces A place) (h : Embodies cfg ext A place s fs) (ht : Together cfg ext lib auth A place s w os)
    {q : List Bytes} (hq : Way A place q) : contentAt (w.leaves cfg fs) (cfg.root ++ q) = none := by
  have hnone : ∀ t : FS, contentAt t (cfg.root ++ q) = none ↔ ∀ c, contentAt t (cfg.root ++ q) ≠ some c := fun t => by
    cases contentAt t (cfg.root ++ q) <;> simp
  rw [hnone]
  refine round_inv hp ht (J := fun t => ∀ c, contentAt t (cfg.root ++ q) ≠ some c) (fun o ho hacc t c f htw hj hc => ?_) h.wf
    ((hnone _).mp (h.folders q hq).2)
  clear hacc
  rcases ht.known o ho with hw | ⟨hs, ha⟩
  · rw [execF_reading (round_watching_ok hw hc)]; exact hj
  intro c' hc'
  refine hj c' ((execF_noNew htw f).1 (fun hcw => ?_) c' hc')
  have hobj : ∀ {b k}, A b k → ¬ objP cfg b k (cfg.root ++ q) := fun ha hq' => by
    rw [objP_names (hS.names _ _ ha)] at hq'
    exact way_not_place hS hq ha (List.append_cancel_left hq')
  have hmeta : ∀ b k, ¬ metaP cfg b k (cfg.root ++ q) := fun b k => head_ne_meta (way_head hS hq) b k
  have hwr : ¬ (opPerm cfg o).wr (cfg.root ++ q) := by
    intro hx
    cases o <;> simp only [opPerm] at hx
    case copyObject => exact hx.elim (hobj hs.1) (hmeta _ _)
    case putObject => exact hx.2.elim (hobj hs.1) fun hx => hmeta _ _ hx.2
    case uploadPart u n _ =>
      obtain ⟨p, hp, hx⟩ := hx
      rw [partPath_eq cfg hs.1] at hp
      cases hp
      exact head_ne_part (way_head hS hq) u n hx
    case completeMultipartUpload => exact hobj hs.1 hx
  cases c <;> try exact hcw.elim
  case create p =>
    have hcw : p.comps = cfg.root ++ q := hcw
    exact hwr (hcw ▸ hc)
  case writeAt i _ _ =>
    have hcw : i.path = cfg.root ++ q := hcw
    exact hwr (hcw ▸ hc)

theorem ok_apart {o : Op} {P : Path} (h : ¬ opTouch cfg o P) {c : Call} (hc : (opPerm cfg o).ok c) : writeOk (· ≠ P) (fun _ => True) c := by
  have own : ∀ {q}, opOwn cfg o q → q ≠ P := fun hq e => h (.inl (e ▸ hq))
  cases c with
  | mkdir p => exact .inl trivial
  | create p => exact own (.inl hc)
  | writeAt i _ _ => exact own (.inl hc)
  | unlink p => exact own (.inr (.inl hc))
  | rmdir p => exact own (.inr (.inr hc))
  | rmtree p => exact fun q hq e => h (.inr ⟨p, hc, e ▸ hq⟩)
  | _ => trivial

/-- a part nobody is about stays -/
theorem round_part (hp : PlainPlaces A place) (h : Embodies cfg ext A place s fs) (ht : Together cfg ext lib auth A place s w os) {u : Bytes} {n : Int}
    (hu : ∀ o ∈ os, Watching o ∨ ¬ UsesPart o u n) : contentAt (w.leaves cfg fs) (partFile cfg u n) = contentAt fs (partFile cfg u n) := by
  have hF : Frame (· ≠ partFile cfg u n) (fun _ => True) fs (w.leaves cfg fs) := by
    refine round_inv hp ht (J := fun t => Frame (· ≠ partFile cfg u n) (fun _ => True) fs t) (fun o ho _ t c f htw hj hc => ?_) h.wf (.refl ..)
    rcases ht.known o ho with hw | ⟨_, ha⟩
    · rw [execF_reading (round_watching_ok hw hc)]; exact hj
    refine hj.trans (execF_frame htw (ok_apart (fun hx => ?_) hc) f)
    have hp := touch_part ha.1 hx
    rcases hu o ho with hw | hu
    · cases o <;> first | exact hw.elim | exact hp.elim
    · exact hu hp
  rcases hF.node (partFile cfg u n) (fun h => h rfl) with e | ⟨_, e1, e2⟩
  · simp only [contentAt, e]
    split
    · rename_i i hi
      rw [hF.data i (fun h' => h' (h.wf.ino _ _ hi).1)]
    · rfl
  · simp only [contentAt, e1, e2]

theorem away_of_unused (hp : PlainPlaces A place) {b k : Bytes} {o : Op} (h : Watching o ∨ (Served A o ∧ AboutObjects o) ∧ ¬ Uses o b k) :
    OnOthers b (Away b k) o := by
  rcases h with h | ⟨⟨hs, ha⟩, hu⟩
  · cases o <;> first | exact h.elim | trivial
  · have away : ∀ {b' k'}, A b' k' → (Uses o b' k') → Away b k b' k' := fun {b' k'} hA hU => by
      obtain ⟨h1, cs, h2, _⟩ := hp b' k' hA
      exact ⟨h1, ⟨cs, h2⟩, fun e => hu (by cases e; exact hU)⟩
    have hk := ha.2.2
    cases o <;> simp only at hk
    case putObject => exact away hs.1 rfl
    case copyObject => exact away hs.1 (.inl rfl)
    case deleteObject => exact away hs rfl
    case deleteObjects => exact fun k' hk' => away (hs k' hk') ⟨rfl, hk'⟩
    case completeMultipartUpload => exact ⟨away hs.1 rfl, hs.2⟩
    case uploadPart => exact hs.1
    all_goals trivial

/-- what the requests of a round do, in whatever order they are counted -/
theorem round_embodies (hl : MetaLaw ext) (he : ext.metaDec [] = none) (hS : Spelled cfg.root A place) (hp : PlainPlaces A place)
    (h : Embodies cfg ext A place s fs) (ht : Together cfg ext lib auth A place s w os) (hf : Finished cfg w os fs) {l : List Op}
    (hperm : l.Perm os) : Embodies cfg ext A place (s.afterAll place l) (w.leaves cfg fs) := by
  have hw' : WF (w.leaves cfg fs) := piece_wf ht.serves h.wf
  -- a request that does more than read
  have one : ∀ {n : Nat} {o : Op}, os[n]? = some o → ¬ Watching o →
      Embodies cfg ext A place (s.after place o) (after cfg ext o fs) ∧ Same place o (s.after place o) (s.afterAll place l) ∧
      (∀ b k, Uses o b k → stored cfg (w.leaves cfg fs) b k = stored cfg (after cfg ext o fs) b k ∧
        storedMeta cfg ext (w.leaves cfg fs) b k = storedMeta cfg ext (after cfg ext o fs) b k) ∧
      (∀ u m, UsesPart o u m → contentAt (w.leaves cfg fs) (partFile cfg u m) = contentAt (after cfg ext o fs) (partFile cfg u m)) ∧
      ∀ i, o = .putObject i → Acceptable i → IsDir (w.leaves cfg fs) (cfg.root ++ (place i.bucket i.key).dropLast) := by
    intro n o hn hnw
    have hom := List.mem_of_getElem? hn
    obtain ⟨hs, ha, hoth⟩ := ht.undisturbed hn hnw
    obtain ⟨x, hx, hax⟩ := ht.request hn
    refine ⟨C131_step hl he hS h (.inl hs), ?_, ?_⟩
    · have hin : o ∈ l := hperm.mem_iff.mpr hom
      obtain ⟨pre, post, rfl⟩ := List.append_of_mem hin
      have hpw : (pre ++ o :: post).Pairwise Independent := (hperm.pairwise_iff Independent.symm).mpr ht.apart
      refine afterAll_local hp hs ha (fun o' ho' => ⟨?_, ?_⟩) (ht.folders o hom)
      · refine ht.known o' (hperm.mem_iff.mp ?_)
        simp only [List.mem_append, List.mem_cons] at ho' ⊢
        exact ho'.imp id .inr
      · have hpw' : (o :: (pre ++ post)).Pairwise Independent :=
          (List.perm_middle.pairwise_iff Independent.symm).mp hpw
        exact ((List.pairwise_cons.mp hpw').1 o' ho').1.resolve_left hnw
    · obtain ⟨r, hr⟩ := hf.2 n o hn hnw
      exact (round_alone hS hp h ht hx hn (ht.undisturbed hn hnw) (fun f hf' => hf.1 _ hf' f rfl) hr).2
  -- an address
  have addr : ∀ b k, A b k → contentAt (w.leaves cfg fs) (cfg.root ++ place b k) = (s.afterAll place l).bytes (place b k) ∧
      storedMeta cfg ext (w.leaves cfg fs) b k = ((s.afterAll place l).record b k).found := by
    intro b k hA
    rw [← stored_names (hS.names b k hA)]
    by_cases hex : ∃ (n : Nat) (o : Op), os[n]? = some o ∧ ¬ Watching o ∧ Uses o b k
    · obtain ⟨n, o, hn, hnw, hu⟩ := hex
      obtain ⟨h1, h2, h3, _, _⟩ := one hn hnw
      obtain ⟨h4, h5⟩ := h3 b k hu
      rw [h4, h5, ← h2.bytes b k hu, ← h2.record b k hu, stored_names (hS.names b k hA)]
      exact ⟨h1.bytes b k hA, h1.record b k hA⟩
    · have hall : ∀ o ∈ os, Watching o ∨ (Served A o ∧ AboutObjects o) ∧ ¬ Uses o b k := fun o ho => by
        rcases ht.known o ho with hw | hs
        · exact .inl hw
        · by_cases hw : Watching o
          · exact .inl hw
          · obtain ⟨n, hn⟩ := List.getElem?_of_mem ho
            exact .inr ⟨hs, fun hu => hex ⟨n, o, hn, hw, hu⟩⟩
      obtain ⟨hb, cs, hk, _⟩ := hp b k hA
      obtain ⟨h1, h2⟩ := C129_kept (cfg := cfg) (ext := ext) (lib := lib) (auth := auth) (ws := [w]) hb hk
        (fun w' hw' => by obtain rfl := List.mem_singleton.mp hw'; exact ht.serves)
        (fun w' hw' y hy => by
          rcases round_calls ht w' hw' y hy with ⟨o, ho, ha⟩ | hr
          · exact .inl ⟨o, away_of_unused hp (hall o ho), ha⟩
          · exact .inr hr) h.wf
      obtain ⟨h3, h4⟩ := machine_unused hp hA (s := s) fun o ho => hall o (hperm.mem_iff.mp ho)
      rw [h3, h4]
      refine ⟨h1.trans ?_, h2.trans (h.record b k hA)⟩
      rw [stored_names (hS.names b k hA)]; exact h.bytes b k hA
  have made : ∀ {d}, ¬ Way A place d → IsDir (w.leaves cfg fs) (cfg.root ++ d) → IsDir fs (cfg.root ++ d) := fun hnw hd =>
    (round_makes hS hp h ht hd).elim id fun ⟨i, hi, _, hon⟩ => absurd (.inl ⟨i.bucket, i.key, ht.writes hi rfl, hon⟩) hnw
  refine ⟨hw', ?_, fun b k hA => (addr b k hA).1, fun b k hA hd => h.free b k hA (made (fun hq => way_not_place hS hq hA rfl) hd),
    fun b k hA => (addr b k hA).2, fun b k hA hd => h.noDir b k hA (made (fun hq => head_ne_meta (cfg := cfg) (way_head hS hq) b k rfl) hd),
    fun q hq => ⟨?_, round_ways hS hp h ht hq⟩, fun u n hu => ⟨?_, fun hd =>
      (h.parts u n hu).2 (made (fun hq => head_ne_part (cfg := cfg) (way_head hS hq) u n rfl) hd)⟩⟩
  · have := round_keeps hp h ht (d := [])
    rw [List.append_nil] at this
    exact this h.root
  · rw [machine_folder fun o ho => (ht.known o (hperm.mem_iff.mp ho)).imp id (·.2), ← (h.folders q hq).1]
    constructor
    · exact fun hd => (round_makes hS hp h ht hd).imp id fun ⟨i, hi, h'⟩ => ⟨i, hperm.mem_iff.mpr hi, h'⟩
    · rintro (hd | ⟨i, hi, hacc, hon⟩)
      · exact round_keeps hp h ht hd
      · obtain ⟨n, hn⟩ := List.getElem?_of_mem (hperm.mem_iff.mp hi)
        have hd := (one hn (fun h => h)).2.2.2.2 i rfl hacc
        have hpre := dropLast_eq_of_prefix (q := place i.bucket i.key) (by rintro e; rw [e, onTheWay_iff] at hon; exact hon.2 (List.prefix_nil.mp hon.1))
          (onTheWay_iff.mp hon).1 (onTheWay_iff.mp hon).2
        by_cases e : q = (place i.bucket i.key).dropLast
        · rw [e]; exact hd
        · exact hw'.above hd (List.prefix_append_right_inj .. |>.mpr hpre) fun e' => e (List.append_cancel_left e')
  · by_cases hex : ∃ (m : Nat) (o : Op), os[m]? = some o ∧ ¬ Watching o ∧ UsesPart o u n
    · obtain ⟨m, o, hm, hnw, hup⟩ := hex
      obtain ⟨h1, h2, _, h3, _⟩ := one hm hnw
      rw [← h2.parts u n hup]
      exact (h3 u n hup).trans (h1.parts u n hu).1
    · have hall : ∀ o ∈ os, Watching o ∨ AboutObjects o ∧ ¬ UsesPart o u n := fun o ho => by
        rcases ht.known o ho with hw | hs
        · exact .inl hw
        · by_cases hw : Watching o
          · exact .inl hw
          · obtain ⟨n, hn⟩ := List.getElem?_of_mem ho
            exact .inr ⟨hs.2, fun hu => hex ⟨n, o, hn, hw, hu⟩⟩
      rw [machine_unused_part fun o ho => hall o (hperm.mem_iff.mp ho)]
      exact (round_part hp h ht fun o ho => (hall o ho).imp id (·.2)).trans (h.parts u n hu).1

/-! ### the theorems -/

/-- **C134** Requests that are served at the same time, in pieces and in any interleaving, and that are about different objects and parts, do
together what the machine does when it does one after the other, in any order. Requests that only read may be among them, and may read
what the others write. -/
theorem C134_round (hl : MetaLaw ext) (he : ext.metaDec [] = none) (hS : Spelled cfg.root A place) (hp : PlainPlaces A place)
    (h : Embodies cfg ext A place s fs) (ht : Together cfg ext lib auth A place s w os) (hf : Finished cfg w os fs) {order : List Op}
    (hperm : order.Perm os) : Embodies cfg ext A place (s.afterAll place order) (w.leaves cfg fs) :=
  round_embodies hl he hS hp h ht hf hperm

theorem round_response (he : ext.metaDec [] = none) (hmd5 : ∀ s, CleanText (quoted (ext.md5hex s)))
    (hS : Spelled cfg.root A place) (hp : PlainPlaces A place) (h : Embodies cfg ext A place s fs)
    (ht : Together cfg ext lib auth A place s w os) {n : Nat} {x : Exchange} {o : Op} (hs : SendableRecords (Shown o) s) (hn : w.requests[n]? = some x)
    (ho : os[n]? = some o) (hok : ∀ f, (n, .call f) ∈ w.strides → f = .none) (hu : ¬ Watching o ∨ Undisturbed A os n o) {r : Outcome Response}
    (hr : w.response cfg fs n = some r) (hdoc : Documented x.req o) (hm : CleanMessage x.texts) :
    ∃ res a, r = .ok res ∧ s.answer ext place o = some a ∧ Renders res o a := by
  have hu : Undisturbed A os n o := hu.elim (fun hw => ht.undisturbed ho hw) id
  obtain ⟨h1, _⟩ := round_alone hS hp h ht hn ho hu hok hr
  obtain ⟨res, a, h2, h3, h4⟩ := machine_renders he hmd5 hS h hs (ht.asks n x o hn ho) hu.1 hdoc hm
  exact ⟨res, a, h1.trans h2, h3, h4⟩

/-- **C134** Each of them - and of those that read, each that reads nothing the others write - is answered as the machine answers it. -/
theorem C134_response (he : ext.metaDec [] = none) (hmd5 : ∀ s, CleanText (quoted (ext.md5hex s)))
    (hS : Spelled cfg.root A place) (hp : PlainPlaces A place) (h : Embodies cfg ext A place s fs) (hs : SendableRecords A s)
    (ht : Together cfg ext lib auth A place s w os) {n : Nat} {x : Exchange} {o : Op} (hn : w.requests[n]? = some x) (ho : os[n]? = some o)
    (hok : ∀ f, (n, .call f) ∈ w.strides → f = .none) (hu : ¬ Watching o ∨ Undisturbed A os n o) {r : Outcome Response}
    (hr : w.response cfg fs n = some r) (hdoc : Documented x.req o) (hm : CleanMessage x.texts) :
    ∃ res a, r = .ok res ∧ s.answer ext place o = some a ∧ Renders res o a :=
  round_response he hmd5 hS hp h ht
    (fun b k m hk => hs b k m (shown_served (hu.elim (fun hw => (ht.undisturbed ho hw).1) (·.1)) hk)) hn ho hok hu hr hdoc hm

theorem sound_step (hl : MetaLaw ext) (he : ext.metaDec [] = none) (hS : Spelled cfg.root A place) (hp : PlainPlaces A place)
    (h : Embodies cfg ext A place s fs) {r : Round} (hr : r.Sound cfg ext lib auth A place s fs) :
    Embodies cfg ext A place (s.afterAll place r.ops) (r.leaves cfg ext lib auth fs) := by
  cases r with
  | alone x o =>
    obtain ⟨⟨c, hc, hq⟩, ho⟩ := hr
    have := C131_step hl he hS h ho
    rw [← (responded_of (cfg := cfg) (ext := ext) hc hq x.texts fs).1] at this
    exact this
  | together w os => exact C134_round hl he hS hp h hr.1 hr.2 (.refl _)

/-- **C134** A history of rounds, in each of which one request is served alone (of any kind the machine knows) or any number at the same
time, about different objects and parts: the file tree shows the state of the machine that has done all of it, one after the other. -/
theorem C134_history (hl : MetaLaw ext) (he : ext.metaDec [] = none) (hS : Spelled cfg.root A place) (hp : PlainPlaces A place) {rs : List Round} :
    ∀ {s : Machine} {fs : FS}, Embodies cfg ext A place s fs → SoundRounds cfg ext lib auth A place rs s fs →
    Embodies cfg ext A place (s.afterRounds place rs) (afterRounds cfg ext lib auth rs fs) := by
  induction rs with
  | nil => exact fun h _ => h
  | cons r rs ih => exact fun h hr => ih (sound_step hl he hS hp h hr.1) hr.2

theorem sound_split {rs : List Round} {r : Round} {rest : List Round} : ∀ {s : Machine} {fs : FS},
    SoundRounds cfg ext lib auth A place (rs ++ r :: rest) s fs → SoundRounds cfg ext lib auth A place rs s fs ∧
      r.Sound cfg ext lib auth A place (s.afterRounds place rs) (afterRounds cfg ext lib auth rs fs) := by
  induction rs with
  | nil => exact fun h => ⟨trivial, h.1⟩
  | cons r' rs ih => exact fun h => ⟨⟨h.1, (ih h.2).1⟩, (ih h.2).2⟩

theorem rounds_records {rs : List Round} : ∀ {s : Machine}, SendableRecords A s →
    (∀ r ∈ rs, ∀ o ∈ r.ops, (Served A o ∧ Sends o) ∨ Watching o) → SendableRecords A (s.afterRounds place rs) := by
  induction rs with
  | nil => exact fun h _ => h
  | cons r rs ih =>
    exact fun h hr => ih (records_all h (hr r (List.mem_cons_self ..))) fun r' h' => hr r' (List.mem_cons_of_mem _ h')

/-- **C134** In such a history, from an empty storage directory, every request that is served alone and that the machine knows, and every
request that is served together with others and is not disturbed by them, gets the response that shows the answer of the machine. -/
theorem C134_client (hl : MetaLaw ext) (he : ext.metaDec [] = none) (hmd5 : ∀ s, CleanText (quoted (ext.md5hex s)))
    (hS : Spelled cfg.root A place) (hp : PlainPlaces A place) (hw : WF fs) (hroot : IsDir fs cfg.root)
    (hempty : ∀ q, q ≠ [] → fs.lookup (cfg.root ++ q) = none) {rs : List Round} {r : Round} {rest : List Round}
    (hr : SoundRounds cfg ext lib auth A place (rs ++ r :: rest) Machine.fresh fs)
    (hsend : ∀ r ∈ rs, ∀ o ∈ r.ops, (Served A o ∧ Sends o) ∨ Watching o) {x : Exchange} {o : Op} (hdoc : Documented x.req o) (hm : CleanMessage x.texts) :
    (r = .alone x o → Served A o → ∃ res a, responded cfg ext lib auth x.env x.texts x.req (afterRounds cfg ext lib auth rs fs) = .ok res ∧
      (Machine.fresh.afterRounds place rs).answer ext place o = some a ∧ Renders res o a) ∧
    ∀ w os n, r = .together w os → w.requests[n]? = some x → os[n]? = some o → (¬ Watching o ∨ Undisturbed A os n o) →
      ∀ t, w.response cfg (afterRounds cfg ext lib auth rs fs) n = some t →
        ∃ res a, t = .ok res ∧ (Machine.fresh.afterRounds place rs).answer ext place o = some a ∧ Renders res o a := by
  obtain ⟨h1, h2⟩ := sound_split hr
  have h := C134_history hl he hS hp (embodies_fresh hS hw hroot hempty) h1
  have hrec : SendableRecords A (Machine.fresh.afterRounds place rs) := rounds_records (fun _ _ _ _ hr => nomatch hr) hsend
  refine ⟨?_, ?_⟩
  · rintro rfl ho
    exact C132_client (hist := []) (os := []) hl he hmd5 hS h hrec .nil (fun _ h => nomatch h) h2.1 ho hdoc hm
  · rintro w os n rfl hn ho hu t ht
    exact C134_response he hmd5 hS hp h hrec h2.1 hn ho (fun f hf => h2.2.1 _ hf f rfl) hu ht hdoc hm

/-! ### the hypotheses are met -/

/-- three objects of one bucket -/
def Sample.three (b k : Bytes) : Prop := (b, k) ∈ [(b!"aaa", b!"x"), (b!"aaa", b!"y"), (b!"aaa", b!"z")]

def Sample.threeAt (b k : Bytes) : List Bytes := [b, k]

theorem Sample.three_cases {b k : Bytes} (h : Sample.three b k) : b = b!"aaa" ∧ (k = b!"x" ∨ k = b!"y" ∨ k = b!"z") := by
  simp only [Sample.three, List.mem_cons, Prod.mk.injEq, List.not_mem_nil, or_false] at h
  rcases h with ⟨rfl, rfl⟩ | ⟨rfl, rfl⟩ | ⟨rfl, rfl⟩ <;> simp

theorem Sample.three_spelled : Spelled Sample.cfg.root Sample.three Sample.threeAt := by
  refine ⟨fun b k h => ?_, fun b k b' k' h h' => ?_, fun b k h => ?_⟩
  · obtain ⟨rfl, rfl | rfl | rfl⟩ := Sample.three_cases h <;>
      exact Sample.names (by decide +kernel) (by decide) (by decide +kernel) (by decide +kernel)
  · obtain ⟨rfl, rfl | rfl | rfl⟩ := Sample.three_cases h <;>
      obtain ⟨rfl, rfl | rfl | rfl⟩ := Sample.three_cases h' <;> decide +kernel
  · obtain ⟨rfl, rfl | rfl | rfl⟩ := Sample.three_cases h <;> decide +kernel

theorem Sample.three_plain : PlainPlaces Sample.three Sample.threeAt := fun b k h => by
  obtain ⟨rfl, rfl | rfl | rfl⟩ := Sample.three_cases h <;>
    exact ⟨Sample.bucket_legal _ (by simp), _, plain1 (by decide), rfl⟩

theorem Sample.three_address {k : Bytes} (h : k = b!"x" ∨ k = b!"y" ∨ k = b!"z") : PlainAddress b!"aaa" k :=
  ⟨Sample.bucket_legal _ (by simp), by rcases h with rfl | rfl | rfl <;> exact ⟨_, plain1 (by decide)⟩⟩

theorem Sample.three_apart {b k b' k' : Bytes} (h : Sample.three b k) (h' : Sample.three b' k') (hne : (b', k') ≠ (b, k)) : Apart b k b' k' := by
  obtain ⟨rfl, hk⟩ := Sample.three_cases h
  obtain ⟨rfl, hk'⟩ := Sample.three_cases h'
  have hn : ∀ {k k' : Bytes}, k ≠ [] → k'.length = 1 → ¬ Nested k k' := by
    rintro k k' hk hl ⟨t, rfl⟩
    cases k with
    | nil => exact hk rfl
    | cons => simp at hl
  have hl : ∀ {k : Bytes}, k = b!"x" ∨ k = b!"y" ∨ k = b!"z" → k ≠ [] ∧ k.length = 1 := by
    rintro k (rfl | rfl | rfl) <;> decide
  exact ⟨⟨(Sample.three_address hk').1, (Sample.three_address hk').2, hne⟩, fun _ => hn (hl hk').1 (hl hk).2, fun _ => hn (hl hk).1 (hl hk').2⟩

/-- some requests, served in pieces, with the real formats of metadata and digests -/
def Sample.roundRun (xs : List Exchange) (strides : List (Nat × Stride)) : PieceEpoch :=
  ⟨xs, xs.map fun x => Sample.chop (hyperCall Sample.cfg (realExt id) Sample.lib none x.env x.texts x.req), strides⟩

theorem Sample.roundRun_serves (xs : List Exchange) (strides : List (Nat × Stride)) :
    (Sample.roundRun xs strides).Serves Sample.cfg (realExt id) Sample.lib none := by
  refine ⟨by simp [Sample.roundRun], fun n x q hx hq => ?_⟩
  have hx : xs[n]? = some x := hx
  have hq : (xs.map fun x => Sample.chop (hyperCall Sample.cfg (realExt id) Sample.lib none x.env x.texts x.req))[n]? = some q := hq
  rw [List.getElem?_map, hx] at hq
  cases hq
  exact Sample.chopped _

def Sample.makeReq : Req := Sample.plain b!"PUT" b!"/aaa" none [] [some Sample.locationDoc]

theorem Sample.make_asks : Asks Sample.lib none (Sample.exchange Sample.makeReq) (.createBucket b!"aaa") := by
  obtain ⟨c, hc, hb⟩ := Sample.admit_of (r := Sample.makeReq) (by decide +kernel)
  have ht : Text c.body Sample.locationDoc := by rw [hb]; exact ⟨show none ∉ _ by decide +kernel, by decide +kernel⟩
  exact ⟨c, hc, .createBucket rfl (Sample.at_bucket rfl (by decide +kernel) (by decide +kernel)) (Sample.selects_none rfl) ht
    (by rw [Lib.xmlCreateBucket, Sample.lib_xml.document _ _ Sample.location_document]; exact readCreateBucket_request _)
    ⟨none, Sample.no_header (by decide +kernel), .inl rfl⟩⟩

/-- an upload to `aaa/x`, a part of an upload in parts, and a request that reads `aaa/x` while it is written -/
def Sample.firstRun : PieceEpoch := Sample.roundRun [Sample.webPut, Sample.exchange Sample.partReq, Sample.webGet]
  (List.replicate 24 [(0, .call .none), (1, .call .none), (2, .call .none)]).flatten

def Sample.firstOps : List Op :=
  [.putObject Sample.webInput, .uploadPart b!"id1" 1 (some [some b!"one"]), .getObject b!"aaa" b!"x" none Sample.env.wants]

/-- `aaa/x` is copied to `aaa/z` while `aaa/y` is put together from the part, and `aaa/x` is read -/
def Sample.secondRun : PieceEpoch := Sample.roundRun [Sample.webCopy, Sample.exchange Sample.completeReq, Sample.webGet]
  (List.replicate 30 [(1, .call .none), (0, .call .none), (2, .call .none), (0, .call .none)]).flatten

def Sample.secondOps : List Op :=
  [.copyObject b!"aaa" b!"z" b!"aaa/x", .completeMultipartUpload b!"aaa" b!"y" b!"id1" (some [some 1]),
    .getObject b!"aaa" b!"x" none Sample.env.wants]

theorem Sample.first_asks (n : Nat) (x : Exchange) (o : Op) (hx : Sample.firstRun.requests[n]? = some x) (ho : Sample.firstOps[n]? = some o) :
    Asks Sample.lib none x o := by
  rcases n with _ | _ | _ | n <;> cases hx <;> cases ho
  · exact Sample.webPut_asks
  · exact Sample.asks_part
  · exact Sample.webGet_asks

theorem Sample.second_asks (n : Nat) (x : Exchange) (o : Op) (hx : Sample.secondRun.requests[n]? = some x) (ho : Sample.secondOps[n]? = some o) :
    Asks Sample.lib none x o := by
  rcases n with _ | _ | _ | n <;> cases hx <;> cases ho
  · exact Sample.asks (by decide +kernel) (.copyObject (sb := b!"aaa") (sk := b!"x") rfl
      (Sample.at_object rfl (by decide +kernel) (by decide +kernel) (by decide) (by decide))
      (Sample.selects_none rfl) (Sample.value_header (by decide +kernel)) (Sample.legal (by decide +kernel)) (by decide) (by decide) (by decide))
  · exact Sample.asks_complete
  · exact Sample.webGet_asks

/-- the machine after the creation of the bucket -/
def Sample.stateA : Machine := Machine.fresh.afterAll Sample.threeAt [.createBucket b!"aaa"]
/-- and after the first requests at the same time -/
def Sample.stateB : Machine := Sample.stateA.afterAll Sample.threeAt Sample.firstOps

theorem Sample.first_together : Together Sample.cfg (realExt id) Sample.lib none Sample.three Sample.threeAt Sample.stateA Sample.firstRun
    Sample.firstOps := by
  refine ⟨Sample.roundRun_serves _ _, rfl, Sample.first_asks, fun o ho => ?_, fun o ho b k hw => ?_, ?_⟩
  · simp only [Sample.firstOps, List.mem_cons, List.not_mem_nil, or_false] at ho
    rcases ho with rfl | rfl | rfl
    · refine .inr ⟨⟨(by decide : _ ∈ _), fun m hm => ?_⟩, Sample.three_address (by decide), fun b k h => ?_, trivial⟩
      · cases hm
        exact ⟨by decide, by decide +kernel⟩
      · cases h
        exact Sample.three_address (by decide)
    · exact .inr ⟨⟨by decide, by decide +kernel⟩, (by decide : (47 : UInt8) ∉ _), fun b k h => h.elim, trivial⟩
    · exact .inl trivial
  · simp only [Sample.firstOps, List.mem_cons, List.not_mem_nil, or_false] at ho
    rcases ho with rfl | rfl | rfl
    · exact hw.elim
    · exact hw.elim
    · exact hw.elim
  · refine .cons (fun o ho => ?_) (.cons (fun o ho => ?_) (.cons (fun o ho => nomatch ho) .nil))
    · simp only [List.mem_cons, List.not_mem_nil, or_false] at ho
      rcases ho with rfl | rfl
      · exact ⟨.inr ⟨(by decide : (47 : UInt8) ∉ _), fun b k h => (by decide : (47 : UInt8) ∉ _), fun u n h => h.elim⟩,
          .inr ⟨Sample.three_address (by decide), fun b k h => h.elim, fun u n _ h => h.elim⟩⟩
      · exact ⟨.inr ⟨trivial, fun b k h => trivial, fun u n h => h.elim⟩, .inl trivial⟩
    · simp only [List.mem_cons, List.not_mem_nil, or_false] at ho
      cases ho
      exact ⟨.inr ⟨trivial, fun b k h => trivial, fun u n _ h => h.elim⟩, .inl trivial⟩

theorem Sample.second_together : Together Sample.cfg (realExt id) Sample.lib none Sample.three Sample.threeAt Sample.stateB Sample.secondRun
    Sample.secondOps := by
  have hsrc : copySourceFromHeader b!"aaa/x" = .ok (b!"aaa", b!"x") := by decide +kernel
  have hc : Served Sample.three (.copyObject b!"aaa" b!"z" b!"aaa/x") := ⟨(by decide : _ ∈ _), _, _, hsrc, (by decide : _ ∈ _)⟩
  have hy : Sample.three b!"aaa" b!"y" := (by decide : _ ∈ _)
  refine ⟨Sample.roundRun_serves _ _, rfl, Sample.second_asks, fun o ho => ?_, fun o ho b k hw => ?_, ?_⟩
  · simp only [Sample.secondOps, List.mem_cons, List.not_mem_nil, or_false] at ho
    rcases ho with rfl | rfl | rfl
    · refine .inr ⟨hc, Sample.three_address (by decide), fun b k h => ?_, trivial⟩
      obtain ⟨rfl, hk⟩ := Sample.three_cases (served_uses hc h)
      exact Sample.three_address hk
    · refine .inr ⟨⟨hy, by decide⟩, ⟨Sample.three_address (by decide), by decide⟩, fun b k h => ?_, trivial⟩
      cases h
      exact Sample.three_address (by decide)
    · exact .inl trivial
  · simp only [Sample.secondOps, List.mem_cons, List.not_mem_nil, or_false] at ho
    rcases ho with rfl | rfl | rfl
    · cases hw
      decide +kernel
    · cases hw
      decide +kernel
    · exact hw.elim
  · refine .cons (fun o ho => ?_) (.cons (fun o ho => ?_) (.cons (fun o ho => nomatch ho) .nil))
    · simp only [List.mem_cons, List.not_mem_nil, or_false] at ho
      rcases ho with rfl | rfl
      · refine ⟨.inr ⟨⟨Sample.three_address (by decide), by decide⟩, fun b k h => ⟨?_, by decide⟩, fun u n h => h.elim⟩,
          .inr ⟨Sample.three_address (by decide), fun b k h => ?_, fun u n _ h => h.elim⟩⟩
        · refine Sample.three_apart (served_uses hc h) hy fun e => ?_
          cases e
          rcases h with h | ⟨_, h⟩
          · cases h
          · exact absurd h (by decide)
        · cases h
          exact Sample.three_apart hy hc.1 (by decide)
      · exact ⟨.inr ⟨trivial, fun b k h => trivial, fun u n h => h.elim⟩, .inl trivial⟩
    · simp only [List.mem_cons, List.not_mem_nil, or_false] at ho
      cases ho
      exact ⟨.inr ⟨trivial, fun b k h => trivial, fun u n _ h => h.elim⟩, .inl trivial⟩

def Sample.rounds : List Round :=
  [.alone (Sample.exchange Sample.makeReq) (.createBucket b!"aaa"), .together Sample.firstRun Sample.firstOps]

/-- From an empty storage directory a bucket is made; then, at the same time, an object and a part are stored and the object is read; then, at
the same time, the object is copied, the upload in parts is completed and the object is read. The hypotheses of C134 are met, and the machine
says what the last of these requests are answered and what a later request for the metadata of the copy is told. -/
example : SoundRounds Sample.cfg (realExt id) Sample.lib none Sample.three Sample.threeAt
      (Sample.rounds ++ .together Sample.secondRun Sample.secondOps :: []) Machine.fresh Sample.emptyStore ∧
    (∀ r ∈ Sample.rounds, ∀ o ∈ r.ops, (Served Sample.three o ∧ Sends o) ∨ Watching o) ∧
    Undisturbed Sample.three Sample.secondOps 2 (.getObject b!"aaa" b!"x" none Sample.env.wants) ∧
    (∀ n ∈ [0, 1, 2], (Sample.webStatus (Sample.secondRun.response Sample.cfg
      (afterRounds Sample.cfg (realExt id) Sample.lib none Sample.rounds Sample.emptyStore) n)).map Prod.fst = some 200) ∧
    (Machine.fresh.afterRounds Sample.threeAt Sample.rounds).answer (realExt id) Sample.threeAt
      (.getObject b!"aaa" b!"x" none Sample.env.wants) = some (.ok (.object 3 (some [(b!"a", b!"1")]) (quoted ((realExt id).md5hex b!"new")) (some b!"new"))) ∧
    ((Machine.fresh.afterRounds Sample.threeAt Sample.rounds).afterAll Sample.threeAt Sample.secondOps).answer (realExt id) Sample.threeAt
      (.headObject b!"aaa" b!"y") = some (.ok (.head 3 none)) ∧
    ((Machine.fresh.afterRounds Sample.threeAt Sample.rounds).afterAll Sample.threeAt Sample.secondOps).answer (realExt id) Sample.threeAt
      (.headObject b!"aaa" b!"z") = some (.ok (.head 3 (some [(b!"a", b!"1")]))) := by
  refine ⟨⟨⟨Sample.make_asks, .inl (Sample.bucket_legal _ (by simp))⟩, ⟨Sample.first_together, ?_, ?_⟩, ⟨Sample.second_together, ?_, ?_⟩, trivial⟩,
    ?_, ?_, by decide +kernel, by decide +kernel, by decide +kernel, by decide +kernel⟩
  · simp [Sample.firstRun, Sample.roundRun]
  · refine fun n o ho hn => Option.isSome_iff_exists.mp ?_
    rcases n with _ | _ | _ | n <;> cases ho
    · decide +kernel
    · decide +kernel
    · exact absurd trivial hn
  · simp [Sample.secondRun, Sample.roundRun]
  · refine fun n o ho hn => Option.isSome_iff_exists.mp ?_
    rcases n with _ | _ | _ | n <;> cases ho
    · decide +kernel
    · decide +kernel
    · exact absurd trivial hn
  · intro r hr o ho
    simp only [Sample.rounds, List.mem_cons, List.not_mem_nil, or_false] at hr
    rcases hr with rfl | rfl
    · cases List.mem_singleton.mp ho
      exact .inl ⟨Sample.bucket_legal _ (by simp), trivial⟩
    · rcases Sample.first_together.known o ho with h | h
      · exact .inr h
      · refine .inl ⟨h.1, ?_⟩
        simp only [Round.ops, Sample.firstOps, List.mem_cons, List.not_mem_nil, or_false] at ho
        rcases ho with rfl | rfl | rfl
        · intro l hl
          cases hl
          unfold Sendable
          decide +kernel
        · trivial
        · trivial
  · have hx : Sample.three b!"aaa" b!"x" := (by decide : _ ∈ _)
    refine ⟨hx, ⟨trivial, fun b k h => ?_, trivial⟩, fun j o' hj ho' => ?_⟩
    · cases h
      exact Sample.three_address (by decide)
    · rcases j with _ | _ | _ | j
      · cases ho'
        exact ⟨Sample.three_address (by decide), fun b k h => by cases h; exact Sample.three_apart hx (by decide : _ ∈ _) (by decide), fun u n h => h.elim⟩
      · cases ho'
        exact ⟨⟨Sample.three_address (by decide), by decide⟩,
          fun b k h => by cases h; exact ⟨Sample.three_apart hx (by decide : _ ∈ _) (by decide), by decide⟩, fun u n h => h.elim⟩
      · exact absurd rfl hj
      · cases ho'

end S3
