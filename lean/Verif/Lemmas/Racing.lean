import Verif.Lemmas.Wp
import Verif.Lemmas.ReadOnly
import Verif.Lemmas.Get
/-! Readers of a file that may vanish meanwhile. -/
namespace S3
open Spec

/-- The file `P` is the same or gone, its inodes keep their bytes, and `M` is the same. -/
structure Vanish (P M : Path) (a b : FS) : Prop where
  node : b.lookup P = a.lookup P ∨ b.lookup P = none
  data : ∀ i : Ino, i.path = P → b.data i = a.data i
  other : SameAt a b M

theorem rely_vanish (P M : Path) : Rely (Vanish P M) := by
  refine ⟨fun _ => ⟨.inl rfl, fun _ _ => rfl, ⟨rfl, fun _ _ => rfl⟩⟩, fun a b c h1 h2 => ⟨?_, ?_, ?_⟩⟩
  · rcases h2.node with e | e
    · rw [e]; exact h1.node
    · exact .inr e
  · exact fun i hi => (h2.data i hi).trans (h1.data i hi)
  · exact ⟨h1.other.look.trans h2.other.look, fun i hi => (h1.other.data i hi).trans (h2.other.data i hi)⟩

/-- calls that neither change `M` nor write or create `P`; they may remove `P` -/
def shrinkOk (P M : Path) : Call → Prop
  | .mkdir p => p ≠ P ∧ p ≠ M
  | .create p => p.comps ≠ P ∧ p.comps ≠ M
  | .writeAt i _ _ => i.path ≠ P ∧ i.path ≠ M
  | .unlink p => p.comps ≠ M
  | .rmdir p => p.comps ≠ M
  | .rmtree p => ¬ p <+: M
  | _ => True

theorem vanish_of_ne {P M : Path} {a b : FS} (hl : ∀ q, (q = P ∨ q = M) → b.lookup q = a.lookup q)
    (hd : ∀ i : Ino, (i.path = P ∨ i.path = M) → b.data i = a.data i) : Vanish P M a b :=
  ⟨.inl (hl P (.inl rfl)), fun i hi => hd i (.inl hi), ⟨(hl M (.inr rfl)).symm, fun i hi => (hd i (.inr hi)).symm⟩⟩

theorem exec_shrink (cfg : Cfg) {P M : Path} (hM : M ≠ []) {fs : FS} (hw : WF fs) {c : Call} (h : shrinkOk P M c) :
    Vanish P M fs (exec cfg fs c).2 := by
  have refl := (rely_vanish P M).refl fs
  have erase : ∀ p, p ≠ M → Vanish P M fs (fs.erase p) := by
    intro p hp
    refine ⟨?_, fun _ _ => rfl, ⟨?_, fun _ _ => rfl⟩⟩
    · rw [lookup_erase]
      split
      · rename_i e; subst e; exact .inl (lookup_nil fs).symm
      split
      · exact .inr rfl
      · exact .inl rfl
    · rw [lookup_erase, if_neg hM, if_neg (Ne.symm hp)]
  cases c with
  | mkdir p =>
    have key := exec_frame cfg (own := fun q => q = p) (up := fun _ => False) (c := .mkdir p) hw (.inr rfl)
    refine vanish_of_ne (fun q hq => ?_) (fun i hi => ?_)
    · rcases key.node q (by rintro rfl; rcases hq with rfl | rfl; exact h.1 rfl; exact h.2 rfl) with e | e
      · exact e
      · exact e.1.elim
    · exact key.data i (by rintro rfl; rcases hi with e | e; exact h.1 e; exact h.2 e)
  | create p =>
    have key := exec_frame cfg (own := fun q => q = p.comps) (up := fun _ => False) (c := .create p) hw rfl
    refine vanish_of_ne (fun q hq => ?_) (fun i hi => ?_)
    · rcases key.node q (by rintro rfl; rcases hq with e | e; exact h.1 e; exact h.2 e) with e | e
      · exact e
      · exact e.1.elim
    · exact key.data i (by intro e'; rw [e'] at hi; rcases hi with e | e; exact h.1 e; exact h.2 e)
  | writeAt i off x =>
    refine vanish_of_ne (fun q _ => rfl) (fun j hj => ?_)
    simp only [exec, data_setData]
    rw [if_neg]
    rintro rfl
    rcases hj with e | e
    · exact h.1 e
    · exact h.2 e
  | unlink p =>
    simp only [exec]
    split
    · exact erase _ h
    · exact refl
  | rmdir p =>
    simp only [exec]
    repeat' split
    all_goals first | exact refl | exact erase _ h
  | rmtree p =>
    have : Vanish P M fs (fs.eraseTree p) := by
      refine ⟨?_, fun _ _ => rfl, ⟨?_, fun _ _ => rfl⟩⟩
      · rw [lookup_eraseTree]
        split
        · rename_i e; subst e; exact .inl (lookup_nil fs).symm
        split
        · exact .inr rfl
        · exact .inl rfl
      · rw [lookup_eraseTree, if_neg hM, if_neg]
        exact fun e => h (isPrefixOf_iff.mp e)
    simp only [exec]
    repeat' split
    all_goals first | exact refl | exact this
  | readDir p =>
    simp only [exec]
    split <;> exact refl
  | _ => exact refl

/-- programs of read calls that give up when `P` is not there -/
def Frail (P M : Path) {α : Type} (E : S3ErrorCode → Prop) : Prog α → Prop
  | .sys c k =>
    (match c, k with
      | .stat p, k => (p.comps = P ∧ ∃ e, E e ∧ k none = .fail e) ∨ p.comps = M
      | .openRead p, k => (p.comps = P ∧ ∃ e, E e ∧ k none = .fail e) ∨ p.comps = M
      | .fstat (.file i), _ => i.path = P ∨ i.path = M
      | .readAll (.file i), _ => i.path = P ∨ i.path = M
      | .readAt (.file i) _ _ _, _ => i.path = P ∨ i.path = M
      | .fstat .dir, _ => True
      | .readAll .dir, _ => True
      | .readAt .dir _ _ _, _ => True
      | _, _ => False) ∧ ∀ r, respOk c r → Frail P M E (k r)
  | _ => True

theorem Frail.bind {P M : Path} {α β : Type} {E : S3ErrorCode → Prop} {Q : α → Prop} {p : Prog α} {f : α → Prog β} (h : Frail P M E p)
    {ok : Call → Prop} (hs : Safe ok Q p) (hf : ∀ a, Q a → Frail P M E (f a)) : Frail P M E (p.bind f) := by
  induction p with
  | ret a => exact hf a hs
  | fail e => trivial
  | panic => trivial
  | diverge => trivial
  | sys c k ih =>
    refine ⟨?_, fun r hr => ih r (h.2 r hr) (hs.2 r hr)⟩
    have h1 := h.1
    cases c with
    | stat p =>
      rcases h1 with ⟨h1, e, he, hk⟩ | h1
      · exact .inl ⟨h1, e, he, by simp only [hk, Prog.bind]⟩
      · exact .inr h1
    | openRead p =>
      rcases h1 with ⟨h1, e, he, hk⟩ | h1
      · exact .inl ⟨h1, e, he, by simp only [hk, Prog.bind]⟩
      · exact .inr h1
    | fstat x => cases x <;> exact h1
    | readAll x => cases x <;> exact h1
    | readAt x => cases x <;> exact h1
    | _ => exact h1.elim

theorem wp_frail {cfg : Cfg} {P M : Path} {α : Type} {E : S3ErrorCode → Prop} {p : Prog α} (h : Frail P M E p) :
    ∀ {fs : FS}, WF fs →
      wp cfg (Vanish P M) (fun o _ => o = (run cfg p fs).1 ∨ ∃ e, E e ∧ o = .err e) p fs := by
  induction p with
  | sys c k ih =>
    intro fs hw fs' hr hw'
    obtain ⟨h1, h2⟩ := h
    have go : (exec cfg fs' c).1 = (exec cfg fs c).1 → (exec cfg fs' c).2 = fs' → (exec cfg fs c).2 = fs →
        wp cfg (Vanish P M) (fun o _ => o = (run cfg (.sys c k) fs).1 ∨ ∃ e, E e ∧ o = .err e)
          (k (exec cfg fs' c).1) (exec cfg fs' c).2 := by
      intro e1 e2 e3
      rw [e1, e2]
      have := ih _ (h2 _ (exec_respOk cfg hw c)) hw
      simp only [run]
      rw [e3]
      exact wp_rely (rely_vanish P M) this hr
    have hdata : ∀ i : Ino, (i.path = P ∨ i.path = M) → fs'.data i = fs.data i := by
      rintro i (hi | hi)
      · exact hr.data i hi
      · exact (hr.other.data i hi).symm
    cases c with
    | stat p =>
      have same : fs'.at p = fs.at p → (p.comps = P ∨ p.comps = M) → (exec cfg fs' (.stat p)).1 = (exec cfg fs (.stat p)).1 := by
        intro hat hp
        simp only [exec, hat]
        split <;> try rfl
        rename_i i hi
        rw [hdata i (by rw [(hw.ino _ _ (at_file hi).1).1]; exact hp)]
      rcases h1 with ⟨h1, e, he, hk⟩ | h1
      · rcases hr.node with hn | hn
        · exact go (same (by simp only [FS.at, h1, hn]) (.inl h1)) rfl rfl
        · have : (exec cfg fs' (.stat p)).1 = none := by simp only [exec, FS.at, h1, hn]
          rw [this, hk]
          exact fun _ _ _ => .inr ⟨e, he, rfl⟩
      · exact go (same (by simp only [FS.at, h1, hr.other.look]) (.inr h1)) rfl rfl
    | openRead p =>
      rcases h1 with ⟨h1, e, he, hk⟩ | h1
      · rcases hr.node with hn | hn
        · refine go ?_ rfl rfl
          simp only [exec, FS.at, h1, hn]
        · have : (exec cfg fs' (.openRead p)).1 = none := by simp only [exec, FS.at, h1, hn]
          rw [this, hk]
          exact fun _ _ _ => .inr ⟨e, he, rfl⟩
      · refine go ?_ rfl rfl
        simp only [exec, FS.at, h1, ← hr.other.look]
    | fstat x =>
      cases x with
      | dir => exact go rfl rfl rfl
      | file i => exact go (by simp only [exec, hdata i h1]) rfl rfl
    | readAll x =>
      cases x with
      | dir => exact go rfl rfl rfl
      | file i => exact go (by simp only [exec, hdata i h1]) rfl rfl
    | readAt x =>
      cases x with
      | dir => exact go rfl rfl rfl
      | file i => exact go (by simp only [exec, hdata i h1]) rfl rfl
    | _ => exact h1.elim
  | _ => exact fun _ _ _ _ => .inl rfl

end S3
