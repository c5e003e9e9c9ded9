import Verif.Spec.Doubt
import Verif.Lemmas.MachineRounds
/-! How doubt about the state of the abstract machine spreads and is settled. -/
namespace S3
open Spec

variable {ext : Ext} {place : Bytes → Bytes → List Bytes} {d e : Doubt} {s t r : Machine}

theorem Spec.Doubt.Agrees.refl (d : Doubt) (s : Machine) : d.Agrees s s := ⟨fun _ _ => rfl, fun _ _ _ => rfl, fun _ _ _ => rfl, fun _ _ => rfl⟩

theorem Spec.Doubt.Agrees.or (h : d.Agrees s t) (h' : e.Agrees t r) : (d.or e).Agrees s r :=
  ⟨fun p hp => (h'.bytes p fun hc => hp (.inr hc)).trans (h.bytes p fun hc => hp (.inl hc)),
    fun b k hp => (h'.record b k fun hc => hp (.inr hc)).trans (h.record b k fun hc => hp (.inl hc)),
    fun u n hp => (h'.parts u n fun hc => hp (.inr hc)).trans (h.parts u n fun hc => hp (.inl hc)),
    fun q hp => (h'.folder q fun hc => hp (.inr hc)).trans (h.folder q fun hc => hp (.inl hc))⟩

theorem holding_same {P : List Bytes → Prop} {f g : List Bytes → Option Bytes} {b : Bytes} {ks : List Bytes} (hk : ∀ k ∈ ks, P (place b k))
    (h : ∀ p, P p → f p = g p) : holding place f b ks = holding place g b ks :=
  List.filter_congr fun k hk' => by rw [h _ (hk k hk')]

theorem holding_sub {f : List Bytes → Option Bytes} {b : Bytes} {ks : List Bytes} {k : Bytes} (h : k ∈ holding place f b ks) : k ∈ ks :=
  (List.mem_filter.mp h).1

/-- what is in doubt before a request, and what it makes of the doubt, bound what is in doubt after it -/
theorem doubt_after (h : d.Agrees s t) (o : Op) : (d.after place o).Agrees (s.after place o) (t.after place o) := by
  cases o with
  | putObject i =>
    simp only [Doubt.after, Machine.after]
    cases hb : i.body with
    | none => exact h
    | some body =>
      simp only
      by_cases hc : classKnown i = false
      · rw [if_pos hc, if_pos hc, if_pos hc]; exact h
      · rw [if_neg hc, if_neg hc, if_neg hc]
        refine ⟨fun p hp => ?_, fun b k hp => ?_, h.parts, fun q hq => ?_⟩
        · simp only [setBytes]
          by_cases e : p = place i.bucket i.key
          · rw [if_pos e, if_pos e]
          · rw [if_neg e, if_neg e]; exact h.bytes p fun hd => hp ⟨hd, e⟩
        · cases hm : i.metadata with
          | none => exact h.record b k fun hd => hp ⟨hd, fun hc => hc.2.1 hm⟩
          | some m =>
            simp only
            by_cases hn : none ∈ body
            · rw [if_pos hn, if_pos hn]; exact h.record b k fun hd => hp ⟨hd, fun hc => hc.2.2 hn⟩
            · rw [if_neg hn, if_neg hn]
              simp only [upd]
              by_cases e : (b, k) = (i.bucket, i.key)
              · cases e; simp
              · have e' : ¬ (b = i.bucket ∧ k = i.key) := fun ⟨a, c⟩ => e (by rw [a, c])
                simp only [e', if_false]
                exact h.record b k fun hd => hp ⟨hd, fun hc => e hc.1⟩
        · simp only
          cases ho : onTheWay q (place i.bucket i.key) with
          | true => simp
          | false => rw [h.folder q fun hd => hq ⟨hd, ho⟩]
  | deleteObject b k =>
    refine ⟨fun p hp => ?_, h.record, h.parts, h.folder⟩
    simp only [Machine.after, setBytes]
    by_cases e : p = place b k
    · rw [if_pos e, if_pos e]
    · rw [if_neg e, if_neg e]; exact h.bytes p fun hd => hp ⟨hd, e⟩
  | deleteObjects b ks =>
    refine ⟨fun p hp => ?_, h.record, h.parts, h.folder⟩
    simp only [Machine.after]
    by_cases hk : ∃ k ∈ ks, d.bytes (place b k)
    · have hne : ∀ k ∈ ks, p ≠ place b k := fun k hk' e => hp (.inr ⟨hk, k, hk', e⟩)
      rw [deleteEach_other fun k hk' => hne k (holding_sub hk'), deleteEach_other fun k hk' => hne k (holding_sub hk')]
      exact h.bytes p fun hd => hp (.inl hd)
    · have hk' : ∀ k ∈ ks, ¬ d.bytes (place b k) := fun k hk' hd => hk ⟨k, hk', hd⟩
      rw [holding_same (P := fun p => ¬ d.bytes p) hk' h.bytes]
      exact (deleteEach_same (P := fun p => ¬ d.bytes p) (fun k hk'' => hk' k (holding_sub hk'')) h.bytes).2 p fun hd => hp (.inl hd)
  | uploadPart u n body =>
    cases body with
    | none => exact h
    | some body =>
      refine ⟨h.bytes, h.record, fun u' n' hp => ?_, h.folder⟩
      simp only [Machine.after]
      by_cases e : (u', n') = (u, n)
      · rw [if_pos e, if_pos e]
      · rw [if_neg e, if_neg e]; exact h.parts u' n' fun hd => hp ⟨hd, e⟩
  | completeMultipartUpload b k u l =>
    cases l with
    | none => exact h
    | some l =>
      by_cases hun : d.folder (place b k).dropLast ∨ ∃ n, some n ∈ l ∧ d.parts u n
      · have hb : ∀ (x : Machine) p, p ≠ place b k → (x.after place (.completeMultipartUpload b k u (some l))).bytes p = x.bytes p := by
          intro x p hp
          simp only [Machine.after]
          split
          · simp only [setBytes]; rw [if_neg hp]
          · rfl
        have hpt : ∀ (x : Machine) u' n, ¬ (u' = u ∧ some n ∈ l) → (x.after place (.completeMultipartUpload b k u (some l))).parts u' n = x.parts u' n := by
          intro x u' n hp
          simp only [Machine.after]
          split
          · simp only
            by_cases e : u' = u
            · subst e; rw [if_pos rfl]; exact assemble_other fun hm => hp ⟨rfl, hm⟩
            · rw [if_neg e]
          · rfl
        have hr : ∀ x : Machine, (x.after place (.completeMultipartUpload b k u (some l))).record = x.record ∧
            (x.after place (.completeMultipartUpload b k u (some l))).folder = x.folder := by
          intro x; simp only [Machine.after]; split <;> exact ⟨rfl, rfl⟩
        refine ⟨fun p hp => ?_, fun b' k' hp => ?_, fun u' n hp => ?_, fun q hq => ?_⟩
        · have e : p ≠ place b k := fun e => hp (.inr ⟨hun, e⟩)
          rw [hb s p e, hb t p e]; exact h.bytes p fun hd => hp (.inl hd)
        · rw [(hr s).1, (hr t).1]; exact h.record b' k' hp
        · have e : ¬ (u' = u ∧ some n ∈ l) := fun e => hp (.inr ⟨hun, e⟩)
          rw [hpt s u' n e, hpt t u' n e]; exact h.parts u' n fun hd => hp (.inl hd)
        · rw [(hr s).2, (hr t).2]; exact h.folder q hq
      · have hf := h.folder _ fun hd => hun (.inl hd)
        obtain ⟨_, a2, a3⟩ := assemble_same (P := fun n => ¬ d.parts u n) (cnt := 0) (acc := []) (l := l)
          (fun n hn hd => hun (.inr ⟨n, hn, hd⟩)) (h.parts u)
        simp only [Machine.after, hf]
        split
        · refine ⟨fun p hp => ?_, h.record, fun u' n hp => ?_, h.folder⟩
          · simp only [setBytes, a2]
            by_cases e : p = place b k
            · rw [if_pos e, if_pos e]
            · rw [if_neg e, if_neg e]; exact h.bytes p fun hd => hp (.inl hd)
          · simp only
            by_cases e : u' = u
            · subst e; rw [if_pos rfl, if_pos rfl]; exact a3 n fun hd => hp (.inl hd)
            · rw [if_neg e, if_neg e]; exact h.parts u' n fun hd => hp (.inl hd)
        · exact ⟨fun p hp => h.bytes p fun hd => hp (.inl hd), h.record, fun u' n hp => h.parts u' n fun hd => hp (.inl hd), h.folder⟩
  | copyObject b k src =>
    cases hsrc : copySourceFromHeader src with
    | error _ => simp only [Doubt.after, Machine.after, hsrc]; exact h
    | ok a =>
      obtain ⟨sb, sk⟩ := a
      have hb : ∀ (x : Machine) p, p ≠ place b k → (x.after place (.copyObject b k src)).bytes p = x.bytes p := by
        intro x p hp
        simp only [Machine.after, hsrc]
        split
        · rfl
        · split
          · simp only [setBytes]; rw [if_neg hp]
          · rfl
      have hr : ∀ (x : Machine) b' k', (b', k') ≠ (b, k) → (x.after place (.copyObject b k src)).record b' k' = x.record b' k' := by
        intro x b' k' hp
        have hp' : ¬ (b' = b ∧ k' = k) := fun ⟨a, c⟩ => hp (by rw [a, c])
        simp only [Machine.after, hsrc]
        split
        · rfl
        · split
          · simp only
            cases x.record sb sk <;> simp [upd, hp']
          · rfl
      have hpf : ∀ x : Machine, (x.after place (.copyObject b k src)).parts = x.parts ∧ (x.after place (.copyObject b k src)).folder = x.folder := by
        intro x
        simp only [Machine.after, hsrc]
        split
        · exact ⟨rfl, rfl⟩
        · split <;> exact ⟨rfl, rfl⟩
      have hd : d.after place (.copyObject b k src) = { d with
          bytes := fun p => d.bytes p ∨ (d.folder (place b k).dropLast ∨ d.bytes (place sb sk)) ∧ p = place b k
          record := fun b' k' => d.record b' k' ∨ ((d.folder (place b k).dropLast ∨ d.bytes (place sb sk)) ∨ d.record sb sk) ∧ (b', k') = (b, k) } := by
        simp only [Doubt.after, hsrc]
      rw [hd]
      refine ⟨fun p hp => ?_, fun b' k' hp => ?_, fun u n hp => ?_, fun q hq => ?_⟩
      · have hp0 := h.bytes p fun hd => hp (.inl hd)
        by_cases e : p = place b k
        · have hun : ¬ (d.folder (place b k).dropLast ∨ d.bytes (place sb sk)) := fun hun => hp (.inr ⟨hun, e⟩)
          have h1 := h.folder _ fun hd => hun (.inl hd)
          have h2 := h.bytes _ fun hd => hun (.inr hd)
          simp only [Machine.after, hsrc, h1, h2]
          split
          · exact hp0
          · split
            · simp only [setBytes]; rw [if_pos e, if_pos e]
            · exact hp0
        · rw [hb s p e, hb t p e]; exact hp0
      · have hp0 := h.record b' k' fun hd => hp (.inl hd)
        by_cases e : (b', k') = (b, k)
        · have hun : ¬ ((d.folder (place b k).dropLast ∨ d.bytes (place sb sk)) ∨ d.record sb sk) := fun hun => hp (.inr ⟨hun, e⟩)
          have h1 := h.folder _ fun hd => hun (.inl (.inl hd))
          have h2 := h.bytes _ fun hd => hun (.inl (.inr hd))
          have h3 := h.record _ _ fun hd => hun (.inr hd)
          simp only [Machine.after, hsrc, h1, h2, h3]
          cases e
          split
          · exact hp0
          · split
            · simp only
              cases s.record sb sk <;> simp [upd, hp0]
            · exact hp0
        · rw [hr s b' k' e, hr t b' k' e]; exact hp0
      · rw [(hpf s).1, (hpf t).1]; exact h.parts u n hp
      · rw [(hpf s).2, (hpf t).2]; exact h.folder q hq
  | createBucket b =>
    refine ⟨h.bytes, h.record, h.parts, fun q hq => ?_⟩
    simp only [Machine.after]
    by_cases e : q = [b]
    · simp [e]
    · rw [h.folder q fun hd => hq ⟨hd, e⟩]
  | deleteBucket b =>
    refine ⟨fun p hp => ?_, h.record, h.parts, fun q hq => ?_⟩
    · simp only [Machine.after]
      by_cases e : p.head? = some b
      · rw [if_pos e, if_pos e]
      · rw [if_neg e, if_neg e]; exact h.bytes p fun hd => hp ⟨hd, e⟩
    · simp only [Machine.after]
      by_cases e : q.head? = some b
      · simp [e]
      · rw [h.folder q fun hd => hq ⟨hd, e⟩]
  | _ => exact h

theorem doubt_afterAll : ∀ (os : List Op) {d : Doubt} {s t : Machine}, d.Agrees s t →
    (d.afterAll place os).Agrees (s.afterAll place os) (t.afterAll place os)
  | [], _, _, _, h => h
  | o :: os, _, _, _, h => doubt_afterAll os (doubt_after h o)

/-- an answer that depends on nothing in doubt -/
theorem spares_answer (h : d.Agrees s t) {o : Op} (ho : d.Spares place o) : t.answer ext place o = s.answer ext place o := by
  cases o with
  | putObject i => rfl
  | uploadPart u n body => cases body <;> rfl
  | createMultipartUpload u => rfl
  | getObject b k r w => simp only [Machine.answer, h.bytes _ ho.1, h.record _ _ ho.2]
  | headObject b k => simp only [Machine.answer, h.bytes _ ho.1, h.record _ _ ho.2]
  | deleteObject b k => simp only [Machine.answer, h.bytes _ ho]
  | deleteObjects b ks =>
    simp only [Machine.answer]
    rw [holding_same (P := fun p => ¬ d.bytes p) ho h.bytes,
      (deleteEach_same (P := fun p => ¬ d.bytes p) (fun k hk => ho k (holding_sub hk)) h.bytes).1]
  | completeMultipartUpload b k u l =>
    cases l with
    | none => rfl
    | some l =>
      obtain ⟨a1, a2, _⟩ := assemble_same (P := fun n => ¬ d.parts u n) (cnt := 0) (acc := []) (l := l) (fun n hn => ho.2 l n rfl hn) (h.parts u)
      simp only [Machine.answer, h.folder _ ho.1]
      cases e1 : assemble (t.parts u) 0 [] l with
      | mk x1 y1 =>
        cases e2 : assemble (s.parts u) 0 [] l with
        | mk x2 y2 =>
          rw [e1, e2] at a1 a2
          obtain ⟨c1, p1⟩ := y1
          obtain ⟨c2, p2⟩ := y2
          simp only at a1 a2
          subst a1 a2
          cases x1 <;> rfl
  | copyObject b k src =>
    cases hsrc : copySourceFromHeader src with
    | error _ => simp only [Machine.answer, hsrc]
    | ok a =>
      obtain ⟨sb, sk⟩ := a
      simp only [Machine.answer, hsrc, h.folder _ ho.1, h.bytes _ (ho.2 sb sk hsrc)]
  | createBucket b => simp only [Machine.answer, h.folder _ ho]
  | deleteBucket b => simp only [Machine.answer, h.folder _ ho]
  | headBucket b => simp only [Machine.answer, h.folder _ ho]
  | getBucketLocation b => simp only [Machine.answer, h.folder _ ho]
  | _ => exact ho.elim

end S3
