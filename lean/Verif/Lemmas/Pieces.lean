import Verif.Spec.Pieces
import Verif.Lemmas.Sweep
import Verif.Lemmas.Again
import Verif.Props.Packets
/-! A program in pieces is the program: it issues no other kinds of calls, and alone it does the same. -/
namespace S3
open Spec

variable {cfg : Cfg} {α : Type}

/-! ### the calls -/

/-- a condition on calls that does not look at positions -/
structure Closed (ok : Call → Prop) : Prop where
  read : ∀ h off n want, ok (.readAll h) → ok (.readAt h off n want)
  write : ∀ i off b off' b', ok (.writeAt i off b) → ok (.writeAt i off' b')

def Doing.Safe (ok : Call → Prop) : Doing α → Prop
  | .at p => S3.Safe ok (fun _ => True) p
  | .reading h _ k => ok (.readAll h) ∧ ∀ r, S3.Safe ok (fun _ => True) (k r)
  | .copying h i _ _ _ k e => ok (.readAll h) ∧ (∀ off b, ok (.writeAt i off b)) ∧ S3.Safe ok (fun _ => True) e ∧ ∀ c, S3.Safe ok (fun _ => True) (k c)

theorem pieces_safe {ok : Call → Prop} (hok : Closed ok) {s : Doing α} {q : Prog α} (h : Pieces s q) (hs : s.Safe ok) :
    Safe ok (fun _ => True) q := by
  induction h with
  | ret | fail | panic | diverge => exact trivial
  | sys c _ ih => exact ⟨hs.1, fun r hr => ih r (hs.2 r hr)⟩
  | write b b' _ _ ih1 ih2 =>
    refine ⟨hok.write _ _ _ _ _ hs.1, fun r _ => ?_⟩
    cases r with
    | true => exact ih1 ⟨hok.write _ _ _ _ _ hs.1, fun r _ => hs.2 r trivial⟩
    | false => exact ih2 (hs.2 false trivial)
  | read _ ih => exact ih ⟨hs.1, fun r => hs.2 r trivial⟩
  | readSome n want _ _ _ _ ih1 ih2 ih3 =>
    refine ⟨hok.read _ _ _ _ hs.1, fun r _ => ?_⟩
    cases r with
    | none => exact ih1 (hs.2 none)
    | some b =>
      by_cases hb : b = []
      · subst hb; exact ih2 (hs.2 _)
      · exact ih3 b hb hs
  | readRest _ _ ih1 ih2 =>
    refine ⟨hs.1, fun r _ => ?_⟩
    cases r with
    | none => exact ih1 (hs.2 none)
    | some c => exact ih2 c (hs.2 _)
  | copy _ hn hsome _ ih =>
    refine ih ⟨hs.1, fun off b => ?_, ?_, fun c => ?_⟩
    · have := hs.2 (some []) trivial
      rw [hsome] at this
      exact hok.write _ _ _ _ _ this.1
    · rw [← hn]; exact hs.2 none trivial
    · have := hs.2 (some c) trivial
      rw [hsome] at this
      exact this.2 true trivial
  | copyRead n want _ _ _ _ ih1 ih2 ih3 =>
    obtain ⟨h1, h2, h3, h4⟩ := hs
    refine ⟨hok.read _ _ _ _ h1, fun r _ => ?_⟩
    cases r with
    | none => exact ih1 h3
    | some b =>
      by_cases hb : b = []
      · subst hb
        refine ih2 ⟨h2 _ _, fun r _ => ?_⟩
        cases r with
        | true => exact h4 _
        | false => exact h3
      · exact ih3 b hb ⟨h1, h2, h3, h4⟩
  | copyRest _ _ ih1 ih2 =>
    obtain ⟨h1, h2, h3, h4⟩ := hs
    refine ⟨h1, fun r _ => ?_⟩
    cases r with
    | none => exact ih1 h3
    | some c =>
      refine ih2 c ⟨h2 _ _, fun r _ => ?_⟩
      cases r with
      | true => exact h4 _
      | false => exact h3
  | copyWrite b b' _ _ ih1 ih2 =>
    obtain ⟨h1, h2, h3, h4⟩ := hs
    refine ⟨h2 _ _, fun r _ => ?_⟩
    cases r with
    | true => exact ih2 ⟨h1, h2, h3, h4⟩
    | false => exact ih1 h3

theorem closed_perm (π : Perm) : Closed π.ok where
  read h _ _ _ := by cases h <;> exact fun h => h
  write _ _ _ _ _ h := h

theorem closed_local (Z : Path → Prop) : Closed (localCall Z) where
  read h _ _ _ := by cases h <;> exact fun h => h
  write _ _ _ _ _ h := h

theorem closed_notTree : Closed notTree where
  read _ _ _ _ _ := trivial
  write _ _ _ _ _ _ := trivial

theorem Closed.exists {ι : Type} {P : ι → Prop} {ok : ι → Call → Prop} (h : ∀ i, Closed (ok i)) : Closed fun c => ∃ i, P i ∧ ok i c where
  read f _ _ _ := fun ⟨i, hi, hc⟩ => ⟨i, hi, (h i).read f _ _ _ hc⟩
  write _ _ _ _ _ := fun ⟨i, hi, hc⟩ => ⟨i, hi, (h i).write _ _ _ _ _ hc⟩

theorem inPieces_tree {p q : Prog α} (h : InPieces p q) (hp : InTree p) : InTree q := by
  obtain ⟨t, k, rfl, hk⟩ := hp
  cases h with
  | sys _ next => exact ⟨t, _, rfl, fun r => pieces_safe closed_notTree (next r) (hk r)⟩

/-! ### alone -/

/-- `p`, alone, started on `fs`, with some failures and cut off at some moment, leaves the tree of `x`, and ends as `x` if that has ended;
without failures if `ok` -/
def Gets (cfg : Cfg) (p : Prog α) (fs : FS) (x : Prog α × FS) (ok : Prop) : Prop :=
  ∃ d m, (runFN cfg d m p fs).2 = x.2 ∧ ∀ r, x.1.outcome = some r → (runFN cfg d m p fs).1.outcome = some r ∧ (ok → ∀ i, d i = .none)

theorem Gets.here {p : Prog α} {fs : FS} {q : Prog α} {ok : Prop} (h : q.outcome = none ∨ q.outcome = p.outcome) : Gets cfg p fs (q, fs) ok := by
  refine ⟨fun _ => .none, 0, by cases p <;> rfl, fun r hr => ⟨?_, fun _ _ => rfl⟩⟩
  rcases h with h | h
  · rw [h] at hr; cases hr
  · rw [h] at hr
    cases p <;> exact hr

theorem Gets.step {c : Call} {k : Resp c → Prog α} {fs : FS} {x : Prog α × FS} {ok ok' : Prop} (f : Fault)
    (h : Gets cfg (k (execF cfg fs c f).1) (execF cfg fs c f).2 x ok') (hf : ok → f = .none) (hok : ok → ok') : Gets cfg (.sys c k) fs x ok := by
  obtain ⟨d, m, h1, h2⟩ := h
  refine ⟨fun i => i.casesOn f d, m + 1, h1, fun r hr => ⟨(h2 r hr).1, fun h i => ?_⟩⟩
  cases i with
  | zero => exact hf h
  | succ i => exact (h2 r hr).2 (hok h) i

/-- `fs` with `b` written at `off` -/
def put (fs : FS) (i : Ino) (off : Nat) (b : Bytes) : FS := fs.setData i (splice (fs.data i) off b)

theorem put_nil (fs : FS) (i : Ino) (off : Nat) : put fs i off [] = fs := by
  simp [put, splice, setData_self]

theorem put_put (fs : FS) (i : Ino) (off : Nat) (a b : Bytes) : put (put fs i off a) i (off + a.length) b = put fs i off (a ++ b) := by
  by_cases ha : a = []
  · subst ha; simp [put_nil]
  by_cases hb : b = []
  · subst hb; simp [put_nil]
  simp only [put, setData_twice, data_set_self, splice_splice ha hb]

theorem partial_put (fs : FS) (i : Ino) (off n : Nat) (rs : List Path) (b : Bytes) :
    partialEffect fs n rs (.writeAt i off b) = put fs i off (b.take n) := by
  simp only [partialEffect]
  split
  · rename_i h; rw [h, put_nil]
  · rfl

/-- the rest of a write is the write -/
theorem Gets.write {i : Ino} {off : Nat} {b b' : Bytes} {k : Bool → Prog α} {fs : FS} {x : Prog α × FS} {ok : Prop}
    (h : Gets cfg (.sys (.writeAt i (off + b.length) b') k) (put fs i off b) x ok) : Gets cfg (.sys (.writeAt i off (b ++ b')) k) fs x ok := by
  obtain ⟨d, m, h1, h2⟩ := h
  cases m with
  | zero =>
    refine ⟨fun _ => .during b.length [], 1, ?_, fun r hr => ?_⟩
    · rw [← h1]
      have : ∀ (p : Prog α) d fs, (runFN cfg d 0 p fs).2 = fs := fun p d fs => by cases p <;> rfl
      simp only [runFN, this, execF, partial_put, List.take_left']
    · have := (h2 r hr).1
      cases this
  | succ m =>
    have key : ∀ f f' : Fault, (execF cfg fs (.writeAt i off (b ++ b')) f' = execF cfg (put fs i off b) (.writeAt i (off + b.length) b') f) →
        d 0 = f → (f = .none → f' = .none) → Gets cfg (.sys (.writeAt i off (b ++ b')) k) fs x ok := by
      intro f f' he hd hf
      have e : runFN cfg (fun i => i.casesOn f' fun i => d (i + 1)) (m + 1) (.sys (.writeAt i off (b ++ b')) k) fs =
          runFN cfg d (m + 1) (.sys (.writeAt i (off + b.length) b') k) (put fs i off b) := by
        simp only [runFN, hd]
        rw [← he]
        rfl
      refine ⟨fun i => i.casesOn f' fun i => d (i + 1), m + 1, by rw [e]; exact h1, fun r hr => ?_⟩
      · obtain ⟨h3, h4⟩ := h2 r hr
        refine ⟨by rw [e]; exact h3, fun h i => ?_⟩
        · cases i with
          | zero => exact hf (hd ▸ h4 h 0)
          | succ i => exact h4 h (i + 1)
    have whole : put (put fs i off b) i (off + b.length) b' = put fs i off (b ++ b') := put_put ..
    cases hd : d 0 with
    | none => exact key .none .none (Prod.ext rfl whole.symm) hd fun _ => rfl
    | before =>
      refine key .before (.during b.length []) (Prod.ext rfl ?_) hd fun h => nomatch h
      simp [execF, partial_put]
    | after => exact key .after .after (Prod.ext rfl whole.symm) hd fun h => nomatch h
    | during n rs =>
      refine key (.during n rs) (.during (b.length + n) rs) (Prod.ext rfl ?_) hd fun h => nomatch h
      simp only [execF, partial_put]
      rw [put_put, List.take_length_add_append]

/-- what has been read so far -/
def Doing.Sim (fs0 fs : FS) : Doing α → Prop
  | .at _ => fs = fs0
  | .reading h buf _ => fs = fs0 ∧ match h with
    | .dir => buf = []
    | .file j => buf <+: fs.data j
  | .copying h i off buf pending _ _ => fs = put fs0 i off buf ∧ match h with
    | .dir => buf = [] ∧ pending = []
    | .file j => buf ++ pending <+: fs0.data j ∧ fs.data j = fs0.data j ∧ (j ≠ i ∨ off = 0)

/-- the program of long calls -/
def Doing.whole : Doing α → Prog α
  | .at p => p
  | .reading h _ k => .sys (.readAll h) k
  | .copying h i off _ _ k e => .sys (.readAll h) fun
    | none => e
    | some c => .sys (.writeAt i off c) fun ok => if ok then k c else e

theorem sim_data {fs : FS} {i j : Ino} {off : Nat} {b : Bytes} (h : j ≠ i ∨ off = 0) (hb : b <+: fs.data j) : (put fs i off b).data j = fs.data j := by
  by_cases e : j = i
  · subst e
    rcases h with h | rfl
    · exact absurd rfl h
    obtain ⟨t, ht⟩ := hb
    by_cases hn : b = []
    · subst hn; rw [put_nil]
    · simp only [put, data_set_self, splice, hn, if_false]
      rw [← ht]; simp
  · simp [put, FS.setData, e]

theorem read_prefix {buf d : Bytes} {n want : Nat} (hn : n ≠ 0) (h : buf <+: d) {b : Bytes}
    (hb : b = (d.drop buf.length).take (if n = 0 ∨ d.drop buf.length = [] then 0 else max 1 (min want (min n (d.drop buf.length).length)))) :
    (b = [] → d = buf) ∧ buf ++ b <+: d := by
  obtain ⟨t, rfl⟩ := h
  simp only [List.drop_left'] at hb
  refine ⟨fun e => ?_, ?_⟩
  · subst e
    simp only [hn, false_or] at hb
    split at hb
    · rename_i ht; simp [ht]
    · rename_i ht
      have := congrArg List.length hb
      simp only [List.length_nil, List.length_take] at this
      have : t.length ≠ 0 := fun e => ht (List.length_eq_zero_iff.mp e)
      omega
  · rw [hb]; exact (List.prefix_append_right_inj _).mpr (List.take_prefix _ _)

theorem prefix_drop {buf d : Bytes} (h : buf <+: d) : buf ++ d.drop buf.length = d := by
  obtain ⟨t, rfl⟩ := h; simp

theorem Gets.unfinished {p : Prog α} {fs : FS} {x : Prog α × FS} {ok ok' : Prop} (h : Gets cfg p fs x ok) (hx : x.1.outcome = none) : Gets cfg p fs x ok' := by
  obtain ⟨d, m, h1, _⟩ := h
  exact ⟨d, m, h1, fun r hr => by rw [hx] at hr; cases hr⟩

theorem Gets.mono {p : Prog α} {fs : FS} {x : Prog α × FS} {ok ok' : Prop} (h : Gets cfg p fs x ok) (hok : ok' → ok) : Gets cfg p fs x ok' := by
  obtain ⟨d, m, h1, h2⟩ := h
  exact ⟨d, m, h1, fun r hr => ⟨(h2 r hr).1, fun h => (h2 r hr).2 (hok h)⟩⟩

/-- a copy that fails or ends in the middle -/
theorem copy_fails {j i : Ino} {off : Nat} {b : Bytes} {k : Bytes → Prog α} {e : Prog α} {fs : FS} {x : Prog α × FS} {ok : Prop} (hb : b <+: fs.data j)
    (h : Gets cfg e (put fs i off b) x ok) (hok : ok → False) (buf pending : Bytes) :
    Gets cfg (Doing.copying (.file j) i off buf pending k e).whole fs x ok := by
  refine Gets.step .none (ok' := ok) ?_ (fun h => (hok h).elim) id
  show Gets cfg (.sys (.writeAt i off (fs.data j)) _) fs x ok
  refine Gets.step (.during b.length []) (ok' := ok) ?_ (fun h => (hok h).elim) id
  obtain ⟨t, ht⟩ := hb
  simp only [execF, partial_put, failed, Bool.false_eq_true, if_false]
  rw [← ht, List.take_left']
  · exact h
  · rfl

theorem copy_dir {i : Ino} {off : Nat} {k : Bytes → Prog α} {e : Prog α} {fs : FS} {x : Prog α × FS} {ok : Prop} (h : Gets cfg e fs x ok) (buf pending : Bytes) :
    Gets cfg (Doing.copying .dir i off buf pending k e).whole fs x ok :=
  Gets.step .none (ok' := ok) h (fun _ => rfl) id

theorem copy_goes_on {j i : Ino} {off : Nat} {k : Bytes → Prog α} {e : Prog α} {fs : FS} {x : Prog α × FS} {ok : Prop} {b b' : Bytes} (hb : fs.data j = b ++ b')
    (h : Gets cfg (.sys (.writeAt i (off + b.length) b') fun ok => if ok then k (b ++ b') else e) (put fs i off b) x ok) (buf pending : Bytes) :
    Gets cfg (Doing.copying (.file j) i off buf pending k e).whole fs x ok := by
  refine Gets.step .none (ok' := ok) ?_ (fun _ => rfl) id
  show Gets cfg (.sys (.writeAt i off (fs.data j)) fun ok => if ok then k (fs.data j) else e) fs x ok
  rw [hb]
  exact Gets.write h

theorem copy_ends {h : Handle} {i : Ino} {off : Nat} {buf pending : Bytes} {k : Bytes → Prog α} {e : Prog α} {fs0 fs : FS}
    (hs : (Doing.copying h i off buf pending k e).Sim fs0 fs) {q : Prog α} (hq : q.outcome = none) (ok : Prop) :
    Gets cfg (Doing.copying h i off buf pending k e).whole fs0 (q, fs) ok := by
  obtain ⟨rfl, hs⟩ := hs
  cases h with
  | dir =>
    obtain ⟨rfl, rfl⟩ := hs
    rw [put_nil]
    exact Gets.here (.inl hq)
  | file j =>
    exact (copy_fails (ok := False) ((List.prefix_append ..).trans hs.1) (Gets.here (.inl hq)) id buf pending).unfinished hq

/-- a program in pieces, alone, does what the program does -/
theorem pieces_gets {s : Doing α} {q : Prog α} (h : Pieces s q) : ∀ (d : Nat → Fault) (m : Nat) {fs0 fs : FS}, s.Sim fs0 fs →
    Gets cfg s.whole fs0 (runFN cfg d m q fs) (∀ i, d i = .none) := by
  have shift : ∀ {d : Nat → Fault}, (∀ i, d i = .none) → ∀ i, d (i + 1) = .none := fun h i => h _
  induction h with
  | ret a => rintro d m fs0 fs rfl; cases m <;> exact Gets.here (.inr rfl)
  | fail a => rintro d m fs0 fs rfl; cases m <;> exact Gets.here (.inr rfl)
  | panic => rintro d m fs0 fs rfl; cases m <;> exact Gets.here (.inr rfl)
  | diverge => rintro d m fs0 fs rfl; cases m <;> exact Gets.here (.inr rfl)
  | sys c _ ih =>
    rintro d m fs0 fs rfl
    cases m with
    | zero => exact Gets.here (.inl rfl)
    | succ m => exact Gets.step (d 0) (ih _ _ m rfl) (fun h => h 0) shift
  | write b b' _ _ ih1 ih2 =>
    rintro d m fs0 fs rfl
    rename_i i off k k' _ _
    cases m with
    | zero => exact Gets.here (.inl rfl)
    | succ m =>
      have stop : ∀ n f, f ≠ Fault.none → d 0 = f → (execF cfg fs (.writeAt i off b) f) = (false, put fs i off (b.take n)) →
          Gets cfg (.sys (.writeAt i off (b ++ b')) k) fs (runFN cfg d (m + 1) (.sys (.writeAt i off b) k') fs) (∀ i, d i = .none) := by
        intro n f hf hd he
        have h1 := ih2 (fun i => d (i + 1)) m (fs0 := put fs i off (b.take n)) rfl
        refine Gets.step (.during (min n b.length) []) ?_ (fun h => absurd (hd ▸ h 0) hf) shift
        have e2 : (execF cfg fs (.writeAt i off (b ++ b')) (.during (min n b.length) [])) = (false, put fs i off (b.take n)) := by
          refine Prod.ext rfl ?_
          simp only [execF, partial_put]
          rw [List.take_append_of_le_length (Nat.min_le_right ..)]
          congr 1
          rw [List.take_eq_take_iff]; omega
        rw [e2]
        simp only [runFN, hd]
        rw [he]
        exact h1
      cases hd : d 0 with
      | none =>
        have h1 := ih1 (fun i => d (i + 1)) m (fs0 := put fs i off b) rfl
        refine Gets.write ?_
        simp only [runFN, hd]
        obtain ⟨d', m', a1, a2⟩ := h1
        exact ⟨d', m', a1, fun r hr => ⟨(a2 r hr).1, fun h => (a2 r hr).2 (shift h)⟩⟩
      | before => exact stop 0 .before (fun h => nomatch h) hd (by simp [execF, failed, put_nil])
      | after => exact stop b.length .after (fun h => nomatch h) hd (by simp [execF, failed, exec, put])
      | during n rs => exact stop n (.during n rs) (fun h => nomatch h) hd (by simp [execF, failed, partial_put])
  | read _ ih =>
    rintro d m fs0 fs rfl
    refine ih d m (fs0 := fs) (fs := fs) ⟨rfl, ?_⟩
    split
    · rfl
    · exact List.nil_prefix
  | readSome n want hn _ _ _ ih1 ih2 ih3 =>
    rintro d m fs0 fs ⟨rfl, hb⟩
    rename_i h buf k k' _ _ _
    cases m with
    | zero => exact Gets.here (.inl rfl)
    | succ m =>
      have stop : d 0 ≠ .none → Gets cfg (.sys (.readAll h) k) fs (runFN cfg d (m + 1) (.sys (.readAt h buf.length n want) k') fs) (∀ i, d i = .none) := by
        intro hd
        refine Gets.step .before (ok' := ∀ i, d (i + 1) = .none) ?_ (fun h => absurd (h 0) hd) shift
        have := ih1 (fun i => d (i + 1)) m (fs0 := fs) rfl
        simp only [runFN]
        cases he : d 0 with
        | none => exact absurd he hd
        | _ => exact this
      cases he : d 0 with
      | none =>
        cases h with
        | dir =>
          refine Gets.step .none (ok' := ∀ i, d (i + 1) = .none) ?_ (fun _ => rfl) shift
          have := ih1 (fun i => d (i + 1)) m (fs0 := fs) rfl
          simp only [runFN, he]
          exact this
        | file j =>
          dsimp only at hb
          obtain ⟨b, hx, hr⟩ : ∃ b, execF cfg fs (.readAt (.file j) buf.length n want) (d 0) = (some b, fs) ∧ b = _ := ⟨_, by rw [he]; rfl, rfl⟩
          obtain ⟨h1, h2⟩ := read_prefix hn hb hr
          simp only [runFN, hx]
          by_cases hbn : b = []
          · subst hbn
            refine Gets.step .none (ok' := ∀ i, d (i + 1) = .none) ?_ (fun _ => rfl) shift
            have := ih2 (fun i => d (i + 1)) m (fs0 := fs) rfl
            simp only [execF, exec, h1 rfl]
            exact this
          · obtain ⟨d', m', a1, a2⟩ := ih3 b hbn (fun i => d (i + 1)) m (fs0 := fs) (fs := fs) ⟨rfl, h2⟩
            exact ⟨d', m', a1, fun r hr => ⟨(a2 r hr).1, fun h => (a2 r hr).2 (shift h)⟩⟩
      | _ => exact stop (by rw [he]; exact fun h => nomatch h)
  | readRest _ _ ih1 ih2 =>
    rintro d m fs0 fs ⟨rfl, hb⟩
    rename_i h buf k k' _ _
    cases m with
    | zero => exact Gets.here (.inl rfl)
    | succ m =>
      refine Gets.step (d 0) (ok' := ∀ i, d (i + 1) = .none) ?_ (fun h => h 0) shift
      have e : (execF cfg fs (.readAll h) (d 0)).2 = fs := by cases d 0 <;> rfl
      simp only [runFN, e]
      cases hr : (execF cfg fs (.readAll h) (d 0)).1 with
      | none => exact ih1 (fun i => d (i + 1)) m (fs0 := fs) rfl
      | some c =>
        have hc : buf ++ c.drop buf.length = c := by
          cases h with
          | dir => dsimp only at hb; subst hb; simp
          | file j =>
            have : c = fs.data j := by
              cases hd : d 0 <;> rw [hd] at hr <;> first | exact (Option.some.inj hr).symm | cases hr
            rw [this]; exact prefix_drop hb
        have := ih2 c (fun i => d (i + 1)) m (fs0 := fs) rfl
        rw [hc] at this
        exact this
  | copy hap hnone hsome _ ih =>
    rintro d m fs0 fs rfl
    rename_i h i off K k e q _
    have hK : (Doing.at (.sys (.readAll h) K)).whole = (Doing.copying h i off [] [] k e).whole := by
      simp only [Doing.whole]
      congr 1
      funext r
      cases r with
      | none => exact hnone
      | some c => exact hsome c
    rw [hK]
    refine ih d m (fs0 := fs) (fs := fs) ⟨(put_nil ..).symm, ?_⟩
    cases h with
    | dir => exact ⟨rfl, rfl⟩
    | file j => exact ⟨List.nil_prefix, rfl, hap j rfl⟩
  | copyRead n want hn _ _ _ ih1 ih2 ih3 =>
    intro d m fs0 fs hs
    cases m with
    | zero => exact copy_ends hs rfl _
    | succ m =>
      rename_i h i off buf pending k e k' _ _ _
      obtain ⟨rfl, hs⟩ := hs
      cases h with
      | dir =>
        obtain ⟨rfl, rfl⟩ := hs
        rw [put_nil]
        have hx : execF cfg fs0 (.readAt .dir (([] : Bytes).length + ([] : Bytes).length) n want) (d 0) = (none, fs0) := by cases d 0 <;> rfl
        simp only [runFN, hx]
        exact (copy_dir (ih1 (fun i => d (i + 1)) m (fs0 := fs0) rfl) [] []).mono shift
      | file j =>
        obtain ⟨h1, h2, h3⟩ := hs
        cases he : d 0 with
        | none =>
          obtain ⟨b, hx, hr⟩ : ∃ b, execF cfg (put fs0 i off buf) (.readAt (.file j) (buf.length + pending.length) n want) (d 0) =
            (some b, put fs0 i off buf) ∧ b = _ := ⟨_, by rw [he]; rfl, rfl⟩
          rw [← List.length_append, h2] at hr
          obtain ⟨h4, h5⟩ := read_prefix hn h1 hr
          simp only [runFN, hx]
          by_cases hbn : b = []
          · subst hbn
            exact (copy_goes_on (h4 rfl) (ih2 (fun i => d (i + 1)) m (fs0 := put fs0 i off buf) rfl) buf pending).mono shift
          · rw [List.append_assoc] at h5
            exact (ih3 b hbn (fun i => d (i + 1)) m ⟨rfl, h5, h2, h3⟩).mono shift
        | _ =>
          simp only [runFN, he]
          exact copy_fails ((List.prefix_append ..).trans h1) ((ih1 (fun i => d (i + 1)) m (fs0 := put fs0 i off buf) rfl).mono shift)
            (fun h => by have := h 0; rw [he] at this; cases this) buf pending
  | copyRest _ _ ih1 ih2 =>
    intro d m fs0 fs hs
    cases m with
    | zero => exact copy_ends hs rfl _
    | succ m =>
      rename_i h i off buf pending k e k' _ _
      obtain ⟨rfl, hs⟩ := hs
      cases h with
      | dir =>
        obtain ⟨rfl, rfl⟩ := hs
        rw [put_nil]
        have hx : execF cfg fs0 (.readAll .dir) (d 0) = (none, fs0) := by cases d 0 <;> rfl
        simp only [runFN, hx]
        exact (copy_dir (ih1 (fun i => d (i + 1)) m (fs0 := fs0) rfl) [] []).mono shift
      | file j =>
        obtain ⟨h1, h2, h3⟩ := hs
        cases he : d 0 with
        | none =>
          have hx : execF cfg (put fs0 i off buf) (.readAll (.file j)) (d 0) = (some (fs0.data j), put fs0 i off buf) := by
            rw [he, ← h2]; rfl
          simp only [runFN, hx]
          have hc := prefix_drop h1
          rw [List.append_assoc, List.length_append] at hc
          exact (copy_goes_on hc.symm (ih2 (fs0.data j) (fun i => d (i + 1)) m (fs0 := put fs0 i off buf) rfl) buf pending).mono shift
        | _ =>
          simp only [runFN, he]
          exact copy_fails ((List.prefix_append ..).trans h1) ((ih1 (fun i => d (i + 1)) m (fs0 := put fs0 i off buf) rfl).mono shift)
            (fun h => by have := h 0; rw [he] at this; cases this) buf pending
  | copyWrite b b' _ _ ih1 ih2 =>
    intro d m fs0 fs hs
    cases m with
    | zero => exact copy_ends hs rfl _
    | succ m =>
      rename_i h i off buf k e k' _ _
      obtain ⟨rfl, hs⟩ := hs
      have stop : ∀ n f, f ≠ Fault.none → d 0 = f →
          execF cfg (put fs0 i off buf) (.writeAt i (off + buf.length) b) f = (false, put (put fs0 i off buf) i (off + buf.length) (b.take n)) →
          Gets cfg (Doing.copying h i off buf (b ++ b') k e).whole fs0
            (runFN cfg d (m + 1) (.sys (.writeAt i (off + buf.length) b) k') (put fs0 i off buf)) (∀ i, d i = .none) := by
        intro n f hf hd hx
        rw [put_put] at hx
        simp only [runFN, hd]
        rw [hx]
        have h1 := (ih1 (fun i => d (i + 1)) m (fs0 := put fs0 i off (buf ++ b.take n)) rfl).mono (shift (d := d))
        cases h with
        | dir =>
          obtain ⟨rfl, hb⟩ := hs
          obtain ⟨rfl, rfl⟩ := List.append_eq_nil_iff.mp hb
          simp only [List.take_nil, List.append_nil, put_nil] at h1 ⊢
          exact copy_dir h1 [] _
        | file j =>
          refine copy_fails (List.IsPrefix.trans ?_ hs.1) h1 (fun h => hf (hd ▸ h 0)) buf (b ++ b')
          exact (List.prefix_append_right_inj _).mpr ((List.take_prefix ..).trans (List.prefix_append ..))
      cases hd : d 0 with
      | none =>
        have hx : execF cfg (put fs0 i off buf) (.writeAt i (off + buf.length) b) (d 0) = (true, put fs0 i off (buf ++ b)) := by
          rw [hd, ← put_put]; rfl
        simp only [runFN, hx]
        refine (ih2 (fun i => d (i + 1)) m (fs0 := fs0) ⟨rfl, ?_⟩).mono shift
        cases h with
        | dir =>
          obtain ⟨rfl, hb⟩ := hs
          obtain ⟨rfl, rfl⟩ := List.append_eq_nil_iff.mp hb
          exact ⟨rfl, rfl⟩
        | file j =>
          obtain ⟨h1, _, h3⟩ := hs
          rw [← List.append_assoc] at h1
          exact ⟨h1, sim_data h3 ((List.prefix_append ..).trans h1), h3⟩
      | before => exact stop 0 .before (fun h => nomatch h) hd (by simp [execF, failed, put_nil])
      | after => exact stop b.length .after (fun h => nomatch h) hd (by simp [execF, failed, exec, put])
      | during n rs => exact stop n (.during n rs) (fun h => nomatch h) hd (by simp [execF, failed, partial_put])

end S3
