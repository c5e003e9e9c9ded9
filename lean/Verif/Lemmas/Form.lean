import Verif.Model.Form
import Verif.Spec.Form
import Verif.Lemmas.Chunked
/-! The file stream of a form reads fragments like one flat text. -/
namespace S3
open Spec

theorem startsWith_pre {s p : Bytes} : startsWith s p = true ↔ p <+: s := by simp [startsWith]

theorem startsWith_false {s p : Bytes} : startsWith s p = false ↔ ¬ p <+: s := by
  rw [← startsWith_pre]; cases startsWith s p <;> simp

/-- an outcome `k` bytes further -/
def Scan.shift (k : Nat) : Scan → Scan
  | .found i => .found (i + k)
  | .maybe i => .maybe (i + k)
  | .clear => .clear

theorem Scan.shift_shift (a b : Nat) (s : Scan) : (s.shift a).shift b = s.shift (a + b) := by
  cases s <;> simp [Scan.shift, Nat.add_assoc]

theorem Scan.shift_zero (s : Scan) : s.shift 0 = s := by cases s <;> simp [Scan.shift]

theorem scanFile_shift (pat : Bytes) (k i : Nat) (s : Bytes) : scanFile pat (i + k) s = (scanFile pat i s).shift k := by
  induction s generalizing i with
  | nil => rfl
  | cons c r ih =>
    have := ih (i + 1)
    rw [Nat.add_right_comm] at this
    simp only [scanFile]
    repeat' split
    all_goals first | exact this | rfl

theorem scanFile_from (pat : Bytes) (k : Nat) (s : Bytes) : scanFile pat k s = (scanFile pat 0 s).shift k := by
  simpa using scanFile_shift pat k 0 s

/-- the outcome for a text in two parts -/
def joinScan (pat a b : Bytes) : Scan → Scan
  | .found i => .found i
  | .maybe i => (scanFile pat 0 (a.drop i ++ b)).shift i
  | .clear => (scanFile pat 0 b).shift a.length

theorem joinScan_cons (pat : Bytes) (c : UInt8) (a b : Bytes) (x : Scan) :
    joinScan pat (c :: a) b (x.shift 1) = (joinScan pat a b x).shift 1 := by
  cases x with
  | found i => rfl
  | maybe i => exact (Scan.shift_shift _ _ _).symm
  | clear => exact (Scan.shift_shift _ _ _).symm

theorem scanFile_append (pat a b : Bytes) : scanFile pat 0 (a ++ b) = joinScan pat a b (scanFile pat 0 a) := by
  induction a with
  | nil => simp [scanFile, joinScan, Scan.shift_zero]
  | cons c a ih =>
    have step : (scanFile pat 1 (a ++ b)) = joinScan pat (c :: a) b (scanFile pat 1 a) := by
      rw [scanFile_from pat 1 a, joinScan_cons, ← ih, ← scanFile_from]
    simp only [List.cons_append, scanFile]
    by_cases hc : c ≠ 13
    · rw [if_pos hc, if_pos hc]; exact step
    · rw [if_neg hc, if_neg hc]
      by_cases hl : pat.length ≤ (c :: a).length
      · have hl' : pat.length ≤ (c :: (a ++ b)).length := by simp at hl ⊢; omega
        rw [if_pos hl, if_pos hl']
        have e : startsWith (c :: (a ++ b)) pat = startsWith (c :: a) pat := by
          rw [Bool.eq_iff_iff, startsWith_pre, startsWith_pre]
          constructor
          · intro h
            exact List.prefix_of_prefix_length_le h ⟨b, rfl⟩ hl
          · intro h
            exact h.trans ⟨b, rfl⟩
        rw [e]
        split
        · rfl
        · exact step
      · rw [if_neg hl]
        by_cases hp : startsWith pat (c :: a) = true
        · rw [if_pos hp]
          simp only [joinScan, List.drop_zero, List.cons_append, Scan.shift_zero]
          simp only [scanFile]
          rw [if_neg hc]
        · rw [if_neg hp]
          have h1 : ¬ startsWith (c :: (a ++ b)) pat = true := by
            intro h
            rw [startsWith_pre] at h hp
            exact hp (List.prefix_of_prefix_length_le ⟨b, rfl⟩ h (by omega))
          have h2 : ¬ startsWith pat (c :: (a ++ b)) = true := by
            intro h
            rw [startsWith_pre] at h hp
            exact hp (List.IsPrefix.trans ⟨b, rfl⟩ h)
          rw [if_neg h1, if_neg h2]
          simp only [ite_self]
          exact step

theorem scanFile_bound {pat s : Bytes} {i : Nat} (h : scanFile pat 0 s = .found i ∨ scanFile pat 0 s = .maybe i) : i ≤ s.length := by
  induction s generalizing i with
  | nil => rcases h with h | h <;> cases h
  | cons c r ih =>
    have step : (scanFile pat 1 r = .found i ∨ scanFile pat 1 r = .maybe i) → i ≤ (c :: r).length := by
      rw [scanFile_from]
      intro h
      cases hx : scanFile pat 0 r with
      | found j =>
        rw [hx] at h
        rcases h with h | h <;> cases h
        have := ih (.inl hx); simp; omega
      | maybe j =>
        rw [hx] at h
        rcases h with h | h <;> cases h
        have := ih (.inr hx); simp; omega
      | clear => rw [hx] at h; rcases h with h | h <;> cases h
    simp only [scanFile] at h
    repeat' split at h
    all_goals first | exact step h | (rcases h with h | h <;> cases h <;> exact Nat.zero_le _)

/-- the bytes delivered for a flat text -/
def Scan.cut (s : Bytes) : Scan → Bytes
  | .found i => s.take i
  | .maybe i => s.take i
  | .clear => s

/-- the error at the end -/
def Scan.error (br : Bool) : Scan → Option FileError
  | .found _ => none
  | _ => some (if br then .io else .incomplete)

theorem Scan.error_shift (br : Bool) (k : Nat) (s : Scan) : (s.shift k).error br = s.error br := by cases s <;> rfl

theorem Scan.cut_shift {a b : Bytes} (s : Scan) : (s.shift a.length).cut (a ++ b) = a ++ s.cut b := by
  cases s <;> simp [Scan.shift, Scan.cut, List.take_append, Nat.add_comm]
  all_goals exact List.take_of_length_le (by omega)

/-- pieces joined -/
def FileData.flat (d : FileData) : Bytes × Option FileError := (d.pieces.flatten, d.error)

theorem fileLoop_flat (pat bytes : Bytes) (body : Body) :
    (fileLoop pat bytes body).flat =
      ((scanFile pat 0 (bytes ++ received body)).cut (bytes ++ received body), (scanFile pat 0 (bytes ++ received body)).error (broken body)) := by
  induction body generalizing bytes with
  | nil =>
    rw [fileLoop.eq_def]
    simp only [received, List.append_nil]
    cases scanFile pat 0 bytes <;> simp [FileData.flat, Scan.cut, Scan.error, broken]
  | cons x rest ih =>
    rw [scanFile_append, fileLoop.eq_def]
    cases h : scanFile pat 0 bytes with
    | found i =>
      have hb := scanFile_bound (.inl h)
      simp [FileData.flat, joinScan, Scan.cut, Scan.error, List.take_append_of_le_length hb]
    | maybe i =>
      have hb := scanFile_bound (.inr h)
      cases x with
      | none =>
        simp only [received, List.append_nil, joinScan, FileData.flat, List.flatten_cons, List.flatten_nil]
        have h2 : (scanFile pat 0 (bytes.drop i)).shift i = .maybe i := by
          have := scanFile_append pat (bytes.take i) (bytes.drop i)
          have h3 := scanFile_append pat bytes []
          rw [h] at h3
          simp only [List.append_nil, joinScan] at h3
          rw [← h3]
          exact h
        rw [h2]
        rfl
      | some b =>
        simp only [received, joinScan]
        have := ih (bytes.drop i ++ b)
        simp only [FileData.flat, Prod.mk.injEq, FileData.after, List.flatten_cons] at this ⊢
        rw [this.1, this.2, Scan.error_shift, List.append_assoc]
        refine ⟨?_, by simp [broken]⟩
        have e := Scan.cut_shift (a := bytes.take i) (b := bytes.drop i ++ (b ++ received rest)) (scanFile pat 0 (bytes.drop i ++ (b ++ received rest)))
        rw [← List.append_assoc, List.take_append_drop, List.length_take, Nat.min_eq_left hb] at e
        rw [e]
    | clear =>
      cases x with
      | none => simp [received, joinScan, FileData.flat, Scan.cut, Scan.error, broken, scanFile, Scan.shift]
      | some b =>
        simp only [received, joinScan]
        have := ih b
        simp only [FileData.flat, Prod.mk.injEq, FileData.after, List.flatten_cons] at this ⊢
        rw [this.1, this.2, Scan.error_shift, Scan.cut_shift]
        exact ⟨rfl, by simp [broken]⟩

theorem fileStream_flat (boundary prev : Bytes) (body : Body) :
    (fileStream boundary prev body).flat =
      ((scanFile (crlfPat boundary) 0 (prev ++ received body)).cut (prev ++ received body),
        (scanFile (crlfPat boundary) 0 (prev ++ received body)).error (broken body)) := by
  unfold fileStream
  split
  · exact fileLoop_flat _ _ _
  · rename_i h
    have : prev = [] := by simpa using h
    subst this
    cases body with
    | nil => rfl
    | cons x rest =>
      cases x with
      | none => simp [received, FileData.flat, Scan.cut, Scan.error, broken, scanFile]
      | some b =>
        simp only [List.nil_append, received]
        rw [fileLoop_flat]
        simp [broken]

/-! ### the first occurrence -/

theorem scanFile_found {p s : Bytes} {i : Nat} (h : scanFile (13 :: p) 0 s = .found i) :
    (13 :: p) <+: s.drop i ∧ ∀ j, j < i → ¬ (13 :: p) <+: s.drop j := by
  induction s generalizing i with
  | nil => cases h
  | cons c r ih =>
    have step : ¬ (13 :: p) <+: c :: r → scanFile (13 :: p) 1 r = .found i →
        (13 :: p) <+: (c :: r).drop i ∧ ∀ j, j < i → ¬ (13 :: p) <+: (c :: r).drop j := by
      rw [scanFile_from]
      intro hn h
      cases hx : scanFile (13 :: p) 0 r with
      | found k =>
        rw [hx] at h
        cases h
        obtain ⟨h1, h2⟩ := ih hx
        refine ⟨h1, fun j hj => ?_⟩
        cases j with
        | zero => exact hn
        | succ j => exact h2 j (by omega)
      | maybe k => rw [hx] at h; cases h
      | clear => rw [hx] at h; cases h
    simp only [scanFile] at h
    split at h
    · rename_i hc
      exact step (fun hp => hc (List.cons_prefix_cons.mp hp).1.symm) h
    · split at h
      · split at h
        · rename_i hs
          cases h
          exact ⟨startsWith_pre.mp hs, fun j hj => absurd hj (Nat.not_lt_zero j)⟩
        · rename_i hs
          exact step (fun hp => hs (startsWith_pre.mpr hp)) h
      · rename_i hl
        split at h
        · cases h
        · exact step (fun hp => hl hp.length_le) h

theorem scanFile_not_found {p s : Bytes} (h : ∀ i, scanFile (13 :: p) 0 s ≠ .found i) (j : Nat) : ¬ (13 :: p) <+: s.drop j := by
  induction s generalizing j with
  | nil => simp
  | cons c r ih =>
    have short : (∀ i, scanFile (13 :: p) 1 r ≠ .found i) → ∀ j, ¬ (13 :: p) <+: r.drop j := by
      rw [scanFile_from]
      intro h
      apply ih
      intro i hi
      rw [hi] at h
      exact h _ rfl
    have step : ¬ (13 :: p) <+: c :: r → (∀ i, scanFile (13 :: p) 1 r ≠ .found i) → ¬ (13 :: p) <+: (c :: r).drop j := by
      intro hn h
      cases j with
      | zero => exact hn
      | succ j => exact short h j
    simp only [scanFile] at h
    split at h
    · rename_i hc
      exact step (fun hp => hc (List.cons_prefix_cons.mp hp).1.symm) h
    · split at h
      · split at h
        · exact absurd rfl (h 0)
        · rename_i hs
          exact step (fun hp => hs (startsWith_pre.mpr hp)) h
      · rename_i hl
        split at h
        · intro hp
          have := hp.length_le
          simp at this hl
          omega
        · exact step (fun hp => hl hp.length_le) h

theorem occurs_iff_drop {d s : Bytes} : Occurs d s ↔ ∃ j, d <+: s.drop j := by
  constructor
  · rintro ⟨a, rest, e⟩
    exact ⟨a.length, rest, by rw [e]; simp⟩
  · rintro ⟨j, rest, e⟩
    exact ⟨s.take j, rest, by rw [List.append_assoc, e, List.take_append_drop]⟩

theorem scanFile_before {p s : Bytes} {i : Nat} (h : scanFile (13 :: p) 0 s = .found i) : BeforeFirst (13 :: p) s (s.take i) := by
  obtain ⟨⟨rest, e⟩, h2⟩ := scanFile_found h
  refine ⟨⟨rest, by rw [List.append_assoc, e, List.take_append_drop]⟩, ?_⟩
  intro a rest' e'
  rw [List.length_take]
  refine Nat.le_trans (Nat.min_le_left _ _) (Nat.le_of_not_lt fun hl => h2 _ hl ⟨rest', by rw [e']; simp⟩)

theorem Spec.BeforeFirst.unique {d s a b : Bytes} (ha : BeforeFirst d s a) (hb : BeforeFirst d s b) : a = b := by
  obtain ⟨⟨r1, e1⟩, h1⟩ := ha
  obtain ⟨⟨r2, e2⟩, h2⟩ := hb
  have hl : a.length = b.length := Nat.le_antisymm (h1 _ _ e2) (h2 _ _ e1)
  have : a ++ (d ++ r1) = b ++ (d ++ r2) := by rw [← List.append_assoc, ← List.append_assoc, ← e1, ← e2]
  exact (List.append_inj this hl).1

end S3
