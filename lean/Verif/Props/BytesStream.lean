import Verif.Model.BytesStream
/-! C11: body streaming. -/
namespace S3

/-- the bytes a stream should deliver -/
def Spec.prefixUpTo (limit : Option Nat) (rest : Bytes) : Bytes :=
  match limit with
  | some n => rest.take n
  | none => rest

theorem readCount_le (rest : Bytes) (m want : Nat) :
    readCount rest m want ≤ m ∧ readCount rest m want ≤ rest.length := by
  unfold readCount
  split
  · omega
  · rename_i h
    have h1 : m ≠ 0 := fun e => h (.inl e)
    have h2 : 0 < rest.length := List.length_pos_iff.mpr fun e => h (.inr e)
    omega

theorem readCount_zero {rest : Bytes} {m want : Nat} (h : readCount rest m want = 0) :
    m = 0 ∨ rest = [] := by
  unfold readCount at h
  split at h
  · assumption
  · omega

theorem collect_spec (wants : Nat → Nat) (fuel : Nat) :
    ∀ (s : BytesStream) (i : Nat), 0 < s.bufSize → s.rest.length < fuel →
      (s.collect wants fuel i).flatten = Spec.prefixUpTo s.limit s.rest ∧
      (∀ p ∈ s.collect wants fuel i, p ≠ [] ∧ p.length ≤ s.bufSize) := by
  induction fuel with
  | zero => intro s i _ h; omega
  | succ f ih =>
    intro s i hb hf
    obtain ⟨rest, bs, limit⟩ := s
    simp only at hb hf
    simp only [BytesStream.collect]
    generalize hp : BytesStream.poll _ _ = r
    unfold BytesStream.poll at hp
    simp only at hp
    cases limit with
    | none =>
      simp only at hp
      split at hp
      · rename_i hz
        subst hp
        rcases readCount_zero hz with h | h
        · omega
        · subst h; simp [Spec.prefixUpTo]
      · rename_i hz
        subst hp
        simp only [Option.map_none]
        have hle := readCount_le rest bs (wants i)
        have hmin : min (readCount rest bs (wants i)) bs = readCount rest bs (wants i) := by omega
        obtain ⟨h1, h2⟩ := ih ⟨rest.drop (readCount rest bs (wants i)), bs, none⟩ (i + 1) hb
          (by simp only [List.length_drop]; omega)
        simp only [Spec.prefixUpTo] at h1 h2 ⊢
        constructor
        · rw [List.flatten_cons, h1, hmin, List.take_append_drop]
        · intro p hp
          rcases List.mem_cons.mp hp with rfl | hp
          · rw [hmin]
            constructor
            · intro e
              have := congrArg List.length e
              simp only [List.length_take, List.length_nil] at this
              omega
            · simp only [List.length_take]; omega
          · exact h2 p hp
    | some lim =>
      simp only at hp
      split at hp
      · rename_i hz
        subst hp
        rcases readCount_zero hz with h | h
        · have : lim = 0 := by omega
          subst this; simp [Spec.prefixUpTo]
        · subst h; simp [Spec.prefixUpTo]
      · rename_i hz
        subst hp
        simp only [Option.map_some]
        have hle := readCount_le rest (min lim bs) (wants i)
        generalize readCount rest (min lim bs) (wants i) = n at *
        have hmin : min n (min lim bs) = n := by omega
        obtain ⟨h1, h2⟩ := ih ⟨rest.drop n, bs, some (lim - min n (min lim bs))⟩ (i + 1) hb
          (by simp only [List.length_drop]; omega)
        simp only [Spec.prefixUpTo] at h1 h2 ⊢
        constructor
        · rw [List.flatten_cons, h1, hmin]
          have : lim = n + (lim - n) := by omega
          conv => rhs; rw [this, List.take_add]
        · intro p hp
          rcases List.mem_cons.mp hp with rfl | hp
          · rw [hmin]
            constructor
            · intro e
              have := congrArg List.length e
              simp only [List.length_take, List.length_nil] at this
              omega
            · simp only [List.length_take]; omega
          · exact h2 p hp

/-- **C11** For every file content, limit, buffer size and pattern of short reads, the pieces
delivered are non-empty, at most one buffer long, and together are exactly the first `limit` bytes
(everything when there is no limit or the file is shorter). -/
theorem C11_stream_content (rest : Bytes) (bufSize : Nat) (limit : Option Nat) (wants : Nat → Nat)
    (hb : 0 < bufSize) :
    let pieces := BytesStream.pieces ⟨rest, bufSize, limit⟩ wants
    pieces.flatten = Spec.prefixUpTo limit rest ∧ ∀ p ∈ pieces, p ≠ [] ∧ p.length ≤ bufSize :=
  collect_spec wants _ ⟨rest, bufSize, limit⟩ 0 hb (by simp)

/-! Non-vacuity: buffer 3, limit 5, reads of 2, 1 and "as much as possible". -/
example : BytesStream.pieces ⟨b!"abcdefgh", 3, some 5⟩ (fun i => if i = 0 then 2 else if i = 1 then 1 else 9)
    = [b!"ab", b!"c", b!"de"] := by decide +kernel

end S3
