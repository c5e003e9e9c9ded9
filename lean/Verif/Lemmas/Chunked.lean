import Verif.Model.Chunked
import Verif.Spec.Chunked
import Verif.Lemmas.Bytes
import Verif.Lemmas.Num
/-! The chunk decoder reads fragments like one flat text. -/
namespace S3
open Spec

/-- the body breaks off -/
def broken (b : Body) : Bool := b.any Option.isNone

theorem broken_iff {b : Body} : broken b = true ↔ none ∈ b := by
  simp only [broken, List.any_eq_true]
  constructor
  · rintro ⟨x, h, hx⟩
    cases x with
    | none => exact h
    | some _ => cases hx
  · exact fun h => ⟨none, h, rfl⟩

theorem unbroken_iff {b : Body} : unbroken b ↔ broken b = false := by
  rw [unbroken, ← broken_iff]
  cases broken b <;> simp

/-- what the end of the body looks like -/
def endOf (α : Type) (br : Bool) : ReadRes α := if br then .err .io else .eof

theorem splitLine_append (a b : Bytes) : splitLine (a ++ b) =
    match splitLine a with
    | some (l, r) => some (l, r ++ b)
    | none => (splitLine b).map fun p => (a ++ p.1, p.2) := by
  induction a with
  | nil => cases h : splitLine b <;> simp [splitLine, h]
  | cons c a ih =>
    simp only [List.cons_append, splitLine]
    split
    · rfl
    · rw [ih]
      cases h : splitLine a with
      | some p => rfl
      | none => cases h2 : splitLine b <;> simp [h2]

theorem readMeta_flat (buf prev : Bytes) (body : Body) :
    (∀ l r, splitLine (prev ++ received body) = some (l, r) → ∃ prev' body',
      readMeta buf prev body = .got (buf ++ l) prev' body' ∧ prev' ++ received body' = r ∧ broken body' = broken body) ∧
    (splitLine (prev ++ received body) = none → readMeta buf prev body = endOf _ (broken body)) := by
  induction body generalizing buf prev with
  | nil =>
    simp only [received, List.append_nil]
    rw [readMeta]
    constructor
    · intro l r h
      rw [h]
      exact ⟨r, [], rfl, by simp [received], rfl⟩
    · intro h
      rw [h]
      rfl
  | cons x rest ih =>
    rw [readMeta.eq_def]
    cases h0 : splitLine prev with
    | some p =>
      obtain ⟨l0, r0⟩ := p
      simp only [splitLine_append, h0]
      constructor
      · intro l r h
        cases h
        exact ⟨r0, _, rfl, rfl, rfl⟩
      · intro h; cases h
    | none =>
      cases x with
      | none =>
        simp only [received, List.append_nil, h0]
        constructor
        · intro l r h; cases h
        · intro _; rfl
      | some b =>
        simp only [received]
        rw [splitLine_append, h0]
        obtain ⟨ih1, ih2⟩ := ih (buf ++ prev) b
        constructor
        · intro l r h
          simp only [Option.map_eq_some_iff] at h
          obtain ⟨⟨l', r'⟩, h1, h2⟩ := h
          cases h2
          obtain ⟨prev', body', e1, e2, e3⟩ := ih1 _ _ h1
          exact ⟨prev', body', by rw [e1, List.append_assoc], e2, by rw [e3]; rfl⟩
        · intro h
          simp only [Option.map_eq_none_iff] at h
          rw [ih2 h]
          rfl

theorem readSized_flat (acc : List Bytes) (size : Nat) (prev : Bytes) (body : Body) :
    (size ≤ (prev ++ received body).length → ∃ ps prev' body', readSized acc size prev body = .got (acc ++ ps) prev' body' ∧
      ps.flatten = (prev ++ received body).take size ∧ prev' ++ received body' = (prev ++ received body).drop size ∧
      broken body' = broken body) ∧
    (¬ size ≤ (prev ++ received body).length → readSized acc size prev body = endOf _ (broken body)) := by
  induction body generalizing acc size prev with
  | nil =>
    rw [readSized]
    simp only [received, List.append_nil]
    constructor
    · intro h
      split
      · rename_i h0
        subst h0
        exact ⟨[], prev, [], by simp, by simp, by simp [received], rfl⟩
      · exact ⟨[prev.take size], prev.drop size, [], rfl, by simp, by simp [received], rfl⟩
    · intro h
      rw [if_neg (by omega), if_neg h]
      rfl
  | cons x rest ih =>
    rw [readSized.eq_def]
    by_cases h0 : size = 0
    · subst h0
      refine ⟨fun _ => ⟨[], prev, _, by simp, by simp, by simp, rfl⟩, fun h => absurd (Nat.zero_le _) h⟩
    · rw [if_neg h0]
      by_cases h1 : size ≤ prev.length
      · rw [if_pos h1]
        refine ⟨fun _ => ⟨[prev.take size], prev.drop size, _, rfl, ?_, ?_, rfl⟩, fun h => absurd ?_ h⟩
        · simp [List.take_append_of_le_length h1]
        · simp [List.drop_append_of_le_length h1]
        · simp; omega
      · rw [if_neg h1]
        cases x with
        | none =>
          simp only [received, List.append_nil]
          exact ⟨fun h => absurd h h1, fun _ => rfl⟩
        | some b =>
          simp only [received]
          obtain ⟨ih1, ih2⟩ := ih (acc ++ [prev]) (size - prev.length) b
          constructor
          · intro h
            obtain ⟨ps, prev', body', e1, e2, e3, e4⟩ := ih1 (by simp at h ⊢; omega)
            refine ⟨prev :: ps, prev', body', by rw [e1]; simp, ?_, ?_, by rw [e4]; rfl⟩
            · rw [List.flatten_cons, e2, List.take_append (l₁ := prev), List.take_of_length_le (by omega : prev.length ≤ size)]
            · rw [e3, List.drop_append (l₁ := prev), List.drop_eq_nil_of_le (by omega : prev.length ≤ size)]; simp
          · intro h
            rw [ih2 (by simp at h ⊢; omega)]
            rfl

theorem readByte_flat (c : UInt8) (prev : Bytes) (body : Body) :
    (∀ x r, prev ++ received body = x :: r → if x = c then ∃ prev' body', readByte c prev body = .got () prev' body' ∧
        prev' ++ received body' = r ∧ broken body' = broken body
      else readByte c prev body = .err .formatError) ∧
    (prev ++ received body = [] → readByte c prev body = endOf _ (broken body)) := by
  induction body generalizing prev with
  | nil =>
    cases prev with
    | nil => exact ⟨fun x r h => (by cases h), fun _ => rfl⟩
    | cons y p =>
      refine ⟨fun x r h => ?_, fun h => (by cases h)⟩
      simp only [received, List.append_nil] at h
      cases h
      split
      · rename_i e
        exact ⟨p, [], by rw [readByte, if_pos e], by simp [received], rfl⟩
      · rename_i e
        rw [readByte, if_neg e]
  | cons z rest ih =>
    cases prev with
    | cons y p =>
      refine ⟨fun x r h => ?_, fun h => (by cases h)⟩
      cases h
      split
      · rename_i e
        exact ⟨p, _, by rw [readByte, if_pos e], rfl, rfl⟩
      · rename_i e
        rw [readByte, if_neg e]
    | nil =>
      cases z with
      | none => exact ⟨fun x r h => (by cases h), fun _ => rfl⟩
      | some b =>
        simp only [received, List.nil_append, readByte]
        exact ih b

/-- the line end, on the flat text -/
def crlfOf : Bytes → Option (Option Bytes)
  | [] => none
  | [a] => if a = 13 then none else some none
  | a :: b :: r => if a = 13 ∧ b = 10 then some (some r) else some none

theorem readCrlf_flat (prev : Bytes) (body : Body) :
    (∀ r, crlfOf (prev ++ received body) = some (some r) → ∃ prev' body', readCrlf prev body = .got () prev' body' ∧
      prev' ++ received body' = r ∧ broken body' = broken body) ∧
    (crlfOf (prev ++ received body) = some none → readCrlf prev body = .err .formatError) ∧
    (crlfOf (prev ++ received body) = none → readCrlf prev body = endOf _ (broken body)) := by
  have fast : ∀ p : Bytes, startsWith p b!"\r\n" = true → ∃ r, p = 13 :: 10 :: r := by
    intro p h
    obtain ⟨t, ht⟩ := List.isPrefixOf_iff_prefix.mp h
    exact ⟨t, ht.symm⟩
  unfold readCrlf
  by_cases hf : startsWith prev b!"\r\n" = true
  · rw [if_pos hf]
    obtain ⟨p, rfl⟩ := fast prev hf
    simp only [List.cons_append, crlfOf, and_self, if_true]
    refine ⟨fun r h => ?_, fun h => (by cases h), fun h => (by cases h)⟩
    cases h
    exact ⟨p, body, rfl, rfl, rfl⟩
  · rw [if_neg hf]
    obtain ⟨h1, h2⟩ := readByte_flat 13 prev body
    cases hflat : prev ++ received body with
    | nil =>
      rw [h2 hflat]
      refine ⟨fun r h => (by cases h), fun h => (by cases h), fun _ => ?_⟩
      unfold endOf
      cases broken body <;> rfl
    | cons x r1 =>
      have := h1 x r1 hflat
      by_cases hx : x = 13
      · rw [if_pos hx] at this
        obtain ⟨prev', body', e1, e2, e3⟩ := this
        rw [e1]
        obtain ⟨g1, g2⟩ := readByte_flat 10 prev' body'
        rw [e2] at g1 g2
        cases r1 with
        | nil =>
          simp only [crlfOf, if_pos hx]
          refine ⟨fun r h => (by cases h), fun h => (by cases h), fun _ => ?_⟩
          rw [g2 rfl, e3]
        | cons y r2 =>
          have := g1 y r2 rfl
          simp only [crlfOf, hx, true_and]
          by_cases hy : y = 10
          · rw [if_pos hy] at this ⊢
            obtain ⟨p2, b2, f1, f2, f3⟩ := this
            refine ⟨fun r h => ?_, fun h => (by cases h), fun h => (by cases h)⟩
            cases h
            exact ⟨p2, b2, f1, f2, f3.trans e3⟩
          · rw [if_neg hy] at this ⊢
            exact ⟨fun r h => (by cases h), fun _ => this, fun h => (by cases h)⟩
      · rw [if_neg hx] at this
        rw [this]
        cases r1 with
        | nil =>
          simp only [crlfOf, if_neg hx]
          exact ⟨fun r h => (by cases h), fun _ => trivial, fun h => (by cases h)⟩
        | cons y r2 =>
          simp only [crlfOf, hx, false_and, if_false]
          exact ⟨fun r h => (by cases h), fun _ => trivial, fun h => (by cases h)⟩

/-! ### the decoder on the flat text -/

/-- reading the data of a chunk on the flat text: `none` when it ends too early, `some none` when the line end is wrong -/
def dataOf (size : Nat) (s : Bytes) : Option (Option (Bytes × Bytes)) :=
  if size ≤ s.length then
    match crlfOf (s.drop size) with
    | none => none
    | some none => some none
    | some (some r) => some (some (s.take size, r))
  else none

theorem readData_flat (size : Nat) (prev : Bytes) (body : Body) :
    (∀ d r, dataOf size (prev ++ received body) = some (some (d, r)) → ∃ ps prev' body',
      readData size prev body = .got ps prev' body' ∧ ps.flatten = d ∧ prev' ++ received body' = r ∧ broken body' = broken body) ∧
    (dataOf size (prev ++ received body) = some none → readData size prev body = .err .formatError) ∧
    (dataOf size (prev ++ received body) = none → readData size prev body = endOf _ (broken body)) := by
  obtain ⟨s1, s2⟩ := readSized_flat [] size prev body
  unfold dataOf readData
  by_cases hs : size ≤ (prev ++ received body).length
  · rw [if_pos hs]
    obtain ⟨ps, p', b', e1, e2, e3, e4⟩ := s1 hs
    rw [e1]
    obtain ⟨c1, c2, c3⟩ := readCrlf_flat p' b'
    rw [e3] at c1 c2 c3
    simp only [List.nil_append]
    cases hc : crlfOf ((prev ++ received body).drop size) with
    | none =>
      rw [c3 hc]
      refine ⟨fun d r h => (by cases h), fun h => (by cases h), fun _ => ?_⟩
      rw [e4]
      unfold endOf
      cases broken body <;> rfl
    | some o =>
      cases o with
      | none =>
        rw [c2 hc]
        exact ⟨fun d r h => (by cases h), fun _ => rfl, fun h => (by cases h)⟩
      | some r =>
        obtain ⟨p2, b2, f1, f2, f3⟩ := c1 r hc
        rw [f1]
        refine ⟨fun d r h => ?_, fun h => (by cases h), fun h => (by cases h)⟩
        cases h
        exact ⟨ps, p2, b2, rfl, e2, f2, f3.trans e4⟩
  · rw [if_neg hs, s2 hs]
    refine ⟨fun d r h => (by cases h), fun h => (by cases h), fun _ => ?_⟩
    unfold endOf
    cases broken body <;> rfl

/-- bytes and error -/
structure FlatDecoded where
  bytes : Bytes
  error : Option ChunkError
  deriving DecidableEq

def Decoded.flat (d : Decoded) : FlatDecoded := ⟨d.pieces.flatten, d.error⟩

/-- the end of the text, inside a chunk or not -/
def endError (br inside : Bool) : Option ChunkError :=
  if br then some .io else if inside then some .incomplete else none

/-- the decoder on the flat text -/
def flatLoop (sign : Bytes → Bytes → Bytes) (br : Bool) : Nat → Bytes → Bytes → FlatDecoded
  | 0, _, _ => ⟨[], none⟩
  | fuel + 1, prevSig, s =>
    match splitLine s with
    | none => ⟨[], endError br false⟩
    | some (line, s) =>
      match parseChunkMeta line with
      | none => ⟨[], some .formatError⟩
      | some (size, signature) =>
        match dataOf size s with
        | none => ⟨[], endError br true⟩
        | some none => ⟨[], some .formatError⟩
        | some (some (d, s)) =>
          if sign prevSig d = signature then
            let r := flatLoop sign br fuel (sign prevSig d) s
            ⟨d ++ r.bytes, r.error⟩
          else ⟨[], some .signatureMismatch⟩

theorem decodeLoop_flat (sign : Bytes → Bytes → Bytes) (fuel : Nat) (prevSig prev : Bytes) (body : Body) :
    (decodeLoop sign fuel prevSig prev body).flat = flatLoop sign (broken body) fuel prevSig (prev ++ received body) := by
  induction fuel generalizing prevSig prev body with
  | zero => rfl
  | succ fuel ih =>
    obtain ⟨m1, m2⟩ := readMeta_flat [] prev body
    simp only [decodeLoop, flatLoop]
    cases hl : splitLine (prev ++ received body) with
    | none =>
      rw [m2 hl]
      unfold endOf endError
      cases broken body <;> rfl
    | some p =>
      obtain ⟨l, r⟩ := p
      obtain ⟨p1, b1, e1, e2, e3⟩ := m1 l r hl
      rw [e1]
      simp only [List.nil_append]
      cases hp : parseChunkMeta l with
      | none => rfl
      | some q =>
        obtain ⟨size, sg⟩ := q
        obtain ⟨d1, d2, d3⟩ := readData_flat size p1 b1
        rw [e2] at d1 d2 d3
        simp only []
        cases hd : dataOf size r with
        | none =>
          rw [d3 hd]
          rw [e3]
          unfold endOf endError
          cases broken body <;> rfl
        | some o =>
          cases o with
          | none => rw [d2 hd]; rfl
          | some q =>
            obtain ⟨d, r2⟩ := q
            obtain ⟨ps, p2, b2, f1, f2, f3, f4⟩ := d1 d r2 hd
            rw [f1]
            simp only [f2]
            split
            · have := ih (sign prevSig d) p2 b2
              rw [f3, f4, e3] at this
              simp only [Decoded.flat, FlatDecoded.mk.injEq] at this ⊢
              rw [← this]
              simp [Decoded.after, Decoded.flat, f2]
            · rfl

theorem splitLine_some {s l r : Bytes} (h : splitLine s = some (l, r)) : s = l ++ r ∧ ∃ t, l = t ++ [10] ∧ (10 : UInt8) ∉ t := by
  induction s generalizing l r with
  | nil => cases h
  | cons c s ih =>
    simp only [splitLine] at h
    split at h
    · rename_i hc
      cases h
      exact ⟨rfl, [], by simp [hc], by simp⟩
    · rename_i hc
      cases hs : splitLine s with
      | none => rw [hs] at h; cases h
      | some p =>
        rw [hs] at h
        obtain ⟨l', r'⟩ := p
        cases h
        obtain ⟨e1, t, e2, e3⟩ := ih hs
        refine ⟨by rw [e1]; rfl, c :: t, by rw [e2]; rfl, ?_⟩
        simp only [List.mem_cons, not_or]
        exact ⟨fun e => hc e.symm, e3⟩

theorem splitLine_line {t r : Bytes} (h : (10 : UInt8) ∉ t) : splitLine (t ++ 10 :: r) = some (t ++ [10], r) := by
  induction t with
  | nil => simp [splitLine]
  | cons c t ih =>
    simp only [List.mem_cons, not_or] at h
    simp only [List.cons_append, splitLine]
    rw [if_neg (fun e => h.1 e.symm), ih h.2]

theorem splitLine_none {s : Bytes} : splitLine s = none ↔ (10 : UInt8) ∉ s := by
  constructor
  · intro h hm
    obtain ⟨a, b, rfl, ha⟩ : ∃ a b, s = a ++ 10 :: b ∧ (10 : UInt8) ∉ a := by
      clear h
      induction s with
      | nil => cases hm
      | cons c s ih =>
        by_cases hc : c = 10
        · exact ⟨[], s, by rw [hc]; rfl, by simp⟩
        · rcases List.mem_cons.mp hm with e | hm
          · exact absurd e.symm hc
          · obtain ⟨a, b, e, ha⟩ := ih hm
            exact ⟨c :: a, b, by rw [e]; rfl, by simp [ha]; exact fun e => hc e.symm⟩
    rw [splitLine_line ha] at h
    cases h
  · intro h
    cases hs : splitLine s with
    | none => rfl
    | some p =>
      obtain ⟨l, r⟩ := p
      obtain ⟨e, t, e2, _⟩ := splitLine_some hs
      exact absurd (by rw [e, e2]; simp) h

theorem crlfOf_some {s r : Bytes} : crlfOf s = some (some r) ↔ s = 13 :: 10 :: r := by
  match s with
  | [] => simp [crlfOf]
  | [a] => simp only [crlfOf]; split <;> simp
  | a :: b :: t =>
    simp only [crlfOf]
    split
    · rename_i h
      rw [h.1, h.2]; simp
    · rename_i h
      simp only [Option.some.injEq, reduceCtorEq, List.cons.injEq, false_iff]
      exact fun e => h ⟨e.1, e.2.1⟩

theorem dataOf_some {size : Nat} {s d r : Bytes} : dataOf size s = some (some (d, r)) ↔ d.length = size ∧ s = d ++ 13 :: 10 :: r := by
  unfold dataOf
  constructor
  · intro h
    split at h
    · rename_i hs
      cases hc : crlfOf (s.drop size) with
      | none => rw [hc] at h; cases h
      | some o =>
        rw [hc] at h
        cases o with
        | none => cases h
        | some r' =>
          cases h
          refine ⟨by simp; omega, ?_⟩
          rw [← crlfOf_some.mp hc, List.take_append_drop]
    · cases h
  · rintro ⟨h1, rfl⟩
    rw [if_pos (by simp; omega)]
    subst h1
    simp only [List.drop_left, List.take_left]
    rw [crlfOf_some.mpr rfl]

/-- fuel beyond the length of the text makes no difference -/
theorem flatLoop_fuel (sign : Bytes → Bytes → Bytes) (br : Bool) (m n : Nat) (prevSig s : Bytes) (hm : s.length < m) (hn : s.length < n) :
    flatLoop sign br m prevSig s = flatLoop sign br n prevSig s := by
  induction m generalizing n prevSig s with
  | zero => omega
  | succ m ih =>
    cases n with
    | zero => omega
    | succ n =>
      simp only [flatLoop]
      cases hl : splitLine s with
      | none => rfl
      | some p =>
        obtain ⟨l, r⟩ := p
        obtain ⟨e1, t, e2, _⟩ := splitLine_some hl
        have hlen : s.length = l.length + r.length := by rw [e1]; simp
        have hl1 : 1 ≤ l.length := by rw [e2]; simp
        simp only []
        split
        · rfl
        · split
          · rfl
          · rfl
          · rename_i d s' hd
            obtain ⟨g1, g2⟩ := dataOf_some.mp hd
            have : r.length = d.length + (s'.length + 2) := by rw [g2]; simp
            split
            · rw [ih n _ _ (by omega) (by omega)]
            · rfl

theorem bodyLength_received (b : Body) : (received b).length ≤ bodyLength b := by
  induction b with
  | nil => simp [received, bodyLength]
  | cons x r ih => cases x <;> simp [received, bodyLength]; omega

/-- the decoder as a function of the flat text -/
theorem decodeChunked_flat (sign : Bytes → Bytes → Bytes) (seed : Bytes) (body : Body) :
    (decodeChunked sign seed body).flat = flatLoop sign (broken body) ((received body).length + 1) seed (received body) := by
  unfold decodeChunked
  rw [decodeLoop_flat, List.nil_append]
  have := bodyLength_received body
  exact flatLoop_fuel _ _ _ _ _ _ (by omega) (by omega)

end S3
