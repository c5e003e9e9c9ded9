import Verif.Lemmas.Get
import Verif.Spec.Object
import Verif.Props.Frame
import Verif.Props.RangeHeader
/-! C08, C09, C10, C27: what GET and HEAD answer. -/
namespace S3
open Spec

variable {cfg : Cfg} {ext : Ext}

theorem stored_some {fs : FS} {b k c : Bytes} :
    stored cfg fs b k = some c ↔
      ∃ p i, objectPath cfg b k = some p ∧ fs.at p = some (.file i) ∧ fs.data i = c := by
  simp only [stored, contentAt]
  constructor
  · intro h
    split at h
    · rename_i p hp
      split at h
      · cases h
      · rename_i hs
        split at h
        · rename_i i hi
          cases h
          refine ⟨p, i, hp, ?_, rfl⟩
          simp [FS.at, hi, hs]
        · cases h
    · cases h
  · rintro ⟨p, i, hp, ha, rfl⟩
    obtain ⟨h1, h2⟩ := at_file ha
    simp [hp, h1, h2]

theorem rangeOf_header {h : Bytes} {r : ByteRange} (hr : RangeHeader h r) :
    ∃ v, rangeOf (some h) = some (some v) ∧ v.denotes = r := by
  obtain ⟨v, hv, hd⟩ := (C07_range_grammar h r).mpr hr
  exact ⟨v, by simp [rangeOf, hv], hd⟩

/-- a range read from a header -/
theorem rangeOf_bounds {h : Bytes} {r : ByteRange} (hr : RangeHeader h r) :
    match r with
    | .fromTo f l => f ≤ l ∧ l ≤ u64Max
    | .from_ f => f ≤ u64Max
    | .lastN n => n ≤ u64Max := by
  cases hr with
  | closed f l fs ls h1 h2 h3 => exact ⟨h3, by have := h2.2; simp only [u64Max]; omega⟩
  | from_ f fs h1 => have := h1.2; simp only [u64Max]; omega
  | lastN n ns h1 => have := h1.2; simp only [u64Max]; omega

theorem slice_select {c : Bytes} {v : Range} {h : Bytes} (hh : RangeHeader h v.denotes) (hc : c.length ≤ u64Max)
    {off len : Nat} (hs : rangeSlice c.length (some v) = some (off, len)) :
    (c.drop off).take len = v.denotes.select c := by
  have hb := rangeOf_bounds hh
  cases v with
  | normal f l =>
    simp only [rangeSlice] at hs
    split at hs
    · cases hs
    · cases l with
      | none =>
        simp only [Option.some.injEq, Prod.mk.injEq] at hs
        obtain ⟨rfl, rfl⟩ := hs
        simp only [Range.denotes, ByteRange.select]
        rw [List.take_of_length_le]; simp
      | some l =>
        simp only [Option.some.injEq, Prod.mk.injEq] at hs
        obtain ⟨rfl, rfl⟩ := hs
        simp only [Range.denotes] at hb
        simp only [Range.denotes, ByteRange.select]
        split
        · rfl
        · rename_i hl
          rw [List.take_of_length_le (by simp), List.take_of_length_le]
          simp only [List.length_drop]; omega
  | suffix n =>
    simp only [rangeSlice] at hs
    split at hs
    · simp only [Option.some.injEq, Prod.mk.injEq] at hs
      obtain ⟨rfl, rfl⟩ := hs
      simp only [Range.denotes, ByteRange.select]
      rw [List.take_of_length_le]
      simp only [List.length_drop]; omega
    · cases hs

/-- **C08** (partial) A successful GET delivers exactly the bytes the Range header denotes (the whole object
without one), whatever pieces the file system returns.
Missing from the full property: some ranges that denote bytes are refused, see
`C08_ranged_get_fails`. -/
theorem C08_ranged_get_partial (fs : FS) (b k c : Bytes) (hs : stored cfg fs b k = some c)
    (hc : c.length < 2 ^ 64) (wants : Nat → Nat) :
    (∀ h r o body, RangeHeader h r → (run cfg (getObjectFull cfg ext b k (some h) wants) fs).1 = .ok (o, body) →
      body = some (r.select c)) ∧
    (∀ o body, (run cfg (getObjectFull cfg ext b k none wants) fs).1 = .ok (o, body) → body = some c) := by
  obtain ⟨p, i, hp, ha, rfl⟩ := stored_some.mp hs
  constructor
  · intro h r o body hh hrun
    obtain ⟨v, hv, rfl⟩ := rangeOf_header hh
    rw [get_run_file hp ha hv] at hrun
    split at hrun
    · cases hrun
    · rename_i off len hsl
      split at hrun
      · cases hrun
      · split at hrun
        · cases hrun
          rw [slice_select hh (by simp only [u64Max]; omega) hsl]
        · cases hrun
  · intro o body hrun
    rw [get_run_file hp ha (x := none) rfl] at hrun
    simp only [rangeSlice] at hrun
    split at hrun
    · cases hrun
    · split at hrun
      · cases hrun; simp
      · cases hrun

theorem get_unchanged (b k : Bytes) (h : Option Bytes) (wants : Nat → Nat) {fs : FS} (hw : WF fs) :
    (run cfg (getObjectFull cfg ext b k h wants) fs).2 = fs := by
  have h1 := C28_read_ops_pure cfg ext (.getObject b k h wants) trivial fs hw
  simp only [opProg, run_bind] at h1
  generalize run cfg (getObjectFull cfg ext b k h wants) fs = x at h1
  obtain ⟨o, fs'⟩ := x
  cases o <;> exact h1

theorem numeral_of {s : Bytes} {n : Nat} (h : s ≠ [] ∧ (s.all isDigit) = true ∧ decVal s = n ∧ n < 2 ^ 64) : IsNum64 s n :=
  ⟨⟨h.1, by simpa using h.2.1, h.2.2.1⟩, h.2.2.2⟩

example : stored Sample.cfg Sample.fs b!"aaa" b!"x" = some b!"hello" ∧
    RangeHeader b!"bytes=1-3" (.fromTo 1 3) ∧
    run Sample.cfg (getObjectFull Sample.cfg Sample.ext b!"aaa" b!"x" (some b!"bytes=1-3") (fun n => n + 1)) Sample.fs
      = (.ok (⟨.file ⟨[b!"srv", b!"aaa", b!"x"], 0⟩, 1, 3, 3, none, b!"\"md5:5\""⟩, some b!"ell"), Sample.fs) := by
  refine ⟨by decide +kernel, ?_, ?_⟩
  · exact RangeHeader.closed 1 3 b!"1" b!"3" (numeral_of (by decide)) (numeral_of (by decide)) (by decide)
  · exact Prod.ext (by decide +kernel) (get_unchanged _ _ _ _ Sample.fs_wf)

/-- C08 fails: a suffix range longer than the object denotes the whole object, but is refused. -/
theorem C08_ranged_get_fails :
    ∃ (cfg : Cfg) (ext : Ext) (fs : FS) (b k c h : Bytes) (r : ByteRange) (wants : Nat → Nat),
      WF fs ∧ stored cfg fs b k = some c ∧ RangeHeader h r ∧ r.satisfiable c.length ∧ r.select c = c ∧ c ≠ [] ∧
      (run cfg (getObjectFull cfg ext b k (some h) wants) fs).1 = .err .InvalidRange :=
  ⟨Sample.cfg, Sample.ext, Sample.fs, b!"aaa", b!"x", b!"hello", b!"bytes=-6", .lastN 6, fun _ => 1, Sample.fs_wf,
    by decide +kernel, RangeHeader.lastN 6 b!"6" (numeral_of (by decide)),
    ⟨by decide, by decide⟩, by decide, by decide, by decide +kernel⟩

/-- **C09** (partial) The announced Content-Length is the number of bytes delivered, when there is no Range
header, an open range, a suffix range, or a closed range whose last position lies inside the object.
Missing: closed ranges that end after the object, for which it is false, see
`C09_content_length_fails`. -/
theorem C09_content_length_partial (fs : FS) (b k c : Bytes) (hs : stored cfg fs b k = some c)
    (hc : c.length < 2 ^ 64) (wants : Nat → Nat) (h : Option Bytes)
    (hh : ∀ s, h = some s → ∃ r, RangeHeader s r ∧ ∀ f l, r = .fromTo f l → l < c.length)
    (o : GetOutput) (body : Option Bytes)
    (hrun : (run cfg (getObjectFull cfg ext b k h wants) fs).1 = .ok (o, body)) :
    ∃ bytes, body = some bytes ∧ o.contentLength = bytes.length := by
  obtain ⟨p, i, hp, ha, rfl⟩ := stored_some.mp hs
  have key : ∀ off len, len ≤ (fs.data i).length - off →
      ((((fs.data i).drop off).take len).length = len) := by
    intro off len h; simp only [List.length_take, List.length_drop]; omega
  have main : ∀ x off len, rangeOf h = some x → rangeSlice (fs.data i).length x = some (off, len) →
      len ≤ (fs.data i).length - off := by
    intro x off len hx hsl
    cases h with
    | none => cases hx; simp only [rangeSlice] at hsl; cases hsl; omega
    | some s =>
      obtain ⟨r, hr, hlast⟩ := hh s rfl
      obtain ⟨v, hv, rfl⟩ := rangeOf_header hr
      rw [hv] at hx; cases hx
      cases v with
      | normal f l =>
        simp only [rangeSlice] at hsl
        split at hsl
        · cases hsl
        · rename_i hf
          cases l with
          | none =>
            simp only [Option.some.injEq, Prod.mk.injEq] at hsl
            omega
          | some l =>
            have := hlast f l rfl
            simp only [Option.some.injEq, Prod.mk.injEq] at hsl
            obtain ⟨rfl, rfl⟩ := hsl
            split
            · omega
            · omega
      | suffix n =>
        simp only [rangeSlice] at hsl
        split at hsl
        · cases hsl; omega
        · cases hsl
  have hx : ∃ x, rangeOf h = some x := by
    cases h with
    | none => exact ⟨none, rfl⟩
    | some s =>
      obtain ⟨r, hr, _⟩ := hh s rfl
      obtain ⟨v, hv, _⟩ := rangeOf_header hr
      exact ⟨_, hv⟩
  obtain ⟨x, hx⟩ := hx
  rw [get_run_file hp ha hx] at hrun
  split at hrun
  · cases hrun
  · rename_i off len hsl
    split at hrun
    · cases hrun
    · split at hrun
      · cases hrun
        exact ⟨_, rfl, (key off len (main x off len hx hsl)).symm⟩
      · cases hrun

example : ∃ o body, run Sample.cfg (getObjectFull Sample.cfg Sample.ext b!"aaa" b!"x" (some b!"bytes=-2")
      (fun _ => 1)) Sample.fs = (.ok (o, body), Sample.fs) ∧ o.contentLength = 2 ∧
    RangeHeader b!"bytes=-2" (.lastN 2) := by
  have h : (run Sample.cfg (getObjectFull Sample.cfg Sample.ext b!"aaa" b!"x" (some b!"bytes=-2")
      (fun _ => 1)) Sample.fs).1 = .ok (⟨.file ⟨[b!"srv", b!"aaa", b!"x"], 0⟩, 3, 2, 2, none, b!"\"md5:5\""⟩, some b!"lo") := by
    decide +kernel
  exact ⟨_, _, Prod.ext h (get_unchanged _ _ _ _ Sample.fs_wf), rfl, RangeHeader.lastN 2 b!"2" (numeral_of (by decide))⟩

/-- C09 fails: for `bytes=0-99` of a five byte object 100 bytes are announced and 5 sent. -/
theorem C09_content_length_fails :
    ∃ (cfg : Cfg) (ext : Ext) (fs : FS) (b k h : Bytes) (wants : Nat → Nat) (o : GetOutput) (bytes : Bytes),
      WF fs ∧ RangeHeader h (.fromTo 0 99) ∧
      (run cfg (getObjectFull cfg ext b k (some h) wants) fs).1 = .ok (o, some bytes) ∧
      o.contentLength = 100 ∧ bytes.length = 5 :=
  ⟨Sample.cfg, Sample.ext, Sample.fs, b!"aaa", b!"x", b!"bytes=0-99", fun _ => 7,
    ⟨.file ⟨[b!"srv", b!"aaa", b!"x"], 0⟩, 0, 100, 100, none, b!"\"md5:5\""⟩, b!"hello", Sample.fs_wf,
    RangeHeader.closed 0 99 b!"0" b!"99" (numeral_of (by decide)) (numeral_of (by decide)) (by decide),
    by decide +kernel, rfl, rfl⟩

/-- the ranges the service refuses -/
def Spec.refused (len : Nat) : ByteRange → Prop
  | .fromTo f _ => len ≤ f
  | .from_ f => len ≤ f
  | .lastN n => len < n

/-- **C10** (partial) A range with a first position is refused with InvalidRange exactly when that position
is at or after the end of the object; a suffix range exactly when it is longer than the object. In
either case nothing changes.
Missing: suffix ranges longer than the object should be served, see `C10_unsatisfiable_ranges_fails`. -/
theorem C10_unsatisfiable_ranges_partial (fs : FS) (b k c : Bytes) (hs : stored cfg fs b k = some c)
    (hc : c.length ≤ i64Max) (wants : Nat → Nat) (h : Bytes) (r : ByteRange) (hh : RangeHeader h r) :
    (run cfg (getObjectFull cfg ext b k (some h) wants) fs).2 = fs ∧
    ((run cfg (getObjectFull cfg ext b k (some h) wants) fs).1 = .err .InvalidRange ↔
      refused c.length r) := by
  obtain ⟨p, i, hp, ha, rfl⟩ := stored_some.mp hs
  obtain ⟨v, hv, rfl⟩ := rangeOf_header hh
  rw [get_run_file hp ha hv]
  have hno : ∀ {off len}, (match metaAt ext fs (cfg.root ++ [metadataName b k]) with
        | none => ((.err .InternalError, fs) : Outcome (GetOutput × Option Bytes) × FS)
        | some md =>
          if len ≤ i64Max then
            (.ok (⟨.file i, off, len, len, md, quoted (ext.md5hex (fs.data i))⟩,
              some (((fs.data i).drop off).take len)), fs)
          else (.err .InternalError, fs)).2 = fs ∧
      (match metaAt ext fs (cfg.root ++ [metadataName b k]) with
        | none => ((.err .InternalError, fs) : Outcome (GetOutput × Option Bytes) × FS)
        | some md =>
          if len ≤ i64Max then
            (.ok (⟨.file i, off, len, len, md, quoted (ext.md5hex (fs.data i))⟩,
              some (((fs.data i).drop off).take len)), fs)
          else (.err .InternalError, fs)).1 ≠ .err .InvalidRange := by
    intro off len
    split
    · exact ⟨rfl, by simp⟩
    · split
      · exact ⟨rfl, by simp⟩
      · exact ⟨rfl, by simp⟩
  cases v with
  | normal f l =>
    have hcond : refused (fs.data i).length (Range.normal f l).denotes ↔ (fs.data i).length ≤ f := by
      cases l <;> exact Iff.rfl
    rw [hcond]
    by_cases hf : f ≥ (fs.data i).length
    · simp only [rangeSlice, if_pos hf]
      exact ⟨trivial, by simpa using hf⟩
    · simp only [rangeSlice, if_neg hf]
      exact ⟨hno.1, ⟨fun h => (hno.2 h).elim, fun h => (hf h).elim⟩⟩
  | suffix n =>
    simp only [Range.denotes, refused]
    by_cases hn : n ≤ (fs.data i).length ∧ n ≤ i64Max
    · simp only [rangeSlice, if_pos hn]
      exact ⟨hno.1, ⟨fun h => (hno.2 h).elim, fun h => by omega⟩⟩
    · simp only [rangeSlice, if_neg hn]
      exact ⟨trivial, by simp; omega⟩

example : stored Sample.cfg Sample.fs b!"aaa" b!"x" = some b!"hello" ∧
    RangeHeader b!"bytes=5-" (.from_ 5) :=
  ⟨by decide +kernel, RangeHeader.from_ 5 b!"5" (numeral_of (by decide))⟩

/-- C10 fails: a satisfiable range (the last 6 bytes of a 5 byte object) is refused. -/
theorem C10_unsatisfiable_ranges_fails :
    ∃ (cfg : Cfg) (ext : Ext) (fs : FS) (b k c h : Bytes) (r : ByteRange) (wants : Nat → Nat),
      WF fs ∧ stored cfg fs b k = some c ∧ RangeHeader h r ∧ r.satisfiable c.length ∧
      (run cfg (getObjectFull cfg ext b k (some h) wants) fs).1 = .err .InvalidRange := by
  obtain ⟨cfg, ext, fs, b, k, c, h, r, w, h1, h2, h3, h4, _, _, h5⟩ := C08_ranged_get_fails
  exact ⟨cfg, ext, fs, b, k, c, h, r, w, h1, h2, h3, h4, h5⟩

/-- **C27** (partial) Where the path of the object is not a directory, HEAD succeeds exactly when GET
succeeds, with the same length and metadata, and otherwise with the same error.
Missing: keys that name a directory, see `C27_head_get_fails`. -/
theorem C27_head_get_partial (fs : FS) (b k : Bytes)
    (hd : ∀ p, objectPath cfg b k = some p → fs.at p ≠ some .dir) (wants : Nat → Nat) :
    (run cfg (headObject cfg ext b k) fs).1 =
      match (run cfg (getObjectFull cfg ext b k none wants) fs).1 with
      | .ok (o, _) => .ok (o.contentLength, o.metadata)
      | .err e => .err e
      | .panic => .panic
      | .diverge => .diverge := by
  cases hp : objectPath cfg b k with
  | none =>
    simp only [headObject, getObjectFull, getObject, hp, bind_eq]
    rfl
  | some p =>
    rw [head_run hp]
    cases ha : fs.at p with
    | none => rw [get_run_none hp ha (x := none) rfl]
    | some n =>
      cases n with
      | dir => exact (hd p hp ha).elim
      | file i =>
        rw [get_run_file hp ha (x := none) rfl]
        simp only [rangeSlice]
        cases metaAt ext fs (cfg.root ++ [metadataName b k]) with
        | none => rfl
        | some md =>
          simp only []
          by_cases hl : (fs.data i).length ≤ i64Max
          · simp only [if_pos hl]
          · simp only [if_neg hl]

example : ∀ p, objectPath Sample.cfg b!"aaa" b!"x" = some p → Sample.fs.at p ≠ some .dir := by
  intro p hp
  have : p = ⟨[b!"srv", b!"aaa", b!"x"], false⟩ := by
    have h : objectPath Sample.cfg b!"aaa" b!"x" = some ⟨[b!"srv", b!"aaa", b!"x"], false⟩ := by decide +kernel
    rw [h] at hp; exact (Option.some.inj hp).symm
  subst this
  decide +kernel

/-- C27 fails: for a key that names a directory HEAD answers success and GET an internal error. -/
theorem C27_head_get_fails :
    ∃ (cfg : Cfg) (ext : Ext) (fs : FS) (b k : Bytes) (wants : Nat → Nat), WF fs ∧
      (run cfg (headObject cfg ext b k) fs).1 = .ok (4096, none) ∧
      (run cfg (getObjectFull cfg ext b k none wants) fs).1 = .err .InternalError :=
  ⟨Sample.cfg, Sample.ext,
    (run Sample.cfg (putObject Sample.cfg Sample.ext (samplePut b!"aaa" b!"d/x" b!"one")) Sample.fs).2,
    b!"aaa", b!"d", fun _ => 1, run_wf _ _ Sample.fs_wf, by decide +kernel, by decide +kernel⟩

end S3
