import Verif.Lemmas.Chunked
import Verif.Lemmas.Nom
import Verif.Lemmas.Fs
import Verif.Props.Put
/-! C47, C48, C49, C50: the aws-chunked decoder. -/
namespace S3
open Spec

/-! ### C47 -/

/-- **C47** Two bodies that deliver the same bytes and break off (or not) alike are decoded alike: the same bytes are
delivered and the verdict is the same, however the bodies are fragmented. -/
theorem C47_fragmentation (sign : Bytes → Bytes → Bytes) (seed : Bytes) {b1 b2 : Body} (h : received b1 = received b2)
    (hu : unbroken b1 ↔ unbroken b2) :
    (decodeChunked sign seed b1).pieces.flatten = (decodeChunked sign seed b2).pieces.flatten ∧
    (decodeChunked sign seed b1).error = (decodeChunked sign seed b2).error := by
  have hb : broken b1 = broken b2 := by
    rw [unbroken_iff, unbroken_iff] at hu
    cases h1 : broken b1 <;> cases h2 : broken b2 <;> simp_all
  have h1 := decodeChunked_flat sign seed b1
  rw [h, hb, ← decodeChunked_flat sign seed b2] at h1
  simp only [Decoded.flat, FlatDecoded.mk.injEq] at h1
  exact h1

/-! ### header lines -/

theorem hexVal_digit {c : UInt8} {v : Nat} : HexDigit c v ↔ ∃ w, hexVal c = some w ∧ w.toNat = v := by
  have key : ∀ c : UInt8, ∀ v : Nat, v < 16 → (HexDigit c v ↔ ∃ w, hexVal c = some w ∧ w.toNat = v) := by
    have := forall_byte (P := fun c => ∀ v : Fin 16,
      decide ((48 ≤ c.toNat ∧ c.toNat ≤ 57 ∧ v.val = c.toNat - 48) ∨ (97 ≤ c.toNat ∧ c.toNat ≤ 102 ∧ v.val = c.toNat - 87) ∨
        (65 ≤ c.toNat ∧ c.toNat ≤ 70 ∧ v.val = c.toNat - 55)) = decide ((hexVal c).map UInt8.toNat = some v.val)) (by decide +kernel)
    intro c v hv
    have h := this c ⟨v, hv⟩
    rw [decide_eq_decide] at h
    unfold HexDigit
    rw [h]
    simp [Option.map_eq_some_iff]
  have small : ∀ c : UInt8, ∀ w, hexVal c = some w → w.toNat < 16 := by
    have := forall_byte (P := fun c => ((hexVal c).all fun w => decide (w.toNat < 16)) = true) (by decide +kernel)
    intro c w h
    have := this c
    simp only [h, Option.all_some, decide_eq_true_eq] at this
    exact this
  constructor
  · intro h
    refine (key c v ?_).mp h
    rcases h with h | h | h <;> omega
  · rintro ⟨w, h1, h2⟩
    exact (key c v (by rw [← h2]; exact small c w h1)).mpr ⟨w, h1, h2⟩

theorem isHexDigit_val (c : UInt8) : isHexDigit c = (hexVal c).isSome := by
  have := forall_byte (P := fun c => isHexDigit c = (hexVal c).isSome) (by decide +kernel)
  exact this c

theorem hexNat_snoc (acc : Nat) (t : Bytes) (c : UInt8) :
    hexNat acc (t ++ [c]) = (hexNat acc t).bind fun n => (hexVal c).map fun v => n * 16 + v.toNat := by
  induction t generalizing acc with
  | nil => simp only [List.nil_append, hexNat]; cases hexVal c <;> rfl
  | cons a t ih =>
    simp only [List.cons_append, hexNat]
    cases hexVal a with
    | none => rfl
    | some v => exact ih _

theorem hexNat_number {t : Bytes} {n : Nat} : hexNat 0 t = some n ↔ HexNumber t n := by
  constructor
  · intro h
    induction t using snoc_induction generalizing n with
    | h0 => cases h; exact .nil
    | h1 t c ih =>
      rw [hexNat_snoc] at h
      cases ht : hexNat 0 t with
      | none => rw [ht] at h; cases h
      | some m =>
        rw [ht] at h
        simp only [Option.bind_some, Option.map_eq_some_iff] at h
        obtain ⟨v, hv, rfl⟩ := h
        exact .snoc (ih ht) (hexVal_digit.mpr ⟨v, hv, rfl⟩)
  · intro h
    induction h with
    | nil => rfl
    | snoc _ hd ih =>
      obtain ⟨w, h1, h2⟩ := hexVal_digit.mp hd
      rw [hexNat_snoc, ih, Option.bind_some, h1, Option.map_some, h2]

theorem hexNumber_digits {t : Bytes} {n : Nat} (h : HexNumber t n) : ∀ c ∈ t, isHexDigit c = true := by
  induction h with
  | nil => intro c hc; cases hc
  | snoc _ hd ih =>
    intro c hc
    rcases List.mem_append.mp hc with hc | hc
    · exact ih c hc
    · simp only [List.mem_cons, List.not_mem_nil, or_false] at hc
      obtain ⟨w, h1, _⟩ := hexVal_digit.mp hd
      rw [hc, isHexDigit_val, h1]; rfl

theorem takeWhile_all {p : UInt8 → Bool} {t : Bytes} (h : ∀ c ∈ t, p c = true) : t.takeWhile p = t := by
  induction t with
  | nil => rfl
  | cons a t ih => simp [List.takeWhile_cons, h a (by simp), ih fun c hc => h c (by simp [hc])]

theorem hexU32_size {t : Bytes} {n : Nat} (h : SizeText t n) : hexU32 t = some n := by
  obtain ⟨h1, h2, h3⟩ := h
  unfold hexU32
  rw [takeWhile_all (hexNumber_digits h3)]
  simp only [h1, if_false]
  rw [List.take_of_length_le h2]
  exact hexNat_number.mpr h3

theorem hexU32_some {t : Bytes} {n : Nat} (h : hexU32 t = some n) : ∃ d junk, t = d ++ junk ∧ SizeText d n := by
  unfold hexU32 at h
  simp only [] at h
  split at h
  · cases h
  · rename_i hne
    refine ⟨(t.takeWhile isHexDigit).take 8, (t.takeWhile isHexDigit).drop 8 ++ t.dropWhile isHexDigit, ?_, ?_, ?_, hexNat_number.mp h⟩
    · rw [← List.append_assoc, List.take_append_drop, List.takeWhile_append_dropWhile]
    · intro e
      have := congrArg List.length e
      rw [List.length_take] at this
      have h2 := List.length_pos_iff.mpr hne
      simp only [List.length_nil] at this
      omega
    · rw [List.length_take]; omega

theorem hex_not_special {c : UInt8} (h : isHexDigit c = true) : c ≠ 59 ∧ c ≠ 10 := by
  have := forall_byte (P := fun c => isHexDigit c = true → c ≠ 59 ∧ c ≠ 10) (by decide +kernel)
  exact this c h

theorem parseChunkMeta_some {line sg : Bytes} {n : Nat} : parseChunkMeta line = some (n, sg) ↔
    ∃ t, line = chunkHeader t sg ∧ t ≠ [] ∧ (59 : UInt8) ∉ t ∧ sg.length = 64 ∧ hexU32 t = some n := by
  unfold parseChunkMeta chunkHeader
  simp only [Option.bind_eq_bind, Option.bind_eq_some_iff, Option.pure_def]
  constructor
  · rintro ⟨⟨t, s1⟩, h1, s2, h2, ⟨sg', s3⟩, h3, s4, h4, h5⟩
    split at h5
    · cases h5
    · rename_i hs4
      rw [Option.bind_eq_some_iff] at h5
      obtain ⟨size, h6, h7⟩ := h5
      cases h7
      obtain ⟨e1, hne, hno, _⟩ := takeTill1_some.mp h1
      obtain ⟨e3, hl⟩ := takeN_some.mp h3
      have e2 := tag_some.mp h2
      have e4 := tag_some.mp h4
      simp only [ne_eq, Decidable.not_not] at hs4
      simp only at e1 e2 e3 e4
      refine ⟨t, ?_, hne, fun h => ?_, hl, h6⟩
      · rw [e1, e2, e3, e4, hs4]; simp
      · have := hno _ h
        exact absurd this (by decide)
  · rintro ⟨t, rfl, hne, hno, hl, hx⟩
    refine ⟨(t, b!";chunk-signature=" ++ sg ++ b!"\r\n"), takeTill1_some.mpr ⟨by simp, hne, ?_, headIs_cons (by decide)⟩,
      sg ++ b!"\r\n", tag_some.mpr (by simp), (sg, b!"\r\n"), takeN_some.mpr ⟨rfl, hl⟩, [], tag_some.mpr (by simp), ?_⟩
    · intro c hc
      simp only [beq_eq_false_iff_ne, ne_eq]
      exact fun e => hno (e ▸ hc)
    · rw [if_neg (by simp), Option.bind_eq_some_iff]
      exact ⟨n, hx, rfl⟩

/-! ### chunks on the flat text -/

theorem header_line {t sg : Bytes} (ht : (10 : UInt8) ∉ t) (hs : (10 : UInt8) ∉ sg) (r : Bytes) :
    splitLine (chunkHeader t sg ++ r) = some (chunkHeader t sg, r) := by
  have e : chunkHeader t sg ++ r = (t ++ b!";chunk-signature=" ++ sg ++ [13]) ++ 10 :: r := by simp [chunkHeader]
  rw [e, splitLine_line]
  · simp [chunkHeader]
  · simp [ht, hs]

theorem size_clean {t : Bytes} {n : Nat} (h : SizeText t n) : t ≠ [] ∧ (59 : UInt8) ∉ t ∧ (10 : UInt8) ∉ t :=
  ⟨h.1, fun hm => (hex_not_special (hexNumber_digits h.2.2 _ hm)).1 rfl, fun hm => (hex_not_special (hexNumber_digits h.2.2 _ hm)).2 rfl⟩

/-- decoding continues behind correctly signed chunks -/
theorem flatLoop_frames {sign : Bytes → Bytes → Bytes} (hs : SignatureShape sign) (br : Bool) {cs : List (Bytes × Bytes)}
    (hc : ∀ e ∈ cs, SizeText e.1 e.2.length) (seed rest : Bytes) (fuel : Nat) (hf : (signedFrames sign seed cs ++ rest).length < fuel) :
    flatLoop sign br fuel seed (signedFrames sign seed cs ++ rest) =
      ⟨chunkData cs ++ (flatLoop sign br (rest.length + 1) (lastSignature sign seed cs) rest).bytes,
       (flatLoop sign br (rest.length + 1) (lastSignature sign seed cs) rest).error⟩ := by
  induction cs generalizing seed fuel with
  | nil =>
    simp only [signedFrames, List.nil_append, chunkData, List.flatMap_nil, lastSignature] at hf ⊢
    rw [flatLoop_fuel sign br fuel (rest.length + 1) seed rest hf (by omega)]
  | cons e cs ih =>
    obtain ⟨t, c⟩ := e
    have ht := hc (t, c) (by simp)
    obtain ⟨h1, h2, h3⟩ := size_clean ht
    obtain ⟨hl, hn⟩ := hs seed c
    cases fuel with
    | zero => omega
    | succ fuel =>
      have e : signedFrames sign seed ((t, c) :: cs) ++ rest =
          chunkHeader t (sign seed c) ++ (c ++ 13 :: 10 :: (signedFrames sign (sign seed c) cs ++ rest)) := by
        simp [signedFrames, chunkFrame]
      have hlen := congrArg List.length e
      rw [e]
      generalize hR : flatLoop sign br (rest.length + 1) (lastSignature sign seed ((t, c) :: cs)) rest = R
      simp only [flatLoop]
      rw [header_line h3 hn]
      simp only []
      rw [parseChunkMeta_some.mpr ⟨t, rfl, h1, h2, hl, hexU32_size ht⟩]
      simp only []
      rw [dataOf_some.mpr ⟨rfl, rfl⟩]
      simp only [if_pos rfl]
      rw [ih (fun e he => hc e (by simp [he])) (sign seed c) fuel (by simp at hlen hf ⊢; omega)]
      simp only [lastSignature] at hR
      rw [hR]
      simp [chunkData]

theorem decode_flat_eq {sign : Bytes → Bytes → Bytes} {seed : Bytes} {body : Body} {x : Bytes} {e : Option ChunkError}
    (h : flatLoop sign (broken body) ((received body).length + 1) seed (received body) = ⟨x, e⟩) :
    (decodeChunked sign seed body).pieces.flatten = x ∧ (decodeChunked sign seed body).error = e := by
  have := decodeChunked_flat sign seed body
  rw [h] at this
  simp only [Decoded.flat, FlatDecoded.mk.injEq] at this
  exact this

/-! ### C48 -/

/-- **C48** A body that consists of correctly signed chunks, up to and including a last chunk without data, is decoded to
the data of the chunks, without error, however it is fragmented. -/
theorem C48_round_trip {sign : Bytes → Bytes → Bytes} (hs : SignatureShape sign) (seed : Bytes) {cs : List (Bytes × Bytes)} {z : Bytes}
    (hc : ∀ e ∈ cs, SizeText e.1 e.2.length) (hz : SizeText z 0) {body : Body} (hu : unbroken body)
    (hb : received body = signedFrames sign seed (cs ++ [(z, [])])) :
    (decodeChunked sign seed body).pieces.flatten = chunkData cs ∧ (decodeChunked sign seed body).error = none := by
  apply decode_flat_eq
  rw [hb]
  have := flatLoop_frames hs (broken body) (cs := cs ++ [(z, [])]) (rest := []) (seed := seed)
    (fuel := (signedFrames sign seed (cs ++ [(z, [])])).length + 1) (by
      intro e he
      rcases List.mem_append.mp he with he | he
      · exact hc e he
      · simp only [List.mem_cons, List.not_mem_nil, or_false] at he; rw [he]; exact hz) (by simp)
  rw [List.append_nil] at this
  rw [this]
  simp [flatLoop, splitLine, unbroken_iff.mp hu, endError, chunkData]

theorem received_toBody (d : Decoded) : received d.toBody = d.pieces.flatten := by
  obtain ⟨ps, e⟩ := d
  simp only [Decoded.toBody]
  induction ps with
  | nil => cases e <;> rfl
  | cons p ps ih =>
    simp only [List.map_cons, List.cons_append, received, List.flatten_cons]
    rw [ih]

theorem unbroken_toBody (d : Decoded) : unbroken d.toBody ↔ d.error = none := by
  obtain ⟨ps, e⟩ := d
  simp only [Decoded.toBody, unbroken]
  cases e <;> simp

/-- the chunked upload of an object: when PutObject succeeds with the decoded body, the object is the data of the chunks -/
theorem C48_chunked_put {cfg : Cfg} {ext : Ext} {sign : Bytes → Bytes → Bytes} (hs : SignatureShape sign) (seed : Bytes)
    {cs : List (Bytes × Bytes)} {z : Bytes} (hc : ∀ e ∈ cs, SizeText e.1 e.2.length) (hz : SizeText z 0) {body : Body} (hu : unbroken body)
    (hb : received body = signedFrames sign seed (cs ++ [(z, [])])) {i : PutInput} (hi : ObjectPut i)
    (hi' : i.body = some (decodeChunked sign seed body).toBody) {fs : FS} (hw : WF fs) {a : Answer}
    (h : answer cfg ext (.putObject i) fs = .ok a) :
    stored cfg (after cfg ext (.putObject i) fs) i.bucket i.key = some (chunkData cs) ∧
    a = .etag (some (quoted (ext.md5hex (chunkData cs)))) := by
  obtain ⟨e, rfl, hd⟩ := put_done hi hw h
  obtain ⟨b, h1, _, h2, h3⟩ := hd.body
  rw [hi'] at h1
  cases h1
  rw [received_toBody, (C48_round_trip hs seed hc hz hu hb).1] at h2 h3
  exact ⟨h2, by rw [h3]⟩

/-! #### a sample -/

/-- a signature function with the shape of the real one -/
def Sample.sign (p c : Bytes) : Bytes :=
  List.replicate 62 48 ++ [97 + UInt8.ofNat (p.length % 3), 97 + UInt8.ofNat (c.length % 26)]

theorem Sample.sign_shape : SignatureShape Sample.sign := by
  intro p c
  refine ⟨by simp [Sample.sign], ?_⟩
  have h1 : ∀ n, n < 26 → (97 : UInt8) + UInt8.ofNat n ≠ 10 := by decide +kernel
  simp only [Sample.sign, List.mem_append, List.mem_replicate, List.mem_cons, List.not_mem_nil, or_false, not_or]
  exact ⟨fun e => absurd e.2 (by decide), fun e => h1 _ (Nat.lt_of_lt_of_le (Nat.mod_lt _ (by decide)) (by decide)) e.symm,
    fun e => h1 _ (Nat.mod_lt _ (by decide)) e.symm⟩

theorem Sample.size_text {t : Bytes} {n : Nat} (h : t ≠ [] ∧ t.length ≤ 8 ∧ hexNat 0 t = some n) : SizeText t n :=
  ⟨h.1, h.2.1, hexNat_number.mp h.2.2⟩

/-- two chunks, one with a size in capital letters and a leading zero -/
def Sample.chunks : List (Bytes × Bytes) := [(b!"5", b!"hello"), (b!"0B", b!" wide world")]

/-- the bytes of an upload of `Sample.chunks`, in fragments of one byte -/
def Sample.chunkedBody : Body := (signedFrames Sample.sign b!"seed" (Sample.chunks ++ [(b!"0", [])])).map fun c => some [c]

example : unbroken Sample.chunkedBody ∧
    received Sample.chunkedBody = signedFrames Sample.sign b!"seed" (Sample.chunks ++ [(b!"0", [])]) ∧
    (∀ e ∈ Sample.chunks, SizeText e.1 e.2.length) ∧ SizeText b!"0" 0 ∧
    (decodeChunked Sample.sign b!"seed" Sample.chunkedBody).pieces.flatten = b!"hello wide world" ∧
    (decodeChunked Sample.sign b!"seed" Sample.chunkedBody).error = none := by
  refine ⟨by simp [unbroken, Sample.chunkedBody], by decide +kernel, ?_, Sample.size_text (by decide +kernel), by decide +kernel, by decide +kernel⟩
  intro e he
  simp only [Sample.chunks, List.mem_cons, List.not_mem_nil, or_false] at he
  rcases he with rfl | rfl <;> exact Sample.size_text (by decide +kernel)

/-! ### C49 -/

theorem flatLoop_authentic {sign : Bytes → Bytes → Bytes} {br : Bool} {fuel : Nat} {seed s : Bytes} :
    ∃ cs rest, s = signedFrames sign seed cs ++ rest ∧ (flatLoop sign br fuel seed s).bytes = chunkData cs ∧
      (∀ e ∈ cs, ∃ d junk, e.1 = d ++ junk ∧ SizeText d e.2.length) ∧
      ((flatLoop sign br fuel seed s).error = some .signatureMismatch →
        ∃ t sg c rest', rest = chunkFrame t sg c ++ rest' ∧ sg ≠ sign (lastSignature sign seed cs) c) := by
  induction fuel generalizing seed s with
  | zero => exact ⟨[], s, rfl, rfl, (by intro e he; cases he), (by intro h; cases h)⟩
  | succ fuel ih =>
    have stop : ∀ e : Option ChunkError, e ≠ some .signatureMismatch → ∃ cs rest, s = signedFrames sign seed cs ++ rest ∧
        (FlatDecoded.mk [] e).bytes = chunkData cs ∧ (∀ e ∈ cs, ∃ d junk, e.1 = d ++ junk ∧ SizeText d e.2.length) ∧
        ((FlatDecoded.mk [] e).error = some .signatureMismatch →
          ∃ t sg c rest', rest = chunkFrame t sg c ++ rest' ∧ sg ≠ sign (lastSignature sign seed cs) c) :=
      fun e he => ⟨[], s, rfl, rfl, (by intro e he; cases he), (fun h => absurd h he)⟩
    have noend : ∀ b i, endError b i ≠ some .signatureMismatch := by decide
    simp only [flatLoop]
    cases hl : splitLine s with
    | none => exact stop _ (noend _ _)
    | some p =>
      obtain ⟨l, r⟩ := p
      simp only []
      cases hp : parseChunkMeta l with
      | none => exact stop _ (by decide)
      | some q =>
        obtain ⟨n, sg⟩ := q
        simp only []
        cases hd : dataOf n r with
        | none => exact stop _ (noend _ _)
        | some o =>
          cases o with
          | none => exact stop _ (by decide)
          | some q =>
            obtain ⟨c, r2⟩ := q
            obtain ⟨t, hline, _, _, _, hx⟩ := parseChunkMeta_some.mp hp
            obtain ⟨hlen, hr⟩ := dataOf_some.mp hd
            have hs : s = chunkFrame t sg c ++ r2 := by
              rw [(splitLine_some hl).1, hline, hr]; simp [chunkFrame]
            simp only []
            split
            · rename_i hsg
              obtain ⟨cs, rest, e1, e2, e3, e4⟩ := ih (seed := sign seed c) (s := r2)
              refine ⟨(t, c) :: cs, rest, ?_, ?_, ?_, e4⟩
              · rw [hs, e1, ← hsg]; simp [signedFrames]
              · simp only [e2, chunkData, List.flatMap_cons]
              · intro e he
                rcases List.mem_cons.mp he with rfl | he
                · obtain ⟨d, junk, g1, g2⟩ := hexU32_some hx
                  exact ⟨d, junk, g1, by rw [hlen]; exact g2⟩
                · exact e3 e he
            · rename_i hsg
              exact ⟨[], s, rfl, rfl, (by intro e he; cases he), fun _ => ⟨t, sg, c, r2, hs, fun e => hsg e.symm⟩⟩

/-- **C49** Whatever the body, the delivered bytes are the data of chunks at the start of the body, each of which carries
the signature computed from the signature before it (the first from `seed`) and its data, and announces its length; and
when the verdict is a signature mismatch, then the chunk that follows them in the body carries a wrong signature (and
nothing of it has been delivered). -/
theorem C49_authentic (sign : Bytes → Bytes → Bytes) (seed : Bytes) (body : Body) :
    ∃ cs rest, received body = signedFrames sign seed cs ++ rest ∧
      (decodeChunked sign seed body).pieces.flatten = chunkData cs ∧
      (∀ e ∈ cs, ∃ d junk, e.1 = d ++ junk ∧ SizeText d e.2.length) ∧
      ((decodeChunked sign seed body).error = some .signatureMismatch →
        ∃ t sg c rest', rest = chunkFrame t sg c ++ rest' ∧ sg ≠ sign (lastSignature sign seed cs) c) := by
  generalize hf : flatLoop sign (broken body) ((received body).length + 1) seed (received body) = f
  obtain ⟨e1, e2⟩ := decode_flat_eq (x := f.bytes) (e := f.error) hf
  rw [e1, e2, ← hf]
  exact flatLoop_authentic

/-- the second chunk of the sample tampered with: one byte changed -/
def Sample.tampered : Body :=
  [some (signedFrames Sample.sign b!"seed" [(b!"5", b!"hello")] ++ chunkFrame b!"1" (Sample.sign (Sample.sign b!"seed" b!"hello") b!"!!") b!"?")]

example : decodeChunked Sample.sign b!"seed" Sample.tampered = ⟨[b!"hello"], some .signatureMismatch⟩ := by decide +kernel

/-! ### C50 -/

theorem flatLoop_cut {sign : Bytes → Bytes → Bytes} {seed t sg c tail : Bytes} (ht : SizeText t c.length) (hsg : sg.length = 64)
    (hno : (10 : UInt8) ∉ sg) (h1 : tail <+: c ++ b!"\r\n") (h2 : tail ≠ c ++ b!"\r\n") (fuel : Nat) :
    flatLoop sign false (fuel + 1) seed (chunkHeader t sg ++ tail) = ⟨[], some .incomplete⟩ := by
  obtain ⟨g1, g2, g3⟩ := size_clean ht
  simp only [flatLoop]
  rw [header_line g3 hno]
  simp only []
  rw [parseChunkMeta_some.mpr ⟨t, rfl, g1, g2, hsg, hexU32_size ht⟩]
  simp only []
  have : dataOf c.length tail = none := by
    unfold dataOf
    split
    · rename_i hl
      obtain ⟨x, hx⟩ := h1
      have h3 : tail.take c.length = c := by
        have := congrArg (List.take c.length) hx
        rw [List.take_append_of_le_length hl, List.take_left] at this
        exact this
      have h4 : tail.drop c.length ++ x = b!"\r\n" := by
        have := congrArg (List.drop c.length) hx
        rw [List.drop_append_of_le_length hl, List.drop_left] at this
        exact this
      have h5 : tail = c ++ tail.drop c.length := by
        conv => lhs; rw [← List.take_append_drop c.length tail, h3]
      cases hd : tail.drop c.length with
      | nil => rfl
      | cons a r =>
        rw [hd] at h4 h5
        cases h4' : r with
        | nil => subst h4'; simp only [List.cons_append, List.cons.injEq] at h4; simp [crlfOf, h4.1]
        | cons b r' =>
          subst h4'
          simp only [List.cons_append, List.cons.injEq] at h4
          have : r' = [] := by
            exact (List.append_eq_nil_iff.mp h4.2.2).1
          subst this
          exact absurd (by rw [h5, h4.1, h4.2.1]) h2
    · rfl
  rw [this]
  rfl

/-- **C50** (partial) A body that ends inside the data of a chunk, or inside the line end behind it, is reported as
incomplete; only the data of the complete chunks is delivered.
Missing from the full property: a body that ends between two chunks or inside a header line, for which it is false
(`C50_truncation_fails`). -/
theorem C50_truncation_partial {sign : Bytes → Bytes → Bytes} (hs : SignatureShape sign) (seed : Bytes) {cs : List (Bytes × Bytes)}
    (hc : ∀ e ∈ cs, SizeText e.1 e.2.length) {t sg c tail : Bytes} (ht : SizeText t c.length) (hsg : sg.length = 64)
    (hno : (10 : UInt8) ∉ sg) (h1 : tail <+: c ++ b!"\r\n") (h2 : tail ≠ c ++ b!"\r\n") {body : Body} (hu : unbroken body)
    (hb : received body = signedFrames sign seed cs ++ (chunkHeader t sg ++ tail)) :
    (decodeChunked sign seed body).pieces.flatten = chunkData cs ∧ (decodeChunked sign seed body).error = some .incomplete := by
  apply decode_flat_eq
  rw [hb, flatLoop_frames hs _ hc _ _ _ (Nat.lt_succ_self _), unbroken_iff.mp hu, flatLoop_cut ht hsg hno h1 h2]
  simp

/-- **C50** (partial, at the storage) PutObject is never answered with success when the decoder reports an error. -/
theorem C50_put_refused_partial {cfg : Cfg} {ext : Ext} {sign : Bytes → Bytes → Bytes} {seed : Bytes} {body : Body} {i : PutInput}
    (hi : ObjectPut i) (hi' : i.body = some (decodeChunked sign seed body).toBody) (he : (decodeChunked sign seed body).error ≠ none)
    {fs : FS} (hw : WF fs) (a : Answer) : answer cfg ext (.putObject i) fs ≠ .ok a := by
  intro h
  obtain ⟨e, rfl, hd⟩ := put_done hi hw h
  obtain ⟨b, h1, h2, _, _⟩ := hd.body
  rw [hi'] at h1
  cases h1
  exact he ((unbroken_toBody _).mp h2)

example : (∀ e ∈ Sample.chunks, SizeText e.1 e.2.length) ∧ SizeText b!"3" b!"abc".length ∧ b!"ab" <+: b!"abc" ++ b!"\r\n" ∧
    decodeChunked Sample.sign b!"seed" [some (signedFrames Sample.sign b!"seed" Sample.chunks ++ (chunkHeader b!"3" (Sample.sign [] []) ++ b!"ab"))]
      = ⟨[b!"hello", b!" wide world"], some .incomplete⟩ := by
  refine ⟨?_, Sample.size_text (by decide +kernel), by decide, by decide +kernel⟩
  intro e he
  simp only [Sample.chunks, List.mem_cons, List.not_mem_nil, or_false] at he
  rcases he with rfl | rfl <;> exact Sample.size_text (by decide +kernel)

/-- C50 fails: an upload cut off after the first of two chunks is decoded without error, and so is one that ends inside
the header line of the second chunk. -/
theorem C50_truncation_fails :
    ∃ (sign : Bytes → Bytes → Bytes) (seed : Bytes) (cs : List (Bytes × Bytes)) (z : Bytes) (b1 b2 : Body), SignatureShape sign ∧
      (∀ e ∈ cs, SizeText e.1 e.2.length) ∧ SizeText z 0 ∧ unbroken b1 ∧ unbroken b2 ∧
      (∃ t, t ≠ [] ∧ received b1 ++ t = signedFrames sign seed (cs ++ [(z, [])])) ∧
      (∃ t, t ≠ [] ∧ received b2 ++ t = signedFrames sign seed (cs ++ [(z, [])])) ∧ received b1 ≠ received b2 ∧
      (decodeChunked sign seed b1).error = none ∧ (decodeChunked sign seed b2).error = none ∧
      (decodeChunked sign seed b1).pieces.flatten ≠ chunkData cs ∧ (decodeChunked sign seed b2).pieces.flatten ≠ chunkData cs := by
  refine ⟨Sample.sign, b!"seed", Sample.chunks, b!"0", [some ((received Sample.chunkedBody).take 91)],
    [some ((received Sample.chunkedBody).take 100)], Sample.sign_shape, ?_, Sample.size_text (by decide +kernel), by simp [unbroken],
    by simp [unbroken], ⟨(received Sample.chunkedBody).drop 91, by decide +kernel, by decide +kernel⟩,
    ⟨(received Sample.chunkedBody).drop 100, by decide +kernel, by decide +kernel⟩,
    by decide +kernel, by decide +kernel, by decide +kernel, by decide +kernel, by decide +kernel⟩
  intro e he
  simp only [Sample.chunks, List.mem_cons, List.not_mem_nil, or_false] at he
  rcases he with rfl | rfl <;> exact Sample.size_text (by decide +kernel)

end S3
