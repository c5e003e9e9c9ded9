import Verif.Lemmas.Json
import Verif.Lemmas.Utf8
import Verif.Props.Put
/-! C85: metadata files are JSON objects, and read back the same. -/
namespace S3
open Spec

variable {cfg : Cfg} {ext : Ext} {order : Meta → Meta}

theorem jsonByte_char (b : UInt8) : JsonChar (jsonByte b) [b] := by
  simp only [jsonByte]
  split; · subst b; exact .quote
  split; · subst b; exact .backslash
  split; · subst b; exact .backspace
  split; · subst b; exact .tab
  split; · subst b; exact .lineFeed
  split; · subst b; exact .formFeed
  split; · subst b; exact .return_
  split
  · rename_i hb
    have key : ∀ b : UInt8, (!decide (b < 32) || (String.utf8EncodeChar (Char.ofNat b.toNat) == [b] &&
        hexVal (hexLower (b >>> 4)) == some (b >>> 4) && hexVal (hexLower (b &&& 15)) == some (b &&& 15) &&
        (Char.ofNat b.toNat).toNat == (b >>> 4).toNat * 16 + (b &&& 15).toNat)) = true := by
      apply forall_byte; decide +kernel
    have h := key b
    simp only [hb, decide_true, Bool.not_true, Bool.false_or, Bool.and_eq_true, beq_iff_eq] at h
    obtain ⟨⟨⟨h1, h2⟩, h3⟩, h4⟩ := h
    have h0 : JsonHexDigit 48 0 := .digit 0 (by decide)
    have := JsonChar.code (c := Char.ofNat b.toNat) (t := [48, 48, hexLower (b >>> 4), hexLower (b &&& 15)])
      (by
        rw [h4]
        have := JsonHex4.mk h0 h0 ((hexVal_iff _ _).mp h2) ((hexVal_iff _ _).mp h3)
        simpa using this)
    rw [h1] at this
    exact this
  · rename_i h34 h92 _ _ _ _ _ h32
    exact .plain (UInt8.not_lt.mp h32) h34 h92

theorem jsonString_spec {s : Bytes} (h : utf8Valid s = true) : JsonString (jsonString s) s := by
  have : JsonChars (s.flatMap jsonByte) s := by
    clear h
    induction s with
    | nil => exact .nil
    | cons a s ih => exact .cons (jsonByte_char a) ih
  exact .mk this h

theorem jsonMember_spec {p : Bytes × Bytes} (h : utf8Valid p.1 = true ∧ utf8Valid p.2 = true) : JsonMember (jsonMember p) p := by
  have e : JsonSpace [] := fun b hb => by cases hb
  have := JsonMember.mk e e e e (jsonString_spec h.1) (jsonString_spec h.2)
  simpa [jsonMember] using this

theorem jsonMembers_spec : ∀ (p : Bytes × Bytes) (l : List (Bytes × Bytes)), (∀ q ∈ p :: l, utf8Valid q.1 = true ∧ utf8Valid q.2 = true) →
    JsonMembers (jsonMember p ++ jsonMore l) (p :: l)
  | p, [], h => by
    simpa [jsonMore] using JsonMembers.one (jsonMember_spec (h p (by simp)))
  | p, q :: l, h => by
    have := JsonMembers.more (jsonMember_spec (h p (by simp))) (jsonMembers_spec q l fun x hx => h x (by simp [hx]))
    simpa [jsonMore] using this

/-- **C85** What is written for a list of entries is a JSON object with exactly these members in this order. -/
theorem C85_writer {l : List (Bytes × Bytes)} (h : ∀ p ∈ l, utf8Valid p.1 = true ∧ utf8Valid p.2 = true) : JsonObject (jsonWrite l) l := by
  have e : JsonSpace [] := fun b hb => by cases hb
  cases l with
  | nil => exact .empty e e e
  | cons p l =>
    have := JsonObject.members e e (jsonMembers_spec p l h)
    simpa [jsonWrite] using this

/-- **C85** A text is read as metadata exactly when it is a JSON object of strings; of members with the same name the last one counts. -/
theorem C85_reader {s : Bytes} {m : Meta} : jsonRead s = some m ↔ ∃ l, JsonObject s l ∧ MapOf l m := by
  rw [jsonRead_iff]
  constructor
  · rintro ⟨l, h, rfl⟩; exact ⟨l, h, insertAll_mapOf l⟩
  · rintro ⟨l, h, hm⟩; exact ⟨l, h, hm.unique (insertAll_mapOf l)⟩

/-- a map is what any list of its entries stands for -/
theorem mapOf_perm {m : Meta} (h : (m.map (·.1)).Pairwise fun a b => bytesCmp a b = .lt) {l : List (Bytes × Bytes)} (hl : l.Perm m) : MapOf l m := by
  refine ⟨h, fun n v => ?_⟩
  have hnd : (m.map (·.1)).Nodup := h.imp fun {a b} hab e => by subst e; rw [bytesCmp_refl] at hab; cases hab
  have hndl : (l.map (·.1)).Nodup := (hl.map _).nodup_iff.mpr hnd
  constructor
  · intro hm
    obtain ⟨a, b, rfl⟩ := List.append_of_mem (hl.mem_iff.mpr hm)
    refine ⟨a, b, rfl, fun p hp e => ?_⟩
    rw [List.map_append, List.nodup_append, List.map_cons, List.nodup_cons] at hndl
    exact hndl.2.1.1 (List.mem_map.mpr ⟨p, hp, e⟩)
  · rintro ⟨a, b, rfl, _⟩
    exact hl.mem_iff.mp (by simp)

/-- **C85** Metadata are read back from what is written for them, whatever order the hash map is iterated in. -/
theorem C85_round_trip {m : Meta} (h : ValidMeta m) {l : List (Bytes × Bytes)} (hl : l.Perm m) : jsonRead (jsonWrite l) = some m :=
  C85_reader.mpr ⟨l, C85_writer fun p hp => h.utf8 p (hl.mem_iff.mp hp), mapOf_perm h.ordered hl⟩

/-- the assumption on the metadata format in C12, C14, C19, C64, C75 holds of JSON -/
theorem realExt_law (ho : ∀ m, (order m).Perm m) : MetaLaw (realExt order) := fun m h => C85_round_trip h (ho m)

/-- **C85** After a successful upload with metadata, the metadata file of the object is a JSON document with exactly these entries, in
some order. -/
theorem C85_metadata_file (ho : ∀ m, (order m).Perm m) {i : PutInput} (hi : ObjectPut i) {m : Meta} (hm : i.metadata = some m)
    (hv : ValidMeta m) {fs : FS} (hw : WF fs) {a : Answer} (h : answer cfg (realExt order) (.putObject i) fs = .ok a) :
    ∃ text l, contentAt (after cfg (realExt order) (.putObject i) fs) (metaFile cfg i.bucket i.key) = some text ∧ JsonObject text l ∧ l.Perm m := by
  obtain ⟨e, _, hd⟩ := put_done hi hw h
  exact ⟨_, _, hd.md m hm, C85_writer fun p hp => hv.utf8 p ((ho m).mem_iff.mp hp), ho m⟩

/-- **C85** Whatever a metadata file holds: if it is a JSON object of strings, GET and HEAD deliver its entries; otherwise they answer an
internal error. -/
theorem C85_metadata_read {fs : FS} {b k c text : Bytes} (hs : stored cfg fs b k = some c) (hc : c.length ≤ i64Max)
    (ht : contentAt fs (metaFile cfg b k) = some text) (w : Nat → Nat) :
    (∀ l m, JsonObject text l → MapOf l m →
      answer cfg (realExt order) (.getObject b k none w) fs = .ok (.object c.length (some m) (quoted (toHex (md5 c))) (some c)) ∧
      answer cfg (realExt order) (.headObject b k) fs = .ok (.head c.length (some m))) ∧
    ((∀ l, ¬ JsonObject text l) →
      answer cfg (realExt order) (.getObject b k none w) fs = .err .InternalError ∧
      answer cfg (realExt order) (.headObject b k) fs = .err .InternalError) := by
  have hst : storedMeta cfg (realExt order) fs b k = (jsonRead text).map some := by
    simp only [contentAt] at ht
    split at ht
    · rename_i j hj
      have hj' : fs.lookup (cfg.root ++ [metadataName b k]) = some (.file j) := hj
      cases ht
      simp only [storedMeta, metaAt, hj']
      rfl
    · cases ht
  constructor
  · intro l m h1 h2
    rw [C85_reader.mpr ⟨l, h1, h2⟩] at hst
    exact get_stored hs hst hc w
  · intro h
    have hn : jsonRead text = none := by
      cases hx : jsonRead text with
      | none => rfl
      | some m => obtain ⟨l, hl, _⟩ := C85_reader.mp hx; exact absurd hl (h l)
    rw [hn] at hst
    have hm : metaAt (realExt order) fs (cfg.root ++ [metadataName b k]) = none := hst
    obtain ⟨p, i, hp, ha, rfl⟩ := stored_some.mp hs
    constructor
    · refine run_map_err.mpr ?_
      rw [get_run_file hp ha (x := none) rfl]
      simp only [rangeSlice, hm]
    · refine run_map_err.mpr ?_
      rw [head_run hp, ha]
      simp only [hm]

/-! ### examples -/

/-- metadata with a quote, a backslash, a line feed, a control character and an umlaut -/
def Sample.oddMeta : Meta := [(b!"a", b!"say \"hi\"\\\n"), (b!"b", [1, 195, 164])]
/-- an upload with them -/
def Sample.oddPut : PutInput := { Sample.put3 with metadata := some Sample.oddMeta }

/-- the hash map may be iterated backwards; the file then has the entries in that order; GET delivers them as they were sent -/
example : (∀ m : Meta, m.reverse.Perm m) ∧ ObjectPut Sample.oddPut ∧ ValidMeta Sample.oddMeta ∧
    contentAt (after Sample.cfg (realExt List.reverse) (.putObject Sample.oddPut) Sample.fs) (metaFile Sample.cfg b!"aaa" b!"d/e")
      = some (b!"{\"b\":\"\\u0001" ++ [195, 164] ++ b!"\",\"a\":\"say \\\"hi\\\"\\\\\\n\"}") ∧
    answer Sample.cfg (realExt List.reverse) (.getObject b!"aaa" b!"d/e" none fun _ => 2)
        (after Sample.cfg (realExt List.reverse) (.putObject Sample.oddPut) Sample.fs)
      = .ok (.object 7 (some Sample.oddMeta) b!"\"aae2c33a105ad3f28f39402d67a24b20\"" (some b!"one two")) :=
  ⟨fun m => m.reverse_perm, ⟨by decide +kernel, by decide +kernel⟩, ⟨by decide +kernel, by decide +kernel⟩, by decide +kernel, by decide +kernel⟩

/-- what `serde_json` reads: white space, escapes of all kinds, the last of two members of the same name -/
example : jsonRead b!" { \"x\" : \"1\" ,\n\"k\\/\":\"\\ud83d\\uDE00\", \"x\":\"2\" } " = some [(b!"k/", [240, 159, 152, 128]), (b!"x", b!"2")] ∧
    jsonRead b!"{\"x\":1}" = none ∧ jsonRead b!"{\"x\":\"\\ud83d\"}" = none ∧ jsonRead b!"{\"x\":\"1\",}" = none ∧ jsonRead b!"" = none := by
  decide +kernel

end S3
