import Verif.Model.Errors
/-! C58: error codes. -/
namespace S3

/-- every code is listed in the parse table (used to lift table checks to all codes) -/
theorem errorCode_mem_arms (c : S3ErrorCode) : (c.asStr, c) ∈ S3ErrorCode.parseArms := by
  cases c <;> decide +kernel

/-- **C58** (round trip) the string of every error code parses back to the code. -/
theorem C58_code_round_trip (c : S3ErrorCode) : S3ErrorCode.parse c.asStr = some c := by
  cases c <;> decide +kernel

/-- **C58** (distinct strings) -/
theorem C58_code_strings_distinct (c d : S3ErrorCode) (h : c.asStr = d.asStr) : c = d := by
  have h1 := C58_code_round_trip c
  rw [h, C58_code_round_trip d] at h1
  exact (Option.some.inj h1).symm

/-- **C58** (no junk) a string parses to a code iff it is the string of that code. -/
theorem C58_parse_exact (s : Bytes) (c : S3ErrorCode) : S3ErrorCode.parse s = some c ↔ s = c.asStr := by
  constructor
  · intro h
    simp only [S3ErrorCode.parse, Option.map_eq_some_iff] at h
    obtain ⟨⟨t, d⟩, hf, rfl⟩ := h
    have h1 := List.find?_some hf
    have h2 := List.mem_of_find?_eq_some hf
    simp only [beq_iff_eq] at h1
    subst h1
    have key : ∀ p ∈ S3ErrorCode.parseArms, p.1 = p.2.asStr := by decide +kernel
    exact key _ h2
  · rintro rfl; exact C58_code_round_trip c

/-- **C58** is false in its last part: one error code is sent with the success status 200. -/
theorem C58_success_status_witness : S3ErrorCode.ObjectNotInActiveTierError.httpStatus = 200 := rfl

/-- **C58** (status, what holds) every other error response has a status of at least 300, and the
codes the file-system storage and the service use are 4xx or 5xx.
Missing: `ObjectNotInActiveTierError` has status 200; redirect codes have 3xx. -/
theorem C58_error_status_partial (c : S3ErrorCode) (h : c ≠ .ObjectNotInActiveTierError) :
    300 ≤ c.httpStatus ∧ c.httpStatus < 600 ∧
      (c ≠ .PermanentRedirect → c ≠ .Redirect → c ≠ .TemporaryRedirect → 400 ≤ c.httpStatus) := by
  cases c <;> simp_all [S3ErrorCode.httpStatus, S3ErrorCode.statusCode]

/-! Non-vacuity -/
example : S3ErrorCode.parse b!"NoSuchKey" = some .NoSuchKey ∧ S3ErrorCode.NoSuchKey.httpStatus = 404 := by
  decide +kernel
example : S3ErrorCode.parse b!"nosuchkey" = none := by decide +kernel

end S3
