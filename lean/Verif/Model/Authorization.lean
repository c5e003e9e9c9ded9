import Verif.Model.Nom
/-! Model of `/repo/src/headers/authorization_v4.rs`. -/
namespace S3

/-- `/repo/src/headers/authorization_v4.rs:36-45` `CredentialV4` -/
structure Credential where
  accessKeyId : Bytes
  date : Bytes
  region : Bytes
  service : Bytes
  deriving DecidableEq, Repr

/-- `/repo/src/headers/authorization_v4.rs:13-26` `AuthorizationV4` -/
structure Authorization where
  algorithm : Bytes
  credential : Credential
  signedHeaders : List Bytes
  signature : Bytes
  deriving DecidableEq, Repr

/-- days in a month of the proleptic Gregorian calendar, 0 for an invalid month; the check
`chrono::Utc.with_ymd_and_hms(y, m, d, 0, 0, 0)` makes (`/repo/src/headers/authorization_v4.rs:107`).
Four-character years are inside chrono's range. -/
def daysInMonth (y : Int) (m : Nat) : Nat :=
  if m = 2 then (if y % 4 = 0 ∧ (y % 100 ≠ 0 ∨ y % 400 = 0) then 29 else 28)
  else if m = 4 ∨ m = 6 ∨ m = 9 ∨ m = 11 then 30
  else if 1 ≤ m ∧ m ≤ 12 then 31
  else 0

/-- `/repo/src/headers/authorization_v4.rs:88-114` `verify_date`. The three parts are parsed as
`i32`, `u32`, `u32`, so a leading sign is accepted. -/
def verifyDate (s : Bytes) : Bool :=
  match takeN 4 s with
  | none => false
  | some (y, s) =>
    match takeN 2 s with
    | none => false
    | some (m, s) =>
      match takeN 2 s with
      | some (d, []) =>
        match parseSigned (2 ^ 31) y, parseUnsigned u32Max m, parseUnsigned u32Max d with
        | some y, some m, some d => 1 ≤ d && d ≤ daysInMonth y m
        | _, _, _ => false
      | _ => false

/-- `/repo/src/headers/authorization_v4.rs:68` `slash_tail1` -/
def slashTail1 (s : Bytes) : Option (Bytes × Bytes) := do
  let (a, s) ← takeTill1 (· == 47) s
  let (_, s) ← takeN 1 s
  pure (a, s)

/-- `/repo/src/headers/authorization_v4.rs:69` `slash_tail0` -/
def slashTail0 (s : Bytes) : Option (Bytes × Bytes) := do
  let (a, s) := takeTill (· == 47) s
  let (_, s) ← takeN 1 s
  pure (a, s)

/-- `/repo/src/headers/authorization_v4.rs:62-85` `CredentialV4::parse_by_nom` -/
def Credential.parse (s : Bytes) : Option (Credential × Bytes) := do
  let (accessKeyId, s) ← slashTail1 s
  let (date, s) ← slashTail1 s
  if verifyDate date then
    let (region, s) ← slashTail0 s
    let (service, s) ← slashTail1 s
    let s ← tag b!"aws4_request" s
    pure ({ accessKeyId, date, region, service }, s)
  else none

/-- `/repo/src/headers/authorization_v4.rs:151-161` the loop collecting the signed header names.
Each round consumes at least two characters; `fuel` is the input length. -/
def signedHeadersLoop : Nat → Bytes → Option (List Bytes × Bytes)
  | 0, _ => none
  | fuel + 1, s => do
    let (h, s) ← takeTill1 (fun c => c == 59 || c == 44) s
    let (sep, s) ← takeN 1 s
    if sep = b!"," then pure ([h], s)
    else
      let (hs, s) ← signedHeadersLoop fuel s
      pure (h :: hs, s)

/-- `/repo/src/headers/authorization_v4.rs:130-181` `AuthorizationV4::from_header_str` -/
def Authorization.fromHeaderStr (s : Bytes) : Option Authorization := do
  let (algorithm, s) ← takeTill1 isAsciiWs s
  let s ← multispace1 s
  let s ← tag b!"Credential=" s
  let (credential, s) ← Credential.parse s
  let s ← tag b!"," s
  let s := multispace0 s
  let s ← tag b!"SignedHeaders=" s
  let (signedHeaders, s) ← signedHeadersLoop s.length s
  let s := multispace0 s
  let s ← tag b!"Signature=" s
  let (signature, s) := takeTill isAsciiWs s
  if multispace0 s ≠ [] then none
  else pure { algorithm, credential, signedHeaders, signature }

end S3
