import Verif.Model.Nom
/-! Model of `/repo/src/headers/range.rs`. nom parsers are functions from the input to the parsed
value and the remaining input. -/
namespace S3

/-- `/repo/src/headers/range.rs:5-19` `enum Range` (`u64` values as `Nat`) -/
inductive Range where
  | normal (first : Nat) (last : Option Nat)
  | suffix (last : Nat)
  deriving DecidableEq, Repr

/-- `map_res(digit1, str::parse::<u64>)`, `/repo/src/headers/range.rs:50` -/
def digitsU64 (s : Bytes) : Option (Nat × Bytes) :=
  match digit1 s with
  | none => none
  | some (d, rest) =>
    match parseUnsigned u64Max d with
    | none => none
    | some n => some (n, rest)

/-- `normal_parser`, `/repo/src/headers/range.rs:48-66` -/
def normalRange (s : Bytes) : Option (Range × Bytes) :=
  match digitsU64 s with
  | none => none
  | some (first, s) =>
    match tag b!"-" s with
    | none => none
    | some s =>
      -- `opt(..)`: failure of the inner parser gives `None` and consumes nothing
      let (last, rest) : Option Nat × Bytes :=
        match digitsU64 s with
        | none => (none, s)
        | some (l, rest) => (some l, rest)
      match last with
      | some l => if first > l then none else some (.normal first (some l), rest)
      | none => some (.normal first none, rest)

/-- `suffix_parser`, `/repo/src/headers/range.rs:68-71` -/
def suffixRange (s : Bytes) : Option (Range × Bytes) :=
  match tag b!"-" s with
  | none => none
  | some s =>
    match digitsU64 s with
    | none => none
    | some (n, rest) => some (.suffix n, rest)

/-- `/repo/src/headers/range.rs:36-83` `Range::from_header_str`:
`all_consuming(tuple((tag("bytes="), alt((normal, suffix)))))` -/
def Range.fromHeaderStr (s : Bytes) : Option Range :=
  match tag b!"bytes=" s with
  | none => none
  | some s =>
    match (match normalRange s with
           | some r => some r
           | none => suffixRange s) with
    | some (r, []) => some r
    | _ => none

end S3
