import Verif.Base.Bytes
/-! Base64 with padding, after RFC 4648 (from memory). -/
namespace S3.Spec
open S3

/-- the digits -/
def base64Digits : Bytes := b!"ABCDEFGHIJKLMNOPQRSTUVWXYZabcdefghijklmnopqrstuvwxyz0123456789+/"

/-- the digit for a number below 64 -/
def base64Digit (n : Nat) : Bytes := (base64Digits.drop n).take 1

/-- Three bytes are a number of 24 bits and written as four digits; of an incomplete group at the end only the digits that
carry bits are written, the others are `=`. -/
def base64Text : Bytes → Bytes
  | [] => []
  | [a] =>
    let n := a.toNat * 65536
    base64Digit (n / 262144) ++ base64Digit (n / 4096 % 64) ++ b!"=="
  | [a, b] =>
    let n := a.toNat * 65536 + b.toNat * 256
    base64Digit (n / 262144) ++ base64Digit (n / 4096 % 64) ++ base64Digit (n / 64 % 64) ++ b!"="
  | a :: b :: c :: r =>
    let n := a.toNat * 65536 + b.toNat * 256 + c.toNat
    base64Digit (n / 262144) ++ base64Digit (n / 4096 % 64) ++ base64Digit (n / 64 % 64) ++ base64Digit (n % 64) ++ base64Text r

end S3.Spec
